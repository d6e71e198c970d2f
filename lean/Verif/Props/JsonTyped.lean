import Verif.Lemmas.JsonTyped
import Verif.Props.JsonAccept
import Verif.Props.JsonValue
import Verif.Props.JsonReader
/-
C57: whatever JSON text is read, the result is an object of the type which was asked for, in all its parts.
-/
set_option linter.unusedSimpArgs false
namespace Zserio
open Json

/-- the values in the text of a document are neither arrays nor objects -/
theorem Json.plain_values {t : PyText} (ht : t.Lawful) {p : Part} {s : PyStr} (h : JsonText t p s) :
    match p with
    | .element d => ∀ v, JsonEvent.value v ∈ d.events → PlainVal v
    | .elements ds => ∀ v, JsonEvent.value v ∈ Doc.elementEvents ds → PlainVal v
    | .members ms => ∀ v, JsonEvent.value v ∈ Doc.memberEvents ms → PlainVal v := by
  induction h with
  | @value v s h =>
    intro w hw
    simp only [Doc.events, List.mem_singleton, JsonEvent.value.injEq] at hw
    subst hw
    rcases (C56_literal ht s).2.2.2 w h with h | h | h | h | h
    · exact .inl h
    · exact .inr (.inl h)
    · exact .inr (.inr (.inl h))
    · exact .inr (.inr (.inr (.inl h)))
    · exact .inr (.inr (.inr (.inr (.inl h))))
  | emptyArray _ => simp [Doc.events, Doc.elementEvents]
  | array _ _ _ ih => intro v hv; simp [Doc.events] at hv; exact ih v hv
  | emptyObject _ => simp [Doc.events, Doc.memberEvents]
  | object _ _ _ ih => intro v hv; simp [Doc.events] at hv; exact ih v hv
  | lastElement _ ih => intro v hv; simp [Doc.elementEvents] at hv; exact ih v hv
  | moreElements _ _ _ _ ih₁ ih₂ => intro v hv; simp [Doc.elementEvents] at hv; exact hv.elim (ih₁ v) (ih₂ v)
  | lastMember _ _ _ _ ih => intro v hv; simp [Doc.memberEvents] at hv; exact ih v hv
  | moreMembers _ _ _ _ _ _ _ ih₁ ih₂ => intro v hv; simp [Doc.memberEvents] at hv; exact hv.elim (ih₁ v) (ih₂ v)

/-- what has been read when `from_json` returns an object -/
theorem Json.fromJson_inv {t : PyText} (ht : t.Lawful) {I : TypeInfos} {id : Nat} {args : List Int} {text : PyStr} {chunks : List PyStr}
    (hc : Chunks text chunks) {o : Val} (h : fromJsonStream t I id args chunks = .ok o) :
    ∃ before ms s after s', text = before ++ s ++ after ∧ Blank before ∧ JsonText t (.element (.object ms)) s ∧
      (CreatorAdapter.observer I).tellAll (Doc.object ms).events ⟨some (Creator.new id args), [], none, none⟩ = (.ok (), s') ∧
      s'.object = some o := by
  unfold fromJsonStream at h
  generalize hr : Json.Reader.read t I id args (Json.Reader.new chunks) = r at h
  obtain ⟨r, tk, s'⟩ := r
  simp only at h
  subst h
  unfold Json.Reader.read at hr
  have hset : Parser.observe (CreatorAdapter.setType id args) (Json.Reader.new chunks) =
      (.ok (), (Tokenizer.new chunks, ⟨some (Creator.new id args), [], none, none⟩)) := rfl
  rw [M.bind_ok hset] at hr
  obtain ⟨b, ⟨tk₁, s₁⟩, h1, h2⟩ := M.bind_inv hr
  have hob : s₁.object = some o := by
    unfold Json.Reader.result CreatorAdapter.get at h2
    simp only at h2
    cases hs : s₁.object with
    | none => rw [hs] at h2; simp at h2
    | some o' =>
      rw [hs] at h2
      simp only [Prod.mk.injEq, Except.ok.injEq] at h2
      rw [h2.1]
  rcases C55_accepted t ht _ text chunks hc _ _ _ _ h1 with ⟨rfl, _⟩ | ⟨before, d, s, after, e1, e2, e3, e4, _⟩
  · cases hob
  · cases d with
    | value v => simp [Doc.events, Observer.tellAll_one, Observer.tell, CreatorAdapter.observer, CreatorAdapter.visitValue, CreatorAdapter.delegate] at e4
    | array items =>
      rw [Doc.events, Observer.tellAll] at e4
      obtain ⟨u, s₂, g1, _⟩ := M.bind_inv e4
      simp [Observer.tell, CreatorAdapter.observer, CreatorAdapter.beginArray, CreatorAdapter.delegate] at g1
    | object ms => exact ⟨before, ms, s, after, s₁, e1, e2, e3, e4, hob⟩

/-- **C57**: if `from_json_string(type, text, *arguments)` returns an object, whatever the text and however it is read, then the text begins
with a JSON object, and the returned object has the arguments as its parameters and values of the types of the schema everywhere. -/
theorem C57_typed (t : PyText) (ht : t.Lawful) {I : TypeInfos} (hI : I.Regular) (hd : Creator.TypedDefaults I) (id : Nat) (args : List Int)
    (text : PyStr) (chunks : List PyStr) (hc : Chunks text chunks) (o : Val) (h : fromJsonStream t I id args chunks = .ok o) :
    (∃ before ms s after, text = before ++ s ++ after ∧ Blank before ∧ JsonText t (.element (.object ms)) s) ∧
      Typed I (.object id) o ∧ ∃ k tag fs, o = .obj args k tag fs := by
  obtain ⟨before, ms, s, after, s', h1, h2, h3, h4, h5⟩ := fromJson_inv ht hc h
  refine ⟨⟨before, ms, s, after, h1, h2, h3⟩, ?_⟩
  have hs : Sane I id args ⟨some (Creator.new id args), [], none, none⟩ :=
    ⟨fun c hc => by cases hc; exact Creator.Ok.new, by simp⟩
  exact (CreatorAdapter.sane_tellAll hI hd hs (plain_values ht h3) h4).object o h5

namespace JsonDemo

theorem shape_defaults : Creator.TypedDefaults shapeInfos := by
  intro id i m v _ hm hv
  match i with
  | 0 | 1 | 3 | 4 | 5 =>
    simp [shapeInfos, shapeFields] at hm hv
    subst hm hv
    exact .single rfl .none
  | 2 =>
    simp [shapeInfos, shapeFields] at hm hv
    subst hm hv
    exact .single rfl (.simple (.float _))
  | 6 =>
    simp [shapeInfos, shapeFields] at hm hv
    subst hm hv
    exact .array rfl (by simp)
  | _ + 7 => simp [shapeInfos, shapeFields] at hm

theorem root_defaults : Creator.TypedDefaults CreatorDemo.infos := by
  intro id i m v hk hm hv
  match id with
  | 0 =>
    match i with
    | 0 =>
      simp [CreatorDemo.infos, CreatorDemo.rootFields] at hm hv
      subst hm hv
      exact .single rfl (.simple (.int _))
    | 1 | 3 =>
      simp [CreatorDemo.infos, CreatorDemo.rootFields] at hm hv
      subst hm hv
      exact .single rfl .none
    | 2 =>
      simp [CreatorDemo.infos, CreatorDemo.rootFields] at hm hv
      subst hm hv
      exact .array rfl (by simp)
    | _ + 4 => simp [CreatorDemo.infos, CreatorDemo.rootFields] at hm
  | 1 => simp [CreatorDemo.infos] at hk
  | _ + 2 => simp [CreatorDemo.infos] at hk

/-- a text in which the members are in another order than the fields, values are given in different ways, and which is followed by
something else -/
def oddText : PyStr := py! "{\"colors\": [\"RED\", 3, null], \"rights\": \"READ|ALL\", \"raw\": {\"buffer\": [1, 2]}, \"color\": 2} 1"

/-- the object which is read -/
def oddShape : Val := .obj [] 0 0 [.int 2, .int 7, .float 0, .none, .bytes [1, 2], .none, .arr [.int 2, .int 3, .none]]

end JsonDemo

/-- the hypothesis is met, although the text goes on -/
example : fromJsonStream PyText.simple JsonDemo.shapeInfos 0 [] [JsonDemo.oddText] = .ok JsonDemo.oddShape := by decide +kernel

example : Typed JsonDemo.shapeInfos (.object 0) JsonDemo.oddShape :=
  (C57_typed PyText.simple simple_lawful JsonDemo.shape_regular JsonDemo.shape_defaults 0 [] JsonDemo.oddText [JsonDemo.oddText]
    ⟨by simp, by decide⟩ _ (by decide +kernel)).2.1

/-- The order of the members matters if types have arguments: the same members in another order are another object - here the parameter
of the field `part` is the value of the field `n`, which was not known yet. -/
theorem C57_order :
    fromJsonStream PyText.simple CreatorDemo.infos 0 [] [py! "{\"n\": 5, \"part\": {\"five\": 9}}"] =
        .ok (.obj [] 4 0 [.int 5, .obj [5] 0 0 [.int 9], .arr [], .none]) ∧
      fromJsonStream PyText.simple CreatorDemo.infos 0 [] [py! "{\"part\": {\"five\": 9}, \"n\": 5}"] =
        .ok (.obj [] 4 0 [.int 5, .obj [0] 0 0 [.int 9], .arr [], .none]) := by
  constructor <;> decide +kernel

end Zserio
