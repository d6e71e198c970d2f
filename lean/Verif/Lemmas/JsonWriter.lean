import Verif.Spec.JsonImage
import Verif.Spec.Walker
import Verif.Props.JsonText
/-
Lemmas for C46: the text which the writer produces.
-/
set_option linter.unusedSimpArgs false
namespace Zserio.Json
variable {t : PyText} {cfg : WriterConfig}

/-- The method succeeds from any text with the given flag and level, appends the text and leaves the flag and the level. -/
def Puts (x : M JsonWriter Unit) (f : Bool) (l : Int) (text : PyStr) (f' : Bool) (l' : Int) : Prop :=
  ∀ o, x ⟨f, l, o⟩ = (.ok (), ⟨f', l', o ++ text⟩)

theorem Puts.bind {x y : M JsonWriter Unit} {f f' f'' : Bool} {l l' l'' : Int} {s s' : PyStr} (h : Puts x f l s f' l')
    (h' : Puts y f' l' s' f'' l'') : Puts (do x; y) f l (s ++ s') f'' l'' := by
  intro o
  rw [M.bind_ok (h o), h' _, List.append_assoc]

theorem Puts.congr {x : M JsonWriter Unit} {f f' : Bool} {l l' : Int} {s s' : PyStr} (h : Puts x f l s f' l') (hs : s = s') :
    Puts x f l s' f' l' := hs ▸ h

theorem Puts.pure (f : Bool) (l : Int) : Puts (pure ()) f l [] f l := by intro o; simp

theorem Puts.write (s : PyStr) (f : Bool) (l : Int) : Puts (JsonWriter.write s) f l s f l := by intro o; rfl

theorem Puts.endItem (f : Bool) (l : Int) : Puts JsonWriter.endItem f l [] false l := by intro o; simp [JsonWriter.endItem, JsonWriter.setFirst]

theorem Puts.beginBracket (b : Nat) (f : Bool) (l : Int) : Puts (JsonWriter.beginBracket b) f l [b] true (l + 1) := by
  intro o; rfl

/-- the white space before an item -/
def lead (cfg : WriterConfig) (l : Int) : PyStr :=
  match cfg.indent with
  | none => []
  | some indent => py! "\n" ++ JsonWriter.indentation indent l

theorem Puts.beginItem (f : Bool) (l : Int) :
    Puts (JsonWriter.beginItem cfg) f l ((if f then [] else cfg.itemSeparator) ++ lead cfg l) f l := by
  intro o
  unfold JsonWriter.beginItem lead
  rw [M.bind_ok (M.get_apply _)]
  have key : Puts (match cfg.indent with
      | none => Pure.pure ()
      | some indent => do
        JsonWriter.write (py! "\n")
        if indent ≠ [] then JsonWriter.write (JsonWriter.indentation indent (← M.get).level)) f l (lead cfg l) f l := by
    unfold lead
    rcases cfg.indent with _ | indent
    · exact Puts.pure f l
    · refine Puts.bind (Puts.write _ f l) ?_
      intro o
      by_cases h : indent = []
      · subst h
        simp [JsonWriter.indentation]
      · rw [if_pos h]
        rfl
  cases f
  · exact (Puts.bind (Puts.write cfg.itemSeparator false l) key) o
  · exact key o

theorem Puts.endBracket (b : Nat) (f : Bool) (l : Int) :
    Puts (JsonWriter.endBracket cfg b) f (l + 1) (lead cfg l ++ [b]) f l := by
  intro o
  unfold JsonWriter.endBracket lead
  rcases cfg.indent with _ | indent
  · simp [M.bind_apply, JsonWriter.addLevel, JsonWriter.write]
  · by_cases h : indent = []
    · subst h
      simp [M.bind_apply, JsonWriter.addLevel, JsonWriter.write, JsonWriter.indentation]
    · simp [M.bind_apply, JsonWriter.addLevel, JsonWriter.write, h]

theorem blank_append {a b : PyStr} (ha : Blank a) (hb : Blank b) : Blank (a ++ b) := by
  intro c hc
  rcases List.mem_append.1 hc with h | h
  · exact ha c h
  · exact hb c h

theorem lead_blank (hc : cfg.Valid) (l : Int) : Blank (lead cfg l) := by
  unfold lead
  rcases h : cfg.indent with _ | indent
  · intro c hc; simp at hc
  · refine blank_append (by intro c hc; simp at hc ⊢; omega) ?_
    intro c hcm
    unfold JsonWriter.indentation at hcm
    obtain ⟨s, hs, hcs⟩ := List.mem_flatten.1 hcm
    rw [List.eq_of_mem_replicate hs] at hcs
    exact hc.indent indent h c hcs

/-! ### Values -/

theorem valueText_of (ht : t.Lawful) {v w : Val} {text : PyStr} (hne : text ≠ [])
    (h : ∀ tail, EndsNumber t tail → (decodeValue t (text ++ tail)).value = some w ∧
      (decodeValue t (text ++ tail)).numRead = text.length) : ValueText t w text := by
  refine ⟨hne, fun tail he => ?_⟩
  obtain ⟨h1, h2⟩ := h tail (C44_separators t ht tail he)
  rcases hd : decodeValue t (text ++ tail) with ⟨a, b⟩
  rw [hd] at h1 h2
  simp only at h1 h2
  subst h1 h2
  rfl

theorem string_text (t : PyText) (s : PyStr) : ValueText t (.str s) (encodeString s) :=
  ⟨by simp [encodeString], fun tail _ => decode_encodeString t s tail⟩

theorem encode_text (ht : t.Lawful) {v : Val} (h : v = .none ∨ (∃ b, v = .bool b) ∨ (∃ x, v = .int x) ∨ (∃ x, v = .float x) ∨ (∃ s, v = .str s)) :
    ∃ text, encodeValue t v = .ok text ∧ ValueText t (canonical v) text := by
  have mk : ∀ (w : Val), (∀ tail, EndsNumber t tail → ∃ text, encodeValue t v = .ok text ∧
      (decodeValue t (text ++ tail)).value = some w ∧ (decodeValue t (text ++ tail)).numRead = text.length) →
      ∃ text, encodeValue t v = .ok text ∧ ValueText t w text := by
    intro w hw
    obtain ⟨text, h0, h1, h2⟩ := hw [] (by intro c hc; simp at hc)
    refine ⟨text, h0, valueText_of ht (v := v) ?_ ?_⟩
    · rintro rfl
      simp [decodeValue, Json.failure] at h1
    · intro tail htail
      obtain ⟨text', h0', h1'⟩ := hw tail htail
      rw [h0] at h0'
      simp only [Except.ok.injEq] at h0'
      subst h0'
      exact h1'
  rcases h with rfl | ⟨b, rfl⟩ | ⟨x, rfl⟩ | ⟨x, rfl⟩ | ⟨s, rfl⟩
  · exact mk _ fun tail _ => C44_null_round_trip t tail
  · exact mk _ fun tail _ => C44_bool_round_trip t b tail
  · exact mk _ fun tail htl => C44_int_round_trip t ht x tail htl
  · refine mk _ fun tail htl => ?_
    simp only [canonical]
    split
    · rename_i hx; exact C44_nan t x hx tail
    · rename_i hx; exact C44_float_round_trip t ht x (by omega) tail htl
  · exact ⟨encodeString s, rfl, string_text t s⟩

theorem Puts.encoded {v : Val} {text : PyStr} (h : encodeValue t v = .ok text) (f : Bool) (l : Int) :
    Puts (JsonWriter.writeEncoded t v) f l text f l := by
  intro o
  unfold JsonWriter.writeEncoded
  rw [h]
  rfl

theorem Puts.key (k : PyStr) (f : Bool) (l : Int) :
    Puts (JsonWriter.writeKey t cfg k) f l (encodeString k ++ cfg.keySeparator) f l := by
  intro o
  rfl

/-! ### Items of objects and arrays -/

/-- The elements of an array or the members of an object (at least one). -/
inductive Items where
  | elements (ds : List Doc)
  | members (ms : List (PyStr × Doc))

def Items.part : Items → Part
  | .elements ds => .elements ds
  | .members ms => .members ms

def Items.events : Items → List JsonEvent
  | .elements ds => Doc.elementEvents ds
  | .members ms => Doc.memberEvents ms

/-- The text begins with the separator (unless it is the first) and white space; then come the items. -/
structure ItemsText (t : PyText) (cfg : WriterConfig) (f : Bool) (inArray : Bool) (es : List JsonEvent) (text : PyStr) : Prop where
  text : ∃ ws body, text = (if f then [] else cfg.itemSeparator) ++ ws ++ body ∧ Blank ws ∧
    ∃ items : Items, JsonText t items.part body ∧ items.events = es ∧
      (match items with | .elements _ => inArray = true | .members _ => inArray = false)

/-- the key in front of an item -/
def keyText (cfg : WriterConfig) (k : PyStr) (inArray : Bool) : PyStr :=
  if inArray then [] else encodeString k ++ cfg.keySeparator

def keyEvents (k : PyStr) (inArray : Bool) : List JsonEvent := if inArray then [] else [.key k]

theorem ItemsText.single (hc : cfg.Valid) {f inArray : Bool} {l : Int} {k : PyStr} {d : Doc} {s : PyStr}
    (h : JsonText t (.element d) s) :
    ItemsText t cfg f inArray (keyEvents k inArray ++ d.events)
      ((if f then [] else cfg.itemSeparator) ++ lead cfg l ++ (keyText cfg k inArray ++ s)) := by
  refine ⟨lead cfg l, keyText cfg k inArray ++ s, rfl, lead_blank hc l, ?_⟩
  cases inArray with
  | true => exact ⟨.elements [d], .lastElement h, by simp [Items.events, Doc.elementEvents, keyEvents], rfl⟩
  | false =>
    obtain ⟨a, b, hk, ha, hb⟩ := hc.key
    refine ⟨.members [(k, d)], ?_, by simp [Items.events, Doc.memberEvents, keyEvents], rfl⟩
    have := JsonText.lastMember (string_text t k) ha hb h
    simpa [keyText, hk, Items.part] using this

theorem ItemsText.cons (hc : cfg.Valid) {f inArray : Bool} {l : Int} {k : PyStr} {d : Doc} {s : PyStr} {es : List JsonEvent}
    {text : PyStr} (h : JsonText t (.element d) s) (hr : ItemsText t cfg false inArray es text) :
    ItemsText t cfg f inArray (keyEvents k inArray ++ d.events ++ es)
      ((if f then [] else cfg.itemSeparator) ++ lead cfg l ++ (keyText cfg k inArray ++ s) ++ text) := by
  obtain ⟨ws, body, rfl, hws, items, hb, rfl, hi⟩ := hr
  obtain ⟨a, b, hs, ha, hb'⟩ := hc.item
  obtain ⟨a', b', hk, ha', hb''⟩ := hc.key
  refine ⟨lead cfg l, keyText cfg k inArray ++ s ++ (cfg.itemSeparator ++ ws ++ body), by simp, lead_blank hc l, ?_⟩
  cases items with
  | elements ds =>
    simp only at hi
    subst hi
    refine ⟨.elements (d :: ds), ?_, by simp [Items.events, Doc.elementEvents, keyEvents], rfl⟩
    have := JsonText.moreElements h ha (blank_append hb' hws) hb
    simpa [keyText, hs, Items.part] using this
  | members ms =>
    simp only at hi
    subst hi
    refine ⟨.members ((k, d) :: ms), ?_, by simp [Items.events, Doc.memberEvents, keyEvents], rfl⟩
    have := JsonText.moreMembers (string_text t k) ha' hb'' h ha (blank_append hb' hws) hb
    simpa [keyText, hs, hk, Items.part] using this

/-- brackets around items -/
theorem bracket_text (hc : cfg.Valid) {l : Int} {inArray : Bool} {es : List JsonEvent} {text : PyStr}
    (h : (es = [] ∧ text = []) ∨ ItemsText t cfg true inArray es text) :
    ∃ d : Doc, JsonText t (.element d)
        ([if inArray then ch! '[' else ch! '{'] ++ text ++ (lead cfg l ++ [if inArray then ch! ']' else ch! '}'])) ∧
      d.events = (if inArray then JsonEvent.beginArray else .beginObject) :: (es ++ [if inArray then JsonEvent.endArray else .endObject]) := by
  rcases h with ⟨rfl, rfl⟩ | ⟨ws, body, rfl, hws, items, hb, rfl, hi⟩
  · cases inArray with
    | true => exact ⟨.array [], .emptyArray (lead_blank hc l), by simp [Doc.events, Doc.elementEvents]⟩
    | false => exact ⟨.object [], .emptyObject (lead_blank hc l), by simp [Doc.events, Doc.memberEvents]⟩
  · cases items with
    | elements ds =>
      simp only at hi
      subst hi
      refine ⟨.array ds, ?_, by simp [Doc.events, Items.events]⟩
      have := JsonText.array hws hb (lead_blank hc l)
      simpa using this
    | members ms =>
      simp only at hi
      subst hi
      refine ⟨.object ms, ?_, by simp [Doc.events, Items.events]⟩
      have := JsonText.object hws hb (lead_blank hc l)
      simpa using this

end Zserio.Json
