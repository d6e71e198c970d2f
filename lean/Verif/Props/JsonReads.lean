import Verif.Lemmas.JsonReads
import Verif.Props.JsonTyped
/-
C58: `from_json_string` returns the object which the JSON document stands for, and an object only for documents which stand for one.
-/
namespace Zserio
open Json

/-- **C58**: for the text of a JSON object, `from_json_string(type, text, *arguments)` returns the object which the document stands for,
and it raises an exception if the document stands for no object of the type. -/
theorem C58_document (t : PyText) (ht : t.Lawful) (I : TypeInfos) (hn : ∀ (id : Nat) (m : MemberInfo), m ∈ (I id).fields → m.schemaName ≠ [])
    (id : Nat) (args : List Int) (ms : List (PyStr × Doc)) (before s after : PyStr) (hs : JsonText t (.element (.object ms)) s)
    (hb : Blank before) (ha : Blank after) (chunks : List PyStr) (hc : Chunks (before ++ s ++ after) chunks) (o : Val) :
    fromJsonStream t I id args chunks = .ok o ↔ readRoot I id args ms = some o := by
  have hp := C46_parse t ht (CreatorAdapter.observer I) ⟨some (Creator.new id args), [], none, none⟩ (.object ms) (by simp) before s after hs hb ha
    chunks hc
  have hroot := tell_root hn id args ms
  have hset : Parser.observe (CreatorAdapter.setType id args) (Json.Reader.new chunks) =
      (.ok (), (Tokenizer.new chunks, ⟨some (Creator.new id args), [], none, none⟩)) := rfl
  unfold fromJsonStream Json.Reader.read
  rw [M.bind_ok hset]
  rcases hr : Parser.parse t (CreatorAdapter.observer I) (Tokenizer.new chunks, ⟨some (Creator.new id args), [], none, none⟩) with ⟨r, tk, s'⟩
  rw [hr] at hp
  cases hm : readRoot I id args ms with
  | none =>
    rw [hm] at hroot
    obtain ⟨e, s₁, he⟩ := hroot
    rw [he] at hp
    obtain ⟨h1, -⟩ := hp
    simp only [Except.map] at h1
    subst h1
    rw [M.bind_error hr]
    simp
  | some o' =>
    rw [hm] at hroot
    have he : (CreatorAdapter.observer I).tellAll (Doc.object ms).events ⟨some (Creator.new id args), [], none, none⟩ =
      (.ok (), ⟨none, [], some o', none⟩) := hroot
    rw [he] at hp
    obtain ⟨h1, h2⟩ := hp
    simp only [Except.map] at h1 h2
    subst h1 h2
    rw [M.bind_ok hr]
    simp [Json.Reader.result, CreatorAdapter.get]

/-- **C58**, for any text: an object is returned only if the text begins with the text of a JSON object which stands for this object. -/
theorem C58_any (t : PyText) (ht : t.Lawful) (I : TypeInfos) (hn : ∀ (id : Nat) (m : MemberInfo), m ∈ (I id).fields → m.schemaName ≠ [])
    (id : Nat) (args : List Int) (text : PyStr) (chunks : List PyStr) (hc : Chunks text chunks) (o : Val)
    (h : fromJsonStream t I id args chunks = .ok o) :
    ∃ before ms s after, text = before ++ s ++ after ∧ Blank before ∧ JsonText t (.element (.object ms)) s ∧
      readRoot I id args ms = some o := by
  obtain ⟨before, ms, s, after, s', h1, h2, h3, h4, h5⟩ := fromJson_inv ht hc h
  refine ⟨before, ms, s, after, h1, h2, h3, ?_⟩
  have hroot := tell_root hn id args ms
  cases hm : readRoot I id args ms with
  | none =>
    rw [hm] at hroot
    obtain ⟨e, s₁, he⟩ := hroot
    rw [he] at h4
    cases h4
  | some o' =>
    rw [hm] at hroot
    have he : (CreatorAdapter.observer I).tellAll (Doc.object ms).events ⟨some (Creator.new id args), [], none, none⟩ =
      (.ok (), ⟨none, [], some o', none⟩) := hroot
    rw [he] at h4
    cases h4
    exact h5

/-- the fields of the example have names -/
theorem JsonDemo.shape_named (id : Nat) (m : MemberInfo) (hm : m ∈ (shapeInfos id).fields) : m.schemaName ≠ [] := by
  revert m
  change ∀ m ∈ shapeFields, m.schemaName ≠ []
  simp [shapeFields]

/-- a text with another order of the members than that of the fields, names and numbers for items, an empty element, and a trailing token -/
example : ∃ before ms s after, JsonDemo.oddText = before ++ s ++ after ∧ Blank before ∧
    JsonText PyText.simple (.element (.object ms)) s ∧ readRoot JsonDemo.shapeInfos 0 [] ms = some JsonDemo.oddShape :=
  C58_any PyText.simple simple_lawful _ JsonDemo.shape_named 0 [] JsonDemo.oddText [JsonDemo.oddText] ⟨by simp, by decide⟩ _ (by decide +kernel)

/-- `true` and `false` are numbers in Python: they are taken for items of enumerations, bitmasks and bytes -/
example : fromJsonStream PyText.simple JsonDemo.shapeInfos 0 []
    [py! "{\"color\": false, \"rights\": true, \"raw\": {\"buffer\": [true, 2]}, \"flag\": true}"] =
      .ok (.obj [] 0 0 [.int 0, .int 1, .float 0, .none, .bytes [1, 2], .bool true, .arr []]) := by decide +kernel

/-- the texts of two members with string values -/
theorem JsonDemo.two_members (t : PyText) (k v k' v' : PyStr) :
    JsonText t (.element (.object [(k, .value (.str v)), (k', .value (.str v'))]))
      (ch! '{' :: ((encodeString k ++ ch! ':' :: (encodeString v ++ ch! ',' :: (encodeString k' ++ ch! ':' :: encodeString v'))) ++ [ch! '}'])) := by
  have := JsonText.object (ws := []) (ws' := []) blank_nil (.moreMembers (ws := []) (ws' := []) (ws₁ := []) (ws₂ := []) (string_text t k) blank_nil
    blank_nil (.value (string_text t v)) blank_nil blank_nil (.lastMember (ws := []) (ws' := []) (string_text t k') blank_nil blank_nil
    (.value (string_text t v')))) blank_nil
  simpa using this

/-- the last one of several members with the same key counts -/
example (t : PyText) (ht : t.Lawful) (o : Val) :
    fromJsonStream t JsonDemo.shapeInfos 0 [] [py! "{\"color\":\"RED\",\"co", py! "lor\":\"BLUE\"}"] = .ok o ↔
      o = .obj [] 0 0 [.int 3, .none, .float 0, .none, .none, .none, .arr []] := by
  refine (C58_document t ht _ JsonDemo.shape_named 0 [] _ [] _ [] (JsonDemo.two_members t (py! "color") (py! "RED") (py! "color") (py! "BLUE"))
    blank_nil blank_nil _ ⟨by decide +kernel, by decide⟩ o).trans ?_
  rw [show readRoot _ _ _ _ = some (.obj [] 0 0 [.int 3, .none, .float 0, .none, .none, .none, .arr []]) by decide +kernel]
  simp [eq_comm]

/-- a member which is not a field of the type, or a name which is not an item of the enumeration, is rejected -/
example (t : PyText) (ht : t.Lawful) (o : Val) :
    fromJsonStream t JsonDemo.shapeInfos 0 [] [py! "{\"color\":\"RED\",\"colour\":\"BLUE\"}"] ≠ .ok o ∧
      fromJsonStream t JsonDemo.shapeInfos 0 [] [py! "{\"color\":\"RED\",\"color\":\"GREEN\"}"] ≠ .ok o := by
  constructor <;> intro h
  · have := (C58_document t ht _ JsonDemo.shape_named 0 [] _ [] _ [] (JsonDemo.two_members t (py! "color") (py! "RED") (py! "colour") (py! "BLUE"))
      blank_nil blank_nil _ ⟨by decide +kernel, by decide⟩ o).mp h
    rw [show readRoot _ _ _ _ = none by decide +kernel] at this
    cases this
  · have := (C58_document t ht _ JsonDemo.shape_named 0 [] _ [] _ [] (JsonDemo.two_members t (py! "color") (py! "RED") (py! "color") (py! "GREEN"))
      blank_nil blank_nil _ ⟨by decide +kernel, by decide⟩ o).mp h
    rw [show readRoot _ _ _ _ = none by decide +kernel] at this
    cases this

end Zserio
