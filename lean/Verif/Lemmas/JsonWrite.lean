import Verif.Lemmas.JsonWriter
/-
Lemmas for C46: the text of values and of well-nested events.
-/
set_option linter.unusedSimpArgs false
namespace Zserio.Json
variable {t : PyText} {cfg : WriterConfig}

/-- Items are written: nothing if there are none. -/
def WritesItems (t : PyText) (cfg : WriterConfig) (x : M JsonWriter Unit) (f : Bool) (l : Int) (inArray : Bool)
    (es : List JsonEvent) : Prop :=
  ∃ text f', Puts x f l text f' l ∧ ((es = [] ∧ text = [] ∧ f' = f) ∨ (ItemsText t cfg f inArray es text ∧ f' = false))

/-- A single item followed by others. -/
theorem WritesItems.cons (hc : cfg.Valid) {x y : M JsonWriter Unit} {f inArray : Bool} {l : Int} {k : PyStr} {d : Doc} {s : PyStr}
    {es : List JsonEvent} (hx : Puts x f l ((if f then [] else cfg.itemSeparator) ++ lead cfg l ++ (keyText cfg k inArray ++ s)) false l)
    (hs : JsonText t (.element d) s) (hy : WritesItems t cfg y false l inArray es) :
    WritesItems t cfg (do x; y) f l inArray (keyEvents k inArray ++ d.events ++ es) := by
  obtain ⟨text, f', hp, h⟩ := hy
  refine ⟨_, f', Puts.bind hx hp, .inr ?_⟩
  rcases h with ⟨rfl, rfl, rfl⟩ | ⟨h, rfl⟩
  · have := ItemsText.single hc (f := f) (inArray := inArray) (l := l) (k := k) hs
    simpa using this
  · exact ⟨ItemsText.cons hc hs h, rfl⟩

theorem WritesItems.nil (f : Bool) (l : Int) (inArray : Bool) : WritesItems t cfg (pure ()) f l inArray [] :=
  ⟨[], f, Puts.pure f l, .inl ⟨rfl, rfl, rfl⟩⟩

/-- brackets around items -/
theorem WritesItems.bracket (hc : cfg.Valid) {x : M JsonWriter Unit} {l : Int} {inArray : Bool} {es : List JsonEvent}
    (h : WritesItems t cfg x true (l + 1) inArray es) (f : Bool) :
    ∃ (d : Doc) (s : PyStr) (f' : Bool), Puts (do
        JsonWriter.beginBracket (if inArray then ch! '[' else ch! '{')
        x
        JsonWriter.endBracket cfg (if inArray then ch! ']' else ch! '}')) f l s f' l ∧ JsonText t (.element d) s ∧
      d.events = (if inArray then JsonEvent.beginArray else .beginObject) :: (es ++ [if inArray then JsonEvent.endArray else .endObject]) := by
  obtain ⟨text, f', hp, h⟩ := h
  obtain ⟨d, hd, he⟩ := bracket_text (t := t) hc (l := l) (inArray := inArray) (es := es) (text := text)
    (h.imp (fun h => ⟨h.1, h.2.1⟩) (fun h => h.1))
  refine ⟨d, _, f', Puts.bind (Puts.beginBracket _ f l) (Puts.bind hp (Puts.endBracket _ f' l)), ?_, he⟩
  simpa using hd

theorem writes_bytes (ht : t.Lawful) (hc : cfg.Valid) : ∀ (bytes : List UInt8) (f : Bool) (l : Int),
    WritesItems t cfg (JsonWriter.writeByteItems t cfg bytes) f l true (Doc.elementEvents (byteDocs bytes))
  | [], f, l => WritesItems.nil f l true
  | b :: bytes, f, l => by
    obtain ⟨text, he, hv⟩ := encode_text ht (v := .int b.toNat) (by simp)
    have := WritesItems.cons hc (f := f) (inArray := true) (k := []) (x := do
        JsonWriter.beginItem cfg
        JsonWriter.writeEncoded t (.int b.toNat)
        JsonWriter.endItem)
      ((Puts.bind (Puts.beginItem f l) (Puts.bind (Puts.encoded he f l) (Puts.endItem f l))).congr (by simp [keyText]))
      (JsonText.value hv) (writes_bytes ht hc bytes false l)
    simp only [JsonWriter.writeByteItems]
    simp only [M.bind_assoc'] at this
    simpa [byteDocs, Doc.elementEvents, keyEvents, canonical] using this

/-- Events of one element are those of a document with this text. -/
def WritesDoc (t : PyText) (x : M JsonWriter Unit) (f : Bool) (l : Int) (es : List JsonEvent) : Prop :=
  ∃ (d : Doc) (s : PyStr) (f' : Bool), Puts x f l s f' l ∧ JsonText t (.element d) s ∧ d.events = es

/-- the key of an item, if it has one -/
def optKey (t : PyText) (cfg : WriterConfig) (inArray : Bool) (k : PyStr) : M JsonWriter Unit :=
  if inArray then pure () else JsonWriter.writeKey t cfg k

theorem optKey_false (k : PyStr) : optKey t cfg false k = JsonWriter.writeKey t cfg k := rfl

/-- an item with a key (or without, in an array) around a document -/
theorem WritesDoc.item (hc : cfg.Valid) {x y : M JsonWriter Unit} {f inArray : Bool} {l : Int} (k : PyStr) {es es' : List JsonEvent}
    (hx : WritesDoc t x f l es) (hy : WritesItems t cfg y false l inArray es') :
    WritesItems t cfg (do
      JsonWriter.beginItem cfg
      optKey t cfg inArray k
      x
      JsonWriter.endItem
      y) f l inArray (keyEvents k inArray ++ es ++ es') := by
  obtain ⟨d, s, f', hp, hs, rfl⟩ := hx
  have hk : Puts (optKey t cfg inArray k) f l (keyText cfg k inArray) f l := by
    cases inArray with
    | true => exact Puts.pure f l
    | false => exact Puts.key k f l
  have := WritesItems.cons hc (k := k) ((Puts.bind (Puts.beginItem (cfg := cfg) f l) (Puts.bind hk (Puts.bind hp (Puts.endItem f' l)))).congr (by simp))
    hs hy
  simp only [M.bind_assoc'] at this
  exact this

theorem WritesDoc.value (ht : t.Lawful) {v : Val} (h : v = .none ∨ (∃ b, v = .bool b) ∨ (∃ x, v = .int x) ∨ (∃ x, v = .float x) ∨ (∃ s, v = .str s))
    (f : Bool) (l : Int) : WritesDoc t (JsonWriter.writeEncoded t v) f l [.value (canonical v)] := by
  obtain ⟨text, he, hv⟩ := encode_text ht h
  exact ⟨_, text, f, Puts.encoded he f l, .value hv, rfl⟩

theorem WritesDoc.congr {x y : M JsonWriter Unit} {f : Bool} {l : Int} {es es' : List JsonEvent} (h : WritesDoc t x f l es)
    (hx : x = y) (he : es = es') : WritesDoc t y f l es' := by subst hx he; exact h

theorem WritesItems.congr {x y : M JsonWriter Unit} {f a : Bool} {l : Int} {es es' : List JsonEvent}
    (h : WritesItems t cfg x f l a es) (hx : x = y) (he : es = es') : WritesItems t cfg y f l a es' := by subst hx he; exact h

theorem bind_unit (x : M JsonWriter Unit) : (do x; pure ()) = x := by
  funext s
  simp only [M.bind_apply]
  rcases x s with ⟨_ | _, _⟩ <;> rfl

theorem writes_buffer (ht : t.Lawful) (hc : cfg.Valid) (bytes : List UInt8) (f : Bool) (l : Int) :
    WritesDoc t (do
      JsonWriter.beginBracket (ch! '[')
      JsonWriter.writeByteItems t cfg bytes
      JsonWriter.endBracket cfg (ch! ']')) f l (Doc.array (byteDocs bytes)).events := by
  refine WritesDoc.congr ((writes_bytes ht hc bytes true (l + 1)).bracket hc f) rfl ?_
  simp [Doc.events]

theorem writes_value (ht : t.Lawful) (hc : cfg.Valid) {m : MemberInfo} {v : Val} (hw : Writable m v) (f : Bool) (l : Int) :
    WritesDoc t (JsonWriter.writeValue t cfg v m) f l (image cfg.stringFormat m v).events := by
  rcases hw with rfl | hw
  · refine WritesDoc.congr (WritesDoc.value ht (v := .none) (by simp) f l) (by simp [JsonWriter.writeValue, Val.isNone]) ?_
    unfold image
    cases m.type with
    | builtin b => cases b <;> rfl
    | _ => rfl
  · unfold JsonWriter.writeValue image
    have simple : ∀ b : PyType, b ≠ .bitBuffer → b ≠ .bytearray → m.type = .builtin b →
        WritesDoc t (JsonWriter.writeValue t cfg v m) f l (image cfg.stringFormat m v).events := by
      intro b h1 h2 hm
      have hv : (∃ b, v = .bool b) ∨ (∃ x, v = .int x) ∨ (∃ x, v = .float x) ∨ (∃ s, v = .str s) := by
        cases b <;> simp_all
      refine WritesDoc.congr (WritesDoc.value ht (.inr hv) f l) ?_ ?_
      · unfold JsonWriter.writeValue
        rw [hm]
        rcases hv with ⟨_, rfl⟩ | ⟨_, rfl⟩ | ⟨_, rfl⟩ | ⟨_, rfl⟩ <;> cases b <;> first | rfl | exact absurd rfl h1 | exact absurd rfl h2
      · unfold image
        rw [hm]
        cases b <;> simp_all [Doc.events]
    cases hm : m.type with
    | builtin b =>
      rw [hm] at hw
      by_cases h1 : b = .bitBuffer
      · subst h1
        obtain ⟨b, rfl⟩ := hw
        simp only [Val.isNone, Bool.false_eq_true, if_false, JsonWriter.writeBitBuffer]
        have h3 := WritesDoc.item hc (f := false) (inArray := false) (py! "bitSize")
          (WritesDoc.value ht (v := .int b.bitsize) (by simp) false (l + 1)) (WritesItems.nil false (l + 1) false)
        have h2 := (WritesDoc.item hc (f := true) (inArray := false) (py! "buffer") (writes_buffer ht hc b.buffer true (l + 1))
          h3).bracket hc f
        refine WritesDoc.congr h2 ?_ ?_
        · simp [M.bind_assoc', bind_unit, optKey_false]
        · simp [Doc.events, Doc.memberEvents, keyEvents, canonical]
      · by_cases h2 : b = .bytearray
        · subst h2
          obtain ⟨bytes, rfl⟩ := hw
          simp only [Val.isNone, Bool.false_eq_true, if_false, JsonWriter.writeBytes]
          have h2 := (WritesDoc.item hc (f := true) (inArray := false) (py! "buffer") (writes_buffer ht hc bytes true (l + 1))
            (WritesItems.nil false (l + 1) false)).bracket hc f
          refine WritesDoc.congr h2 ?_ ?_
          · simp [M.bind_assoc', bind_unit, optKey_false]
          · simp [Doc.events, Doc.memberEvents, keyEvents]
        · have := simple b h1 h2 hm
          unfold JsonWriter.writeValue image at this
          rw [hm] at this
          exact this
    | enum e =>
      rw [hm] at hw
      obtain ⟨x, rfl⟩ := hw
      simp only [Val.isNone, Bool.false_eq_true, if_false]
      cases cfg.stringFormat with
      | true => exact WritesDoc.value ht (by simp) f l
      | false => exact WritesDoc.value ht (by simp) f l
    | bitmask d =>
      rw [hm] at hw
      obtain ⟨x, rfl⟩ := hw
      simp only [Val.isNone, Bool.false_eq_true, if_false]
      cases cfg.stringFormat with
      | true => exact WritesDoc.value ht (by simp) f l
      | false => exact WritesDoc.value ht (by simp) f l
    | compound id =>
      rw [hm] at hw
      simp only at hw
      refine WritesDoc.congr (WritesDoc.value ht (.inr hw) f l) ?_ ?_
      · rcases hw with ⟨_, rfl⟩ | ⟨_, rfl⟩ | ⟨_, rfl⟩ | ⟨_, rfl⟩ <;> rfl
      · simp [Doc.events]

/-- all visited values can be written -/
def AllWritable (es : List Event) : Prop := ∀ v m idx, Event.visitValue v m idx ∈ es → Writable m v

theorem observeAll_append (es fs : List Event) :
    JsonWriter.observeAll t cfg (es ++ fs) = (do JsonWriter.observeAll t cfg es; JsonWriter.observeAll t cfg fs) := by
  induction es with
  | nil => rfl
  | cons e es ih =>
    simp only [List.cons_append, JsonWriter.observeAll, ih]
    rw [M.bind_assoc']

theorem keyOf_eq (m : MemberInfo) (idx : Option Nat) : keyOf m idx = keyEvents m.schemaName idx.isSome := by
  cases idx <;> rfl

theorem key_if (m : MemberInfo) (idx : Option Nat) :
    JsonWriter.writeItemKey t cfg m idx = optKey t cfg idx.isSome m.schemaName := by
  cases idx <;> rfl

theorem writes_nested (ht : t.Lawful) (hc : cfg.Valid) {p : Path} {a : Bool} {es : List Event} {L : List (Path × Node)}
    (h : Nested p a es L) : AllWritable es → ∀ (f : Bool) (l : Int),
    WritesItems t cfg (JsonWriter.observeAll t cfg es) f l a (es.flatMap (jsonEvents cfg.stringFormat)) := by
  induction h with
  | nil => intro _ f l; exact WritesItems.nil f l _
  | @value p v m idx es L _ ih =>
    intro hw f l
    have hv := writes_value ht hc (hw v m idx (by simp)) f l
    have := WritesDoc.item hc m.schemaName hv (ih (fun v' m' idx' h => hw v' m' idx' (by simp [h])) false l)
    refine this.congr ?_ ?_
    · simp only [JsonWriter.observeAll, JsonWriter.observe, key_if, M.bind_assoc']
    · simp [jsonEvents, keyOf_eq]
  | @compound p v m idx es₁ es L₁ L _ _ ih₁ ih =>
    intro hw f l
    have h1 := ih₁ (fun v' m' idx' h => hw v' m' idx' (by simp [h])) true (l + 1)
    have h2 := ih (fun v' m' idx' h => hw v' m' idx' (by simp [h])) false l
    have := WritesDoc.item hc m.schemaName (h1.bracket hc f) h2
    refine this.congr ?_ ?_
    · simp only [List.cons_append, JsonWriter.observeAll, JsonWriter.observe, key_if, M.bind_assoc', observeAll_append]
      rfl
    · simp [jsonEvents, keyOf_eq]
  | @array p xs m es₁ es L₁ L _ _ ih₁ ih =>
    intro hw f l
    have h1 := ih₁ (fun v' m' idx' h => hw v' m' idx' (by simp [h])) true (l + 1)
    have h2 := ih (fun v' m' idx' h => hw v' m' idx' (by simp [h])) false l
    have := WritesDoc.item hc m.schemaName (h1.bracket hc f) h2
    refine this.congr ?_ ?_
    · simp only [List.cons_append, JsonWriter.observeAll, JsonWriter.observe, key_if, M.bind_assoc', observeAll_append]
      rfl
    · simp [jsonEvents, keyOf_eq, keyEvents]

end Zserio.Json
