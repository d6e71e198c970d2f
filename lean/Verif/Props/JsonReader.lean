import Verif.Lemmas.JsonRead
import Verif.Props.JsonDoc
import Verif.Props.Creator
/-
C47: the texts of enumerations and bitmasks are read to the same values.
C52: the JSON text of an object is read to the same object.
-/
set_option linter.unusedSimpArgs false
namespace Zserio
open Json

/-! ### Enumerations and bitmasks -/

/-- **C47**: the text which the writer writes for an item of an enumeration (its name or its number) is converted by the reader to the
same item. -/
theorem C47_enum (t : PyText) (ht : t.Lawful) (cfg : WriterConfig) (hcfg : cfg.Valid) (m : MemberInfo) (e : EnumClass) (hm : m.type = .enum e)
    (hn : Names (e.items.map EnumItem.name)) (item : EnumItem) (hi : item ∈ e.items) :
    ∃ (w : JsonWriter) (x : Val), JsonWriter.writeValue t cfg (.int item.value) m JsonWriter.new = (.ok (), w) ∧ ValueText t x w.out ∧
      convertValue x m.type = .ok (.int item.value) := by
  obtain ⟨d, s, f', h1, h2, h3⟩ := writes_value ht hcfg (m := m) (v := .int item.value) (.inr (by simp [hm])) true 0
  obtain ⟨x, h4, h5⟩ := convert_image (sf := cfg.stringFormat) (m := m) (v := .int item.value)
    (.inr ⟨by rw [hm]; exact ⟨item, hi, rfl⟩, by rw [hm]; exact hn⟩) (by simp) (by simp)
  refine ⟨_, x, h1 [], ?_, h5⟩
  rw [h4] at h3
  cases h2 with
  | value h => simp [Doc.events] at h3; rw [h3] at h; exact h
  | _ => simp [Doc.events] at h3

/-- **C47**: the text which the writer writes for a bitmask (the names of its values, its number, or both) is converted by the reader to
the same bitmask. -/
theorem C47_bitmask (t : PyText) (ht : t.Lawful) (cfg : WriterConfig) (hcfg : cfg.Valid) (m : MemberInfo) (d : BitmaskDef) (hm : m.type = .bitmask d)
    (hn : Names (d.values.map Prod.fst)) (v : Int) (h0 : 0 ≤ v) (hl : d.lowerBound ≤ v) (hu : v ≤ d.upperBound) :
    ∃ (w : JsonWriter) (x : Val), JsonWriter.writeValue t cfg (.int v) m JsonWriter.new = (.ok (), w) ∧ ValueText t x w.out ∧
      convertValue x m.type = .ok (.int v) := by
  obtain ⟨d, s, f', h1, h2, h3⟩ := writes_value ht hcfg (m := m) (v := .int v) (.inr (by simp [hm])) true 0
  obtain ⟨x, h4, h5⟩ := convert_image (sf := cfg.stringFormat) (m := m) (v := .int v)
    (.inr ⟨by rw [hm]; exact ⟨h0, hl, hu⟩, by rw [hm]; exact hn⟩) (by simp) (by simp)
  refine ⟨_, x, h1 [], ?_, h5⟩
  rw [h4] at h3
  cases h2 with
  | value h => simp [Doc.events] at h3; rw [h3] at h; exact h
  | _ => simp [Doc.events] at h3

namespace JsonDemo

/-- bitmask uint8 Rights { READ = 1, WRITE = 2, ALL = 7, }; -/
def rights : BitmaskDef := ⟨.bitField 8, [(py! "READ", 1), (py! "WRITE", 2), (py! "ALL", 7)]⟩

/-- enum uint8 Color { NONE = 0, RED = 2, deprecated BLUE = 3, }; -/
def color : EnumClass := ⟨.bitField 8, [⟨py! "NONE", 0, false, false⟩, ⟨py! "RED", 2, false, false⟩, ⟨py! "BLUE", 3, true, false⟩]⟩

theorem rights_names : Names (rights.values.map Prod.fst) := ⟨by decide, by decide⟩

theorem color_names : Names (color.items.map EnumItem.name) := ⟨by decide, by decide⟩

end JsonDemo

/-- the three kinds of texts -/
example : JsonWriter.bitmaskText JsonDemo.rights.values 3 = py! "READ | WRITE" ∧
    JsonWriter.bitmaskText JsonDemo.rights.values 5 = py! "5 /* partial match: READ */" ∧
    JsonWriter.bitmaskText JsonDemo.rights.values 8 = py! "8 /* no match */" ∧
    JsonWriter.enumText JsonDemo.color.items 2 = py! "RED" := by decide +kernel

example (t : PyText) (ht : t.Lawful) : ∃ (w : JsonWriter) (x : Val),
    JsonWriter.writeValue t (WriterConfig.new none none true .none) (.int 5)
      { schemaName := py! "rights", type := .bitmask JsonDemo.rights, prop := 0 } JsonWriter.new = (.ok (), w) ∧ ValueText t x w.out ∧
      convertValue x (.bitmask JsonDemo.rights) = .ok (.int 5) :=
  C47_bitmask t ht _ (C46_config true .none (by simp)) { schemaName := py! "rights", type := .bitmask JsonDemo.rights, prop := 0 }
    JsonDemo.rights rfl JsonDemo.rights_names 5 (by decide) (by decide) (by decide)

example (t : PyText) (ht : t.Lawful) : ∃ (w : JsonWriter) (x : Val),
    JsonWriter.writeValue t (WriterConfig.new none none true .none) (.int 2)
      { schemaName := py! "color", type := .enum JsonDemo.color, prop := 0 } JsonWriter.new = (.ok (), w) ∧ ValueText t x w.out ∧
      convertValue x (.enum JsonDemo.color) = .ok (.int 2) :=
  C47_enum t ht _ (C46_config true .none (by simp)) { schemaName := py! "color", type := .enum JsonDemo.color, prop := 0 }
    JsonDemo.color rfl JsonDemo.color_names ⟨py! "RED", 2, false, false⟩ (by decide)

/-- A text which consists of digits only raises an `IndexError` for a bitmask, instead of being read as a number or rejected with a
`PythonRuntimeException`. -/
theorem C47_digits_only (d : BitmaskDef) (text : PyStr) (hne : text ≠ []) (h : ∀ c ∈ text, 48 ≤ c ∧ c ≤ 57) :
    convertValue (.str text) (.bitmask d) = .error .index := by
  have hd : ∀ c ∈ text, isAsciiDigit c = true := fun c hc => by simp [isAsciiDigit]; exact h c hc
  cases text with
  | nil => exact absurd rfl hne
  | cons c s =>
    simp only [convertValue, bitmaskFromString]
    rw [digit_not_start (hd c (by simp)), hd c (by simp)]
    simp only [Bool.false_eq_true, if_false, if_true, parseBitmaskNumber]
    rw [digitsAfter_end fun c hc => hd c (by simp [hc])]
    rfl

/-! ### Objects -/

/-- **C52**: an object of a compound type is written as JSON text by a walk with a `JsonWriter`, and the text, however it is read, is read
by a `JsonReader` to an object with the same values everywhere; it is identical to the object which was written if all extended fields
were present. -/
theorem C52_writer_reader (t : PyText) (ht : t.Lawful) (cfg : WriterConfig) (hcfg : cfg.Valid) {I : TypeInfos} (hI : I.Regular)
    (hn : ∀ (id : Nat) (m : MemberInfo), m ∈ (I id).fields → Identifier m.schemaName ∧ NamesOf m.type) {complete : Prop} {id : Nat}
    {ps : List Int} {o : Val} (h : Fits I complete (.object id ps) o)
    (hv : ∀ p m x, HasNode I (.root id o) p (.item m x) → (∀ cid, m.type ≠ .compound cid) → x ≠ .none → Proper m.type x) :
    ∃ (es : List Event) (w : JsonWriter), Walker.walk I defaultFilter (some (.compound id)) o () = (.ok (), (), es) ∧
      JsonWriter.observeAll t cfg es JsonWriter.new = (.ok (), w) ∧
      ∀ chunks, Chunks w.out chunks → ∃ o' r, Json.Reader.read t I id ps (Json.Reader.new chunks) = (.ok o', r) ∧
        o'.eraseExt = o.eraseExt ∧ (complete → o' = o) := by
  obtain ⟨⟨k, tag, fs, rfl⟩, o₀, hnew, es, o', hw, hb, hs⟩ := Rebuild.fits_works hI h
  have hwalk : Walker.walk I defaultFilter (some (.compound id)) (.obj ps k tag fs) () =
      (.ok (), (), .beginRoot (.obj ps k tag fs) :: es ++ [.endRoot (.obj ps k tag fs)]) := by
    simp only [Walker.walk, Walker.root]
    rw [Walk.bind_ok (a := ()) (s' := ()) (es := [.beginRoot (.obj ps k tag fs)]) rfl, Walk.bind_ok hw]
    rfl
  have hread := (C40_walk_iff (I := I) hI.numbered (id := id) (o := .obj ps k tag fs)).mp ⟨_, hwalk⟩
  obtain ⟨es', L, h1, hrep, _, hL⟩ := C40_walk hI.numbered hread
  rw [hwalk] at h1
  cases h1
  have hfed := fed hb (fun id m hm => (hn id m hm).2) (by simp)
  have hval : ∀ v m idx, Event.visitValue v m idx ∈ es → ReadsBack m v := by
    intro v m idx hmem
    obtain ⟨hnm, hx⟩ := hfed v m idx hmem
    rcases hx with hx | ⟨hc, _⟩
    · exact .inl hx
    · by_cases hne : v = .none
      · exact .inl hne
      · obtain ⟨es'', he, hnest, _⟩ := hrep
        have : es'' = es := by simpa using he.symm
        subst this
        obtain ⟨q, hq⟩ := nested_value hnest v m idx hmem
        exact .inr ⟨hv q m v ((hL _ _).mp hq).2 hc hne, hnm⟩
  obtain ⟨w, hwr, hparse⟩ := C46_round_trip t ht cfg hcfg _ _ L hrep (by
    intro v m idx hmem
    simp only [List.cons_append, List.mem_cons, List.mem_append, reduceCtorEq, List.not_mem_nil, or_false, false_or] at hmem
    exact writable_instance (hfed v m idx hmem).2)
  refine ⟨_, w, hwalk, hwr, fun chunks hc => ?_⟩
  obtain ⟨h2, h3⟩ := hparse chunks hc _ (CreatorAdapter.observer I) ⟨some (Creator.new id ps), [], none, none⟩
  have htold := told_root (sf := cfg.stringFormat) (o := .obj ps k tag fs) hnew hb (fun id m hm => (hn id m hm).1.1) hval
  rw [htold] at h2 h3
  rcases hx : Parser.parse t (CreatorAdapter.observer I) (Tokenizer.new chunks, ⟨some (Creator.new id ps), [], none, none⟩) with ⟨r, tk, ad⟩
  rw [hx] at h2 h3
  simp only [Except.map] at h2 h3
  subst h2 h3
  refine ⟨o', (tk, ⟨none, [], some o', none⟩), ?_, hs.1, hs.2⟩
  unfold Json.Reader.read
  have hset : Parser.observe (CreatorAdapter.setType id ps) (Json.Reader.new chunks) =
      (.ok (), (Tokenizer.new chunks, ⟨some (Creator.new id ps), [], none, none⟩)) := rfl
  rw [M.bind_ok hset, M.bind_ok hx]
  rfl

/-- **C52**: `from_json_string(type, to_json_string(obj), *parameters)` returns an object with the same values as `obj`, which is identical to
`obj` if all its extended fields are present. -/
theorem C52_json_string (t : PyText) (ht : t.Lawful) (indent : Indent) (hind : ∀ s, indent = .str s → Blank s) {I : TypeInfos} (hI : I.Regular)
    (hn : ∀ (id : Nat) (m : MemberInfo), m ∈ (I id).fields → Identifier m.schemaName ∧ NamesOf m.type) {complete : Prop} {id : Nat}
    {ps : List Int} {o : Val} (h : Fits I complete (.object id ps) o)
    (hv : ∀ p m x, HasNode I (.root id o) p (.item m x) → (∀ cid, m.type ≠ .compound cid) → x ≠ .none → Proper m.type x) :
    ∃ text, toJsonString t I defaultFilter () indent id o = .ok text ∧ ∀ chunks, Chunks text chunks →
      ∃ o', fromJsonStream t I id ps chunks = .ok o' ∧ o'.eraseExt = o.eraseExt ∧ (complete → o' = o) := by
  obtain ⟨es, w, h1, h2, h3⟩ := C52_writer_reader t ht _ (C46_config true indent hind) hI hn h hv
  refine ⟨w.out, by simp [toJsonString, h1, h2, Except.map], fun chunks hc => ?_⟩
  obtain ⟨o', r, h4, h5⟩ := h3 chunks hc
  exact ⟨o', by simp [fromJsonStream, h4], h5⟩

/-! ### Examples -/

/-- an item in the list is reported by an event -/
theorem Json.nested_item {p : Path} {a : Bool} {es : List Event} {L : List (Path × Node)} (h : Nested p a es L) :
    ∀ q m x, (q, .item m x) ∈ L → ∃ idx, Event.visitValue x m idx ∈ es ∨ Event.beginCompound x m idx ∈ es := by
  induction h with
  | nil => simp
  | @value _ v m' i _ _ _ ih =>
    intro q m x hmem
    rw [List.mem_cons] at hmem
    rcases hmem with he | hmem
    · cases he
      exact ⟨i, .inl (by simp)⟩
    · exact (ih q m x hmem).imp fun _ => Or.imp (by simp +contextual) (by simp +contextual)
  | @compound _ v m' i _ _ _ _ _ _ ih₁ ih =>
    intro q m x hmem
    simp only [List.cons_append, List.mem_cons, List.mem_append] at hmem
    rcases hmem with he | hmem | hmem
    · cases he
      exact ⟨i, .inr (by simp)⟩
    · exact (ih₁ q m x hmem).imp fun _ => Or.imp (by simp +contextual) (by simp +contextual)
    · exact (ih q m x hmem).imp fun _ => Or.imp (by simp +contextual) (by simp +contextual)
  | array _ _ ih₁ ih =>
    intro q m x hmem
    simp only [List.cons_append, List.mem_cons, List.mem_append] at hmem
    rcases hmem with he | hmem | hmem
    · cases he
    · exact (ih₁ q m x hmem).imp fun _ => Or.imp (by simp +contextual) (by simp +contextual)
    · exact (ih q m x hmem).imp fun _ => Or.imp (by simp +contextual) (by simp +contextual)

/-- The values of an event are proper. -/
def Json.ProperEvent : Event → Prop
  | .visitValue v m _ => v = .none ∨ Proper m.type v
  | .beginCompound _ m _ => match m.type with
    | .compound _ => True
    | _ => False
  | _ => True

instance Json.ProperEvent.decidable (e : Event) : Decidable (Json.ProperEvent e) := by
  unfold Json.ProperEvent
  split
  · infer_instance
  · split <;> infer_instance
  · infer_instance

/-- The nodes of an object, from the events of its walk: a way to meet the last hypothesis of the theorems. -/
theorem Json.proper_of_walk {I : TypeInfos} (hI : I.Numbered) {id : Nat} {o : Val} {es : List Event}
    (hw : Walker.walk I defaultFilter (some (.compound id)) o () = (.ok (), (), es))
    (h : ∀ e ∈ es, ProperEvent e) :
    ∀ p m x, HasNode I (.root id o) p (.item m x) → (∀ cid, m.type ≠ .compound cid) → x ≠ .none → Proper m.type x := by
  intro p m x hn hc hne
  obtain ⟨es', L, h1, ⟨es'', he, hnest, _⟩, _, hL⟩ := C40_walk hI ((C40_walk_iff (I := I) hI (id := id) (o := o)).mp ⟨_, hw⟩)
  rw [hw] at h1
  cases h1
  have hp : p ≠ [] := by
    rintro rfl
    cases hn
  obtain ⟨idx, hm | hm⟩ := nested_item hnest p m x ((hL _ _).mpr ⟨hp, hn⟩)
  · have := h (.visitValue x m idx) (by rw [he]; simp [hm])
    exact Or.resolve_left this hne
  · have := h (.beginCompound x m idx) (by rw [he]; simp [hm])
    simp only [ProperEvent] at this

namespace JsonDemo

/-- struct Shape { Color color; Rights rights; float64 ratio; extern data; bytes raw; optional bool flag; Color colors[]; }; -/
def shapeFields : List MemberInfo := [
  { schemaName := py! "color", type := .enum color, prop := 0 },
  { schemaName := py! "rights", type := .bitmask rights, prop := 1 },
  { schemaName := py! "ratio", type := .builtin .float, prop := 2 },
  { schemaName := py! "data", type := .builtin .bitBuffer, prop := 3 },
  { schemaName := py! "raw", type := .builtin .bytearray, prop := 4 },
  { schemaName := py! "flag", type := .builtin .bool, prop := 5, optional := true },
  { schemaName := py! "colors", type := .enum color, prop := 6, isArray := true }]

/-- the type -/
def shapeInfos : TypeInfos := fun _ =>
  { kind := .struct, fields := shapeFields, defaults := [.none, .none, .float 0, .none, .none, .none, .arr []] }

/-- Shape(Color.RED, Rights(5), 1.5, BitBuffer(bytes([0xAB, 0xE0]), 11), bytearray([1, 2]), None, [Color.NONE, Color.BLUE]) -/
def shape : Val := .obj [] 0 0 [.int 2, .int 5, .float 0x3FF8000000000000, .bitBuffer ⟨[0xAB, 0xE0], 11⟩, .bytes [1, 2], .none,
  .arr [.int 0, .int 3]]

theorem shape_regular : shapeInfos.Regular where
  numbered := by
    intro id k m hm
    match k with
    | 0 | 1 | 2 | 3 | 4 | 5 | 6 => simp [shapeInfos, shapeFields] at hm; subst hm; rfl
    | _ + 7 => simp [shapeInfos, shapeFields] at hm
  names := fun _ => by show (shapeFields.map MemberInfo.schemaName).Nodup; decide
  defaults := fun _ _ => rfl
  extended := by
    intro id m i hm hi
    simp only [shapeInfos, shapeFields, List.mem_cons, List.not_mem_nil, or_false] at hm
    rcases hm with rfl | rfl | rfl | rfl | rfl | rfl | rfl <;> simp at hi
  args := by
    intro id m hm e he
    simp only [shapeInfos, shapeFields, List.mem_cons, List.not_mem_nil, or_false] at hm
    rcases hm with rfl | rfl | rfl | rfl | rfl | rfl | rfl <;> simp at he

theorem shape_names (id : Nat) (m : MemberInfo) (hm : m ∈ (shapeInfos id).fields) : Identifier m.schemaName ∧ NamesOf m.type := by
  simp only [shapeInfos, shapeFields, List.mem_cons, List.not_mem_nil, or_false] at hm
  rcases hm with rfl | rfl | rfl | rfl | rfl | rfl | rfl
  · exact ⟨by decide, color_names⟩
  · exact ⟨by decide, rights_names⟩
  · exact ⟨by decide, trivial⟩
  · exact ⟨by decide, trivial⟩
  · exact ⟨by decide, trivial⟩
  · exact ⟨by decide, trivial⟩
  · exact ⟨by decide, color_names⟩

theorem shape_fits : Fits shapeInfos True (.object 0 []) shape := by
  refine .struct rfl rfl rfl (fun _ => rfl) ?_
  intro i m v hm hv
  match i with
  | 0 | 1 | 2 | 3 | 4 =>
    simp [shapeInfos, shapeFields] at hm hv
    subst hm hv
    exact .single rfl (.simple (by simp) rfl)
  | 5 =>
    simp [shapeInfos, shapeFields] at hm hv
    subst hm hv
    exact .single rfl .none
  | 6 =>
    simp [shapeInfos, shapeFields] at hm hv
    subst hm hv
    refine .array rfl ?_
    intro i x hx
    match i with
    | 0 | 1 =>
      simp at hx
      subst hx
      exact .simple (by simp) rfl
    | _ + 2 => simp at hx
  | _ + 7 => simp [shapeInfos, shapeFields] at hm

theorem shape_proper (p : Path) (m : MemberInfo) (x : Val) (h : HasNode shapeInfos (.root 0 shape) p (.item m x))
    (hc : ∀ cid, m.type ≠ .compound cid) (hx : x ≠ .none) : Proper m.type x := by
  exact proper_of_walk (I := shapeInfos) shape_regular.numbered
    (es := (Walker.walk shapeInfos defaultFilter (some (.compound 0)) shape ()).2.2) rfl (by decide +kernel) p m x h hc hx

theorem root_proper (p : Path) (m : MemberInfo) (x : Val) (h : HasNode CreatorDemo.infos (.root 0 CreatorDemo.root) p (.item m x))
    (hc : ∀ cid, m.type ≠ .compound cid) (hx : x ≠ .none) : Proper m.type x :=
  proper_of_walk (I := CreatorDemo.infos) CreatorDemo.regular.numbered
    (es := (Walker.walk CreatorDemo.infos defaultFilter (some (.compound 0)) CreatorDemo.root ()).2.2) rfl (by decide +kernel) p m x h hc hx

theorem root_names (id : Nat) (m : MemberInfo) (hm : m ∈ (CreatorDemo.infos id).fields) : Identifier m.schemaName ∧ NamesOf m.type := by
  match id with
  | 0 =>
    simp only [CreatorDemo.infos, CreatorDemo.rootFields, List.mem_cons, List.not_mem_nil, or_false] at hm
    rcases hm with rfl | rfl | rfl | rfl <;> exact ⟨by decide, trivial⟩
  | 1 =>
    simp only [CreatorDemo.infos, CreatorDemo.partFields, List.mem_cons, List.not_mem_nil, or_false] at hm
    subst hm
    exact ⟨by decide, trivial⟩
  | _ + 2 =>
    simp only [CreatorDemo.infos, CreatorDemo.anyFields, List.mem_cons, List.not_mem_nil, or_false] at hm
    rcases hm with rfl | rfl <;> exact ⟨by decide, trivial⟩

end JsonDemo

example (t : PyText) (ht : t.Lawful) : ∃ text, toJsonString t JsonDemo.shapeInfos defaultFilter () (.int 4) 0 JsonDemo.shape = .ok text ∧
    ∀ chunks, Chunks text chunks → ∃ o', fromJsonStream t JsonDemo.shapeInfos 0 [] chunks = .ok o' ∧
      o'.eraseExt = JsonDemo.shape.eraseExt ∧ (True → o' = JsonDemo.shape) :=
  C52_json_string t ht (.int 4) (by simp) JsonDemo.shape_regular JsonDemo.shape_names JsonDemo.shape_fits JsonDemo.shape_proper

/-- the object with a parameterized choice, an array of unions and an extended field, in the other format and without line breaks -/
example (t : PyText) (ht : t.Lawful) : ∃ (es : List Event) (w : JsonWriter),
    Walker.walk CreatorDemo.infos defaultFilter (some (.compound 0)) CreatorDemo.root () = (.ok (), (), es) ∧
    JsonWriter.observeAll t (WriterConfig.new none none false .none) es JsonWriter.new = (.ok (), w) ∧
    ∀ chunks, Chunks w.out chunks → ∃ o' r, Json.Reader.read t CreatorDemo.infos 0 [] (Json.Reader.new chunks) = (.ok o', r) ∧
      o'.eraseExt = CreatorDemo.root.eraseExt ∧ (True → o' = CreatorDemo.root) :=
  C52_writer_reader t ht _ (C46_config false .none (by simp)) CreatorDemo.regular JsonDemo.root_names CreatorDemo.fits JsonDemo.root_proper

end Zserio
