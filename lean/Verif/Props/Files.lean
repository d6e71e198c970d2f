import Verif.Lemmas.Files
import Verif.Props.JsonReader
import Verif.Props.Extended
import Verif.Props.Compound
import Mathlib.Data.List.TakeWhile
/-
C73: objects in files.
-/
set_option linter.unusedSimpArgs false
namespace Zserio

/-- **C73**: `serialize_to_file` raises exactly if `serialize_to_bytes` does; then nothing is done to any file.  Otherwise the file
contains the bytes of `serialize_to_bytes` afterwards, whatever it contained before, and no other file is changed. -/
theorem C73_serialize (k : Codec) (x : Val) (f : PyStr) :
    (∀ e, serializeToBytes k x = .error e → serializeToFile k x f = (.error e, [])) ∧
    ∀ bytes x1, serializeToBytes k x = .ok (bytes, x1) → ∃ ops, serializeToFile k x f = (.ok x1, ops) ∧
      ∀ fs : Files, fs.run ops f = some bytes ∧ ∀ g, g ≠ f → fs.run ops g = fs g := by
  unfold serializeToBytes serializeToFile
  rcases h : serializeToWriter k x with e | ⟨w, x'⟩
  · exact ⟨fun e' he => by
      have he' : Except.error (α := List UInt8 × Val) e = .error e' := he
      cases he'; rfl, fun bytes x1 h => nomatch h⟩
  · refine ⟨fun e he => (nomatch he), fun bytes x1 he => ?_⟩
    cases he
    exact ⟨_, rfl, fun fs => run_writeFile fs f w.bytes⟩

/-- **C73**: wherever `serialize_to_file` is interrupted, the file is as it was before or contains the first bytes of the new contents, and
no other file is changed. -/
theorem C73_crash (k : Codec) (x : Val) (f : PyStr) (n : Nat) (fs : Files) :
    (∀ g, g ≠ f → fs.run ((serializeToFile k x f).2.take n) g = fs g) ∧
    (fs.run ((serializeToFile k x f).2.take n) f = fs f ∨
      ∃ bytes x1 first rest, serializeToBytes k x = .ok (bytes, x1) ∧ bytes = first ++ rest ∧
        fs.run ((serializeToFile k x f).2.take n) f = some first) := by
  unfold serializeToBytes serializeToFile
  rcases h : serializeToWriter k x with e | ⟨w, x'⟩
  · simp [Files.run]
  · cases n with
    | zero => simp [Files.run]
    | succ n =>
      simp only [writeFile_take]
      obtain ⟨h1, h2⟩ := run_writeFile fs f (w.bytes.take n)
      exact ⟨h2, .inr ⟨w.bytes, x', w.bytes.take n, w.bytes.drop n, rfl, (List.take_append_drop _ _).symm, h1⟩⟩

/-- **C73**: `deserialize_from_file` is `deserialize_from_bytes` of the contents of the file. -/
theorem C73_deserialize (k : Codec) (fs : Files) (f : PyStr) (args : List Int) :
    deserializeFromFile k fs f args = match fs f with
      | none => .error .os
      | some bytes => deserializeFromBytes k bytes args := by
  unfold deserializeFromFile Reader.fromFile deserializeFromBytes deserialize Reader.fromBitBuffer
  rcases fs f with _ | bytes
  · rfl
  · have h1 : BitBuffer.make bytes = .ok ⟨bytes, (bytes.length : Int) * 8⟩ := rfl
    have h2 : Reader.make bytes (some ((bytes.length : Int) * 8)) = .ok ⟨bytes, (bytes.length : Int) * 8, 0⟩ := by simp [Reader.make]
    have h3 : Reader.make bytes = .ok ⟨bytes, (bytes.length : Int) * 8, 0⟩ := rfl
    simp only [h1, h3]
    show _ = (do let r ← Reader.make bytes (some ((bytes.length : Int) * 8)); (k.fromReader args r).1)
    rw [h2]

/-- **C73**: an object of a closed type which is written to a file is read back from this file, also after later changes of
other files. -/
theorem C73_round_trip (defs : Schema) (closed : Nat → Bool) (hl : defs.Layout closed) (n id : Nat) (hc : closed id = true)
    (x x1 x' : Val) (ops : List FileOp) (f : PyStr) (ps : List Int) (h : serializeToFile (defs.codec n id) x f = (.ok x1, ops))
    (hp : x1.params = .ok ps) (hx : defs.StoredAs n id x1 x') (fs fs' : Files) (hfs : fs' f = fs.run ops f) :
    deserializeFromFile (defs.codec n id) fs' f ps = .ok x' := by
  obtain ⟨h1, h2⟩ := C73_serialize (defs.codec n id) x f
  rcases hb : serializeToBytes (defs.codec n id) x with e | ⟨bytes, y⟩
  · rw [h1 e hb] at h; cases h
  · obtain ⟨ops', ho, hr⟩ := h2 bytes y hb
    rw [ho] at h; cases h
    rw [C73_deserialize, hfs, (hr fs).1]
    exact C48_from_bytes defs closed hl n id hc x x1 x' bytes ps hb hp hx

namespace Json

/-- **C73**: `from_json_file(type, name, *parameters)` returns an object with the same values as the object given to
`to_json_file(obj, name)`, if its strings can be encoded; it is identical if all extended fields are present.  This holds for both line
separators and however the file is read. -/
theorem C73_json_file (t : PyText) (ht : t.Lawful) (indent : Indent) (hind : ∀ s, indent = .str s → ∀ c ∈ s, c ∈ py! " \t\n")
    {I : TypeInfos} (hI : I.Regular)
    (hn : ∀ (id : Nat) (m : MemberInfo), m ∈ (I id).fields → Identifier m.schemaName ∧ NamesOf m.type) {complete : Prop} {id : Nat}
    {ps : List Int} {o : Val} (h : Fits I complete (.object id ps) o)
    (hv : ∀ p m x, HasNode I (.root id o) p (.item m x) → (∀ cid, m.type ≠ .compound cid) → x ≠ .none → Proper m.type x)
    (hs : ∀ p m s, HasNode I (.root id o) p (.item m (.str s)) → ∀ c ∈ s, isScalar c = true)
    (linesep f : PyStr) (hl : linesep = py! "\n" ∨ linesep = py! "\r\n") :
    ∃ ops, toJsonFile t I defaultFilter () indent id o linesep f = (.ok (), ops) ∧
      ∀ (fs fs' : Files) (split : PyStr → List PyStr), fs' f = fs.run ops f → (∀ text, Chunks text (split text)) →
        ∃ o', fromJsonFile t I id ps split fs' f = .ok o' ∧ o'.eraseExt = o.eraseExt ∧ (complete → o' = o) := by
  have hblank : ∀ s, indent = .str s → Blank s := by
    intro s hs' c hc
    have := hind s hs' c hc
    simp only [List.mem_cons, List.not_mem_nil, or_false] at this ⊢
    omega
  obtain ⟨es, w, h1, h2, h3⟩ := C52_writer_reader t ht _ (C46_config true indent hblank) hI hn h hv
  have hread := (C40_walk_iff (I := I) hI.numbered (id := id) (o := o)).mp ⟨_, h1⟩
  obtain ⟨es', L, h1', ⟨es'', he, hnest, _⟩, _, hL⟩ := C40_walk hI.numbered hread
  rw [h1] at h1'
  cases h1'
  have hplain : (WriterConfig.new none none true indent).IsPlain := by
    have as : ∀ s ∈ [py! ", ", py! ",", py! ": "], ∀ d ∈ s, d < 128 ∧ d ≠ 13 := by decide
    refine ⟨?_, fun c hc => (as (py! ": ") (by simp) c hc).elim plain_ascii, ?_⟩
    · cases indent with
      | none => exact fun c hc => (as (py! ", ") (by simp) c hc).elim plain_ascii
      | str s => exact fun c hc => (as (py! ",") (by simp) c hc).elim plain_ascii
      | int n => exact fun c hc => (as (py! ",") (by simp) c hc).elim plain_ascii
    · intro s hs' c hc
      cases indent with
      | none => cases hs'
      | str s' =>
        cases hs'
        have := hind s rfl c hc
        simp only [List.mem_cons, List.not_mem_nil, or_false] at this
        rcases this with rfl | rfl | rfl <;> exact plain_ascii (by decide) (by decide)
      | int n =>
        cases hs'
        have := (List.mem_replicate.1 hc).2
        subst this; exact plain_ascii (by decide) (by decide)
  have member : ∀ q n m, HasNode I (.root id o) q n → nodeMember n = some m → Identifier m.schemaName ∧ NamesOf m.type := by
    intro q n m hq hm
    obtain ⟨id', hid⟩ := hasNode_member hq (by simp [nodeMember]) m hm
    exact hn id' m hid
  have hev : ∀ e ∈ es, PlainEvent e := by
    intro e hmem
    rw [he] at hmem
    simp only [List.cons_append, List.mem_cons, List.mem_append, List.not_mem_nil, or_false] at hmem
    rcases hmem with rfl | hmem | rfl
    · trivial
    · rcases nested_event hnest e hmem with ⟨xs, m, q, hx, hq⟩ | ⟨v, m, i, q, hx, hq⟩
      · have := member q _ m ((hL _ _).mp hq).2 rfl
        rcases hx with rfl | rfl
        · exact this.1
        · trivial
      · have := member q _ m ((hL _ _).mp hq).2 rfl
        rcases hx with rfl | rfl | rfl
        · refine ⟨this.1, this.2, ?_⟩
          rintro s rfl
          exact hs q m s ((hL _ _).mp hq).2
        · exact this.1
        · trivial
    · trivial
  have hout : ∀ c ∈ w.out, Plain c := by
    have := Keeps.observeAll ht hplain es hev JsonWriter.new (by simp [JsonWriter.new])
    rw [h2] at this
    exact this
  have hall : w.out.all isScalar = true := List.all_eq_true.2 fun c hc => (hout c hc).1
  have htake : w.out.takeWhile isScalar = w.out := List.takeWhile_eq_self_iff.2 fun c hc => (hout c hc).1
  have hscalar : ∀ c ∈ lineEnds linesep w.out, isScalar c = true := by
    intro c hc
    simp only [lineEnds, List.mem_flatMap] at hc
    obtain ⟨d, hd, hc⟩ := hc
    split at hc
    · rcases hl with rfl | rfl
      · simp at hc; subst hc; rfl
      · simp at hc; rcases hc with rfl | rfl <;> rfl
    · simp at hc; subst hc; exact (hout _ hd).1
  obtain ⟨bytes, hbytes⟩ := (utf8Encode_isOk_iff _).2 hscalar
  refine ⟨writeFile f bytes, ?_, ?_⟩
  · unfold toJsonFile
    rw [h1]
    simp only []
    rw [h2]
    simp only []
    rw [htake, hbytes, if_pos hall]
    rfl
  · intro fs fs' split hfs hsplit
    obtain ⟨o', r, h4, h5⟩ := h3 (split w.out) (hsplit _)
    refine ⟨o', ?_, h5⟩
    unfold fromJsonFile
    rw [hfs, (run_writeFile fs f bytes).1]
    simp only []
    rw [utf8Decode_encode hbytes]
    show fromJsonStream t I id ps (split (universalNewlines (lineEnds linesep w.out))) = _
    rw [universal_lineEnds linesep hl _ fun c hc => (hout c hc).2]
    simp [fromJsonStream, h4]

/-- **C73** (finding): unlike `serialize_to_file`, `to_json_file` destroys the previous contents of the file also if the object cannot be
written. -/
theorem C73_json_lost {σ : Type} (t : PyText) (I : TypeInfos) (F : WalkFilter σ) (st : σ) (indent : Indent) (id : Nat) (o : Val)
    (linesep f : PyStr) : ∃ written : Option (List UInt8), written.isSome = true ∧
      ∀ fs : Files, fs.run (toJsonFile t I F st indent id o linesep f).2 f = written := by
  have key : ∀ bytes, ∃ written : Option (List UInt8), written.isSome = true ∧ ∀ fs : Files, fs.run (writeFile f bytes) f = written :=
    fun bytes => ⟨some bytes, rfl, fun fs => (run_writeFile fs f bytes).1⟩
  unfold toJsonFile
  split
  split
  split
  · exact key []
  · exact key _

end Json

/-! ### Examples -/

/-- an object is written to a file in place of an older one: 242 bits, padded to 31 bytes -/
example : (serializeToFile (Demo.schema.codec 3 3) (Demo.mainObj 0) (py! "a")).1 = .ok (Demo.mainObj 21) ∧
    (Files.run (fun _ => some [1, 2, 3]) (serializeToFile (Demo.schema.codec 3 3) (Demo.mainObj 0) (py! "a")).2) (py! "a") =
      some [3, 0, 0, 0, 21, 0, 130, 178, 101, 180, 31, 251, 18, 137, 192, 255, 255, 127, 255, 0, 5, 2, 128, 2, 127, 128, 0, 0, 23,
        87, 192] ∧
    Demo.closed 3 = true ∧ (Demo.mainObj 21).params = .ok [42] ∧ Demo.schema.StoredAs 3 3 (Demo.mainObj 21) (Demo.mainObj 21) :=
  ⟨by decide +kernel, by decide +kernel, rfl, rfl, (demo_main_canonical 21).isStored⟩

namespace NoteDemo
open Json

/-- struct Note { string text; }; -/
def fields : List MemberInfo := [{ schemaName := py! "text", type := .builtin .str, prop := 0 }]

/-- the type -/
def infos : TypeInfos := fun _ => { kind := .struct, fields := fields, defaults := [.str []] }

/-- a text with line ends and with characters of one, two and four bytes -/
def note : Val := .obj [] 0 0 [.str [0x61, 13, 10, 10, 0xE9, 0x1F600]]

theorem regular : infos.Regular where
  numbered := by
    intro id k m hm
    match k with
    | 0 => simp [infos, fields] at hm; subst hm; rfl
    | _ + 1 => simp [infos, fields] at hm
  names := fun _ => by show (fields.map MemberInfo.schemaName).Nodup; decide
  defaults := fun _ _ => rfl
  extended := by
    intro id m i hm hi
    simp only [infos, fields, List.mem_cons, List.not_mem_nil, or_false] at hm
    subst hm; simp at hi
  args := by
    intro id m hm e he
    simp only [infos, fields, List.mem_cons, List.not_mem_nil, or_false] at hm
    subst hm; simp at he

theorem names (id : Nat) (m : MemberInfo) (hm : m ∈ (infos id).fields) : Identifier m.schemaName ∧ NamesOf m.type := by
  simp only [infos, fields, List.mem_cons, List.not_mem_nil, or_false] at hm
  subst hm
  exact ⟨by decide, trivial⟩

theorem fits : Fits infos True (.object 0 []) note := by
  refine .struct rfl rfl rfl (fun _ => rfl) ?_
  intro i m v hm hv
  match i with
  | 0 =>
    simp [infos, fields] at hm hv
    subst hm hv
    exact .single rfl (.simple (by simp) rfl)
  | _ + 1 => simp [infos, fields] at hm

theorem proper (p : Path) (m : MemberInfo) (x : Val) (h : HasNode infos (.root 0 note) p (.item m x))
    (hc : ∀ cid, m.type ≠ .compound cid) (hx : x ≠ .none) : Proper m.type x :=
  proper_of_walk (I := infos) regular.numbered
    (es := (Walker.walk infos defaultFilter (some (.compound 0)) note ()).2.2) rfl (by decide +kernel) p m x h hc hx

theorem scalars (p : Path) (m : MemberInfo) (s : PyStr) (h : HasNode infos (.root 0 note) p (.item m (.str s))) :
    ∀ c ∈ s, isScalar c = true := by
  obtain ⟨es', L, h1, ⟨es'', he, hnest, _⟩, _, hL⟩ := C40_walk (I := infos) regular.numbered
    ((C40_walk_iff (I := infos) regular.numbered (id := 0) (o := note)).mp
      ⟨(Walker.walk infos defaultFilter (some (.compound 0)) note ()).2.2, rfl⟩)
  have hp : p ≠ [] := by
    rintro rfl
    cases h
  have hes : es' = [.beginRoot note, .visitValue (.str [0x61, 13, 10, 10, 0xE9, 0x1F600])
      { schemaName := py! "text", type := .builtin .str, prop := 0 } none, .endRoot note] := by
    have : Walker.walk infos defaultFilter (some (.compound 0)) note () = (.ok (), (), [.beginRoot note,
      .visitValue (.str [0x61, 13, 10, 10, 0xE9, 0x1F600]) { schemaName := py! "text", type := .builtin .str, prop := 0 } none,
      .endRoot note]) := rfl
    rw [this] at h1
    cases h1
    rfl
  have hmem : ∀ idx, (Event.visitValue (.str s) m idx ∈ es'' ∨ Event.beginCompound (.str s) m idx ∈ es'') →
      s = [0x61, 13, 10, 10, 0xE9, 0x1F600] := by
    intro idx hm
    have : Event.visitValue (.str s) m idx ∈ es' ∨ Event.beginCompound (.str s) m idx ∈ es' := by
      rw [he]
      rcases hm with hm | hm
      · exact .inl (by simp [hm])
      · exact .inr (by simp [hm])
    rw [hes] at this
    simp at this
    exact this.1
  obtain ⟨idx, hm⟩ := nested_item hnest p m _ ((hL _ _).mpr ⟨hp, h⟩)
  rw [hmem idx hm]
  decide

end NoteDemo

/-- the file of a note is read back under Windows, too -/
example (t : PyText) (ht : t.Lawful) : ∃ ops,
    Json.toJsonFile t NoteDemo.infos defaultFilter () (.int 4) 0 NoteDemo.note (py! "\r\n") (py! "note.json") = (.ok (), ops) ∧
    ∀ (fs fs' : Files) (split : PyStr → List PyStr), fs' (py! "note.json") = fs.run ops (py! "note.json") →
      (∀ text, Json.Chunks text (split text)) →
      ∃ o', Json.fromJsonFile t NoteDemo.infos 0 [] split fs' (py! "note.json") = .ok o' ∧
        o'.eraseExt = NoteDemo.note.eraseExt ∧ (True → o' = NoteDemo.note) :=
  Json.C73_json_file t ht (.int 4) (by simp) NoteDemo.regular NoteDemo.names NoteDemo.fits NoteDemo.proper NoteDemo.scalars _ _ (.inr rfl)

/-- a note with half a character cannot be written, but what the file contained is lost -/
example : (Json.toJsonFile PyText.simple NoteDemo.infos defaultFilter () .none 0 (.obj [] 0 0 [.str [0xD800]]) (py! "\n") (py! "a")).1 =
      .error .unicode ∧
    (Files.run (fun _ => some [1, 2, 3]) (Json.toJsonFile PyText.simple NoteDemo.infos defaultFilter () .none 0
      (.obj [] 0 0 [.str [0xD800]]) (py! "\n") (py! "a")).2) (py! "a") = some ((py! "{\"text\": \"").map UInt8.ofNat) := by
  constructor <;> decide +kernel

end Zserio
