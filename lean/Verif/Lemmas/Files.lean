import Verif.Model.Files
import Verif.Lemmas.Utf8
import Verif.Lemmas.JsonRead
import Verif.Spec.JsonReader
/-
Lemmas for C73: which characters a JSON text consists of, and what line ends become.
-/
set_option linter.unusedSimpArgs false
namespace Zserio

/-- a character which a text file returns as it was written -/
def Plain (c : Nat) : Prop := isScalar c = true ∧ c ≠ ch! '\r'

theorem universal_cons {c : Nat} (h : c ≠ 13) (rest : PyStr) : universalNewlines (c :: rest) = c :: universalNewlines rest := by
  cases rest <;> simp [universalNewlines, h]

theorem universal_crlf (rest : PyStr) : universalNewlines (13 :: 10 :: rest) = 10 :: universalNewlines rest := by
  simp [universalNewlines]

theorem universal_lineEnds (linesep : PyStr) (hl : linesep = py! "\n" ∨ linesep = py! "\r\n") :
    ∀ (text : PyStr), (∀ c ∈ text, c ≠ ch! '\r') → universalNewlines (lineEnds linesep text) = text
  | [], _ => rfl
  | c :: text, h => by
    have ih := universal_lineEnds linesep hl text fun d hd => h d (by simp [hd])
    have hc := h c (by simp)
    simp only [lineEnds, List.flatMap_cons] at ih ⊢
    split
    · rename_i hn
      rcases hl with rfl | rfl
      · rw [List.singleton_append, universal_cons (by decide), ih, hn]
      · rw [List.cons_append, List.singleton_append, universal_crlf, ih, hn]
    · rw [List.singleton_append, universal_cons hc, ih]

theorem run_append (fs : Files) (f : PyStr) : ∀ (bytes : List UInt8) (old : List UInt8), fs f = some old →
    (fs.run (bytes.map (.append f))) f = some (old ++ bytes) ∧ ∀ g, g ≠ f → (fs.run (bytes.map (.append f))) g = fs g
  | [], old, h => by simp [Files.run, h]
  | b :: bytes, old, h => by
    obtain ⟨h1, h2⟩ := run_append (FileOp.apply fs (.append f b)) f bytes (old ++ [b]) (by simp [FileOp.apply, h])
    refine ⟨by simpa [Files.run] using h1, fun g hg => ?_⟩
    have := h2 g hg
    simp only [Files.run, List.map_cons, List.foldl_cons] at this ⊢
    rw [this]
    simp [FileOp.apply, hg]

theorem run_writeFile (fs : Files) (f : PyStr) (bytes : List UInt8) :
    (fs.run (writeFile f bytes)) f = some bytes ∧ ∀ g, g ≠ f → (fs.run (writeFile f bytes)) g = fs g := by
  obtain ⟨h1, h2⟩ := run_append (FileOp.apply fs (.create f)) f bytes [] (by simp [FileOp.apply])
  refine ⟨by simpa [Files.run, writeFile] using h1, fun g hg => ?_⟩
  have := h2 g hg
  simp only [Files.run, writeFile, List.foldl_cons] at this ⊢
  rw [this]
  simp [FileOp.apply, hg]

theorem writeFile_take (f : PyStr) (bytes : List UInt8) (n : Nat) : (writeFile f bytes).take (n + 1) = writeFile f (bytes.take n) := by
  simp [writeFile, List.take_succ_cons, List.map_take]

namespace Json

variable {t : PyText} {cfg : WriterConfig}

/-- a piece of code which writes plain characters only -/
def Keeps {α : Type} (m : M JsonWriter α) : Prop := ∀ w, (∀ c ∈ w.out, Plain c) → ∀ c ∈ (m w).2.out, Plain c

theorem Keeps.bind {α β : Type} {m : M JsonWriter α} {g : α → M JsonWriter β} (hm : Keeps m) (hg : ∀ a, Keeps (g a)) :
    Keeps (m >>= g) := by
  intro w hw
  rcases h : m w with ⟨r, w1⟩
  have h1 := hm w hw
  rw [h] at h1
  cases r with
  | error e => rw [M.bind_error h]; exact h1
  | ok a => rw [M.bind_ok h]; exact hg a w1 h1

theorem Keeps.pure {α : Type} (a : α) : Keeps (pure a : M JsonWriter α) := fun _ h => h

theorem Keeps.throw {α : Type} (e : Err) : Keeps (M.throw e : M JsonWriter α) := fun _ h => h

theorem Keeps.get : Keeps (M.get : M JsonWriter JsonWriter) := fun _ h => h

theorem Keeps.write {s : PyStr} (h : ∀ c ∈ s, Plain c) : Keeps (JsonWriter.write s) := by
  intro w hw c hc
  rcases List.mem_append.1 hc with hc | hc
  · exact hw c hc
  · exact h c hc

theorem Keeps.setFirst (b : Bool) : Keeps (JsonWriter.setFirst b) := fun _ h => h

theorem Keeps.addLevel (d : Int) : Keeps (JsonWriter.addLevel d) := fun _ h => h

/-- the separators and the indent are plain -/
structure WriterConfig.IsPlain (cfg : WriterConfig) : Prop where
  item : ∀ c ∈ cfg.itemSeparator, Plain c
  key : ∀ c ∈ cfg.keySeparator, Plain c
  indent : ∀ s, cfg.indent = some s → ∀ c ∈ s, Plain c

theorem plain_indentation {s : PyStr} (h : ∀ c ∈ s, Plain c) (l : Int) : ∀ c ∈ JsonWriter.indentation s l, Plain c := by
  intro c hc
  simp only [JsonWriter.indentation, List.mem_flatten, List.mem_replicate] at hc
  obtain ⟨x, ⟨_, rfl⟩, hc⟩ := hc
  exact h c hc

theorem plain_ascii {c : Nat} (h : c < 128) (hr : c ≠ 13) : Plain c := by
  refine ⟨?_, hr⟩
  simp [isScalar]; omega

theorem Keeps.beginItem (hc : cfg.IsPlain) : Keeps (JsonWriter.beginItem cfg) := by
  unfold JsonWriter.beginItem
  refine Keeps.bind Keeps.get fun w => ?_
  have h2 : Keeps (match cfg.indent with
      | none => Pure.pure ()
      | some indent => do
        JsonWriter.write (py! "\n")
        if indent ≠ [] then JsonWriter.write (JsonWriter.indentation indent (← M.get).level)) := by
    split
    · exact Keeps.pure ()
    · rename_i s hs
      refine Keeps.bind (Keeps.write (by simp; exact plain_ascii (by decide) (by decide))) fun _ => ?_
      split
      · exact Keeps.bind Keeps.get fun w => Keeps.write (plain_indentation (hc.indent s hs) _)
      · exact Keeps.pure ()
  simp only []
  split
  · exact Keeps.bind (Keeps.write hc.item) fun _ => h2
  · exact h2

theorem Keeps.endItem : Keeps JsonWriter.endItem := Keeps.setFirst _

theorem Keeps.beginBracket {b : Nat} (hb : Plain b) : Keeps (JsonWriter.beginBracket b) :=
  Keeps.bind (Keeps.write (by simpa using hb)) fun _ => Keeps.bind (Keeps.setFirst _) fun _ => Keeps.addLevel _

theorem Keeps.endBracket (hc : cfg.IsPlain) {b : Nat} (hb : Plain b) : Keeps (JsonWriter.endBracket cfg b) := by
  unfold JsonWriter.endBracket
  have h3 : Keeps (JsonWriter.write [b]) := Keeps.write (by simpa using hb)
  cases hi : cfg.indent with
  | none => exact Keeps.bind (Keeps.addLevel _) fun _ => h3
  | some s =>
    refine Keeps.bind (Keeps.write (by simp; exact plain_ascii (by decide) (by decide))) fun _ => Keeps.bind (Keeps.addLevel _) fun _ => ?_
    simp only []
    split
    · exact Keeps.bind Keeps.get fun w => Keeps.bind (Keeps.write (plain_indentation (hc.indent s hi) _)) fun _ => h3
    · exact h3

theorem plain_escape {c : Nat} (h : isScalar c = true) : ∀ d ∈ escapeChar c, Plain d := by
  intro d hd
  have hx : ∀ n, n < 16 → Plain (hexChar n) := by
    intro n hn
    unfold hexChar
    split
    · exact plain_ascii (by omega) (by omega)
    · exact plain_ascii (by omega) (by omega)
  unfold escapeChar at hd
  repeat' split at hd
  all_goals try (
    simp only [List.mem_cons, List.not_mem_nil, or_false] at hd
    rcases hd with rfl | rfl <;> exact plain_ascii (by decide) (by decide))
  · simp only [List.cons_append, List.nil_append, List.mem_cons, List.not_mem_nil, or_false] at hd
    rcases hd with rfl | rfl | rfl | rfl | rfl | rfl
    · exact plain_ascii (by decide) (by decide)
    · exact plain_ascii (by decide) (by decide)
    all_goals exact hx _ (Nat.mod_lt _ (by decide))
  · rename_i h1 h2 h3 h4 h5 h6 h7 h8
    simp only [List.mem_singleton] at hd
    subst hd
    exact ⟨h, h6⟩

theorem plain_string {s : PyStr} (h : ∀ c ∈ s, isScalar c = true) : ∀ d ∈ encodeString s, Plain d := by
  intro d hd
  simp only [encodeString, List.mem_append, List.mem_singleton, List.mem_flatMap] at hd
  rcases hd with (rfl | ⟨c, hc, hd⟩) | rfl
  · exact plain_ascii (by decide) (by decide)
  · exact plain_escape (h c hc) d hd
  · exact plain_ascii (by decide) (by decide)

theorem plain_decimalNat (n : Nat) : ∀ d ∈ decimalNat n, Plain d := by
  intro d hd
  unfold decimalNat at hd
  split at hd
  · simp at hd; subst hd; exact plain_ascii (by decide) (by decide)
  · simp only [List.mem_map, List.mem_reverse] at hd
    obtain ⟨x, hx, rfl⟩ := hd
    have := Nat.digits_lt_base (by decide) hx
    exact plain_ascii (by omega) (by omega)

theorem plain_decimalInt (v : Int) : ∀ d ∈ decimalInt v, Plain d := by
  intro d hd
  unfold decimalInt at hd
  split at hd
  · rcases List.mem_cons.1 hd with rfl | hd
    · exact plain_ascii (by decide) (by decide)
    · exact plain_decimalNat _ d hd
  · exact plain_decimalNat _ d hd

theorem plain_floatShape {s : PyStr} (h : FloatShape s) : ∀ d ∈ s, Plain d := by
  obtain ⟨sign, int, frac, exp, rfl, h1, _, h2, h3, h4, _⟩ := h
  have hdec : ∀ c, IsDecimal c → Plain c := fun c hc => plain_ascii (by have := hc.2; omega) (by have := hc.1; omega)
  intro d hd
  simp only [List.mem_append] at hd
  rcases hd with ((hd | hd) | hd) | hd
  · rcases h1 with rfl | rfl
    · cases hd
    · simp at hd; subst hd; exact plain_ascii (by decide) (by decide)
  · exact hdec d (h2 d hd)
  · rcases h3 with rfl | ⟨ds, rfl, h3⟩
    · cases hd
    · rcases List.mem_cons.1 hd with rfl | hd
      · exact plain_ascii (by decide) (by decide)
      · exact hdec d (h3 d hd)
  · rcases h4 with rfl | ⟨e, sg, ds, rfl, he, hs, _, h4⟩
    · cases hd
    · rcases List.mem_cons.1 hd with rfl | hd
      · rcases he with rfl | rfl <;> exact plain_ascii (by decide) (by decide)
      · rcases List.mem_append.1 hd with hd | hd
        · rcases hs with rfl | rfl | rfl
          · cases hd
          · simp at hd; subst hd; exact plain_ascii (by decide) (by decide)
          · simp at hd; subst hd; exact plain_ascii (by decide) (by decide)
        · exact hdec d (h4 d hd)

theorem plain_float (ht : t.Lawful) (x : PyFloat) : ∀ d ∈ encodeFloat t x, Plain d := by
  intro d hd
  have lit : ∀ s ∈ [py! "NaN", py! "Infinity", py! "-Infinity"], ∀ d ∈ s, d < 128 ∧ d ≠ 13 := by decide
  unfold encodeFloat at hd
  split at hd
  · exact (lit _ (by simp) d hd).elim plain_ascii
  · split at hd
    · exact (lit _ (by simp) d hd).elim plain_ascii
    · split at hd
      · exact (lit _ (by simp) d hd).elim plain_ascii
      · rename_i h1 h2 h3
        refine plain_floatShape (ht.repr_shape x ?_) d hd
        have hlt := x.toNat_lt
        by_contra hcon
        have hm : x.toNat % 2 ^ 63 = 2047 * 2 ^ 52 := by omega
        have hx : x.toNat = 2047 * 2 ^ 52 ∨ x.toNat = 2047 * 2 ^ 52 + 2 ^ 63 := by omega
        rcases hx with hx | hx
        · exact h2 (UInt64.toNat.inj (by rw [hx]; rfl))
        · exact h3 (UInt64.toNat.inj (by rw [hx]; rfl))

theorem writeEncoded_ok {v : Val} {s : PyStr} (h : encodeValue t v = .ok s) : JsonWriter.writeEncoded t v = JsonWriter.write s := by
  unfold JsonWriter.writeEncoded; rw [h]; rfl

theorem plain_value (ht : t.Lawful) {v : Val} (h : ∀ s, v = .str s → ∀ c ∈ s, isScalar c = true) {s : PyStr}
    (he : encodeValue t v = .ok s) : ∀ c ∈ s, Plain c := by
  have lit : ∀ s ∈ [py! "null", py! "true", py! "false"], ∀ d ∈ s, d < 128 ∧ d ≠ 13 := by decide
  cases v with
  | none => cases he; exact fun d hd => (lit _ (by simp) d hd).elim plain_ascii
  | bool b => cases b <;> cases he <;> exact fun d hd => (lit _ (by simp) d hd).elim plain_ascii
  | int v => cases he; exact plain_decimalInt v
  | float x => cases he; exact plain_float ht x
  | str s => cases he; exact plain_string (h s rfl)
  | _ => cases he

theorem Keeps.writeEncoded (ht : t.Lawful) {v : Val} (h : ∀ s, v = .str s → ∀ c ∈ s, isScalar c = true) :
    Keeps (JsonWriter.writeEncoded t v) := by
  cases he : encodeValue t v with
  | error e =>
    have : JsonWriter.writeEncoded t v = M.throw e := by unfold JsonWriter.writeEncoded; rw [he]; rfl
    rw [this]; exact Keeps.throw e
  | ok s => rw [writeEncoded_ok he]; exact Keeps.write (plain_value ht h he)

theorem Keeps.writeKey (hc : cfg.IsPlain) {key : PyStr} (h : ∀ c ∈ key, isScalar c = true) : Keeps (JsonWriter.writeKey t cfg key) := by
  have : JsonWriter.writeKey t cfg key = JsonWriter.write (encodeString key ++ cfg.keySeparator) := rfl
  rw [this]
  refine Keeps.write fun c hc' => ?_
  rcases List.mem_append.1 hc' with h' | h'
  · exact plain_string h c h'
  · exact hc.key c h'

theorem ascii_scalar {s : PyStr} (h : ∀ c ∈ s, c < 128) : ∀ c ∈ s, isScalar c = true :=
  fun c hc => by have := h c hc; simp [isScalar]; omega

theorem identifier_scalar {s : PyStr} (h : Identifier s) : ∀ c ∈ s, isScalar c = true :=
  ascii_scalar fun c hc => by have := h.2.1 c hc; omega

theorem Keeps.writeItemKey (hc : cfg.IsPlain) {m : MemberInfo} (h : Identifier m.schemaName) (idx : Option Nat) :
    Keeps (JsonWriter.writeItemKey t cfg m idx) := by
  unfold JsonWriter.writeItemKey
  split
  · exact Keeps.writeKey hc (identifier_scalar h)
  · exact Keeps.pure ()

theorem Keeps.writeByteItems (ht : t.Lawful) (hc : cfg.IsPlain) : ∀ bytes, Keeps (JsonWriter.writeByteItems t cfg bytes)
  | [] => Keeps.pure ()
  | b :: bytes => by
    refine Keeps.bind (Keeps.beginItem hc) fun _ => Keeps.bind (Keeps.writeEncoded ht (by simp)) fun _ => Keeps.bind Keeps.endItem fun _ =>
      Keeps.writeByteItems ht hc bytes

theorem Keeps.writeBitBuffer (ht : t.Lawful) (hc : cfg.IsPlain) (b : BitBuffer) : Keeps (JsonWriter.writeBitBuffer t cfg b) := by
  have br : ∀ c ∈ py! "{}[]", Plain c := by
    have : ∀ c ∈ py! "{}[]", c < 128 ∧ c ≠ 13 := by decide
    exact fun c hc => (this c hc).elim plain_ascii
  unfold JsonWriter.writeBitBuffer
  refine Keeps.bind (Keeps.beginBracket (br _ (by simp))) fun _ => Keeps.bind (Keeps.beginItem hc) fun _ =>
    Keeps.bind (Keeps.writeKey hc (ascii_scalar (by decide))) fun _ => Keeps.bind (Keeps.beginBracket (br _ (by simp))) fun _ =>
    Keeps.bind (Keeps.writeByteItems ht hc _) fun _ => Keeps.bind (Keeps.endBracket hc (br _ (by simp))) fun _ =>
    Keeps.bind Keeps.endItem fun _ => Keeps.bind (Keeps.beginItem hc) fun _ =>
    Keeps.bind (Keeps.writeKey hc (ascii_scalar (by decide))) fun _ => Keeps.bind (Keeps.writeEncoded ht (by simp)) fun _ =>
    Keeps.bind Keeps.endItem fun _ => Keeps.endBracket hc (br _ (by simp))

theorem Keeps.writeBytes (ht : t.Lawful) (hc : cfg.IsPlain) (b : List UInt8) : Keeps (JsonWriter.writeBytes t cfg b) := by
  have br : ∀ c ∈ py! "{}[]", Plain c := by
    have : ∀ c ∈ py! "{}[]", c < 128 ∧ c ≠ 13 := by decide
    exact fun c hc => (this c hc).elim plain_ascii
  unfold JsonWriter.writeBytes
  refine Keeps.bind (Keeps.beginBracket (br _ (by simp))) fun _ => Keeps.bind (Keeps.beginItem hc) fun _ =>
    Keeps.bind (Keeps.writeKey hc (ascii_scalar (by decide))) fun _ => Keeps.bind (Keeps.beginBracket (br _ (by simp))) fun _ =>
    Keeps.bind (Keeps.writeByteItems ht hc _) fun _ => Keeps.bind (Keeps.endBracket hc (br _ (by simp))) fun _ =>
    Keeps.bind Keeps.endItem fun _ => Keeps.endBracket hc (br _ (by simp))

theorem scalar_append {a b : PyStr} (ha : ∀ c ∈ a, isScalar c = true) (hb : ∀ c ∈ b, isScalar c = true) :
    ∀ c ∈ a ++ b, isScalar c = true := fun c hc => (List.mem_append.1 hc).elim (ha c) (hb c)

theorem scalar_decimal (v : Int) : ∀ c ∈ decimalInt v, isScalar c = true := fun c hc => (plain_decimalInt v c hc).1

theorem scalar_enumText (v : Int) : ∀ (items : List EnumItem), (∀ i ∈ items, Identifier i.name) →
    ∀ c ∈ JsonWriter.enumText items v, isScalar c = true
  | [], _ => scalar_append (scalar_decimal v) (ascii_scalar (by decide))
  | i :: items, h => by
    simp only [JsonWriter.enumText]
    split
    · exact identifier_scalar (h i (by simp))
    · exact scalar_enumText v items fun j hj => h j (by simp [hj])

theorem scalar_bitmaskNames (v : Int) : ∀ (items : List (PyStr × Int)) (check : Int) (text : PyStr), (∀ i ∈ items, Identifier i.1) →
    (∀ c ∈ text, isScalar c = true) → ∀ c ∈ (JsonWriter.bitmaskNames v items check text).2, isScalar c = true
  | [], _, _, _, h => h
  | (n, x) :: items, check, text, hi, h => by
    simp only [JsonWriter.bitmaskNames]
    split
    · refine scalar_bitmaskNames v items _ _ (fun j hj => hi j (by simp [hj])) ?_
      split
      · exact scalar_append (scalar_append h (ascii_scalar (by decide))) (identifier_scalar (hi (n, x) (by simp)))
      · exact scalar_append h (identifier_scalar (hi (n, x) (by simp)))
    · exact scalar_bitmaskNames v items _ _ (fun j hj => hi j (by simp [hj])) h

theorem scalar_bitmaskText (v : Int) (items : List (PyStr × Int)) (hi : ∀ i ∈ items, Identifier i.1) :
    ∀ c ∈ JsonWriter.bitmaskText items v, isScalar c = true := by
  have := scalar_bitmaskNames v items 0 [] hi (by simp)
  unfold JsonWriter.bitmaskText
  rcases h : JsonWriter.bitmaskNames v items 0 [] with ⟨check, text⟩
  rw [h] at this
  simp only []
  split
  · exact scalar_append (scalar_decimal v) (ascii_scalar (by decide))
  · split
    · exact scalar_append (scalar_append (scalar_append (scalar_decimal v) (ascii_scalar (by decide))) this) (ascii_scalar (by decide))
    · exact this

theorem Keeps.writeValue (ht : t.Lawful) (hc : cfg.IsPlain) {v : Val} {m : MemberInfo} (hn : NamesOf m.type)
    (h : ∀ s, v = .str s → ∀ c ∈ s, isScalar c = true) : Keeps (JsonWriter.writeValue t cfg v m) := by
  unfold JsonWriter.writeValue
  split
  · exact Keeps.writeEncoded ht (by simp)
  · split
    · exact Keeps.writeBitBuffer ht hc _
    · exact Keeps.throw _
    · exact Keeps.writeBytes ht hc _
    · exact Keeps.throw _
    · rename_i e x hm _
      rw [hm] at hn
      split
      · refine Keeps.writeEncoded ht ?_
        rintro s ⟨⟩
        exact scalar_enumText x _ fun i hi => hn.identifiers _ (List.mem_map.2 ⟨i, hi, rfl⟩)
      · exact Keeps.writeEncoded ht (by simp)
    · exact Keeps.throw _
    · rename_i d x hm _
      rw [hm] at hn
      split
      · refine Keeps.writeEncoded ht ?_
        rintro s ⟨⟩
        exact scalar_bitmaskText x _ fun i hi => hn.identifiers _ (List.mem_map.2 ⟨i, hi, rfl⟩)
      · exact Keeps.writeEncoded ht (by simp)
    · exact Keeps.throw _
    · exact Keeps.writeEncoded ht h

/-- the names and texts of an event can be written to a file -/
def PlainEvent : Event → Prop
  | .beginRoot _ => True
  | .endRoot _ => True
  | .beginArray _ m => Identifier m.schemaName
  | .endArray _ _ => True
  | .beginCompound _ m _ => Identifier m.schemaName
  | .endCompound _ _ _ => True
  | .visitValue v m _ => Identifier m.schemaName ∧ NamesOf m.type ∧ ∀ s, v = .str s → ∀ c ∈ s, isScalar c = true

theorem Keeps.observe (ht : t.Lawful) (hc : cfg.IsPlain) {e : Event} (h : PlainEvent e) : Keeps (JsonWriter.observe t cfg e) := by
  have br : ∀ c ∈ py! "{}[]", Plain c := by
    have : ∀ c ∈ py! "{}[]", c < 128 ∧ c ≠ 13 := by decide
    exact fun c hc => (this c hc).elim plain_ascii
  cases e with
  | beginRoot _ =>
    exact Keeps.beginBracket (br _ (by simp))
  | endRoot _ =>
    exact Keeps.endBracket hc (br _ (by simp))
  | beginArray _ m =>
    exact Keeps.bind (Keeps.beginItem hc) fun _ => Keeps.bind (Keeps.writeKey hc (identifier_scalar h)) fun _ =>
      Keeps.beginBracket (br _ (by simp))
  | endArray _ _ =>
    exact Keeps.bind (Keeps.endBracket hc (br _ (by simp))) fun _ => Keeps.endItem
  | beginCompound _ m idx =>
    exact Keeps.bind (Keeps.beginItem hc) fun _ => Keeps.bind (Keeps.writeItemKey hc h idx) fun _ =>
      Keeps.beginBracket (br _ (by simp))
  | endCompound _ _ _ =>
    exact Keeps.bind (Keeps.endBracket hc (br _ (by simp))) fun _ => Keeps.endItem
  | visitValue v m idx =>
    exact Keeps.bind (Keeps.beginItem hc) fun _ => Keeps.bind (Keeps.writeItemKey hc h.1 idx) fun _ =>
      Keeps.bind (Keeps.writeValue ht hc h.2.1 h.2.2) fun _ => Keeps.endItem

theorem Keeps.observeAll (ht : t.Lawful) (hc : cfg.IsPlain) : ∀ es : List Event, (∀ e ∈ es, PlainEvent e) →
    Keeps (JsonWriter.observeAll t cfg es)
  | [], _ => Keeps.pure ()
  | e :: es, h => Keeps.bind (Keeps.observe ht hc (h e (by simp))) fun _ => Keeps.observeAll ht hc es fun x hx => h x (by simp [hx])

/-! ### The events of a walk -/

/-- the member of a node -/
def nodeMember : Node → Option MemberInfo
  | .root _ _ => none
  | .array m _ => some m
  | .item m _ => some m

theorem nodeMember_node (m : MemberInfo) (x : Val) : nodeMember (m.node x) = some m := by
  unfold MemberInfo.node
  split
  · split <;> rfl
  · rfl

theorem hasNode_member {I : TypeInfos} {n n' : Node} {p : Path} (h : HasNode I n p n') :
    (∀ m, nodeMember n = some m → ∃ id, m ∈ (I id).fields) → ∀ m, nodeMember n' = some m → ∃ id, m ∈ (I id).fields := by
  induction h with
  | refl => exact id
  | step hc _ ih =>
    intro hn
    refine ih ?_
    cases hc with
    | elem _ => exact hn
    | @field _ id o m x _ hf =>
      intro m' hm'
      rw [nodeMember_node] at hm'
      cases hm'
      cases hf with
      | struct _ hm _ _ => exact ⟨id, hm⟩
      | chosen _ hm _ => exact ⟨id, List.mem_of_getElem? hm⟩

/-- every event reports a node -/
theorem nested_event {p : Path} {a : Bool} {es : List Event} {L : List (Path × Node)} (h : Nested p a es L) :
    ∀ e ∈ es, (∃ xs m q, (e = .beginArray xs m ∨ e = .endArray xs m) ∧ (q, .array m xs) ∈ L) ∨
      ∃ v m idx q, (e = .visitValue v m idx ∨ e = .beginCompound v m idx ∨ e = .endCompound v m idx) ∧ (q, .item m v) ∈ L := by
  induction h with
  | nil => simp
  | @value p v m i es L _ ih =>
    intro e he
    rcases List.mem_cons.1 he with rfl | he
    · exact .inr ⟨v, m, i, _, .inl rfl, List.mem_cons_self⟩
    · rcases ih e he with ⟨xs, m', q, h1, h2⟩ | ⟨v', m', i', q, h1, h2⟩
      · exact .inl ⟨xs, m', q, h1, List.mem_cons_of_mem _ h2⟩
      · exact .inr ⟨v', m', i', q, h1, List.mem_cons_of_mem _ h2⟩
  | @compound p v m i es1 es L1 L _ _ ih1 ih =>
    intro e he
    simp only [List.cons_append, List.mem_cons, List.mem_append] at he ⊢
    rcases he with rfl | he | rfl | he
    · exact .inr ⟨v, m, i, _, .inr (.inl rfl), .inl rfl⟩
    · rcases ih1 e he with ⟨xs, m', q, h1, h2⟩ | ⟨v', m', i', q, h1, h2⟩
      · exact .inl ⟨xs, m', q, h1, .inr (.inl h2)⟩
      · exact .inr ⟨v', m', i', q, h1, .inr (.inl h2)⟩
    · exact .inr ⟨v, m, i, _, .inr (.inr rfl), .inl rfl⟩
    · rcases ih e he with ⟨xs, m', q, h1, h2⟩ | ⟨v', m', i', q, h1, h2⟩
      · exact .inl ⟨xs, m', q, h1, .inr (.inr h2)⟩
      · exact .inr ⟨v', m', i', q, h1, .inr (.inr h2)⟩
  | @array p xs m es1 es L1 L _ _ ih1 ih =>
    intro e he
    simp only [List.cons_append, List.mem_cons, List.mem_append] at he ⊢
    rcases he with rfl | he | rfl | he
    · exact .inl ⟨xs, m, _, .inl rfl, .inl rfl⟩
    · rcases ih1 e he with ⟨xs, m', q, h1, h2⟩ | ⟨v', m', i', q, h1, h2⟩
      · exact .inl ⟨xs, m', q, h1, .inr (.inl h2)⟩
      · exact .inr ⟨v', m', i', q, h1, .inr (.inl h2)⟩
    · exact .inl ⟨xs, m, _, .inr rfl, .inl rfl⟩
    · rcases ih e he with ⟨xs, m', q, h1, h2⟩ | ⟨v', m', i', q, h1, h2⟩
      · exact .inl ⟨xs, m', q, h1, .inr (.inr h2)⟩
      · exact .inr ⟨v', m', i', q, h1, .inr (.inr h2)⟩

end Json
end Zserio
