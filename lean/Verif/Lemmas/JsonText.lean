import Verif.Spec.JsonText
import Mathlib.Data.Nat.Digits.Lemmas
import Mathlib.Data.Nat.Digits.Defs
/-
Lemmas about the JSON encoder and decoder.
-/
set_option linter.unusedSimpArgs false
namespace Zserio.Json

/-! ### Strings -/

theorem hexValue_hexChar {d : Nat} (h : d < 16) : hexValue (hexChar d) = some d := by
  have : ∀ d : Fin 16, hexValue (hexChar d.1) = some d.1 := by decide +kernel
  exact this ⟨d, h⟩

/-- One character of a string passes through escaping and the loop. -/
theorem decodeStringLoop_escape (c : Nat) (x : Nat) (rest : PyStr) (n : Nat) (decoded : PyStr) :
    decodeStringLoop (escapeChar c ++ x :: rest) n decoded =
      decodeStringLoop (x :: rest) (n + (escapeChar c).length) (decoded ++ [c]) := by
  unfold escapeChar
  split
  · rename_i h; subst h
    rw [show py! "\\\\" ++ x :: rest = 92 :: 92 :: x :: rest from rfl, decodeStringLoop.eq_def]
    simp
  split
  · rename_i h; subst h
    rw [show py! "\\\"" ++ x :: rest = 92 :: 34 :: x :: rest from rfl, decodeStringLoop.eq_def]
    simp
  split
  · rename_i h; subst h
    rw [show py! "\\b" ++ x :: rest = 92 :: 98 :: x :: rest from rfl, decodeStringLoop.eq_def]
    simp
  split
  · rename_i h; subst h
    rw [show py! "\\f" ++ x :: rest = 92 :: 102 :: x :: rest from rfl, decodeStringLoop.eq_def]
    simp
  split
  · rename_i h; subst h
    rw [show py! "\\n" ++ x :: rest = 92 :: 110 :: x :: rest from rfl, decodeStringLoop.eq_def]
    simp
  split
  · rename_i h; subst h
    rw [show py! "\\r" ++ x :: rest = 92 :: 114 :: x :: rest from rfl, decodeStringLoop.eq_def]
    simp
  split
  · rename_i h; subst h
    rw [show py! "\\t" ++ x :: rest = 92 :: 116 :: x :: rest from rfl, decodeStringLoop.eq_def]
    simp
  split
  · rename_i h
    rw [show (py! "\\u" ++ [hexChar (c / 16 ^ 3 % 16), hexChar (c / 16 ^ 2 % 16), hexChar (c / 16 % 16), hexChar (c % 16)]) ++
      x :: rest = 92 :: 117 :: hexChar (c / 16 ^ 3 % 16) :: hexChar (c / 16 ^ 2 % 16) :: hexChar (c / 16 % 16) ::
        hexChar (c % 16) :: x :: rest from rfl, decodeStringLoop.eq_def]
    have h1 : decodeUnicodeEscape (hexChar (c / 16 ^ 3 % 16)) (hexChar (c / 16 ^ 2 % 16)) (hexChar (c / 16 % 16))
        (hexChar (c % 16)) = some c := by
      unfold decodeUnicodeEscape
      rw [hexValue_hexChar (by omega), hexValue_hexChar (by omega), hexValue_hexChar (by omega), hexValue_hexChar (by omega)]
      simp only [Option.some.injEq]
      omega
    simp only [h1]
    simp
  · rename_i h1 h2 _ _ _ _ _ _
    rw [List.cons_append, List.nil_append]
    conv_lhs => rw [decodeStringLoop.eq_def]
    simp only [if_neg h1, if_neg h2, List.length_cons, List.length_nil]

theorem decodeStringLoop_flatMap : ∀ (s : PyStr) (tail : PyStr) (n : Nat) (decoded : PyStr),
    decodeStringLoop (s.flatMap escapeChar ++ ch! '"' :: tail) n decoded =
      success (.str (decoded ++ s)) (n + (s.flatMap escapeChar).length + 1)
  | [], tail, n, decoded => by
    rw [List.flatMap_nil, List.nil_append, decodeStringLoop.eq_def]
    simp
  | c :: s, tail, n, decoded => by
    have hne : ∃ x r, s.flatMap escapeChar ++ ch! '"' :: tail = x :: r := by
      cases h : s.flatMap escapeChar ++ ch! '"' :: tail with
      | nil => simp at h
      | cons x r => exact ⟨x, r, rfl⟩
    obtain ⟨x, r, hx⟩ := hne
    rw [List.flatMap_cons, List.append_assoc, hx, decodeStringLoop_escape, ← hx, decodeStringLoop_flatMap s]
    simp [success]; omega

theorem decode_encodeString (t : PyText) (s tail : PyStr) :
    decodeValue t (encodeString s ++ tail) = success (.str s) (encodeString s).length := by
  have h : encodeString s ++ tail = 34 :: (s.flatMap escapeChar ++ 34 :: tail) := by
    simp [encodeString]
  rw [h, decodeValue.eq_def]
  have := decodeStringLoop_flatMap s tail 1 []
  rw [List.nil_append] at this
  simp [decodeString, this, encodeString, success]; omega

/-! ### Numbers -/

theorem decimalNat_digits (n : Nat) : ∀ c ∈ decimalNat n, IsDecimal c := by
  unfold decimalNat IsDecimal
  split
  · simp
  · intro c hc
    simp only [List.mem_map, List.mem_reverse] at hc
    obtain ⟨d, hd, rfl⟩ := hc
    have := Nat.digits_lt_base (b := 10) (by omega) hd
    simp; omega

theorem decimalNat_ne_nil (n : Nat) : decimalNat n ≠ [] := by
  unfold decimalNat
  split
  · simp
  · rename_i h
    simp [Nat.digits_ne_nil_iff_ne_zero, h]

variable {t : PyText}

theorem parseDigits_append (ht : ∀ c, IsDecimal c → t.decimal c = some (c - 48)) : ∀ (l : List Nat) (acc : Nat),
    (∀ d ∈ l, d < 10) → parseDigits t (l.map (ch! '0' + ·)) acc = some (l.foldl (fun a d => a * 10 + d) acc)
  | [], _, _ => rfl
  | d :: l, acc, h => by
    have hd := h d (by simp)
    simp only [List.map_cons, List.foldl_cons]
    rw [parseDigits, ht _ (by unfold IsDecimal; simp; omega)]
    have : ch! '0' + d - 48 = d := by simp
    simp only [this]
    exact parseDigits_append ht l _ fun d hd => h d (by simp [hd])

theorem foldl_reverse_digits : ∀ (l : List Nat), l.reverse.foldl (fun a d => a * 10 + d) 0 = Nat.ofDigits 10 l
  | [] => rfl
  | d :: l => by
    rw [List.reverse_cons, List.foldl_append, foldl_reverse_digits l]
    simp [Nat.ofDigits_cons]; ring

theorem parseDigits_decimalNat (ht : ∀ c, IsDecimal c → t.decimal c = some (c - 48)) (n : Nat) :
    parseDigits t (decimalNat n) 0 = some n := by
  unfold decimalNat
  split
  · rename_i h; subst h
    rw [parseDigits, ht _ (by unfold IsDecimal; simp)]; rfl
  · rw [parseDigits_append ht _ _ fun d hd => Nat.digits_lt_base (b := 10) (by omega) (by simpa using hd),
      foldl_reverse_digits, Nat.ofDigits_digits]

theorem isDigit_of_isDecimal (ht : t.Lawful) {c : Nat} (h : IsDecimal c) : t.isDigit c = true := by
  have h' := h
  unfold IsDecimal at h'
  exact (ht.isDigit c (by omega)).2 h

theorem extractLoop_digits (ht : t.Lawful) : ∀ (l : PyStr) (rest : PyStr) (sc fl : Bool), (∀ c ∈ l, IsDecimal c) →
    extractLoop t (l ++ rest) false sc fl = ((extractLoop t rest false sc fl).1 + l.length, (extractLoop t rest false sc fl).2)
  | [], rest, sc, fl, _ => by simp
  | c :: l, rest, sc, fl, h => by
    rw [List.cons_append, extractLoop]
    simp only [Bool.false_and, Bool.false_eq_true, if_false, isDigit_of_isDecimal ht (h c (by simp)), if_true]
    rw [extractLoop_digits ht l rest sc fl fun c hc => h c (by simp [hc])]
    simp; omega

theorem extractLoop_end {tail : PyStr} (h : EndsNumber t tail) (sc fl : Bool) : extractLoop t tail false sc fl = (0, fl) := by
  cases tail with
  | nil => rfl
  | cons c tail =>
    obtain ⟨h1, h2, h3, h4⟩ := h c rfl
    rw [extractLoop]
    simp [h1, h2, h3, h4]

theorem decodeValue_digit {c : Nat} {rest : PyStr} (h : IsDecimal c) : decodeValue t (c :: rest) = decodeNumber t (c :: rest) := by
  unfold IsDecimal at h
  have hn : ∀ x : Nat, (x < 48 ∨ 57 < x) → c ≠ x := by intro x hx; omega
  rw [decodeValue.eq_def]
  simp only [if_neg (hn 110 (by omega)), if_neg (hn 116 (by omega)), if_neg (hn 102 (by omega)), if_neg (hn 78 (by omega)),
    if_neg (hn 73 (by omega)), if_neg (hn 34 (by omega)), if_neg (hn 45 (by omega))]

theorem decodeValue_minus {c : Nat} {rest : PyStr} (h : IsDecimal c) :
    decodeValue t (ch! '-' :: c :: rest) = decodeNumber t (ch! '-' :: c :: rest) := by
  unfold IsDecimal at h
  have hn : ∀ x : Nat, (x < 48 ∨ 57 < x) → c ≠ x := by intro x hx; omega
  rw [decodeValue.eq_def]
  simp only [if_neg (hn 73 (by omega))]
  simp

theorem decode_decimalInt (ht : t.Lawful) (v : Int) (tail : PyStr) (h : EndsNumber t tail) :
    decodeValue t (decimalInt v ++ tail) = success (.int v) (decimalInt v).length := by
  have hd := decimalNat_digits v.natAbs
  obtain ⟨c, l, hc⟩ := List.exists_cons_of_ne_nil (decimalNat_ne_nil v.natAbs)
  have hp := parseDigits_decimalNat ht.decimal v.natAbs
  have he := extractLoop_digits ht (decimalNat v.natAbs) tail false false hd
  rw [extractLoop_end h] at he
  rw [hc] at hd hp he
  have hcd : IsDecimal c := hd c (by simp)
  unfold decimalInt
  split
  · rename_i hv
    rw [hc]
    rw [List.cons_append, List.cons_append, decodeValue_minus hcd, decodeNumber, extractNumber]
    simp only [if_true]
    rw [List.cons_append] at he
    rw [he]
    have : (ch! '-' :: c :: (l ++ tail)).take (0 + (c :: l).length + 1) = ch! '-' :: c :: l := by
      simp
    simp only [this, Bool.false_eq_true, if_false]
    rw [if_neg (by simp), parseInt]
    simp only [if_true, hp, Option.map_some]
    rw [if_neg (by simp)]
    have hv' : -(v.natAbs : Int) = v := by omega
    rw [hv']
  · rename_i hv
    rw [hc]
    rw [List.cons_append, decodeValue_digit hcd, decodeNumber, extractNumber]
    have hne : c ≠ ch! '-' := by unfold IsDecimal at hcd; simp; omega
    simp only [if_neg hne]
    rw [List.cons_append] at he
    rw [he]
    have : (c :: (l ++ tail)).take (0 + (c :: l).length) = c :: l := by simp
    simp only [this, Bool.false_eq_true, if_false]
    rw [if_neg (by simp), parseInt]
    simp only [if_neg hne, hp, Option.map_some]
    have hv' : (v.natAbs : Int) = v := by omega
    rw [hv']

theorem decode_literal_append (text tail : PyStr) (v : Val) :
    decodeLiteral (text ++ tail) text v = success v text.length := by
  unfold decodeLiteral
  rw [if_neg (by simp), if_pos (by simp)]

/-! ### Floats -/

theorem extractLoop_digit {c : Nat} (h : t.isDigit c = true) (hc : IsDecimal c) (rest : PyStr) (a sc fl : Bool) :
    extractLoop t (c :: rest) a sc fl =
      ((extractLoop t rest false sc fl).1 + 1, (extractLoop t rest false sc fl).2) := by
  unfold IsDecimal at hc
  have h1 : (c == 43) = false := by simp; omega
  have h2 : (c == 45) = false := by simp; omega
  rw [extractLoop]
  simp [h, h1, h2]

theorem extractLoop_exp (ht : t.Lawful) {e : Nat} {sg ds tail : PyStr} (he : e = 101 ∨ e = 69)
    (hsg : sg = [] ∨ sg = [43] ∨ sg = [45]) (hne : ds ≠ []) (hds : ∀ c ∈ ds, IsDecimal c) (htl : EndsNumber t tail) (fl : Bool) :
    extractLoop t (e :: (sg ++ ds) ++ tail) false false fl = ((e :: (sg ++ ds)).length, true) := by
  have hnd : t.isDigit e = false := by
    have := ht.isDigit e (by omega)
    unfold IsDecimal at this
    cases hx : t.isDigit e with
    | false => rfl
    | true => have := this.1 hx; omega
  have hrest : extractLoop t (sg ++ ds ++ tail) true true true = ((sg ++ ds).length, true) := by
    obtain ⟨c, l, rfl⟩ := List.exists_cons_of_ne_nil hne
    have hc := hds c (by simp)
    have h0 : extractLoop t (l ++ tail) false true true = (l.length, true) := by
      rw [extractLoop_digits ht l tail true true fun c hc => hds c (by simp [hc]), extractLoop_end htl]; simp
    have h1 : ∀ a, extractLoop t (c :: (l ++ tail)) a true true = (l.length + 1, true) := by
      intro a
      rw [extractLoop_digit (isDigit_of_isDecimal ht hc) hc, h0]
    rcases hsg with rfl | rfl | rfl
    · simp only [List.nil_append, List.cons_append]
      rw [h1]; simp
    · simp only [List.cons_append, List.nil_append]
      rw [extractLoop]
      simp [h1]
    · simp only [List.cons_append, List.nil_append]
      rw [extractLoop]
      simp [h1]
  rw [List.cons_append, extractLoop]
  have he' : (e == 101 || e == 69) = true := by rcases he with rfl | rfl <;> rfl
  simp [hnd, he', hrest, ← List.append_assoc]

theorem extract_float (ht : t.Lawful) {s tail : PyStr} (hs : FloatShape s) (htl : EndsNumber t tail) :
    extractNumber t (s ++ tail) = (s, true) ∧ decodeValue t (s ++ tail) = decodeNumber t (s ++ tail) ∧ s ≠ [] := by
  obtain ⟨sign, int, frac, exp, rfl, hsign, hint, hintd, hfrac, hexp, hone⟩ := hs
  obtain ⟨c, l, rfl⟩ := List.exists_cons_of_ne_nil hint
  have hc := hintd c (by simp)
  have hexp' : ∀ fl, (frac ≠ [] → fl = true) →
      extractLoop t (exp ++ tail) false false fl = (exp.length, true) ∨ (exp = [] ∧ frac = []) := by
    intro fl hfl
    rcases hexp with rfl | ⟨e, sg, ds, rfl, he, hsg, hne, hds⟩
    · by_cases hf : frac = []
      · exact .inr ⟨rfl, hf⟩
      · refine .inl ?_
        rw [List.nil_append, extractLoop_end htl, hfl hf]; rfl
    · exact .inl (extractLoop_exp ht he hsg hne hds htl fl)
  have hloop : extractLoop t (c :: l ++ frac ++ exp ++ tail) false false false = ((c :: l ++ frac ++ exp).length, true) := by
    rw [List.append_assoc, List.append_assoc, extractLoop_digits ht (c :: l) _ _ _ hintd]
    rcases hfrac with rfl | ⟨ds, rfl, hds⟩
    · rw [List.nil_append]
      rcases hexp' false (by simp) with h | ⟨rfl, _⟩
      · rw [h]; simp; omega
      · simp at hone
    · have hdot : t.isDigit 46 = false := by
        have := ht.isDigit 46 (by omega)
        unfold IsDecimal at this
        cases hx : t.isDigit 46 with
        | false => rfl
        | true => have := this.1 hx; omega
      rw [List.cons_append, extractLoop]
      simp only [Bool.false_and, Bool.false_eq_true, if_false, hdot]
      rw [extractLoop_digits ht ds _ _ _ hds]
      rcases hexp' true (by simp) with h | ⟨_, h⟩
      · rw [h]; simp; omega
      · simp at h
  have hne45 : c ≠ 45 := by unfold IsDecimal at hc; omega
  rcases hsign with rfl | rfl
  · have h0 : [] ++ c :: l ++ frac ++ exp ++ tail = c :: (l ++ frac ++ exp ++ tail) := by simp
    refine ⟨?_, ?_, by simp⟩
    · rw [h0, extractNumber]
      simp only [if_neg hne45]
      have h1 : c :: (l ++ frac ++ exp ++ tail) = c :: l ++ frac ++ exp ++ tail := by simp
      rw [h1, hloop]
      simp only [List.nil_append, Prod.mk.injEq, and_true]
      exact List.take_left' rfl
    · rw [h0, decodeValue_digit hc]
  · have h0 : [45] ++ c :: l ++ frac ++ exp ++ tail = 45 :: c :: (l ++ frac ++ exp ++ tail) := by simp
    refine ⟨?_, ?_, by simp⟩
    · rw [h0, extractNumber]
      simp only [if_true]
      have h1 : c :: (l ++ frac ++ exp ++ tail) = c :: l ++ frac ++ exp ++ tail := by simp
      rw [h1, hloop]
      simp only [Prod.mk.injEq, and_true]
      have : ([45] ++ c :: l ++ frac ++ exp) = 45 :: (c :: l ++ frac ++ exp) := by simp
      rw [this, List.take_succ_cons]
      congr 1
      exact List.take_left' rfl
    · rw [h0, decodeValue_minus hc]

theorem decode_repr (ht : t.Lawful) {x : PyFloat} (hx : x.toNat % 2 ^ 63 < 2047 * 2 ^ 52) {tail : PyStr} (htl : EndsNumber t tail) :
    decodeValue t (t.floatRepr x ++ tail) = success (.float x) (t.floatRepr x).length := by
  obtain ⟨h1, h2, h3⟩ := extract_float ht (ht.repr_shape x hx) htl
  rw [h2, decodeNumber, h1]
  simp only [if_true, ht.parse_repr x hx]
  rw [if_neg (by simpa using h3)]

theorem simple_lawful : PyText.simple.Lawful := by
  refine ⟨?_, ?_, ?_, ?_⟩
  · intro c _; simp [PyText.simple, IsDecimal]
  · intro c h; unfold IsDecimal at h; simp [PyText.simple, h]
  · intro x _
    refine ⟨[], decimalNat x.toNat, [], [101, 48], by simp [PyText.simple], .inl rfl, decimalNat_ne_nil _, decimalNat_digits _,
      .inl rfl, .inr ⟨101, [], [48], by simp, .inl rfl, .inl rfl, by simp, by simp [IsDecimal]⟩, by simp⟩
  · intro x _
    simp only [PyText.simple]
    have h1 : List.take ((decimalNat x.toNat ++ [101, 48]).length - 2) (decimalNat x.toNat ++ [101, 48]) = decimalNat x.toNat := by
      simp
    rw [h1]
    have h2 : ∀ t' : PyText, (∀ c, IsDecimal c → t'.decimal c = some (c - 48)) → parseInt t' (decimalNat x.toNat) = some (x.toNat : Int) := by
      intro t' ht'
      have hp := parseDigits_decimalNat ht' x.toNat
      have hd := decimalNat_digits x.toNat
      obtain ⟨c, l, hc⟩ := List.exists_cons_of_ne_nil (decimalNat_ne_nil x.toNat)
      rw [hc] at hp hd ⊢
      have := hd c (by simp)
      unfold IsDecimal at this
      rw [parseInt]
      rw [if_neg (by omega), hp]
      rfl
    rw [h2 _ (by intro c h; unfold IsDecimal at h; simp [h])]
    simp

end Zserio.Json
