import Verif.Model.Literal
import Mathlib.Tactic.NormNum
set_option linter.unusedSimpArgs false
/-
C76: literals in Python code have the value they have in the schema.
-/
namespace Zserio.Expression

/-! ### Integers -/

theorem indexOf_not_mem {c : Nat} : ∀ {l : PyStr}, c ∉ l → indexOf c l = none
  | [], _ => rfl
  | x :: xs, h => by
    rw [List.mem_cons, not_or] at h
    simp [indexOf, Ne.symm h.1, indexOf_not_mem h.2]

theorem indexOf_append {c : Nat} : ∀ {l m : PyStr}, c ∉ l → indexOf c (l ++ c :: m) = some l.length
  | [], _, _ => by simp [indexOf]
  | x :: xs, m, h => by
    rw [List.mem_cons, not_or] at h
    simp [indexOf, Ne.symm h.1, indexOf_append (m := m) h.2]

/-- digits are not letters behind `f` -/
theorem digit_ne {b : Base} {c : Nat} (h : b.isDigit c = true) : c ≠ ch! 'x' ∧ c ≠ ch! 'X' ∧
    (b ≠ .hex → c ≠ ch! 'b' ∧ c ≠ ch! 'B' ∧ c ≠ ch! 'f' ∧ c ≠ ch! 'F' ∧ c ≠ ch! 'o') := by
  refine ⟨?_, ?_, fun hb => ⟨?_, ?_, ?_, ?_, ?_⟩⟩ <;> rintro rfl <;> cases b <;> first | exact absurd rfl hb | exact absurd h (by decide)

theorem strip_digits {b : Base} {digits text : PyStr} (h : IntToken b digits text) : stripIntLiteral b text = digits := by
  obtain ⟨h1, h2, h3⟩ := h
  cases b with
  | bin =>
    have hb : (ch! 'b') ∉ digits := fun hm => absurd (h2 _ hm) (by decide)
    have hB : (ch! 'B') ∉ digits := fun hm => absurd (h2 _ hm) (by decide)
    simp only at h3
    rcases h3 with rfl | rfl
    · simp [stripIntLiteral, stripBinaryLiteral, findChars, indexOf_append hb]
    · have : indexOf (ch! 'b') (digits ++ [ch! 'B']) = none := indexOf_not_mem (by simp [hb])
      simp [stripIntLiteral, stripBinaryLiteral, findChars, this, indexOf_append hB]
  | oct =>
    simp only at h3
    subst h3
    simp [stripIntLiteral, stripOctalLiteral, indexOf]
  | dec => exact h3.1
  | hex =>
    have hx : (ch! 'x') ∉ digits := fun hm => absurd (h2 _ hm) (by decide)
    simp only at h3
    rcases h3 with rfl | rfl
    · simp [stripIntLiteral, stripHexadecimalLiteral, findChars, indexOf]
    · have : indexOf (ch! 'x') digits = none := indexOf_not_mem hx
      simp [stripIntLiteral, stripHexadecimalLiteral, findChars, indexOf, this]

theorem pyNumber_of_digits {digits : PyStr} (h : ∀ a b r, digits = a :: b :: r → a = 48 → False) :
    pyNumber digits = if digits ≠ [] ∧ digits.all Base.dec.isDigit ∧ (digits.head? = some 48 → digits.all (· == 48)) then
      some (Base.dec.value digits : Int) else none := by
  unfold pyNumber
  split
  · exact absurd rfl (fun hh => h _ _ _ rfl hh)
  · exact absurd rfl (fun hh => h _ _ _ rfl hh)
  · exact absurd rfl (fun hh => h _ _ _ rfl hh)
  · rfl

/-- **C76.** Every integer literal of a schema becomes a Python literal with the same value. -/
theorem C76_integer (b : Base) (digits text : PyStr) (h : IntToken b digits text) :
    pyNumber (intLiteral b text) = some (b.value digits : Int) := by
  have hs := strip_digits h
  obtain ⟨h1, h2, h3⟩ := h
  have hall : digits.all b.isDigit = true := List.all_eq_true.2 h2
  unfold intLiteral
  rw [hs]
  cases b with
  | bin => simp [Base.prefix, pyNumber, h1, hall]
  | oct => simp [Base.prefix, pyNumber, h1, hall]
  | hex => simp [Base.prefix, pyNumber, h1, hall]
  | dec =>
    simp only [Base.prefix, List.nil_append]
    rw [pyNumber_of_digits, if_pos]
    · refine ⟨h1, hall, fun hh => ?_⟩
      rw [h3.2 hh]
      rfl
    · rintro a b r rfl rfl
      have := h3.2 rfl
      simp at this

example : IntToken .hex (py! "cafeBABE") (py! "0XcafeBABE") ∧ IntToken .bin (py! "001") (py! "001B") ∧
    IntToken .oct (py! "377") (py! "0377") ∧ IntToken .dec (py! "4711") (py! "4711") ∧
    intLiteral .oct (py! "0377") = py! "0o377" ∧ Base.oct.value (py! "377") = 255 := by
  refine ⟨?_, ?_, ?_, ?_, by decide, by decide⟩ <;> simp [IntToken] <;> decide

/-! ### Strings -/

/-- the value of a literal in Python code -/
def StrChar.pyValue : StrChar → PyStr
  | .octal digits => Base.oct.value (digits.take 2) :: digits.drop 2
  | c => [c.value]

theorem oct_digit_facts {c : Nat} (h : Base.oct.isDigit c = true) : 48 ≤ c ∧ c ≤ 55 := by
  simp only [Base.isDigit, Bool.and_eq_true, Bool.or_eq_true, decide_eq_true_eq] at h
  have h2 : digitValue c < 8 := h.2
  unfold digitValue at h2
  split at h2
  · omega
  · split at h2 <;> omega

theorem take_append_of_length {l m : PyStr} {n : Nat} (h : l.length = n) : (l ++ m).take n = l := by
  subst h; simp

theorem skip_append : ∀ (l m : PyStr) (n : Nat), pyChars (l.length + n) (l ++ m) = pyChars n m
  | [], m, n => by simp
  | x :: xs, m, n => by
    rw [List.length_cons, show xs.length + 1 + n = (xs.length + n) + 1 by omega, List.cons_append, pyChars]
    exact skip_append xs m n

theorem skip_exact {l m : PyStr} {n : Nat} (h : l.length = n) : pyChars n (l ++ m) = pyChars 0 m := by
  subst h
  exact skip_append l m 0

/-- one character of a literal, followed by something -/
theorem pyChars_char {c : StrChar} (hc : c.Ok) {rest v : PyStr}
    (hr : ∀ digits, c = .octal digits → digits.length = 1 → ∀ d, rest.head? = some d → Base.oct.isDigit d = false)
    (hv : pyChars 0 rest = some v) : pyChars 0 (c.text ++ rest) = some (c.pyValue ++ v) := by
  cases c with
  | plain c =>
    obtain ⟨h1, h2, h3, h4, h5⟩ := hc
    simp [StrChar.text, pyChars, h1, h2, h3, h4, hv, StrChar.pyValue, StrChar.value]
  | simple c =>
    have hc' : c = ch! '"' ∨ c = ch! '\\' ∨ c = ch! 'r' ∨ c = ch! 'n' ∨ c = ch! 'f' ∨ c = ch! 't' := by
      simpa [StrChar.Ok] using hc
    rcases hc' with rfl | rfl | rfl | rfl | rfl | rfl <;>
      simp [StrChar.text, pyChars, pyEscape, hv, StrChar.pyValue, StrChar.value]
  | unicode digits =>
    obtain ⟨h1, h2⟩ := hc
    have hall : digits.all Base.hex.isDigit = true := List.all_eq_true.2 h2
    have ht : pyChars 5 (117 :: (digits ++ rest)) = some v := by
      rw [show (117 :: (digits ++ rest) : PyStr) = (117 :: digits) ++ rest from rfl, skip_exact (by simp [h1]), hv]
    have he : pyEscape (117 :: (digits ++ rest)) = some ([Base.hex.value digits], 5) := by
      have hoct : Base.oct.isDigit 117 = false := by decide
      simp [pyEscape, hoct, pyHex, take_append_of_length h1, h1, hall]
    simp only [StrChar.text, List.cons_append, pyChars, if_true]
    rw [he]
    simp only [ht, Option.map_some, StrChar.pyValue, StrChar.value]
  | hex digits =>
    obtain ⟨h1, h2⟩ := hc
    have hall : digits.all Base.hex.isDigit = true := List.all_eq_true.2 h2
    have ht : pyChars 3 (120 :: (digits ++ rest)) = some v := by
      rw [show (120 :: (digits ++ rest) : PyStr) = (120 :: digits) ++ rest from rfl, skip_exact (by simp [h1]), hv]
    have he : pyEscape (120 :: (digits ++ rest)) = some ([Base.hex.value digits], 3) := by
      have hoct : Base.oct.isDigit 120 = false := by decide
      simp [pyEscape, hoct, pyHex, take_append_of_length h1, h1, hall]
    simp only [StrChar.text, List.cons_append, pyChars, if_true]
    rw [he]
    simp only [ht, Option.map_some, StrChar.pyValue, StrChar.value]
  | octal digits =>
    obtain ⟨h1, h2⟩ := hc
    have h0 : Base.oct.isDigit 48 = true := by decide
    have key : ∀ ds, (((digits ++ rest).take 2).takeWhile Base.oct.isDigit = ds) → ds = digits.take 2 →
        pyChars 0 (digits.drop 2 ++ rest) = some (digits.drop 2 ++ v) →
        pyChars 0 ((StrChar.octal digits).text ++ rest) = some ((StrChar.octal digits).pyValue ++ v) := by
      intro ds e1 e2 e3
      have he : pyEscape (48 :: (digits ++ rest)) = some ([Base.oct.value (48 :: digits.take 2)], (digits.take 2).length + 1) := by
        rw [← e2, ← e1]
        simp [pyEscape, h0]
      have ht : pyChars ((digits.take 2).length + 1) (48 :: (digits ++ rest)) = some (digits.drop 2 ++ v) := by
        rw [show (48 :: (digits ++ rest) : PyStr) = (48 :: digits.take 2) ++ (digits.drop 2 ++ rest) by
          rw [List.cons_append, ← List.append_assoc, List.take_append_drop]]
        rw [skip_exact (by simp), e3]
      have hz : Base.oct.value (48 :: digits.take 2) = Base.oct.value (digits.take 2) := by
        simp [Base.value, digitValue]
      simp only [StrChar.text, List.cons_append, pyChars]
      rw [he]
      simp only [if_true, ht, hz, StrChar.pyValue, Option.map_some, List.cons_append, List.nil_append]
    match digits, h1, h2, hr, key with
    | [], h1, _, _, _ => simp at h1
    | [a], _, h2, hr, key =>
      have ha : Base.oct.isDigit a = true := h2 a (by simp)
      refine key [a] ?_ rfl (by simpa using hv)
      cases rest with
      | nil => simp [ha]
      | cons d rest => simp [ha, hr _ rfl rfl d rfl]
    | [a, b], _, h2, hr, key =>
      have ha : Base.oct.isDigit a = true := h2 a (by simp)
      have hb : Base.oct.isDigit b = true := h2 b (by simp)
      exact key [a, b] (by simp [ha, hb]) rfl (by simpa using hv)
    | [a, b, c], _, h2, hr, key =>
      have ha : Base.oct.isDigit a = true := h2 a (by simp)
      have hb : Base.oct.isDigit b = true := h2 b (by simp)
      have hc := oct_digit_facts (h2 c (by simp))
      refine key [a, b] (by simp [ha, hb]) rfl ?_
      simp only [List.drop_succ_cons, List.drop_zero, List.cons_append, List.nil_append]
      rw [pyChars, if_neg (by omega), if_neg (by omega), hv]
      rfl
    | a :: b :: c :: d :: _, h1, _, _, _ => simp at h1

theorem pyString_chars : ∀ (cs : List StrChar), (∀ c ∈ cs, c.Ok) → Longest cs →
    pyString (cs.flatMap StrChar.text) = some (cs.flatMap StrChar.pyValue)
  | [], _, _ => rfl
  | c :: cs, h1, h2 => by
    have hl : Longest cs := by cases c <;> first | exact h2 | exact h2.2
    have ih := pyString_chars cs (fun c hc => h1 c (List.mem_cons_of_mem _ hc)) hl
    rw [List.flatMap_cons, List.flatMap_cons]
    refine pyChars_char (h1 c List.mem_cons_self) ?_ ih
    rintro digits rfl hd d hh
    rcases hb : Base.oct.isDigit d with _ | _
    · rfl
    · exfalso
      refine h2.1 d hh hb ⟨Or.inr (Or.inl (by simp [hd])), ?_⟩
      intro x hx
      rcases List.mem_append.1 hx with hx | hx
      · exact (h1 _ List.mem_cons_self).2 x hx
      · rw [List.mem_singleton.1 hx, hb]

/-- **C76 (partial).** Every string literal of a schema without an escape of the form `\0coo` is a Python literal with the same
value. -/
theorem C76_string_partial (cs : List StrChar) (text value : PyStr) (h : StrToken cs text value)
    (ho : ∀ digits, .octal digits ∈ cs → digits.length ≠ 3) : pyString text = some value := by
  obtain ⟨h1, h2, rfl, rfl⟩ := h
  rw [pyString_chars cs h1 h2]
  congr 1
  have key : ∀ c ∈ cs, c.pyValue = [c.value] := by
   intro c hc
   cases c with
   | octal digits =>
    have hl : digits.length ≤ 2 := by
      have := (h1 _ hc).1
      have := ho _ hc
      omega
    simp [StrChar.pyValue, StrChar.value, List.take_of_length_le hl, List.drop_of_length_le hl]
   | _ => rfl
  clear ho h1 h2
  induction cs with
  | nil => rfl
  | cons c cs ih =>
    rw [List.flatMap_cons, List.map_cons, key c List.mem_cons_self, ih fun d hd => key d (List.mem_cons_of_mem _ hd)]
    rfl

/-- **C76 fails for `\0coo`:** every escape of this form is one character for the schema and two characters in Python. -/
theorem C76_octal (c a b : Nat) (hc : Base.oct.isDigit c ∧ c ≤ ch! '3') (ha : Base.oct.isDigit a) (hb : Base.oct.isDigit b) :
    StrToken [.octal [c, a, b]] (py! "\\0" ++ [c, a, b]) [Base.oct.value [c, a, b]] ∧
    pyString (py! "\\0" ++ [c, a, b]) = some [Base.oct.value [c, a], b] := by
  have hok : (StrChar.octal [c, a, b]).Ok := by
    refine ⟨Or.inr (Or.inr ⟨rfl, c, rfl, hc.2⟩), ?_⟩
    simp [hc.1, ha, hb]
  have hl : Longest [.octal [c, a, b]] := ⟨by simp, trivial⟩
  refine ⟨⟨by simpa using hok, hl, rfl, rfl⟩, ?_⟩
  exact pyString_chars [.octal [c, a, b]] (by simpa using hok) hl

/-- `"You\n\x41\u20AC\047\""` -/
example : StrToken [.plain (ch! 'Y'), .plain (ch! 'o'), .plain (ch! 'u'), .simple (ch! 'n'), .hex (py! "41"), .unicode (py! "20aC"),
    .octal (py! "47"), .simple (ch! '"')] (py! "You\\n\\x41\\u20aC\\047\\\"") [89, 111, 117, 10, 65, 0x20AC, 39, 34] := by
  refine ⟨?_, ?_, by decide, by decide⟩
  · simp [StrChar.Ok]
    decide
  · simp only [Longest, and_true]
    rintro c ⟨⟩ h
    exact absurd h (by decide)

/-! ### Floating point numbers -/

theorem span_digits {l m : PyStr} (h : ∀ c ∈ l, Base.dec.isDigit c = true) (hm : ∀ c, m.head? = some c → Base.dec.isDigit c = false) :
    spanDigits (l ++ m) = (l, m) := by
  have h1 : (l ++ m).takeWhile Base.dec.isDigit = l := by
    rw [List.takeWhile_append_of_pos h]
    cases m with
    | nil => simp
    | cons c m => simp [hm c rfl]
  have h2 : (l ++ m).dropWhile Base.dec.isDigit = m := by
    rw [List.dropWhile_append_of_pos h]
    cases m with
    | nil => simp
    | cons c m => simp [hm c rfl]
  simp only [spanDigits, h1, h2]

/-- the value of an exponent -/
def exponentValue : Option (Bool × PyStr) → Int
  | none => 0
  | some (negative, digits) => if negative then -(Base.dec.value digits : Int) else (Base.dec.value digits : Int)

theorem pyExponent_of {text : PyStr} {s : Bool} {d : PyStr} (h : exponentText text (some (s, d))) (hd : ∀ c ∈ d, Base.dec.isDigit c = true) :
    pyExponent text = some (exponentValue (some (s, d))) ∧ (∃ c r, text = c :: r ∧ Base.dec.isDigit c = false ∧ c ≠ 46) := by
  obtain ⟨h1, c, sign, h2, rfl, h3⟩ := h
  have hall : d.all Base.dec.isDigit = true := List.all_eq_true.2 hd
  refine ⟨?_, c, _, rfl, ?_, ?_⟩
  · unfold pyExponent
    simp only
    rw [if_pos h2]
    cases s with
    | true =>
      rw [if_pos rfl] at h3
      subst h3
      simp only [List.cons_append, List.nil_append, if_true]
      rw [if_pos ⟨h1, hall⟩]
      rfl
    | false =>
      rw [if_neg (by simp)] at h3
      rcases h3 with rfl | rfl
      · cases d with
        | nil => exact absurd rfl h1
        | cons x xs =>
          have hx := hd x List.mem_cons_self
          have n1 : x ≠ 45 := by rintro rfl; exact absurd hx (by decide)
          have n2 : x ≠ 43 := by rintro rfl; exact absurd hx (by decide)
          simp only [List.nil_append, if_neg n1, if_neg n2]
          rw [if_pos ⟨h1, hall⟩]
          rfl
      · simp only [List.cons_append, List.nil_append]
        rw [if_neg (show (43 : Nat) ≠ 45 by decide)]
        simp only [if_true]
        rw [if_pos ⟨h1, hall⟩]
        rfl
  · rcases h2 with rfl | rfl <;> decide
  · rcases h2 with rfl | rfl <;> decide

/-- the texts of float literals without suffix -/
theorem pyFloat_of (p : FloatParts) (exp : PyStr) (h1 : ∀ c ∈ p.whole, Base.dec.isDigit c = true)
    (h2 : ∀ f, p.fraction = some f → ∀ c ∈ f, Base.dec.isDigit c = true)
    (h3 : ∀ s d, p.exponent = some (s, d) → ∀ c ∈ d, Base.dec.isDigit c = true)
    (h4 : p.fraction = none → p.whole ≠ [] ∧ p.exponent ≠ none) (h5 : p.whole = [] → p.fraction ≠ some [])
    (h6 : exponentText exp p.exponent) :
    pyFloat (p.whole ++ (match p.fraction with
      | none => []
      | some f => ch! '.' :: f) ++ exp) = some p.value := by
  obtain ⟨whole, fraction, exponent⟩ := p
  simp only at h1 h2 h3 h4 h5 h6 ⊢
  have hexp : (exp = [] ∧ exponent = none) ∨ (pyExponent exp = some (exponentValue exponent) ∧
      ∃ c r, exp = c :: r ∧ Base.dec.isDigit c = false ∧ c ≠ 46) := by
    cases exponent with
    | none => exact Or.inl ⟨h6, rfl⟩
    | some e => exact Or.inr (pyExponent_of h6 (h3 e.1 e.2 rfl))
  cases fraction with
  | none =>
    obtain ⟨h7, h8⟩ := h4 rfl
    obtain ⟨he, c, r, rfl, hc, hc2⟩ := hexp.resolve_left fun h => h8 h.2
    simp only [List.append_nil]
    unfold pyFloat
    rw [span_digits h1 (by rintro x ⟨⟩; exact hc)]
    simp only
    split
    · rename_i heq
      cases heq
      exact absurd rfl hc2
    · rw [if_neg h7, he]
      cases exponent with
      | none => exact absurd rfl h8
      | some e => simp [FloatParts.value, exponentValue]
  | some f =>
    have hf := h2 f rfl
    have e1 : spanDigits (whole ++ (46 :: f) ++ exp) = (whole, 46 :: (f ++ exp)) := by
      rw [List.append_assoc]
      exact span_digits h1 (by rintro x ⟨⟩; decide)
    have e2 : spanDigits (f ++ exp) = (f, exp) := by
      refine span_digits hf ?_
      rcases hexp with ⟨rfl, -⟩ | ⟨-, c, r, rfl, hc, -⟩
      · simp
      · rintro x ⟨⟩; exact hc
    unfold pyFloat
    rw [e1]
    simp only
    rw [e2]
    simp only
    rw [if_neg (by rintro ⟨rfl, rfl⟩; exact h5 rfl rfl)]
    rcases hexp with ⟨rfl, rfl⟩ | ⟨he, c, r, rfl, hc, -⟩
    · simp [FloatParts.value]
    · rw [he]
      cases exponent with
      | none => cases h6
      | some e => simp [FloatParts.value, exponentValue]

/-- **C76.** Every float literal of a schema becomes a Python literal for the same number. -/
theorem C76_float (p : FloatParts) (text : PyStr) (h : FloatToken p text) : pyFloat (floatLiteral text) = some p.value := by
  obtain ⟨h1, h2, h3, h4, h5, exp, suffix, h6, h7, rfl⟩ := h
  have hno : ∀ c ∈ p.whole ++ (match p.fraction with
      | none => []
      | some f => ch! '.' :: f) ++ exp, c ≠ ch! 'f' ∧ c ≠ ch! 'F' := by
    have hdig : ∀ c, Base.dec.isDigit c = true → c ≠ ch! 'f' ∧ c ≠ ch! 'F' := fun c hc =>
      ⟨((digit_ne hc).2.2 (by decide)).2.2.1, ((digit_ne hc).2.2 (by decide)).2.2.2.1⟩
    intro c hc
    rcases List.mem_append.1 hc with hc | hc
    · rcases List.mem_append.1 hc with hc | hc
      · exact hdig c (h1 c hc)
      · cases hf : p.fraction with
        | none => rw [hf] at hc; cases hc
        | some f =>
          rw [hf] at hc
          rcases List.mem_cons.1 hc with rfl | hc
          · decide
          · exact hdig c (h2 f hf c hc)
    · cases he : p.exponent with
      | none => rw [he] at h6; rw [show exp = [] from h6] at hc; cases hc
      | some e =>
        rw [he] at h6
        obtain ⟨-, x, sign, hx, rfl, hs⟩ := h6
        rcases List.mem_cons.1 hc with rfl | hc
        · rcases hx with rfl | rfl <;> decide
        · rcases List.mem_append.1 hc with hc | hc
          · split at hs
            · subst hs; rw [List.mem_singleton.1 hc]; decide
            · rcases hs with rfl | rfl
              · cases hc
              · rw [List.mem_singleton.1 hc]; decide
          · exact hdig c (h3 e.1 e.2 he c hc)
  rw [← pyFloat_of p exp h1 h2 h3 h4 h5 h6]
  congr 1
  generalize p.whole ++ (match p.fraction with
      | none => []
      | some f => ch! '.' :: f) ++ exp = body at hno
  have n1 : (ch! 'f') ∉ body := fun hm => (hno _ hm).1 rfl
  have n2 : (ch! 'F') ∉ body := fun hm => (hno _ hm).2 rfl
  rcases h7 with rfl | rfl | rfl
  · simp [floatLiteral, stripFloatLiteral, findChars, indexOf_not_mem n1, indexOf_not_mem n2]
  · simp [floatLiteral, stripFloatLiteral, findChars, indexOf_append n1]
  · have : indexOf (ch! 'f') (body ++ [ch! 'F']) = none := indexOf_not_mem (by simp [n1])
    simp [floatLiteral, stripFloatLiteral, findChars, this, indexOf_append n2]

/-- `31.4e-1f` is 3.14 -/
example : FloatToken ⟨py! "31", some (py! "4"), some (true, py! "1")⟩ (py! "31.4e-1f") ∧
    (⟨py! "31", some (py! "4"), some (true, py! "1")⟩ : FloatParts).value = 157 / 50 := by
  constructor
  · refine ⟨by decide, by rintro f ⟨⟩; decide, by rintro s d ⟨⟩; decide, by simp, by simp, py! "e-1", py! "f", ?_, by simp, rfl⟩
    exact ⟨by simp, ch! 'e', [ch! '-'], Or.inl rfl, rfl, rfl⟩
  · have : Base.dec.value [51, 49, 52] = 314 := by decide
    have h1 : Base.dec.value [49] = 1 := by decide
    simp [FloatParts.value, this, h1]
    norm_num

end Zserio.Expression
