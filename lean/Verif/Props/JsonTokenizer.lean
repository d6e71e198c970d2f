import Verif.Lemmas.JsonTokenizer
import Verif.Lemmas.ValEq
/-
C45: the tokens of a text do not depend on how it is read.
-/
set_option linter.unusedSimpArgs false
namespace Zserio
open Json

/-- The text of any document which tokenizes without exception and does not end in a plain value gives the same tokens with
the same values at the same positions, no matter in which pieces it is read.  (The full statement, without the condition on
the last token, is false: `C45_counterexample`.) -/
theorem C45_chunks_partial (t : PyText) (text : PyStr) (chunks : List PyStr) (h : Chunks text chunks) (n : Nat)
    (hok : ∀ x ∈ tokens t [text] (n + 1), ∀ e, x.result ≠ .error e)
    (hlast : ¬ [some .value, some .endOfFile] <:+: (tokens t [text] (n + 1)).map Seen.kind) :
    tokens t chunks n = tokens t [text] n := by
  have hs := Tokenizer.same_new t h
  exact hs.see n (Tokenizer.noValueAtEnd_of_seen t n _ hs.chunks hs.eof hok hlast)

/-- The same for texts with errors: all tokens and exceptions up to a value, or an attempt at one, which reaches the end of
the text. -/
theorem C45_chunks_errors_partial (t : PyText) (text : PyStr) (chunks : List PyStr) (h : Chunks text chunks) (n : Nat)
    (hend : Tokenizer.NoValueAtEnd t n (Tokenizer.new [text])) : tokens t chunks n = tokens t [text] n :=
  (Tokenizer.same_new t h).see n hend

/-- The only possible deviation: where the text ends in a value (or in an attempt at one), the end of the file may be reported
in its place. -/
theorem C45_deviation (t : PyText) (text : PyStr) (chunks : List PyStr) (h : Chunks text chunks) (n : Nat)
    (hend : Tokenizer.NoValueAtEnd t n (Tokenizer.new [text])) :
    tokens t chunks (n + 1) = tokens t [text] (n + 1) ∨
      ∃ x, tokens t chunks (n + 1) = tokens t [text] n ++ [x] ∧ x.kind = some .endOfFile := by
  have hs := Tokenizer.same_new t h
  unfold tokens
  generalize Tokenizer.new chunks = s at hs
  generalize Tokenizer.new [text] = b at hs hend
  induction n generalizing s b with
  | zero =>
    rcases Tokenizer.next_cases t s hs.nonempty with h1 | h1
    · left
      obtain ⟨h2, _, _⟩ := Tokenizer.Same.batch hs.chunks hs.eof
      simp only [Tokenizer.see]
      rw [h1.seen, h2.seen, hs.rest, hs.line, hs.column]
    · right
      rw [Tokenizer.see_succ]
      exact ⟨_, rfl, by simp only [Seen.kind, h1, Except.map]⟩
  | succ n ih =>
    obtain ⟨h1, h2⟩ := hs.next hend.1
    rw [Tokenizer.see_succ t (n + 1) s, Tokenizer.see_succ t n b, Tokenizer.see_succ t (n + 1) b, h1]
    rcases ih _ _ h2 hend.2 with h3 | ⟨x, h3, h4⟩
    · left; rw [h3]
    · exact .inr ⟨x, by rw [h3]; rfl, h4⟩

/-- However a text is read, after at most as many calls as it has characters and one more the end is reported or an exception
is raised. -/
theorem C45_terminates (t : PyText) (text : PyStr) (chunks : List PyStr) (h : Chunks text chunks) :
    ∃ x ∈ tokens t chunks (text.length + 1), (∃ e, x.result = .error e) ∨ x.kind = some .endOfFile := by
  have hs := Tokenizer.same_new t h
  have hr := hs.rest
  have hl : ((Tokenizer.new chunks).rest ++ (Tokenizer.new chunks).chunks.flatten).length ≤ text.length := by
    rw [hr]; simp [Tokenizer.new, Tokenizer.ioRead]
  obtain ⟨x, hx, h1 | ⟨v, h1⟩⟩ := Tokenizer.see_terminates t _ (Tokenizer.new chunks) hs.nonempty hl
  · exact ⟨x, hx, .inl h1⟩
  · exact ⟨x, hx, .inr (by simp [Seen.kind, h1])⟩

private theorem skip_blanks : ∀ (k line col : Nat) (w : PyStr),
    Tokenizer.skipLoop (List.replicate k 32 ++ w) line col = Tokenizer.skipLoop w line (col + k)
  | 0, _, _, _ => rfl
  | k + 1, line, col, w => by
    rw [List.replicate_succ, List.cons_append, Tokenizer.skipLoop.eq_def]
    simp only [true_or, if_true]
    rw [skip_blanks k, Nat.add_assoc, Nat.add_comm 1 k]

private theorem counterexample (t : PyText) (ht : t.Lawful) (blanks : PyStr) (col : Nat) (hne : blanks ≠ [])
    (h0 : Tokenizer.skipLoop blanks 1 1 = (false, [], 1, col))
    (h1 : Tokenizer.skipLoop (blanks ++ py! "123") 1 1 = (true, py! "123", 1, col)) :
    Chunks (blanks ++ py! "123") [blanks, py! "123"] ∧
    (tokens t [blanks ++ py! "123"] 1).map Seen.kind = [some .value] ∧
    (tokens t [blanks, py! "123"] 1).map Seen.kind = [some .endOfFile] := by
  have hdec : decodeValue t (py! "123") = success (.int 123) 3 := by
    have := decode_decimalInt ht 123 [] (by intro c hc; simp at hc)
    rw [List.append_nil, show decimalInt 123 = py! "123" by decide +kernel] at this
    exact this
  have h2 : Tokenizer.skipLoop (py! "123") 1 col = (true, py! "123", 1, col) := rfl
  refine ⟨⟨by simp, by simp [hne]⟩, ?_, ?_⟩
  · simp only [tokens, Tokenizer.new, Tokenizer.ioRead, Tokenizer.see, Tokenizer.next]
    rw [Tokenizer.nextLoop]
    simp only [Tokenizer.decodeNext, Tokenizer.skipWhitespaces, h1]
    simp [Tokenizer.punctuation, hdec, success, Tokenizer.finish, Tokenizer.setTokenValue, Tokenizer.setToken,
      Tokenizer.setPosition, Seen.kind, Except.map]
  · simp only [tokens, Tokenizer.new, Tokenizer.ioRead, Tokenizer.see, Tokenizer.next]
    rw [Tokenizer.nextLoop]
    simp only [Tokenizer.decodeNext, Tokenizer.skipWhitespaces, h0]
    simp only [Bool.not_false, if_true, Tokenizer.setToken, Bool.false_eq_true, if_false]
    rw [if_neg (by simp), Tokenizer.nextLoop]
    simp only [Tokenizer.decodeNext, Tokenizer.skipWhitespaces, List.nil_append, h2]
    simp [Tokenizer.punctuation, hdec, success, Tokenizer.finish, Seen.kind, Except.map]

/-- The property does not hold for a document which is a plain value.  If the first piece which is read consists of blanks,
`123` after them is lost and the end of the file is reported, whereas the value is found if all is read at once.  (The
tokenizer reads pieces of 65536 characters: `k + 1 = 65536`.) -/
theorem C45_counterexample (t : PyText) (ht : t.Lawful) (k : Nat) :
    Chunks (List.replicate (k + 1) 32 ++ py! "123") [List.replicate (k + 1) 32, py! "123"] ∧
    (tokens t [List.replicate (k + 1) 32 ++ py! "123"] 1).map Seen.kind = [some .value] ∧
    (tokens t [List.replicate (k + 1) 32, py! "123"] 1).map Seen.kind = [some .endOfFile] := by
  refine counterexample t ht _ (1 + (k + 1)) (by simp [List.replicate_succ]) ?_ ?_
  · have := skip_blanks (k + 1) 1 1 []
    rw [List.append_nil] at this
    rw [this]
    rfl
  · rw [skip_blanks]; rfl

/-! A document which satisfies the hypotheses, cut inside a number, a literal and a line break. -/

def demoText : PyStr := py! "{\"a\": -12,\r\n \"b\": [true, null]}"

example : Chunks demoText [py! "{\"a\": -1", py! "2,\r", py! "\n \"b\": [tr", py! "ue, null]}"] :=
  ⟨by decide +kernel, by decide⟩
example : ∀ x ∈ tokens PyText.simple [demoText] 15, ∀ e, x.result ≠ .error e := by
  have : (tokens PyText.simple [demoText] 15).all (fun x => x.kind.isSome) = true := by decide +kernel
  intro x hx e he
  have := List.all_eq_true.1 this x hx
  simp [Seen.kind, he] at this
example : ¬ [some .value, some .endOfFile] <:+: (tokens PyText.simple [demoText] 15).map Seen.kind := by decide +kernel
example : (tokens PyText.simple [demoText] 15).map Seen.kind = [some .beginObject, some .value, some .keySeparator, some .value,
    some .itemSeparator, some .value, some .keySeparator, some .beginArray, some .value, some .itemSeparator, some .value,
    some .endArray, some .endObject, some .endOfFile, some .endOfFile] := by decide +kernel
example : (tokens PyText.simple [py! "{\"a\": -1", py! "2,\r", py! "\n \"b\": [tr", py! "ue, null]}"] 8).map
    (fun x => (x.line, x.column)) = [(1, 1), (1, 2), (1, 5), (1, 7), (1, 10), (2, 2), (2, 5), (2, 7)] := by decide +kernel

end Zserio
