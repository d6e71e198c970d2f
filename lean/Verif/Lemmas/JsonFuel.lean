import Verif.Lemmas.JsonParser
/-
The bound on the recursion of the parser is never reached.
-/
set_option linter.unusedSimpArgs false
namespace Zserio.Json
open Tokenizer
variable {t : PyText} {σ : Type}

theorem finish_token (s : Tokenizer) (tok : Token) (h : (finish s).1 = .ok tok) : (finish s).2.token = tok := by
  unfold finish at h ⊢
  by_cases h1 : s.token = .endOfFile
  · rw [if_pos h1] at h ⊢
    simp only [Except.ok.injEq] at h
    simpa [← h] using h1
  · rw [if_neg h1] at h ⊢
    rcases hx : setTokenValue s with ⟨r, s''⟩
    rw [hx] at h
    cases r with
    | error e => simp at h
    | ok u => simp only [Except.ok.injEq] at h ⊢; exact h

theorem nextLoop_token (t : PyText) : ∀ (chunks : List PyStr) (s : Tokenizer) (tok : Token),
    (nextLoop t chunks s).1 = .ok tok → (nextLoop t chunks s).2.token = tok := by
  intro chunks
  induction chunks with
  | nil =>
    intro s tok h
    rw [nextLoop] at h ⊢
    rcases hd : s.decodeNext t with ⟨r, s'⟩
    rw [hd] at h
    rcases r with e | _ | _
    · simp at h
    · exact finish_token _ _ h
    · simpa using h
  | cons c cs ih =>
    intro s tok h
    rw [nextLoop] at h ⊢
    rcases hd : s.decodeNext t with ⟨r, s'⟩
    rw [hd] at h
    rcases r with e | _ | _
    · simp at h
    · simp only at h ⊢
      split at h
      · rename_i hc
        simp only [if_pos hc]
        exact finish_token _ _ h
      · rename_i hc
        simp only [if_neg hc]
        exact ih _ tok h
    · simpa using h

theorem decodeNext_error (t : PyText) (s : Tokenizer) : (s.decodeNext t).1 ≠ .error .recursion := by
  unfold decodeNext
  split
  split
  · simp
  · dsimp only
    repeat' split
    all_goals simp
    rename_i he
    simp only [setTokenValue] at he
    split at he <;> simp at he
    rw [← he.1]
    simp

theorem setTokenValue_error (s : Tokenizer) : (setTokenValue s).1 ≠ .error .recursion := by
  unfold setTokenValue
  split <;> simp

theorem finish_error (s : Tokenizer) : (finish s).1 ≠ .error .recursion := by
  unfold finish
  split
  · simp
  · have := setTokenValue_error s
    rcases hx : setTokenValue s with ⟨r, s'⟩
    rw [hx] at this
    cases r with
    | error e => simpa using this
    | ok u => simp

theorem nextLoop_error (t : PyText) : ∀ (chunks : List PyStr) (s : Tokenizer), (nextLoop t chunks s).1 ≠ .error .recursion := by
  intro chunks
  induction chunks with
  | nil =>
    intro s
    rw [nextLoop]
    have := decodeNext_error t s
    rcases hd : s.decodeNext t with ⟨r, s'⟩
    rw [hd] at this
    rcases r with e | _ | _
    · simpa using this
    · exact finish_error _
    · simp
  | cons c cs ih =>
    intro s
    rw [nextLoop]
    have := decodeNext_error t s
    rcases hd : s.decodeNext t with ⟨r, s'⟩
    rw [hd] at this
    rcases r with e | _ | _
    · simpa using this
    · simp only
      split
      · exact finish_error _
      · exact ih _
    · simp

/-- the end was reached, or the pieces which are left are not empty -/
def Good (tk : Tokenizer) : Prop := tk.token = .endOfFile ∨ ∀ c ∈ tk.chunks, c ≠ []

/-- what is left to be parsed -/
def measure (tk : Tokenizer) : Nat := if tk.token = .endOfFile then 0 else Parser.remaining tk + 1

/-- The method does not reach the bound, and if it succeeds the text has become shorter by at least `d` characters. -/
def Ok {α : Type} (x : M (Tokenizer × σ) α) (tk : Tokenizer) (s : σ) (d : Nat) : Prop :=
  (x (tk, s)).1 ≠ .error .recursion ∧
    ∀ a tk' s', x (tk, s) = (.ok a, (tk', s')) → Good tk' ∧ measure tk' + d ≤ measure tk

theorem Ok.bind {α β : Type} {x : M (Tokenizer × σ) α} {f : α → M (Tokenizer × σ) β} {tk : Tokenizer} {s : σ} {d d' : Nat}
    (h : Ok x tk s d)
    (h' : ∀ a tk' s', x (tk, s) = (.ok a, (tk', s')) → Good tk' → measure tk' + d ≤ measure tk → Ok (f a) tk' s' d') :
    Ok (x >>= f) tk s (d + d') := by
  obtain ⟨h1, h2⟩ := h
  rcases hx : x (tk, s) with ⟨r, tk', s'⟩
  cases r with
  | error e =>
    refine ⟨?_, ?_⟩
    · rw [M.bind_error hx]
      rw [hx] at h1
      simpa using h1
    · intro a tk'' s'' h
      rw [M.bind_error hx] at h
      simp at h
  | ok a =>
    obtain ⟨h3, h4⟩ := h2 a tk' s' hx
    obtain ⟨h5, h6⟩ := h' a tk' s' hx h3 h4
    refine ⟨by rw [M.bind_ok hx]; exact h5, ?_⟩
    intro b tk'' s'' h
    rw [M.bind_ok hx] at h
    obtain ⟨h7, h8⟩ := h6 b tk'' s'' h
    exact ⟨h7, by omega⟩

theorem Ok.mono {α : Type} {x : M (Tokenizer × σ) α} {tk : Tokenizer} {s : σ} {d d' : Nat} (h : Ok x tk s d) (hd : d' ≤ d) :
    Ok x tk s d' := ⟨h.1, fun a tk' s' hx => ⟨(h.2 a tk' s' hx).1, by have := (h.2 a tk' s' hx).2; omega⟩⟩

theorem Ok.next {tk : Tokenizer} (s : σ) (hg : Good tk) (hne : tk.token ≠ .endOfFile) : Ok (Parser.next t) tk s 1 := by
  have hg : ∀ c ∈ tk.chunks, c ≠ [] := hg.resolve_left hne
  refine ⟨?_, ?_⟩
  · have := nextLoop_error t tk.chunks tk
    unfold Parser.next
    simp only
    exact this
  · intro tok tk' s' hx
    simp only [Parser.next, Prod.mk.injEq] at hx
    obtain ⟨h1, rfl, rfl⟩ := hx
    have htok : (tk.next t).2.token = tok := nextLoop_token t tk.chunks tk tok h1
    have hm : measure tk = Parser.remaining tk + 1 := by unfold measure; rw [if_neg hne]
    rcases next_cases t tk hg with h | h
    · rcases outcome_progress t (tk.rest ++ tk.chunks.flatten) tk.line tk.column with ⟨e, h2⟩ | h2 | h2
      · have := h.result
        rw [h1, h2] at this
        simp [Except.map] at this
      · have := h.result
        rw [h1, h2] at this
        simp only [Except.map, Except.ok.injEq, Prod.mk.injEq] at this
        have h3 : (tk.next t).2.token = .endOfFile := by rw [htok, this.1]
        refine ⟨.inl h3, ?_⟩
        unfold measure
        rw [if_pos h3, if_neg hne]
        omega
      · refine ⟨.inr h.nonempty, ?_⟩
        have h4 : Parser.remaining (tk.next t).2 < Parser.remaining tk := by
          unfold Parser.remaining
          rw [h.rest]
          exact h2
        rw [hm]
        unfold measure
        split <;> omega
    · rw [h] at h1
      simp only [Except.ok.injEq] at h1
      subst h1
      refine ⟨.inl htok, ?_⟩
      rw [hm]
      unfold measure
      rw [if_pos htok]
      omega

theorem Ok.token {tk : Tokenizer} (s : σ) (hg : Good tk) : Ok Parser.token tk s 0 :=
  ⟨by simp [Parser.token], fun a tk' s' hx => by
    simp only [Parser.token, Prod.mk.injEq] at hx
    obtain ⟨_, rfl, _⟩ := hx
    exact ⟨hg, by omega⟩⟩

theorem Ok.value {tk : Tokenizer} (s : σ) (hg : Good tk) : Ok Parser.value tk s 0 :=
  ⟨by simp [Parser.value], fun a tk' s' hx => by
    simp only [Parser.value, Prod.mk.injEq] at hx
    obtain ⟨_, rfl, _⟩ := hx
    exact ⟨hg, by omega⟩⟩

theorem Ok.observe {tk : Tokenizer} {m : M σ Unit} (hm : ∀ s, (m s).1 ≠ .error .recursion) (s : σ) (hg : Good tk) :
    Ok (Parser.observe m) tk s 0 := by
  refine ⟨?_, ?_⟩
  · exact hm s
  · intro a tk' s' hx
    simp only [Parser.observe, Prod.mk.injEq] at hx
    obtain ⟨_, rfl, _⟩ := hx
    exact ⟨hg, by omega⟩

theorem Ok.throw {α : Type} {e : Err} (he : e ≠ .recursion) (tk : Tokenizer) (s : σ) (d : Nat) :
    Ok (M.throw e : M (Tokenizer × σ) α) tk s d := ⟨by simpa using he, by simp⟩

theorem Ok.pure {α : Type} (a : α) {tk : Tokenizer} (s : σ) (hg : Good tk) : Ok (pure a : M (Tokenizer × σ) α) tk s 0 :=
  ⟨by simp, fun a tk' s' hx => by
    simp only [M.pure_apply, Prod.mk.injEq] at hx
    obtain ⟨_, rfl, _⟩ := hx
    exact ⟨hg, by omega⟩⟩

theorem Ok.token_bind {α : Type} {f : Token → M (Tokenizer × σ) α} {tk : Tokenizer} {s : σ} {d : Nat}
    (h : Ok (f tk.token) tk s d) : Ok (Parser.token >>= f) tk s d := by
  have : (Parser.token >>= f) (tk, s) = f tk.token (tk, s) := rfl
  unfold Ok
  rw [this]
  exact h

theorem Ok.value_bind {α : Type} {f : Val → M (Tokenizer × σ) α} {tk : Tokenizer} {s : σ} {d : Nat}
    (h : Ok (f tk.value) tk s d) : Ok (Parser.value >>= f) tk s d := by
  have : (Parser.value >>= f) (tk, s) = f tk.value (tk, s) := rfl
  unfold Ok
  rw [this]
  exact h

theorem Ok.consume {tok : Token} (htok : tok ≠ .endOfFile) {tk : Tokenizer} (s : σ) (hg : Good tk) :
    Ok (Parser.consumeToken t tok) tk s 1 := by
  unfold Parser.consumeToken Parser.checkToken
  rw [M.bind_assoc']
  refine Ok.token_bind ?_
  by_cases h : tk.token = tok
  · simp only [h, ne_eq, not_true_eq_false, if_false, M.pure_bind']
    exact Ok.bind (d' := 0) (Ok.next s hg (by rw [h]; exact htok)) fun _ tk' s' _ hg' _ => Ok.pure () s' hg'
  · simp only [ne_eq, h, not_false_eq_true, if_true]
    exact ⟨by simp [M.bind_apply], by simp [M.bind_apply]⟩

/-- The observer does not raise this exception itself. -/
structure Observer.Quiet (ob : Observer σ) : Prop where
  tell : ∀ e s, (ob.tell e s).1 ≠ .error .recursion

theorem Ok.more {item : M (Tokenizer × σ) Unit} {n : Nat} (hi : ∀ tk s, Good tk → measure tk ≤ n → Ok item tk s 1) :
    ∀ (k : Nat) (tk : Tokenizer) (s : σ), Good tk → measure tk + 1 ≤ k → measure tk ≤ n → Ok (Parser.parseMore t item k) tk s 0 := by
  intro k
  induction k with
  | zero => intro tk s _ h; omega
  | succ k ih =>
    intro tk s hg hk hn
    rw [Parser.parseMore]
    refine Ok.token_bind ?_
    by_cases h : tk.token = .itemSeparator
    · rw [if_pos h]
      refine Ok.mono (Ok.bind (d' := 1) (Ok.next s hg (by rw [h]; simp)) fun _ tk1 s1 _ hg1 hm1 => ?_) (Nat.zero_le _)
      exact Ok.bind (d' := 0) (hi tk1 s1 hg1 (by omega)) fun _ tk2 s2 _ hg2 hm2 => ih tk2 s2 hg2 (by omega) (by omega)
    · rw [if_neg h]
      exact Ok.pure () s hg

theorem Ok.items {item : M (Tokenizer × σ) Unit} {n : Nat} (hi : ∀ tk s, Good tk → measure tk ≤ n → Ok item tk s 1)
    {tk : Tokenizer} (s : σ) (hg : Good tk) (hn : measure tk ≤ n) : Ok (Parser.parseItems t item n) tk s 1 := by
  unfold Parser.parseItems
  exact Ok.bind (d' := 0) (hi tk s hg hn) fun _ tk1 s1 _ hg1 hm1 => Ok.more hi n tk1 s1 hg1 (by omega) (by omega)

theorem Ok.member {ob : Observer σ} (hq : ob.Quiet) {element : M (Tokenizer × σ) Unit} {n : Nat}
    (hi : ∀ tk s, Good tk → measure tk ≤ n → Ok element tk s 1) {tk : Tokenizer} (s : σ) (hg : Good tk) (hn : measure tk ≤ n) :
    Ok (Parser.parseMember t ob element) tk s 1 := by
  unfold Parser.parseMember Parser.checkToken
  rw [M.bind_assoc']
  refine Ok.token_bind ?_
  by_cases h : tk.token = .value
  · simp only [h, ne_eq, not_true_eq_false, if_false, M.pure_bind']
    refine Ok.value_bind ?_
    split
    · rename_i key _
      refine Ok.mono (Ok.bind (d' := 3) (Ok.observe (hq.tell (.key key)) s hg) fun _ tk1 s1 hx hg1 hm1 => ?_) (by omega)
      have h1 : tk1 = tk := by simp only [Parser.observe, Prod.mk.injEq] at hx; exact hx.2.1.symm
      subst h1
      refine Ok.bind (d' := 2) (Ok.next s1 hg1 (by rw [h]; simp)) fun _ tk2 s2 _ hg2 hm2 => ?_
      refine Ok.bind (d' := 1) (Ok.consume (by simp) s2 hg2) fun _ tk3 s3 _ hg3 hm3 => ?_
      exact hi tk3 s3 hg3 (by omega)
    · exact Ok.throw (by simp) _ _ _
  · simp only [ne_eq, h, not_false_eq_true, if_true]
    exact ⟨by simp [M.bind_apply], by simp [M.bind_apply]⟩

theorem measure_pos {tk : Tokenizer} (h : tk.token ≠ .endOfFile) : 1 ≤ measure tk := by
  unfold measure
  rw [if_neg h]
  omega

theorem next_result {tk tk' : Tokenizer} {s s' : σ} {tok : Token} (h : Parser.next t (tk, s) = (.ok tok, (tk', s'))) :
    tk'.token = tok := by
  simp only [Parser.next, Prod.mk.injEq] at h
  obtain ⟨h1, rfl, _⟩ := h
  exact nextLoop_token t tk.chunks tk tok h1

theorem Ok.element {ob : Observer σ} (hq : ob.Quiet) : ∀ (n : Nat) (tk : Tokenizer) (s : σ), Good tk → measure tk ≤ n → 1 ≤ n →
    Ok (Parser.parseElement t ob n) tk s 1 := by
  intro n
  induction n with
  | zero => intro tk s _ _ h; omega
  | succ n ih =>
    intro tk s hg hn _
    rw [Parser.parseElement]
    refine Ok.token_bind ?_
    have hi : 1 ≤ n → ∀ tk s, Good tk → measure tk ≤ n → Ok (Parser.parseElement t ob n) tk s 1 :=
      fun h1 tk s hg hm => ih tk s hg hm h1
    split
    · rename_i htok
      have hne : tk.token ≠ .endOfFile := by rw [htok]; simp
      unfold Parser.parseArray
      refine Ok.mono (Ok.bind (d' := 2) (Ok.observe (hq.tell .beginArray) s hg) fun _ tk0 s0 hx hg0 hm0 => ?_) (by omega)
      have h1 : tk0 = tk := by simp only [Parser.observe, Prod.mk.injEq] at hx; exact hx.2.1.symm
      subst h1
      refine Ok.bind (d' := 1) (Ok.next s0 hg0 hne) fun tok tk1 s1 hnx hg1 hm1 => ?_
      have htk1 := next_result hnx
      have hclose : ∀ tk2 s2, Good tk2 → Ok (do Parser.consumeToken t .endArray; Parser.observe ob.endArray) tk2 s2 1 :=
        fun tk2 s2 hg2 => Ok.bind (d' := 0) (Ok.consume (by simp) s2 hg2) fun _ tk3 s3 _ hg3 _ => Ok.observe (hq.tell .endArray) s3 hg3
      by_cases hel : tok ∈ Parser.elementTokens
      · simp only [if_pos hel]
        have hne1 : tk1.token ≠ .endOfFile := by
          rw [htk1]
          intro h
          rw [h] at hel
          simp [Parser.elementTokens] at hel
        have hp := measure_pos hne1
        refine Ok.mono (Ok.bind (d' := 1) (Ok.items (hi (by omega)) s1 hg1 (by omega)) fun _ tk2 s2 _ hg2 hm2 => hclose tk2 s2 hg2) (by omega)
      · simp only [if_neg hel]
        exact hclose tk1 s1 hg1
    · rename_i htok
      have hne : tk.token ≠ .endOfFile := by rw [htok]; simp
      unfold Parser.parseObject
      refine Ok.mono (Ok.bind (d' := 2) (Ok.observe (hq.tell .beginObject) s hg) fun _ tk0 s0 hx hg0 hm0 => ?_) (by omega)
      have h1 : tk0 = tk := by simp only [Parser.observe, Prod.mk.injEq] at hx; exact hx.2.1.symm
      subst h1
      refine Ok.bind (d' := 1) (Ok.next s0 hg0 hne) fun tok tk1 s1 hnx hg1 hm1 => ?_
      have htk1 := next_result hnx
      have hclose : ∀ tk2 s2, Good tk2 → Ok (do Parser.consumeToken t .endObject; Parser.observe ob.endObject) tk2 s2 1 :=
        fun tk2 s2 hg2 => Ok.bind (d' := 0) (Ok.consume (by simp) s2 hg2) fun _ tk3 s3 _ hg3 _ => Ok.observe (hq.tell .endObject) s3 hg3
      by_cases hel : tok = .value
      · simp only [if_pos hel]
        have hne1 : tk1.token ≠ .endOfFile := by rw [htk1, hel]; simp
        have hp := measure_pos hne1
        refine Ok.mono (Ok.bind (d' := 1) (Ok.items (fun tk s hg hm => Ok.member hq (hi (by omega)) s hg hm) s1 hg1 (by omega))
          fun _ tk2 s2 _ hg2 hm2 => hclose tk2 s2 hg2) (by omega)
      · simp only [if_neg hel]
        exact hclose tk1 s1 hg1
    · rename_i htok
      have hne : tk.token ≠ .endOfFile := by rw [htok]; simp
      unfold Parser.parseValue
      refine Ok.value_bind ?_
      refine Ok.mono (Ok.bind (d' := 1) (Ok.observe (hq.tell (.value tk.value)) s hg) fun _ tk0 s0 hx hg0 hm0 => ?_) (by omega)
      have h1 : tk0 = tk := by simp only [Parser.observe, Prod.mk.injEq] at hx; exact hx.2.1.symm
      subst h1
      exact Ok.bind (d' := 0) (Ok.next s0 hg0 hne) fun _ tk' s' _ hg' _ => Ok.pure () s' hg'
    · exact Ok.throw (by simp) _ _ _

/-- `parse` never reaches the bound. -/
theorem Ok.parse {ob : Observer σ} (hq : ob.Quiet) (tk : Tokenizer) (s : σ) (hg : Good tk) :
    (Parser.parse t ob (tk, s)).1 ≠ .error .recursion := by
  have key : ∀ tk1 s1, Good tk1 → Ok (do
          if (← Parser.token) = .endOfFile then return true
          let (tk, _) ← M.get
          Parser.parseElement t ob (Parser.remaining tk + 1)
          return (← Parser.token) = .endOfFile : M (Tokenizer × σ) Bool) tk1 s1 0 := by
    intro tk1 s1 hg1
    refine Ok.token_bind ?_
    by_cases h : tk1.token = .endOfFile
    · rw [if_pos h]
      exact Ok.pure _ s1 hg1
    · rw [if_neg h]
      have : Ok (do
          Parser.parseElement t ob (Parser.remaining tk1 + 1)
          return (← Parser.token) = .endOfFile : M (Tokenizer × σ) Bool) tk1 s1 (1 + 0) := by
        refine Ok.bind (Ok.element hq _ tk1 s1 hg1 (by unfold measure; rw [if_neg h]) (by omega)) fun _ tk2 s2 _ hg2 _ => ?_
        exact Ok.token_bind (Ok.pure _ s2 hg2)
      exact this.mono (Nat.zero_le _)
  have : Ok (Parser.parse t ob) tk s 0 := by
    unfold Parser.parse
    refine Ok.token_bind ?_
    by_cases h : tk.token = .beginOfFile
    · rw [if_pos h]
      exact Ok.mono (Ok.bind (d' := 0) (Ok.next s hg (by rw [h]; simp)) fun _ tk1 s1 _ hg1 _ => key tk1 s1 hg1) (Nat.zero_le _)
    · rw [if_neg h]
      exact key tk s hg
  exact this.1

end Zserio.Json
