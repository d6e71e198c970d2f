import Verif.Spec.Lexer
set_option linter.unusedSimpArgs false
namespace Zserio.Lexer

/-! ### Regular expressions -/

/-- the language of a regular expression -/
def Re.Matches : Re → List Nat → Prop
  | .never, _ => False
  | .eps, s => s = []
  | .set p, s => ∃ c, p c = true ∧ s = [c]
  | .seq a b, s => ∃ x y, s = x ++ y ∧ a.Matches x ∧ b.Matches y
  | .alt a b, s => a.Matches s ∨ b.Matches s
  | .star a, s => ∃ l : List (List Nat), s = l.flatten ∧ ∀ x ∈ l, a.Matches x

theorem nullable_iff : (r : Re) → (r.nullable = true ↔ r.Matches [])
  | .never => by simp [Re.nullable, Re.Matches]
  | .eps => by simp [Re.nullable, Re.Matches]
  | .set p => by simp [Re.nullable, Re.Matches]
  | .seq a b => by
    simp only [Re.nullable, Re.Matches, Bool.and_eq_true, nullable_iff a, nullable_iff b]
    constructor
    · rintro ⟨h, h'⟩; exact ⟨[], [], rfl, h, h'⟩
    · rintro ⟨x, y, e, h, h'⟩
      obtain ⟨rfl, rfl⟩ := List.append_eq_nil_iff.1 e.symm
      exact ⟨h, h'⟩
  | .alt a b => by simp [Re.nullable, Re.Matches, nullable_iff a, nullable_iff b]
  | .star a => by
    simp only [Re.nullable, Re.Matches, true_iff]
    exact ⟨[], rfl, by simp⟩

theorem star_cons (P : List Nat → Prop) (c : Nat) (s : List Nat) :
    (l : List (List Nat)) → c :: s = l.flatten → (∀ x ∈ l, P x) → ∃ x, ∃ l' : List (List Nat), s = x ++ l'.flatten ∧ P (c :: x) ∧ ∀ x ∈ l', P x
  | [], e, _ => by simp at e
  | [] :: l, e, h => star_cons P c s l (by simpa using e) fun x hx => h x (List.mem_cons_of_mem _ hx)
  | (d :: x) :: l, e, h => by
    simp only [List.flatten_cons, List.cons_append, List.cons.injEq] at e
    exact ⟨x, l, e.2, e.1 ▸ h _ List.mem_cons_self, fun y hy => h y (List.mem_cons_of_mem _ hy)⟩

theorem deriv_iff (c : Nat) : (r : Re) → (s : List Nat) → ((r.deriv c).Matches s ↔ r.Matches (c :: s))
  | .never, s => by simp [Re.deriv, Re.Matches]
  | .eps, s => by simp [Re.deriv, Re.Matches]
  | .set p, s => by
    by_cases h : p c = true
    · simp only [Re.deriv, h, if_true, Re.Matches, List.cons.injEq]
      constructor
      · rintro rfl; exact ⟨c, h, rfl, rfl⟩
      · rintro ⟨_, _, _, e⟩; exact e
    · simp only [Re.deriv, h, Re.Matches, List.cons.injEq]
      constructor
      · intro h'; simp [Re.Matches] at h'
      · rintro ⟨d, h', rfl, _⟩; exact absurd h' h
  | .seq a b, s => by
    have key : (Re.seq a b).Matches (c :: s) ↔
        ((Re.seq (a.deriv c) b).Matches s ∨ (a.nullable = true ∧ (b.deriv c).Matches s)) := by
      simp only [Re.Matches, nullable_iff, deriv_iff c a, deriv_iff c b]
      constructor
      · rintro ⟨x, y, e, h, h'⟩
        cases x with
        | nil => exact .inr ⟨h, by simpa using e ▸ h'⟩
        | cons d x =>
          simp only [List.cons_append, List.cons.injEq] at e
          obtain ⟨rfl, rfl⟩ := e
          exact .inl ⟨x, y, rfl, h, h'⟩
      · rintro (⟨x, y, rfl, h, h'⟩ | ⟨h, h'⟩)
        · exact ⟨c :: x, y, rfl, h, h'⟩
        · exact ⟨[], c :: s, rfl, h, h'⟩
    rw [key]
    by_cases h : a.nullable = true
    · simp [Re.deriv, h, Re.Matches]
    · simp [Re.deriv, h, Re.Matches]
  | .alt a b, s => by simp [Re.deriv, Re.Matches, deriv_iff c a, deriv_iff c b]
  | .star a, s => by
    simp only [Re.deriv, Re.Matches, deriv_iff c a]
    constructor
    · rintro ⟨x, y, rfl, h, l, rfl, h'⟩
      refine ⟨(c :: x) :: l, by simp, ?_⟩
      intro z hz
      rcases List.mem_cons.1 hz with rfl | hz
      · exact h
      · exact h' z hz
    · rintro ⟨l, e, h⟩
      obtain ⟨x, l', e', hx, hl⟩ := star_cons _ c s l e h
      exact ⟨x, l'.flatten, e', hx, l', rfl, hl⟩

/-- `o` is the length of the longest beginning of `cs` with `P` -/
def Longest (P : List Nat → Prop) (cs : List Nat) : Option Nat → Prop
  | some n => n ≤ cs.length ∧ P (cs.take n) ∧ ∀ s, s <+: cs → P s → s.length ≤ n
  | none => ∀ s, s <+: cs → ¬ P s

theorem prefix_cons_cases {s : List Nat} {c : Nat} {cs : List Nat} (h : s <+: c :: cs) : s = [] ∨ ∃ t, t <+: cs ∧ s = c :: t := by
  cases s with
  | nil => exact .inl rfl
  | cons d t =>
    obtain ⟨e, h'⟩ := List.cons_prefix_cons.1 h
    exact .inr ⟨t, h', by rw [e]⟩

theorem longest_re : (cs : List Nat) → (r : Re) → Longest r.Matches cs (r.longest cs)
  | [], r => by
    unfold Re.longest
    by_cases h : r.nullable = true
    · simp only [h, if_true, Longest]
      exact ⟨Nat.le_refl _, by simpa using (nullable_iff r).1 h, fun s hs _ => by simp [List.prefix_nil.1 hs]⟩
    · rw [if_neg h]
      intro s hs hm
      rw [List.prefix_nil.1 hs] at hm
      exact h ((nullable_iff r).2 hm)
  | c :: cs, r => by
    have ih := longest_re cs (r.deriv c)
    unfold Re.longest
    cases e : (r.deriv c).longest cs with
    | some n =>
      rw [e] at ih
      obtain ⟨h1, h2, h3⟩ := ih
      refine ⟨by simp; omega, by simpa [deriv_iff] using h2, ?_⟩
      intro s hs hm
      rcases prefix_cons_cases hs with rfl | ⟨t, ht, rfl⟩
      · simp
      · have := h3 t ht ((deriv_iff c r t).2 hm)
        simp; omega
    | none =>
      rw [e] at ih
      have no : ∀ s, s <+: c :: cs → r.Matches s → s = [] := by
        intro s hs hm
        rcases prefix_cons_cases hs with rfl | ⟨t, ht, rfl⟩
        · rfl
        · exact absurd ((deriv_iff c r t).2 hm) (ih t ht)
      by_cases h : r.nullable = true
      · simp only [h, if_true]
        exact ⟨by simp, by simpa using (nullable_iff r).1 h, fun s hs hm => by simp [no s hs hm]⟩
      · simp only [h]
        intro s hs hm
        have := no s hs hm
        subst this
        exact h ((nullable_iff r).2 hm)

/-! ### Comments -/

theorem commentEnd_some : (cs : List Nat) → (n : Nat) → commentEnd cs = some n →
    ∃ body, cs.take n = body ++ [42, 47] ∧ n = body.length + 2 ∧ n ≤ cs.length ∧
      ∀ body' rest, body ++ [42, 47] = body' ++ ([42, 47] ++ rest) → rest = []
  | [], n, h => by simp [commentEnd] at h
  | [_], n, h => by simp [commentEnd] at h
  | c :: d :: cs, n, h => by
    unfold commentEnd at h
    split at h
    · next hc =>
      obtain ⟨rfl, rfl⟩ := hc
      injection h with h; subst h
      refine ⟨[], rfl, rfl, by simp, ?_⟩
      intro body' rest e
      have := congrArg List.length e
      simp at this
      cases rest with
      | nil => rfl
      | cons a r => simp at this; omega
    · next hc =>
      cases e : commentEnd (d :: cs) with
      | none => rw [e] at h; simp at h
      | some m =>
        rw [e] at h
        simp only [Option.map_some, Option.some.injEq] at h
        subst h
        obtain ⟨body, h1, h2, h3, h4⟩ := commentEnd_some (d :: cs) m e
        refine ⟨c :: body, by simp [h1], by simp [h2], by simp at h3 ⊢; omega, ?_⟩
        intro body' rest e'
        cases body' with
        | nil =>
          exfalso
          simp only [List.cons_append, List.nil_append, List.cons.injEq] at e'
          apply hc
          refine ⟨e'.1, ?_⟩
          have h5 : (d :: cs).take m = 47 :: rest := by rw [h1, e'.2]
          cases m with
          | zero => simp at h5
          | succ m => simp only [List.take_succ_cons, List.cons.injEq] at h5; exact h5.1
        | cons a body' =>
          simp only [List.cons_append, List.cons.injEq] at e'
          exact h4 body' rest (by simpa using e'.2)

theorem commentEnd_of : (body : List Nat) → (rest : List Nat) →
    (∀ body' r, body ++ [42, 47] = body' ++ ([42, 47] ++ r) → r = []) → commentEnd (body ++ (42 :: 47 :: rest)) = some (body.length + 2)
  | [], rest, _ => by simp [commentEnd]
  | c :: body, rest, h => by
    have ih := commentEnd_of body rest (fun body' r e => h (c :: body') r (by simpa using e))
    cases body with
    | nil =>
      simp only [List.cons_append, List.nil_append] at ih ⊢
      have : ¬ (c = 42 ∧ (42 : Nat) = 47) := by simp
      rw [commentEnd, if_neg this, ih]
      rfl
    | cons d body =>
      simp only [List.cons_append] at ih ⊢
      have : ¬ (c = 42 ∧ d = 47) := by
        rintro ⟨rfl, rfl⟩
        have := h [] (body ++ [42, 47]) rfl
        simp at this
      rw [commentEnd, if_neg this, ih]
      rfl

/-- what a rule matches -/
def RuleForm : Rule → List Nat → Prop
  | .re r => r.Matches
  | .comment o => Comment o

theorem star_slash : py! "*/" = [42, 47] := by decide

theorem longest_rule (cs : List Nat) : (r : Rule) → Longest (RuleForm r) cs (r.longest cs)
  | .re r => longest_re cs r
  | .comment o => by
    have key : ∀ s, s <+: cs → Comment o s → o.isPrefixOf cs = true ∧ commentEnd (cs.drop o.length) = some (s.length - o.length) ∧ o.length ≤ s.length := by
      rintro s ⟨t, rfl⟩ ⟨body, rfl, h⟩
      rw [star_slash] at h ⊢
      refine ⟨?_, ?_, ?_⟩
      · rw [List.isPrefixOf_iff_prefix]
        simp only [List.append_assoc]
        exact List.prefix_append _ _
      · have := commentEnd_of body t h
        simp only [List.append_assoc, List.drop_left, List.length_append, Nat.add_sub_cancel_left]
        simpa using this
      · simp
    show Longest (Comment o) cs (if o.isPrefixOf cs then (commentEnd (cs.drop o.length)).map (· + o.length) else none)
    by_cases hp : o.isPrefixOf cs = true
    · rw [if_pos hp]
      cases e : commentEnd (cs.drop o.length) with
      | none =>
        intro s hs hc
        rw [(key s hs hc).2.1] at e
        simp at e
      | some n =>
        obtain ⟨body, h1, h2, h3, h4⟩ := commentEnd_some _ _ e
        obtain ⟨t, rfl⟩ := List.isPrefixOf_iff_prefix.1 hp
        rw [List.drop_left] at h1 h3
        refine ⟨by simp; omega, ⟨body, ?_, ?_⟩, ?_⟩
        · rw [star_slash, ← h1]
          show List.take (n + o.length) (o ++ t) = _
          rw [Nat.add_comm]
          exact List.take_length_add_append n
        · rw [star_slash]; exact h4
        · intro s hs hc
          obtain ⟨_, h5, h6⟩ := key s hs hc
          rw [e] at h5
          injection h5 with h5
          show s.length ≤ n + o.length
          omega
    · rw [if_neg hp]
      intro s hs hc
      exact hp (key s hs hc).1

/-! ### The selection of the rule -/

/-- the result of `select` -/
def Selected (rs : List (Kind × Rule)) (cs : List Nat) : Option (Kind × Nat) → Prop
  | some (k, n) => n ≤ cs.length ∧ (∃ r, (k, r) ∈ rs ∧ RuleForm r (cs.take n)) ∧
      (∀ p ∈ rs, ∀ s, s <+: cs → RuleForm p.2 s → s.length ≤ n) ∧ ∀ p ∈ rs, RuleForm p.2 (cs.take n) → rank k ≤ rank p.1
  | none => ∀ p ∈ rs, ∀ s, s <+: cs → ¬ RuleForm p.2 s

theorem selected (cs : List Nat) : (rs : List (Kind × Rule)) → (rs.map (rank ∘ Prod.fst)).Pairwise (· ≤ ·) → Selected rs cs (select rs cs)
  | [], _ => by simp [Selected, select]
  | (k, r) :: rs, hp => by
    simp only [List.map_cons, List.pairwise_cons, List.mem_map, Function.comp, forall_exists_index, and_imp, forall_apply_eq_imp_iff₂] at hp
    have ih := selected cs rs hp.2
    have hr := longest_rule cs r
    unfold select
    cases e : r.longest cs with
    | none =>
      rw [e] at hr
      cases e' : select rs cs with
      | none =>
        rw [e'] at ih
        intro p hm s hs
        rcases List.mem_cons.1 hm with rfl | hm
        · exact hr s hs
        · exact ih p hm s hs
      | some q =>
        obtain ⟨k', n'⟩ := q
        rw [e'] at ih
        obtain ⟨h1, ⟨r', h2, h3⟩, h4, h5⟩ := ih
        refine ⟨h1, ⟨r', List.mem_cons_of_mem _ h2, h3⟩, ?_, ?_⟩
        · intro p hm s hs hf
          rcases List.mem_cons.1 hm with rfl | hm
          · exact absurd hf (hr s hs)
          · exact h4 p hm s hs hf
        · intro p hm hf
          rcases List.mem_cons.1 hm with rfl | hm
          · exact absurd hf (hr _ (List.take_prefix _ _))
          · exact h5 p hm hf
    | some n =>
      rw [e] at hr
      obtain ⟨g1, g2, g3⟩ := hr
      cases e' : select rs cs with
      | none =>
        rw [e'] at ih
        refine ⟨g1, ⟨r, List.mem_cons_self, g2⟩, ?_, ?_⟩
        · intro p hm s hs hf
          rcases List.mem_cons.1 hm with rfl | hm
          · exact g3 s hs hf
          · exact absurd hf (ih p hm s hs)
        · intro p hm hf
          rcases List.mem_cons.1 hm with rfl | hm
          · exact Nat.le_refl _
          · exact hp.1 p hm
      | some q =>
        obtain ⟨k', n'⟩ := q
        rw [e'] at ih
        obtain ⟨h1, ⟨r', h2, h3⟩, h4, h5⟩ := ih
        by_cases hn : n < n'
        · simp only [hn, if_true]
          refine ⟨h1, ⟨r', List.mem_cons_of_mem _ h2, h3⟩, ?_, ?_⟩
          · intro p hm s hs hf
            rcases List.mem_cons.1 hm with rfl | hm
            · have := g3 s hs hf
              omega
            · exact h4 p hm s hs hf
          · intro p hm hf
            rcases List.mem_cons.1 hm with rfl | hm
            · have := g3 _ (List.take_prefix _ _) hf
              simp at this
              omega
            · exact h5 p hm hf
        · simp only [hn, if_false]
          refine ⟨g1, ⟨r, List.mem_cons_self, g2⟩, ?_, ?_⟩
          · intro p hm s hs hf
            rcases List.mem_cons.1 hm with rfl | hm
            · exact g3 s hs hf
            · have := h4 p hm s hs hf
              omega
          · intro p hm hf
            rcases List.mem_cons.1 hm with rfl | hm
            · exact Nat.le_refl _
            · exact hp.1 p hm

/-! ### The forms of tokens -/

theorem matches_chr {c : Nat} {s : List Nat} : (Re.chr c).Matches s ↔ s = [c] := by
  simp [Re.chr, Re.Matches]

theorem matches_text : (t : List Nat) → (s : List Nat) → ((Re.text t).Matches s ↔ s = t)
  | [], s => by simp [Re.text, Re.Matches]
  | c :: t, s => by
    simp only [Re.text, Re.Matches, matches_chr, matches_text t]
    constructor
    · rintro ⟨x, y, rfl, rfl, rfl⟩; rfl
    · rintro rfl; exact ⟨[c], t, rfl, rfl, rfl⟩

theorem star_set (p : Nat → Bool) (s : List Nat) : (Re.star (.set p)).Matches s ↔ ∀ c ∈ s, p c = true := by
  simp only [Re.Matches]
  constructor
  · rintro ⟨l, rfl, h⟩ c hc
    obtain ⟨x, hx, hc⟩ := List.mem_flatten.1 hc
    obtain ⟨d, hd, rfl⟩ := h x hx
    rw [List.mem_singleton.1 hc]
    exact hd
  · intro h
    refine ⟨s.map fun c => [c], ?_, ?_⟩
    · clear h
      induction s with
      | nil => rfl
      | cons c s ih => simp [← ih]
    · intro x hx
      obtain ⟨c, hc, rfl⟩ := List.mem_map.1 hx
      exact ⟨c, h c hc, rfl⟩

theorem plus_set (p : Nat → Bool) (s : List Nat) : (Re.plus (.set p)).Matches s ↔ s ≠ [] ∧ ∀ c ∈ s, p c = true := by
  rw [Re.plus]
  constructor
  · rintro ⟨x, y, rfl, ⟨c, hc, rfl⟩, h⟩
    rw [star_set] at h
    exact ⟨by simp, by simpa using ⟨hc, h⟩⟩
  · rintro ⟨h, h'⟩
    cases s with
    | nil => exact absurd rfl h
    | cons c s => exact ⟨[c], s, rfl, ⟨c, h' c List.mem_cons_self, rfl⟩, (star_set _ _).2 fun d hd => h' d (List.mem_cons_of_mem _ hd)⟩

theorem matches_opt (r : Re) (s : List Nat) : (Re.opt r).Matches s ↔ r.Matches s ∨ s = [] := by simp [Re.opt, Re.Matches]

theorem exponent_iff (s : List Nat) : floatExponent.Matches s ↔ Exponent s := by
  rw [floatExponent]
  constructor
  · rintro ⟨x, y, rfl, ⟨e, he, rfl⟩, a, b, rfl, ha, hb⟩
    rw [plus_set] at hb
    rw [matches_opt] at ha
    refine ⟨e, a, b, by simpa using he, ?_, hb.1, hb.2, rfl⟩
    rcases ha with ⟨c, hc, rfl⟩ | rfl
    · simp only [Bool.or_eq_true, beq_iff_eq] at hc
      rcases hc with rfl | rfl
      · exact .inr (.inl rfl)
      · exact .inr (.inr rfl)
    · exact .inl rfl
  · rintro ⟨e, sign, ds, he, hs, hd, hd', rfl⟩
    refine ⟨[e], sign ++ ds, rfl, ⟨e, by simpa using he, rfl⟩, sign, ds, rfl, ?_, (plus_set _ _).2 ⟨hd, hd'⟩⟩
    rw [matches_opt]
    rcases hs with rfl | rfl | rfl
    · exact .inr rfl
    · exact .inl ⟨_, by decide, rfl⟩
    · exact .inl ⟨_, by decide, rfl⟩

theorem double_iff (s : List Nat) : doubleLiteral.Matches s ↔ Double s := by
  rw [doubleLiteral]
  constructor
  · rintro (⟨a, e, rfl, ha, he⟩ | ⟨a, x, rfl, ha, d, y, rfl, hd, b, e, rfl, hb, he⟩ | ⟨d, y, rfl, hd, b, e, rfl, hb, he⟩)
    · rw [plus_set] at ha
      rw [exponent_iff] at he
      exact .inl ⟨a, e, ha.1, ha.2, he, rfl⟩
    · rw [plus_set] at ha
      rw [matches_opt, exponent_iff] at he
      rw [matches_chr] at hd
      rw [star_set] at hb
      subst hd
      exact .inr ⟨a, b, e, .inl ha.1, ha.2, hb, he.symm, rfl⟩
    · rw [plus_set] at hb
      rw [matches_opt, exponent_iff] at he
      rw [matches_chr] at hd
      subst hd
      exact .inr ⟨[], b, e, .inr hb.1, by simp, hb.2, he.symm, rfl⟩
  · rintro (⟨a, e, h, ha, he, rfl⟩ | ⟨a, b, e, h, ha, hb, he, rfl⟩)
    · exact .inl ⟨a, e, rfl, (plus_set _ _).2 ⟨h, ha⟩, (exponent_iff _).2 he⟩
    · have he' : (Re.opt floatExponent).Matches e := by rw [matches_opt, exponent_iff]; exact he.symm
      by_cases ha' : a = []
      · subst ha'
        exact .inr (.inr ⟨[46], b ++ e, rfl, matches_chr.2 rfl, b, e, rfl, (plus_set _ _).2 ⟨by simpa using h, hb⟩, he'⟩)
      · exact .inr (.inl ⟨a, 46 :: (b ++ e), rfl, (plus_set _ _).2 ⟨ha', ha⟩, [46], b ++ e, rfl, matches_chr.2 rfl, b, e, rfl,
          (star_set _ _).2 hb, he'⟩)

theorem stringChar_iff (s : List Nat) : stringCharacter.Matches s ↔ StringChar s := by
  rw [stringCharacter]
  constructor
  · rintro (⟨c, hc, rfl⟩ | ⟨x, y, rfl, hx, c, hc, rfl⟩ | ⟨x, y, rfl, hx, _, _, rfl, ⟨a, ha, rfl⟩, _, _, rfl, ⟨b, hb, rfl⟩, _, _, rfl, ⟨c, hc, rfl⟩, d, hd, rfl⟩ |
      ⟨x, y, rfl, hx, _, _, rfl, ⟨a, ha, rfl⟩, b, hb, rfl⟩ | ⟨x, y, rfl, hx, p, _, rfl, hp, _, q, rfl, ⟨b, hb, rfl⟩, hq⟩)
    · simp only [Bool.not_eq_true', Bool.or_eq_false_iff, beq_eq_false_iff_ne] at hc
      exact .inl ⟨c, hc.1.1, hc.1.2, hc.2, rfl⟩
    · rw [matches_chr] at hx
      subst hx
      refine .inr (.inl ⟨c, ?_, rfl⟩)
      simp only [Bool.or_eq_true, beq_iff_eq] at hc
      rcases hc with ((((rfl | rfl) | rfl) | rfl) | rfl) | rfl <;> decide
    · rw [matches_text] at hx
      subst hx
      exact .inr (.inr (.inl ⟨a, b, c, d, ha, hb, hc, hd, rfl⟩))
    · rw [matches_text] at hx
      subst hx
      exact .inr (.inr (.inr (.inl ⟨a, b, ha, hb, rfl⟩)))
    · rw [matches_text] at hx
      rw [matches_opt] at hp hq
      subst hx
      rcases hp with ⟨a, ha, rfl⟩ | rfl
      · simp only [Bool.and_eq_true, decide_eq_true_eq] at ha
        have ha' : isOctalDigit a = true := by simp [isOctalDigit]; omega
        rcases hq with ⟨c, hc, rfl⟩ | rfl
        · exact .inr (.inr (.inr (.inr (.inr (.inr ⟨a, b, c, ha.1, ha.2, hb, hc, rfl⟩)))))
        · exact .inr (.inr (.inr (.inr (.inr (.inl ⟨a, b, ha', hb, rfl⟩)))))
      · rcases hq with ⟨c, hc, rfl⟩ | rfl
        · exact .inr (.inr (.inr (.inr (.inr (.inl ⟨b, c, hb, hc, rfl⟩)))))
        · exact .inr (.inr (.inr (.inr (.inl ⟨b, hb, rfl⟩))))
  · rintro (⟨c, h1, h2, h3, rfl⟩ | ⟨c, hc, rfl⟩ | ⟨a, b, c, d, ha, hb, hc, hd, rfl⟩ | ⟨a, b, ha, hb, rfl⟩ | ⟨a, ha, rfl⟩ | ⟨a, b, ha, hb, rfl⟩ |
      ⟨a, b, c, ha, ha', hb, hc, rfl⟩)
    · exact .inl ⟨c, by simp [h1, h2, h3], rfl⟩
    · refine .inr (.inl ⟨[92], [c], rfl, matches_chr.2 rfl, c, ?_, rfl⟩)
      have : ∀ c ∈ py! "\"\\rnft", (c == 34 || c == 92 || c == ch! 'r' || c == ch! 'n' || c == ch! 'f' || c == ch! 't') = true := by decide
      exact this c hc
    · exact .inr (.inr (.inl ⟨_, _, rfl, (matches_text _ _).2 rfl, [a], _, rfl, ⟨a, ha, rfl⟩, [b], _, rfl, ⟨b, hb, rfl⟩, [c], _, rfl, ⟨c, hc, rfl⟩,
        d, hd, rfl⟩))
    · exact .inr (.inr (.inr (.inl ⟨_, _, rfl, (matches_text _ _).2 rfl, [a], _, rfl, ⟨a, ha, rfl⟩, b, hb, rfl⟩)))
    · exact .inr (.inr (.inr (.inr ⟨_, _, rfl, (matches_text _ _).2 rfl, [], [a], rfl, (matches_opt _ _).2 (.inr rfl), [a], [], rfl, ⟨a, ha, rfl⟩,
        (matches_opt _ _).2 (.inr rfl)⟩)))
    · exact .inr (.inr (.inr (.inr ⟨_, _, rfl, (matches_text _ _).2 rfl, [], [a, b], rfl, (matches_opt _ _).2 (.inr rfl), [a], [b], rfl, ⟨a, ha, rfl⟩,
        (matches_opt _ _).2 (.inl ⟨b, hb, rfl⟩)⟩)))
    · exact .inr (.inr (.inr (.inr ⟨_, _, rfl, (matches_text _ _).2 rfl, [a], [b, c], rfl, (matches_opt _ _).2 (.inl ⟨a, by simp [ha, ha'], rfl⟩), [b], [c], rfl,
        ⟨b, hb, rfl⟩, (matches_opt _ _).2 (.inl ⟨c, hc, rfl⟩)⟩)))

theorem form_iff (k : Kind) (s : List Nat) : (∃ r, (k, r) ∈ rules ∧ RuleForm r s) ↔ Form k s := by
  have other : (∃ r, (k, r) ∈ rules ∧ RuleForm r s) ↔
      (∃ t ∈ operators, k = .operator t ∧ s = t) ∨ (∃ t ∈ keywords, k = .keyword t ∧ s = t) ∨ ∃ r, (k, r) ∈ otherRules ∧ RuleForm r s := by
    simp only [rules, List.mem_append, List.mem_map, Prod.mk.injEq]
    constructor
    · rintro ⟨r, (⟨t, ht, rfl, rfl⟩ | ⟨t, ht, rfl, rfl⟩) | h, hf⟩
      · exact .inl ⟨t, ht, rfl, (matches_text t s).1 hf⟩
      · exact .inr (.inl ⟨t, ht, rfl, (matches_text t s).1 hf⟩)
      · exact .inr (.inr ⟨r, h, hf⟩)
    · rintro (⟨t, ht, rfl, rfl⟩ | ⟨t, ht, rfl, rfl⟩ | ⟨r, h, hf⟩)
      · exact ⟨_, .inl (.inl ⟨s, ht, rfl, rfl⟩), (matches_text s s).2 rfl⟩
      · exact ⟨_, .inl (.inr ⟨s, ht, rfl, rfl⟩), (matches_text s s).2 rfl⟩
      · exact ⟨r, .inr h, hf⟩
  rw [other]
  cases k with
  | operator t =>
    simp [otherRules, Form]
    constructor <;> (rintro ⟨h, rfl⟩; exact ⟨h, rfl⟩)
  | keyword t =>
    simp [otherRules, Form]
    constructor <;> (rintro ⟨h, rfl⟩; exact ⟨h, rfl⟩)
  | space => simp [otherRules, Form, RuleForm, Re.Matches]
  | docComment => simp [otherRules, Form, RuleForm]
  | markdownComment => simp [otherRules, Form, RuleForm]
  | blockComment => simp [otherRules, Form, RuleForm]
  | lineComment =>
    simp only [otherRules, Form, RuleForm, List.mem_cons, Prod.mk.injEq, reduceCtorEq, false_and, true_and, false_or, or_false, and_false, exists_false,
      List.not_mem_nil, exists_eq_left]
    constructor
    · rintro ⟨x, y, rfl, hx, hy⟩
      rw [matches_text] at hx
      rw [star_set] at hy
      subst hx
      exact ⟨y, by simpa using hy, rfl⟩
    · rintro ⟨body, hb, rfl⟩
      exact ⟨_, body, rfl, (matches_text _ _).2 rfl, (star_set _ _).2 (by simpa using hb)⟩
  | bool => simp [otherRules, Form, RuleForm, Re.Matches, matches_text]
  | string =>
    simp only [otherRules, Form, RuleForm, List.mem_cons, Prod.mk.injEq, reduceCtorEq, false_and, true_and, false_or, or_false, and_false, exists_false,
      List.not_mem_nil, exists_eq_left, stringLiteral]
    constructor
    · rintro ⟨x, y, rfl, hx, a, b, rfl, ⟨l, rfl, hl⟩, hb⟩
      rw [matches_chr] at hx hb
      subst hx hb
      exact ⟨l, fun p hp => (stringChar_iff p).1 (hl p hp), rfl⟩
    · rintro ⟨l, hl, rfl⟩
      exact ⟨[34], _, rfl, matches_chr.2 rfl, l.flatten, [34], rfl, ⟨l, rfl, fun p hp => (stringChar_iff p).2 (hl p hp)⟩, matches_chr.2 rfl⟩
  | binary =>
    simp only [otherRules, Form, RuleForm, List.mem_cons, Prod.mk.injEq, reduceCtorEq, false_and, true_and, false_or, or_false, and_false, exists_false,
      List.not_mem_nil, exists_eq_left, binaryLiteral]
    constructor
    · rintro ⟨x, y, rfl, hx, c, hc, rfl⟩
      rw [plus_set] at hx
      exact ⟨x, c, hx.1, by simpa using hx.2, by simpa using hc, rfl⟩
    · rintro ⟨x, c, hx, hx', hc, rfl⟩
      exact ⟨x, [c], rfl, (plus_set _ _).2 ⟨hx, by simpa using hx'⟩, c, by simpa using hc, rfl⟩
  | octal =>
    simp only [otherRules, Form, RuleForm, List.mem_cons, Prod.mk.injEq, reduceCtorEq, false_and, true_and, false_or, or_false, and_false, exists_false,
      List.not_mem_nil, exists_eq_left, octalLiteral]
    constructor
    · rintro ⟨x, y, rfl, hx, hy⟩
      rw [matches_chr] at hx
      rw [plus_set] at hy
      subst hx
      exact ⟨y, hy.1, hy.2, rfl⟩
    · rintro ⟨y, hy, hy', rfl⟩
      exact ⟨[48], y, rfl, matches_chr.2 rfl, (plus_set _ _).2 ⟨hy, hy'⟩⟩
  | hexadecimal =>
    simp only [otherRules, Form, RuleForm, List.mem_cons, Prod.mk.injEq, reduceCtorEq, false_and, true_and, false_or, or_false, and_false, exists_false,
      List.not_mem_nil, exists_eq_left, hexadecimalLiteral]
    constructor
    · rintro ⟨_, y, rfl, ⟨z, _, rfl, hz, c, hc, rfl⟩, hy⟩
      rw [matches_chr] at hz
      rw [plus_set] at hy
      subst hz
      exact ⟨c, y, by simpa using hc, hy.1, hy.2, rfl⟩
    · rintro ⟨c, y, hc, hy, hy', rfl⟩
      exact ⟨[48, c], y, rfl, ⟨[48], [c], rfl, matches_chr.2 rfl, c, by simpa using hc, rfl⟩, (plus_set _ _).2 ⟨hy, hy'⟩⟩
  | double => simp [otherRules, Form, RuleForm, double_iff]
  | float =>
    simp only [otherRules, Form, RuleForm, List.mem_cons, Prod.mk.injEq, reduceCtorEq, false_and, true_and, false_or, or_false, and_false, exists_false,
      List.not_mem_nil, exists_eq_left, floatLiteral]
    constructor
    · rintro ⟨x, y, rfl, hx, c, hc, rfl⟩
      rw [double_iff] at hx
      exact ⟨x, c, hx, by simpa using hc, rfl⟩
    · rintro ⟨x, c, hx, hc, rfl⟩
      exact ⟨x, [c], rfl, (double_iff _).2 hx, c, by simpa using hc, rfl⟩
  | decimal =>
    simp only [otherRules, Form, RuleForm, List.mem_cons, Prod.mk.injEq, reduceCtorEq, false_and, true_and, false_or, or_false, and_false, exists_false,
      List.not_mem_nil, exists_eq_left, decimalLiteral]
    constructor
    · rintro (⟨x, y, rfl, ⟨c, hc, rfl⟩, hy⟩ | h)
      · rw [star_set] at hy
        simp only [Bool.and_eq_true, decide_eq_true_eq] at hc
        exact .inr ⟨c, y, hc.1, hc.2, hy, rfl⟩
      · exact .inl (matches_chr.1 h)
    · rintro (rfl | ⟨c, y, hc, hc', hy, rfl⟩)
      · exact .inr (matches_chr.2 rfl)
      · exact .inl ⟨[c], y, rfl, ⟨c, by simp [hc, hc'], rfl⟩, (star_set _ _).2 hy⟩
  | id =>
    simp only [otherRules, Form, RuleForm, List.mem_cons, Prod.mk.injEq, reduceCtorEq, false_and, true_and, false_or, or_false, and_false, exists_false,
      List.not_mem_nil, exists_eq_left, identifier]
    constructor
    · rintro ⟨x, y, rfl, ⟨c, hc, rfl⟩, hy⟩
      rw [star_set] at hy
      exact ⟨c, y, hc, hy, rfl⟩
    · rintro ⟨c, y, hc, hy, rfl⟩
      exact ⟨[c], y, rfl, ⟨c, hc, rfl⟩, (star_set _ _).2 hy⟩
  | invalidString =>
    simp only [otherRules, Form, RuleForm, List.mem_cons, Prod.mk.injEq, reduceCtorEq, false_and, true_and, false_or, or_false, and_false, exists_false,
      List.not_mem_nil, exists_eq_left, invalidStringLiteral]
    constructor
    · rintro ⟨x, y, rfl, hx, a, b, rfl, ha, hb⟩
      rw [matches_chr] at hx
      rw [star_set] at ha
      rw [matches_opt, matches_chr] at hb
      subst hx
      refine ⟨a, by simpa using ha, ?_⟩
      rcases hb with rfl | rfl
      · exact .inr rfl
      · exact .inl (by simp)
    · rintro ⟨a, ha, rfl | rfl⟩
      · exact ⟨[34], a, rfl, matches_chr.2 rfl, a, [], by simp, (star_set _ _).2 (by simpa using ha), (matches_opt _ _).2 (.inr rfl)⟩
      · exact ⟨[34], _, rfl, matches_chr.2 rfl, a, [34], rfl, (star_set _ _).2 (by simpa using ha), (matches_opt _ _).2 (.inl (matches_chr.2 rfl))⟩
  | invalid => simp [otherRules, Form, RuleForm, plus_set]

/-! ### Tokens -/

theorem rules_sorted : (rules.map (rank ∘ Prod.fst)).Pairwise (· ≤ ·) := by
  have e : rules.map (rank ∘ Prod.fst) =
      operators.map (fun _ => 0) ++ keywords.map (fun _ => 1) ++ [2, 3, 4, 5, 6, 7, 8, 9, 10, 11, 12, 13, 14, 15, 16, 17] := by
    simp only [rules, List.map_append, List.map_map]
    rfl
  rw [e]
  decide +kernel

theorem rank_inj {k k' : Kind} {s : List Nat} (h : Form k s) (h' : Form k' s) (e : rank k = rank k') : k = k' := by
  cases k <;> cases k' <;> simp_all [rank, Form]

theorem isToken_unique {text : List Nat} {k k' : Kind} {s s' : List Nat} (h : IsToken text k s) (h' : IsToken text k' s') : k = k' ∧ s = s' := by
  obtain ⟨h1, h2, h3, h4⟩ := h
  obtain ⟨g1, g2, g3, g4⟩ := h'
  have e : s = s' := List.IsPrefix.eq_of_length (List.prefix_of_prefix_length_le h1 g1 (g3 _ _ h1 h2)) (Nat.le_antisymm (g3 _ _ h1 h2) (h3 _ _ g1 g2))
  subst e
  exact ⟨rank_inj h2 g2 (Nat.le_antisymm (h4 _ g2) (g4 _ h2)), rfl⟩

theorem isToken_of_token {cs : List Nat} {k : Kind} {n : Nat} (h : token cs = some (k, n)) : n ≤ cs.length ∧ IsToken cs k (cs.take n) := by
  have := selected cs rules rules_sorted
  rw [show select rules cs = some (k, n) from h] at this
  obtain ⟨h1, h2, h3, h4⟩ := this
  refine ⟨h1, List.take_prefix _ _, (form_iff _ _).1 h2, ?_, ?_⟩
  · intro k' s' hs hf
    obtain ⟨r, hr, hf⟩ := (form_iff _ _).2 hf
    have := h3 (k', r) hr s' hs hf
    simp; omega
  · intro k' hf
    obtain ⟨r, hr, hf⟩ := (form_iff _ _).2 hf
    exact h4 (k', r) hr hf

theorem token_of_isToken {cs : List Nat} {k : Kind} {s : List Nat} (h : IsToken cs k s) : token cs = some (k, s.length) := by
  cases e : token cs with
  | none =>
    have := selected cs rules rules_sorted
    rw [show select rules cs = none from e] at this
    obtain ⟨r, hr, hf⟩ := (form_iff _ _).2 h.2.1
    exact absurd hf (this (k, r) hr s h.1)
  | some p =>
    obtain ⟨k', n⟩ := p
    obtain ⟨h1, h2⟩ := isToken_of_token e
    obtain ⟨rfl, rfl⟩ := isToken_unique h h2
    simp [Nat.min_eq_left h1]

end Zserio.Lexer
