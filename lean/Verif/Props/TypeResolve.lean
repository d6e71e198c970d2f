import Verif.Lemmas.TypeResolve
/-
C103: names of types.
-/
namespace Zserio.TypeResolve

/-! ### A schema with a template, subtypes and instantiations

`struct Pair<T, U> { T first; U second; }; subtype uint8 Byte; subtype Byte Octet; instantiate Pair<Octet, Color> Both; subtype Both Two;
enum Color …; struct Main { Two two; }` -/
namespace Demo

def schema : Schema := [
  .templatable [20, 21] [.named none 20 [], .named none 21 []],
  .subtype (.builtin 8),
  .subtype (.named (some 1) 1 []),
  .instantiate (.named (some 0) 0 [.named (some 2) 2 [], .named (some 5) 5 []]),
  .subtype (.named (some 3) 3 []),
  .type [.builtin 8],
  .templatable [] [.named (some 4) 4 []]]

theorem valid : Valid schema := by
  intro d hd
  simp only [schema, List.mem_cons, List.not_mem_nil, or_false] at hd
  have nil : ∀ {ps : List Nat} {r : Ref}, r ∈ ([] : List Ref) → ValidRef schema ps r := fun h => by cases h
  rcases hd with rfl | rfl | rfl | rfl | rfl | rfl | rfl
  · intro r hr
    simp only [List.mem_cons, List.not_mem_nil, or_false] at hr
    rcases hr with rfl | rfl
    · exact .param 20 [] (by simp) (fun r => nil)
    · exact .param 21 [] (by simp) (fun r => nil)
  · exact .builtin 8
  · exact .symbol 1 1 [] _ rfl trivial (fun r => nil)
  · refine ⟨.symbol 0 0 _ _ rfl (Or.inr (by simp)) ?_, 0, 0, _, [20, 21], _, rfl, rfl, by simp⟩
    intro r hr
    simp only [List.mem_cons, List.not_mem_nil, or_false] at hr
    rcases hr with rfl | rfl
    · exact .symbol 2 2 [] _ rfl trivial (fun r => nil)
    · exact .symbol 5 5 [] _ rfl trivial (fun r => nil)
  · exact .symbol 3 3 [] _ rfl trivial (fun r => nil)
  · intro r hr
    simp only [List.mem_cons, List.not_mem_nil, or_false] at hr
    subst hr
    exact .builtin 8
  · intro r hr
    simp only [List.mem_cons, List.not_mem_nil, or_false] at hr
    subst hr
    exact .symbol 4 4 [] _ rfl trivial (fun r => nil)

/-- the result is no exception -/
def isOk : Result → Bool
  | some (.ok _) => true
  | _ => false

theorem accepted : ∃ st, resolve schema 20 = some (.ok st) := by
  have h : isOk (resolve schema 20) = true := by decide +kernel
  unfold isOk at h
  split at h
  · rename_i st hs; exact ⟨st, hs⟩
  · cases h

theorem noParameterNames : NoParameterNames schema := by
  intro t ht x hx ps refs hm
  simp [schema] at ht
  rcases ht with (rfl | rfl | rfl) | rfl <;> cases hx <;> rename_i hr hu <;> simp at hr
  rcases hr with rfl | rfl <;> cases hu <;> simp_all

end Demo

/-! ### C103: cycles -/

/-- **C103**: what is accepted has no cycles: no subtype and no template instantiation is defined by itself. -/
theorem C103_acyclic (s : Schema) (n : Nat) (st : State) (h : resolve s n = some (.ok st)) : ¬ Cyclic s :=
  fun ⟨i, hi⟩ => ends_irrefl (ends_of_resolve h i) hi

/-- **C103**: without cycles, the compiler accepts every schema whose references are right, and otherwise prints a message, which is not that
of a cycle. -/
theorem C103_total (s : Schema) (h : ¬ Cyclic s) :
    ∃ N, ∀ n ≥ N, ∃ y, resolve s n = some y ∧ y ≠ .error .cycle ∧ (Valid s → ∃ st, y = .ok st) :=
  let ⟨N, hN⟩ := fine_decls (s := s) (js := List.range s.length) (fun _ _ _ _ _ _ k _ => ends_of_noCycle fun ⟨c, _, hc⟩ => h ⟨c, hc⟩)
  ⟨N, fun n hn => hN n hn {}⟩

example : ¬ Cyclic Demo.schema := by
  obtain ⟨st, h⟩ := Demo.accepted
  exact C103_acyclic _ _ _ h

/-- **C103**: the result does not depend on the size of the stack, if it is big enough. -/
theorem C103_stack (s : Schema) (n m : Nat) (h : n ≤ m) (x : Except Refusal State) (hx : resolve s n = some x) : resolve s m = some x := by
  have key : ∀ js st y, visitDecls s n js st = some y → visitDecls s m js st = some y := by
    intro js
    induction js with
    | nil => intro st y h; exact h
    | cons j js ih =>
      intro st y hy
      rw [visitDecls] at hy ⊢
      have hd : ∀ z, visitDecl s n j st = some z → visitDecl s m j st = some z := by
        intro z hz
        unfold visitDecl at hz ⊢
        split at hz
        · exact visitNamed_mono h hz
        · exact visitNamed_mono h hz
        · exact visitRefs_mono h hz
        · exact visitRefs_mono h hz
        · exact visitRefs_mono h hz
        · exact visitRefs_mono h hz
        · exact hz
      cases hz : visitDecl s n j st with
      | none => rw [hz] at hy; cases hy
      | some z =>
        rw [hd z hz]
        rw [hz] at hy
        cases z with
        | error e => exact hy
        | ok st' => exact ih st' y hy
  exact key _ _ _ hx

/-- **C103 (partial)**: accepted schemas are right, unless an unknown name in the definition of a subtype or template instantiation is that
of a template parameter somewhere.  (Without this condition it is false: `C103_parameter_deviates`.) -/
theorem C103_valid_partial (s : Schema) (hp : NoParameterNames s) (n : Nat) (st : State) (h : resolve s n = some (.ok st)) : Valid s := by
  intro d hd
  obtain ⟨j, hj⟩ := List.getElem?_of_mem hd
  exact ((good_resolve (v := True) (fun _ => hp) h).2 j d hj).2 trivial

/-- **C103**: hence the accepted schemas are those without cycles whose references are right. -/
theorem C103_accepted_partial (s : Schema) (hp : NoParameterNames s) :
    (∃ n st, resolve s n = some (.ok st)) ↔ ¬ Cyclic s ∧ Valid s := by
  constructor
  · rintro ⟨n, st, h⟩
    exact ⟨C103_acyclic s n st h, C103_valid_partial s hp n st h⟩
  · rintro ⟨hc, hv⟩
    obtain ⟨N, hN⟩ := C103_total s hc
    obtain ⟨y, hy, _, hok⟩ := hN N le_rfl
    obtain ⟨st, rfl⟩ := hok hv
    exact ⟨N, st, hy⟩

example : NoParameterNames Demo.schema ∧ Valid Demo.schema ∧ ∃ st, resolve Demo.schema 20 = some (.ok st) :=
  ⟨Demo.noParameterNames, Demo.valid, Demo.accepted⟩

/-! ### C103: base types -/

/-- **C103**: every subtype of an accepted schema stands for the type at the end of the chain of its definitions. -/
theorem C103_base (s : Schema) (n : Nat) (st : State) (h : resolve s n = some (.ok st)) (j : Nat) (t : Ref) (hj : s[j]? = some (.subtype t)) :
    ∃ r, st.base j = some r ∧ BaseOf s t r := by
  obtain ⟨g, d⟩ := good_resolve (v := False) (fun h => h.elim) h
  exact (g j ((d j _ hj).1 t rfl)).1 t hj

/-- **C103**: there is only one such type. -/
theorem C103_base_unique (s : Schema) (t r r' : Ref) (h : BaseOf s t r) (h' : BaseOf s t r') : r = r' := by
  induction h with
  | builtin b => cases h'; rfl
  | plain symbol name args hs =>
    cases h' with
    | plain _ _ _ _ => rfl
    | subtype j _ _ t _ hj _ => exact absurd hj (hs j t rfl).1
    | instantiate j _ _ t hj => exact absurd hj (hs j _ rfl).2
  | subtype j name args t r hj _ ih =>
    cases h' with
    | plain _ _ _ hs => exact absurd hj (hs j t rfl).1
    | subtype _ _ _ t' _ hj' h'' => rw [hj] at hj'; cases hj'; exact ih h''
    | instantiate _ _ _ t' hj' => rw [hj] at hj'; cases hj'
  | instantiate j name args t hj =>
    cases h' with
    | plain _ _ _ hs => exact absurd hj (hs j t rfl).2
    | subtype _ _ _ t' _ hj' h'' => rw [hj] at hj'; cases hj'
    | instantiate _ _ _ t' hj' => rw [hj] at hj'; cases hj'; rfl

/-- `Octet` is `uint8`, and `Two` is `Pair<Octet, Color>` -/
example : ∃ st, resolve Demo.schema 20 = some (.ok st) ∧ st.base 2 = some (.builtin 8) ∧
    st.base 4 = some (.named (some 0) 0 [.named (some 2) 2 [], .named (some 5) 5 []]) := by
  obtain ⟨st, h⟩ := Demo.accepted
  obtain ⟨r, hr, b⟩ := C103_base _ _ _ h 2 (.named (some 1) 1 []) rfl
  obtain ⟨r', hr', b'⟩ := C103_base _ _ _ h 4 (.named (some 3) 3 []) rfl
  refine ⟨st, h, ?_, ?_⟩
  · rw [hr, C103_base_unique _ _ _ _ b (.subtype 1 1 [] _ _ rfl (.builtin 8))]
  · rw [hr', C103_base_unique _ _ _ _ b' (.instantiate 3 3 [] _ rfl)]

/-! ### C103: reports of cycles -/

/-- **C103 (partial)**: a cycle of subtypes is reported, if the first definition which leads to a cycle is on it.  (Without this condition it is
false: `C103_overflow_deviates`.) -/
theorem C103_cycle_partial (s : Schema) (hv : Valid s) (j : Nat) (hc : Relation.TransGen (Next s) j j)
    (hf : ∀ i < j, ∀ d, s[i]? = some d → ∀ r ∈ d.refs, ∀ k, r.Mentions k → ¬ LeadsToCycle s k) :
    ∃ N, ∀ n ≥ N, resolve s n = some (.error .cycle) := by
  obtain ⟨t, ht⟩ := next_source hc
  have hlt : j < s.length := by
    rw [List.getElem?_eq_some_iff] at ht; exact ht.1
  obtain ⟨N₁, h₁⟩ := fine_decls (s := s) (js := List.range j)
    (fun i hi d hd r hr k hk => ends_of_noCycle (hf i (List.mem_range.1 hi) d hd r hr k hk))
  obtain ⟨N₂, h₂⟩ := cycle_first hc
  have hsplit : List.range s.length = List.range j ++ (j :: (List.range (s.length - j - 1)).map (j + 1 + ·)) := by
    have e : s.length = j + (s.length - j) := by omega
    conv_lhs => rw [e, List.range_add]
    congr 1
    obtain ⟨m, hm⟩ : ∃ m, s.length - j = m + 1 := ⟨s.length - j - 1, by omega⟩
    rw [show s.length - j - 1 = m by omega, hm, List.range_succ_eq_map]
    simp only [List.map_cons, Nat.add_zero, List.map_map, List.cons.injEq, true_and]
    apply List.map_congr_left
    intro a _
    simp only [Function.comp_apply, Nat.succ_eq_add_one]
    omega
  have happ : ∀ n js js' st, visitDecls s n (js ++ js') st = match visitDecls s n js st with
      | some (.ok st) => visitDecls s n js' st
      | r => r := by
    intro n js js'
    induction js with
    | nil => intro st; rfl
    | cons i js ih =>
      intro st
      simp only [List.cons_append, visitDecls]
      cases visitDecl s n i st with
      | none => rfl
      | some y =>
        cases y with
        | error e => rfl
        | ok st' => exact ih st'
  refine ⟨max N₁ N₂, fun n hn => ?_⟩
  obtain ⟨y, hy, _, hok⟩ := h₁ n (by omega) {}
  obtain ⟨st, rfl⟩ := hok hv
  unfold resolve
  rw [hsplit, happ, hy]
  simp only [visitDecls, visitDecl, ht]
  rw [h₂ n (by omega)]

/-- `subtype B A; subtype C B; subtype A C;` -/
example : ∃ N, ∀ n ≥ N, resolve [.subtype (.named (some 1) 1 []), .subtype (.named (some 2) 2 []), .subtype (.named (some 0) 0 [])] n =
    some (.error .cycle) := by
  refine C103_cycle_partial _ ?_ 0 ?_ (by simp)
  · intro d hd
    simp only [List.mem_cons, List.not_mem_nil, or_false] at hd
    rcases hd with rfl | rfl | rfl <;> exact .symbol _ _ [] _ rfl trivial (fun r h => by cases h)
  · exact .head ⟨1, rfl⟩ (.head ⟨2, rfl⟩ (.single ⟨0, rfl⟩))

/-- **C103 (deviation)**: if the first definition leads to a cycle of subtypes but is not on it, no stack is big enough: there is no message
but a StackOverflowError. -/
theorem C103_overflow_deviates (s : Schema) (i : Nat) (hi : Relation.TransGen (Next s) 0 i) (hc : Relation.TransGen (Next s) i i)
    (h0 : ¬ Relation.ReflTransGen (Next s) i 0) : ∀ n, resolve s n = none := by
  have key : ∀ n k subs st, Relation.ReflTransGen (Next s) k i → subs.head? = some 0 → ¬ Relation.ReflTransGen (Next s) k 0 →
      visitNamed s [] n subs [] k st = none := by
    intro n
    induction n using Nat.strong_induction_on with
    | _ n ih =>
      intro k subs st hk hh hk0
      rcases Relation.ReflTransGen.cases_head hk with rfl | ⟨m, hm, hmi⟩
      · exact cycle_missed [] [] n _ subs st hc hh hk0
      · cases hv : visitNamed s [] n subs [] k st with
        | none => rfl
        | some x =>
          obtain ⟨name, hs⟩ := id hm
          have hm' : ∃ t, s[m]? = some (.subtype t) := by
            rcases Relation.ReflTransGen.cases_head hmi with rfl | ⟨m', hm', _⟩
            · exact next_source hc
            · exact ⟨_, hm'.choose_spec⟩
          have hb := visitNamed_mono (show n ≤ n + 3 by omega) hv
          rcases n with _ | n
          · rw [visitNamed] at hv; cases hv
          · have hne : ¬ subs.head? = some k := by rw [hh]; intro he; cases he; exact hk0 .refl
            have hm0 : ¬ Relation.ReflTransGen (Next s) m 0 := fun h' => hk0 (.head hm h')
            rcases n with _ | _ | n
            · rw [visitNamed, hs] at hv
              simp only [checkCycle, decide_eq_true_eq] at hv
              rw [if_neg hne, visitRef] at hv
              cases hv
            · rw [visitNamed, hs] at hv
              simp only [checkCycle, decide_eq_true_eq] at hv
              rw [if_neg hne, visitRef, visitRefs] at hv
              cases hv
            · rw [visitNamed_next hs hm', if_neg hne, ih (n + 1) (by omega) m _ _ hmi (by
                cases subs with
                | nil => cases hh
                | cons a l => simpa using hh) hm0] at hv
              cases hv
  intro n
  obtain ⟨k, hn, hk⟩ := Relation.TransGen.head'_iff.1 hi
  obtain ⟨name, hs⟩ := id hn
  have hlen : 0 < s.length := by
    rw [List.getElem?_eq_some_iff] at hs; exact hs.1
  have hk' : ∃ t, s[k]? = some (.subtype t) := by
    rcases Relation.ReflTransGen.cases_head hk with rfl | ⟨m', hm', _⟩
    · exact next_source hc
    · exact ⟨_, hm'.choose_spec⟩
  have huniq : ∀ {a b c}, Relation.ReflTransGen (Next s) a b → Relation.ReflTransGen (Next s) a c →
      Relation.ReflTransGen (Next s) b c ∨ Relation.ReflTransGen (Next s) c b := by
    intro a b c hab hac
    induction hab with
    | refl => exact Or.inl hac
    | tail _ hbc ih =>
      rcases ih with ih | ih
      · rcases Relation.ReflTransGen.cases_head ih with rfl | ⟨m, hm, hmc⟩
        · exact Or.inr (.single hbc)
        · rw [next_unique hbc hm]; exact Or.inl hmc
      · exact Or.inr (ih.tail hbc)
  have hk0 : ¬ Relation.ReflTransGen (Next s) k 0 := by
    intro hk0
    -- then 0 is on a cycle with k, and i is on the same one
    have h00 : Relation.TransGen (Next s) 0 0 := Relation.TransGen.head' hn hk0
    have back : ∀ b, Relation.ReflTransGen (Next s) 0 b → Relation.ReflTransGen (Next s) b 0 := by
      intro b hb
      induction hb with
      | refl => exact .refl
      | tail _ hbc ih =>
        rcases Relation.ReflTransGen.cases_head ih with rfl | ⟨m, hm, hm0⟩
        · rw [next_unique hbc hn]; exact hk0
        · rw [next_unique hbc hm]; exact hm0
    exact h0 (back i hi.to_reflTransGen)
  unfold resolve
  obtain ⟨l, hl⟩ : ∃ l, List.range s.length = 0 :: l := by
    obtain ⟨m, hm⟩ : ∃ m, s.length = m + 1 := ⟨s.length - 1, by omega⟩
    exact ⟨_, by rw [hm, List.range_succ_eq_map]⟩
  rw [hl, visitDecls, visitDecl, hs]
  simp only
  have h3 : visitNamed s [] (n + 3) [] [] 0 {} = none := by
    rw [visitNamed_next hs hk', key (n + 1) k _ _ hk (by simp) hk0]
    simp
  cases hv : visitNamed s [] n [] [] 0 {} with
  | none => rfl
  | some x => rw [visitNamed_mono (show n ≤ n + 3 by omega) hv] at h3; cases h3

/-- `subtype B A; subtype C B; subtype B C;` -/
def missedCycle : Schema := [.subtype (.named (some 1) 1 []), .subtype (.named (some 2) 2 []), .subtype (.named (some 1) 1 [])]

/-- **C103 (deviation)**: a cycle of two subtypes after a third one which uses it: a StackOverflowError; in the other order there is a message. -/
theorem C103_cycle_deviates : (∀ n, resolve missedCycle n = none) ∧
    resolve [.subtype (.named (some 1) 1 []), .subtype (.named (some 0) 0 []), .subtype (.named (some 1) 1 [])] 20 = some (.error .cycle) := by
  refine ⟨C103_overflow_deviates missedCycle 1 (.single ⟨1, rfl⟩) (.head ⟨2, rfl⟩ (.single ⟨1, rfl⟩)) ?_, rfl⟩
  have key : ∀ a b, Relation.ReflTransGen (Next missedCycle) a b → a ≠ 0 → b ≠ 0 := by
    intro a b h ha
    induction h with
    | refl => exact ha
    | @tail b c _ hbc ih =>
      obtain ⟨name, hs⟩ := hbc
      rcases b with _ | _ | _ | b
      · exact absurd rfl ih
      · simp [missedCycle] at hs; omega
      · simp [missedCycle] at hs; omega
      · simp [missedCycle] at hs
  intro h
  exact key 1 0 h (by simp) rfl

/-! ### C103: template parameters outside of their template -/

/-- **C103 (deviation)**: `struct Holder<T> { Item item; }; subtype T Item;` is accepted, although there is no type `T`: the subtype is resolved
with the parameters of the template in which it is used first.  In the other order there is a message. -/
theorem C103_parameter_deviates :
    (∃ st, resolve [.templatable [7] [.named (some 1) 1 []], .subtype (.named none 7 [])] 10 = some (.ok st)) ∧
    ¬ Valid [.templatable [7] [.named (some 1) 1 []], .subtype (.named none 7 [])] ∧
    resolve [.subtype (.named none 7 []), .templatable [7] [.named (some 0) 0 []]] 10 = some (.error .unresolved) := by
  refine ⟨⟨_, rfl⟩, ?_, rfl⟩
  intro h
  have := h (.subtype (.named none 7 [])) (by simp)
  cases this with
  | param _ _ h _ => cases h

/-! ### C103: the number of visits -/

/-- `struct Pair<T, U> …; subtype uint8 S0; subtype Pair<S0, S0> S1; subtype Pair<S1, S1> S2; …` -/
def doubling (m : Nat) : Schema :=
  .templatable [20, 21] [] :: .subtype (.builtin 8) ::
    (List.range m).map fun i => .subtype (.named (some 0) 0 [.named (some (i + 1)) (i + 1) [], .named (some (i + 1)) (i + 1) []])

theorem doubling_get {m i : Nat} (h : i < m) : (doubling m)[i + 2]? =
    some (.subtype (.named (some 0) 0 [.named (some (i + 1)) (i + 1) [], .named (some (i + 1)) (i + 1) []])) := by
  simp [doubling, h]

theorem doubling_uses {m i j : Nat} (h : Uses (doubling m) i j) : j < i := by
  obtain ⟨t, ht, hm⟩ := h
  rcases i with _ | _ | i
  · simp [doubling] at ht
  · simp [doubling] at ht; subst ht; cases hm
  · by_cases hi : i < m
    · rw [doubling_get hi] at ht
      simp only [Option.some.injEq, Decl.subtype.injEq, reduceCtorEq, or_false] at ht
      subst ht
      cases hm with
      | head => omega
      | arg _ _ _ r _ hr hj =>
        simp only [List.mem_cons, List.not_mem_nil, or_false, or_self] at hr
        subst hr
        cases hj with
        | head => omega
        | arg _ _ _ r _ hr _ => cases hr
    · rw [List.getElem?_eq_none (by simp [doubling]; omega)] at ht
      simp at ht

theorem doubling_acyclic (m : Nat) : ¬ Cyclic (doubling m) := by
  rintro ⟨i, hi⟩
  have : ∀ {a b}, Relation.TransGen (Uses (doubling m)) a b → b < a := by
    intro a b h
    induction h with
    | single h => exact doubling_uses h
    | tail _ h ih => exact lt_trans (doubling_uses h) ih
  exact absurd (this hi) (lt_irrefl i)

theorem doubling_valid (m : Nat) : Valid (doubling m) := by
  intro d hd
  simp only [doubling, List.mem_cons, List.mem_map, List.mem_range] at hd
  rcases hd with rfl | rfl | ⟨i, hi, rfl⟩
  · intro r hr; cases hr
  · exact .builtin 8
  · refine .symbol 0 0 _ _ rfl (Or.inr (by simp)) ?_
    intro r hr
    simp only [List.mem_cons, List.not_mem_nil, or_false, or_self] at hr
    subst hr
    rcases i with _ | i
    · exact .symbol 1 1 [] _ rfl trivial (fun r h => by cases h)
    · exact .symbol (i + 2) _ [] _ (doubling_get (by omega)) trivial (fun r h => by cases h)

theorem visits_mono (s : Schema) (ps : List Nat) : ∀ n,
    (∀ b subs insts r st st', visitRef s ps n b subs insts r st = some (.ok st') → st.visits ≤ st'.visits) ∧
    (∀ b subs insts rs st st', visitRefs s ps n b subs insts rs st = some (.ok st') → st.visits ≤ st'.visits) ∧
    (∀ subs insts j st st', visitNamed s ps n subs insts j st = some (.ok st') → st.visits ≤ st'.visits) := by
  intro n
  induction n with
  | zero =>
    refine ⟨?_, ?_, ?_⟩
    · intro b subs insts r st x h; rw [visitRef] at h; cases h
    · intro b subs insts r st x h; rw [visitRefs] at h; cases h
    · intro subs insts j st x h; rw [visitNamed] at h; cases h
  | succ n ih =>
    obtain ⟨h1, h2, h3⟩ := ih
    refine ⟨?_, ?_, ?_⟩
    · intro b subs insts r st st' h
      cases r with
      | builtin k => simp only [visitRef, Option.some.injEq, Except.ok.injEq] at h; subst h; exact le_rfl
      | named symbol name args =>
        rw [visitRef] at h
        split at h
        · rename_i hr
          split at h
          · cases h
          · cases symbol with
            | none => cases h; exact h2 _ _ _ _ _ _ hr
            | some j => exact le_trans (h2 _ _ _ _ _ _ hr) (h3 _ _ _ _ _ h)
        · rename_i hr; exact absurd h (hr _)
    · intro b subs insts rs st st' h
      cases rs with
      | nil => simp only [visitRefs, Option.some.injEq, Except.ok.injEq] at h; subst h; exact le_rfl
      | cons r rs =>
        rw [visitRefs] at h
        split at h
        · rename_i hr; exact le_trans (h1 _ _ _ _ _ _ hr) (h2 _ _ _ _ _ _ h)
        · rename_i hr; exact absurd h (hr _)
    · intro subs insts j st st' h
      rw [visitNamed] at h
      split at h
      · split at h
        · cases h
        · split at h
          · rename_i st₁ hr
            cases h
            have := h1 _ _ _ _ _ _ hr
            unfold resolveSubtype
            split <;> simp only at this ⊢ <;> omega
          · rename_i hr; exact absurd h (hr _)
      · split at h
        · cases h
        · split at h
          · rename_i st₁ hr
            have := h1 _ _ _ _ _ _ hr
            simp only [Option.some.injEq] at h
            unfold resolveInstantiate at h
            split at h
            · cases h; exact this
            · split at h
              · split at h
                · split at h
                  · cases h
                  · cases h; exact this
                · cases h
              · cases h
          · rename_i hr; exact absurd h (hr _)
      · cases h; exact le_rfl

theorem doubling_visits (m : Nat) : ∀ i ≤ m, ∀ ps n subs insts st st', visitNamed (doubling m) ps n subs insts (i + 1) st = some (.ok st') →
    st.visits + 2 ^ i ≤ st'.visits := by
  intro i
  induction i with
  | zero =>
    intro _ ps n subs insts st st' h
    rcases n with _ | n
    · rw [visitNamed] at h; cases h
    · rw [visitNamed, show (doubling m)[0 + 1]? = some (.subtype (.builtin 8)) from rfl] at h
      simp only at h
      split at h
      · cases h
      · split at h
        · rename_i st₁ hr
          cases h
          have := (visits_mono _ _ _).1 _ _ _ _ _ _ hr
          simp only at this
          unfold resolveSubtype
          split <;> simp <;> omega
        · rename_i hr; exact absurd h (hr _)
  | succ i ih =>
    intro hi ps n subs insts st st' h
    have hd := doubling_get (show i < m by omega)
    rcases n with _ | n
    · rw [visitNamed] at h; cases h
    · rw [visitNamed, show i + 1 + 1 = i + 2 by omega, hd] at h
      simp only at h
      split at h
      · cases h
      · split at h
        · rename_i st₁ hr
          have hfin : st₁.visits ≤ st'.visits := by
            cases h
            unfold resolveSubtype
            split <;> simp
          refine le_trans ?_ hfin
          have one : ∀ b n subs insts st st', visitRef (doubling m) ps n b subs insts (.named (some (i + 1)) (i + 1) []) st = some (.ok st') →
              st.visits + 2 ^ i ≤ st'.visits := by
            intro b n subs insts st st' h
            rcases n with _ | n
            · rw [visitRef] at h; cases h
            · rw [visitRef] at h
              split at h
              · rename_i st₂ hr
                split at h
                · cases h
                · have a := ih (by omega) _ _ _ _ _ _ h
                  have b := (visits_mono _ _ _).2.1 _ _ _ _ _ _ hr
                  omega
              · rename_i hr; exact absurd h (hr _)
          rcases n with _ | n
          · rw [visitRef] at hr; cases hr
          · rw [visitRef] at hr
            split at hr
            · rename_i st₂ hrs
              split at hr
              · cases hr
              · have hlast := (visits_mono _ _ _).2.2 _ _ _ _ _ hr
                rcases n with _ | n
                · rw [visitRefs] at hrs; cases hrs
                · rw [visitRefs] at hrs
                  split at hrs
                  · rename_i st₃ h₃
                    have a := one _ _ _ _ _ _ h₃
                    rcases n with _ | n
                    · rw [visitRefs] at hrs; cases hrs
                    · rw [visitRefs] at hrs
                      split at hrs
                      · rename_i st₄ h₄
                        have b := one _ _ _ _ _ _ h₄
                        have c := (visits_mono _ _ _).2.1 _ _ _ _ _ _ hrs
                        simp only at a
                        rw [Nat.pow_succ]
                        omega
                      · rename_i h'; exact absurd hrs (h' _)
                  · rename_i h'; exact absurd hrs (h' _)
            · rename_i h'; exact absurd hr (h' _)
        · rename_i hr; exact absurd h (hr _)

theorem visitDecls_visits {s : Schema} {n : Nat} : ∀ {js : List Nat} {st st' : State}, visitDecls s n js st = some (.ok st') →
    ∀ j ∈ js, ∃ st₁ st₂, visitDecl s n j st₁ = some (.ok st₂) ∧ st₂.visits ≤ st'.visits
  | [], _, _, _ => by simp
  | k :: js, st, st', h => by
    intro j hj
    have hmono : ∀ {js : List Nat} {st st' : State}, visitDecls s n js st = some (.ok st') → st.visits ≤ st'.visits := by
      intro js
      induction js with
      | nil => intro st st' h; cases h; exact le_rfl
      | cons i js ih =>
        intro st st' h
        rw [visitDecls] at h
        split at h
        · rename_i hd
          refine le_trans ?_ (ih h)
          unfold visitDecl at hd
          split at hd
          · exact (visits_mono _ _ _).2.2 _ _ _ _ _ hd
          · exact (visits_mono _ _ _).2.2 _ _ _ _ _ hd
          · exact (visits_mono _ _ _).2.1 _ _ _ _ _ _ hd
          · exact (visits_mono _ _ _).2.1 _ _ _ _ _ _ hd
          · exact (visits_mono _ _ _).2.1 _ _ _ _ _ _ hd
          · exact (visits_mono _ _ _).2.1 _ _ _ _ _ _ hd
          · cases hd; exact le_rfl
        · rename_i hr; exact absurd h (hr _)
    rw [visitDecls] at h
    split at h
    · rename_i st₁ hk
      rcases List.mem_cons.1 hj with rfl | hj
      · exact ⟨_, _, hk, hmono h⟩
      · exact visitDecls_visits h j hj
    · rename_i hr; exact absurd h (hr _)

/-- **C103 (deviation)**: the time is not bounded by a polynomial in the size of the schema: `m + 2` definitions, with at most two arguments each,
lead to at least `2 ^ m` visits of subtypes, since subtypes which are resolved are visited again. -/
theorem C103_time_deviates (m : Nat) : ∃ s : Schema, s.length = m + 2 ∧
    ∃ N, ∀ n ≥ N, ∃ st, resolve s n = some (.ok st) ∧ 2 ^ m ≤ st.visits := by
  refine ⟨doubling m, by simp [doubling], ?_⟩
  obtain ⟨N, hN⟩ := C103_total _ (doubling_acyclic m)
  refine ⟨N, fun n hn => ?_⟩
  obtain ⟨y, hy, _, hok⟩ := hN n hn
  obtain ⟨st, rfl⟩ := hok (doubling_valid m)
  refine ⟨st, hy, ?_⟩
  obtain ⟨st₁, st₂, hd, hle⟩ := visitDecls_visits hy (m + 1) (by simp [doubling])
  unfold visitDecl at hd
  have hsub : ∃ t, (doubling m)[m + 1]? = some (.subtype t) := by
    rcases m with _ | m
    · exact ⟨_, rfl⟩
    · exact ⟨_, doubling_get (by omega)⟩
  obtain ⟨t, ht⟩ := hsub
  rw [ht] at hd
  have := doubling_visits m m le_rfl _ _ _ _ _ _ hd
  omega

end Zserio.TypeResolve
