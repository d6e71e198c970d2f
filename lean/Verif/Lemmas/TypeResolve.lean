import Verif.Spec.TypeResolve
import Mathlib.Order.WellFounded
import Mathlib.Data.Finite.Defs
import Mathlib.Data.Fintype.Basic
import Mathlib.Data.Fintype.EquivFin
set_option linter.unusedSimpArgs false
set_option linter.unusedVariables false
namespace Zserio.TypeResolve

/-! ### More calls do not change a result -/

theorem mono (s : Schema) (ps : List Nat) : ∀ n,
    (∀ b subs insts r st x, visitRef s ps n b subs insts r st = some x → visitRef s ps (n + 1) b subs insts r st = some x) ∧
    (∀ b subs insts rs st x, visitRefs s ps n b subs insts rs st = some x → visitRefs s ps (n + 1) b subs insts rs st = some x) ∧
    (∀ subs insts j st x, visitNamed s ps n subs insts j st = some x → visitNamed s ps (n + 1) subs insts j st = some x) := by
  intro n
  induction n with
  | zero =>
    refine ⟨?_, ?_, ?_⟩
    · intro b subs insts r st x h; rw [visitRef] at h; cases h
    · intro b subs insts r st x h; rw [visitRefs] at h; cases h
    · intro subs insts j st x h; rw [visitNamed] at h; cases h
  | succ n ih =>
    obtain ⟨h1, h2, h3⟩ := ih
    refine ⟨?_, ?_, ?_⟩
    · intro b subs insts r st x h
      cases r with
      | builtin k => simpa [visitRef] using h
      | named symbol name args =>
        rw [visitRef] at h ⊢
        cases hr : visitRefs s ps n b subs insts args st with
        | none => rw [hr] at h; cases h
        | some y =>
          rw [hr] at h
          rw [h2 _ _ _ _ _ _ hr]
          cases y with
          | error e => exact h
          | ok st' =>
            simp only at h ⊢
            split at h
            · exact h
            · cases symbol with
              | none => exact h
              | some j => exact h3 _ _ _ _ _ h
    · intro b subs insts rs st x h
      cases rs with
      | nil => simpa [visitRefs] using h
      | cons r rs =>
        rw [visitRefs] at h ⊢
        cases hr : visitRef s ps n b subs insts r st with
        | none => rw [hr] at h; cases h
        | some y =>
          rw [hr] at h
          rw [h1 _ _ _ _ _ _ hr]
          cases y with
          | error e => exact h
          | ok st' => exact h2 _ _ _ _ _ _ h
    · intro subs insts j st x h
      rw [visitNamed] at h ⊢
      cases hs : s[j]? with
      | none => rw [hs] at h; exact h
      | some d =>
        rw [hs] at h
        cases d with
        | subtype t =>
          simp only at h ⊢
          split at h
          · rename_i hc; rw [if_pos hc]; exact h
          · rename_i hc
            rw [if_neg hc]
            split at h
            · rename_i st' hr; rw [h1 _ _ _ _ _ _ hr]; exact h
            · rename_i hr
              cases hy : visitRef s ps n (st.done.contains j) (subs ++ [j]) insts t { st with visits := st.visits + 1 } with
              | none => rw [hy] at h; cases h
              | some y =>
                rw [h1 _ _ _ _ _ _ hy]
                cases y with
                | ok st' => exact absurd hy (hr st')
                | error e => rw [hy] at h; exact h
        | instantiate t =>
          simp only at h ⊢
          split at h
          · rename_i hc; rw [if_pos hc]; exact h
          · rename_i hc
            rw [if_neg hc]
            split at h
            · rename_i st' hr; rw [h1 _ _ _ _ _ _ hr]; exact h
            · rename_i hr
              cases hy : visitRef s ps n (st.done.contains j) subs (insts ++ [j]) t st with
              | none => rw [hy] at h; cases h
              | some y =>
                rw [h1 _ _ _ _ _ _ hy]
                cases y with
                | ok st' => exact absurd hy (hr st')
                | error e => rw [hy] at h; exact h
        | templatable _ _ => exact h
        | type _ => exact h
        | database _ => exact h
        | noType _ => exact h

theorem visitRef_mono {s ps n m b subs insts r st x} (hnm : n ≤ m) (h : visitRef s ps n b subs insts r st = some x) :
    visitRef s ps m b subs insts r st = some x := by
  induction hnm with
  | refl => exact h
  | step _ ih => exact (mono s ps _).1 _ _ _ _ _ _ ih

theorem visitRefs_mono {s ps n m b subs insts r st x} (hnm : n ≤ m) (h : visitRefs s ps n b subs insts r st = some x) :
    visitRefs s ps m b subs insts r st = some x := by
  induction hnm with
  | refl => exact h
  | step _ ih => exact (mono s ps _).2.1 _ _ _ _ _ _ ih

theorem visitNamed_mono {s ps n m subs insts j st x} (hnm : n ≤ m) (h : visitNamed s ps n subs insts j st = some x) :
    visitNamed s ps m subs insts j st = some x := by
  induction hnm with
  | refl => exact h
  | step _ ih => exact (mono s ps _).2.2 _ _ _ _ _ ih

/-! ### What is accepted has no cycles -/

/-- nothing leads from the symbol to an infinite chain -/
abbrev Ends (s : Schema) (j : Nat) : Prop := Acc (fun a b => Uses s b a) j

theorem ends_of_plain {s : Schema} {j : Nat} (h : ∀ t, s[j]? ≠ some (.subtype t) ∧ s[j]? ≠ some (.instantiate t)) : Ends s j := by
  constructor
  rintro k ⟨t, ht | ht, _⟩
  · exact absurd ht (h t).1
  · exact absurd ht (h t).2

theorem ends_sound (s : Schema) (ps : List Nat) : ∀ n,
    (∀ b subs insts r st st', visitRef s ps n b subs insts r st = some (.ok st') → ∀ j, r.Mentions j → Ends s j) ∧
    (∀ b subs insts rs st st', visitRefs s ps n b subs insts rs st = some (.ok st') → ∀ r ∈ rs, ∀ j, Ref.Mentions r j → Ends s j) ∧
    (∀ subs insts j st st', visitNamed s ps n subs insts j st = some (.ok st') → Ends s j) := by
  intro n
  induction n with
  | zero =>
    refine ⟨?_, ?_, ?_⟩
    · intro b subs insts r st x h; rw [visitRef] at h; cases h
    · intro b subs insts r st x h; rw [visitRefs] at h; cases h
    · intro subs insts j st x h; rw [visitNamed] at h; cases h
  | succ n ih =>
    obtain ⟨h1, h2, h3⟩ := ih
    refine ⟨?_, ?_, ?_⟩
    · intro b subs insts r st st' h j hm
      cases hm with
      | head j name args =>
        rw [visitRef] at h
        split at h
        · split at h
          · cases h
          · exact h3 _ _ _ _ _ h
        · rename_i hr; exact absurd h (hr _)
      | arg symbol name args r j hmem hm =>
        rw [visitRef] at h
        split at h
        · rename_i hr; exact h2 _ _ _ _ _ _ hr r hmem j hm
        · rename_i hr; exact absurd h (hr _)
    · intro b subs insts rs st st' h r hmem j hm
      cases rs with
      | nil => cases hmem
      | cons r' rs =>
        rw [visitRefs] at h
        split at h
        · rename_i hr
          rcases List.mem_cons.1 hmem with rfl | hmem
          · exact h1 _ _ _ _ _ _ hr j hm
          · exact h2 _ _ _ _ _ _ h r hmem j hm
        · rename_i hr; exact absurd h (hr _)
    · intro subs insts j st st' h
      rw [visitNamed] at h
      cases hs : s[j]? with
      | none => exact ends_of_plain (by simp [hs])
      | some d =>
        rw [hs] at h
        cases d with
        | subtype t =>
          simp only at h
          split at h
          · cases h
          · split at h
            · rename_i hr
              constructor
              rintro k ⟨t', ht | ht, hk⟩
              · rw [hs] at ht; cases ht; exact h1 _ _ _ _ _ _ hr k hk
              · rw [hs] at ht; cases ht
            · rename_i hr; exact absurd h (hr _)
        | instantiate t =>
          simp only at h
          split at h
          · cases h
          · split at h
            · rename_i hr
              constructor
              rintro k ⟨t', ht | ht, hk⟩
              · rw [hs] at ht; cases ht
              · rw [hs] at ht; cases ht; exact h1 _ _ _ _ _ _ hr k hk
            · rename_i hr; exact absurd h (hr _)
        | templatable _ _ => exact ends_of_plain (by simp [hs])
        | type _ => exact ends_of_plain (by simp [hs])
        | database _ => exact ends_of_plain (by simp [hs])
        | noType _ => exact ends_of_plain (by simp [hs])

theorem ends_irrefl {s : Schema} {i : Nat} (h : Ends s i) : ¬ Relation.TransGen (Uses s) i i := by
  induction h with
  | intro i _ ih =>
    intro hc
    obtain ⟨k, hik, hki⟩ := Relation.TransGen.head'_iff.1 hc
    exact ih k hik (Relation.TransGen.tail' hki hik)

theorem visitDecls_ok {s : Schema} {n : Nat} {js : List Nat} : ∀ {st st' : State}, visitDecls s n js st = some (.ok st') →
    ∀ j ∈ js, ∃ st₁ st₂, visitDecl s n j st₁ = some (.ok st₂) := by
  induction js with
  | nil => simp
  | cons k js ih =>
    intro st st' h j hj
    rw [visitDecls] at h
    split at h
    · rename_i st₁ hk
      rcases List.mem_cons.1 hj with rfl | hj
      · exact ⟨_, _, hk⟩
      · exact ih h j hj
    · rename_i hr; exact absurd h (hr _)

theorem ends_of_resolve {s : Schema} {n : Nat} {st : State} (h : resolve s n = some (.ok st)) (j : Nat) : Ends s j := by
  cases hs : s[j]? with
  | none => exact ends_of_plain (by simp [hs])
  | some d =>
    have hlt : j < s.length := by
      rw [List.getElem?_eq_some_iff] at hs; exact hs.1
    obtain ⟨st₁, st₂, hd⟩ := visitDecls_ok h j (List.mem_range.2 hlt)
    unfold visitDecl at hd
    rw [hs] at hd
    cases d with
    | subtype t => exact (ends_sound s _ n).2.2 _ _ _ _ _ hd
    | instantiate t => exact (ends_sound s _ n).2.2 _ _ _ _ _ hd
    | templatable _ _ => exact ends_of_plain (by simp [hs])
    | type _ => exact ends_of_plain (by simp [hs])
    | database _ => exact ends_of_plain (by simp [hs])
    | noType _ => exact ends_of_plain (by simp [hs])

/-- if no cycle can be reached, there are no infinite chains -/
theorem ends_of_noCycle {s : Schema} {j : Nat} (h : ¬ LeadsToCycle s j) : Ends s j := by
  by_cases hj : j < s.length
  · let T := {a : Fin s.length // Relation.ReflTransGen (Uses s) j a}
    let R : T → T → Prop := fun a b => Relation.TransGen (Uses s) b.1 a.1
    have : IsTrans T R := ⟨fun a b c hab hbc => Relation.TransGen.trans hbc hab⟩
    have : Std.Irrefl R := ⟨fun a ha => h ⟨a.1, a.2, ha⟩⟩
    have wf : WellFounded R := Finite.wellFounded_of_trans_of_irrefl R
    have key : ∀ a : T, Ends s a.1 := by
      intro a
      induction a using wf.induction with
      | _ a ih =>
        constructor
        intro k hk
        by_cases hk' : k < s.length
        · exact ih ⟨⟨k, hk'⟩, a.2.tail hk⟩ (Relation.TransGen.single hk)
        · refine ends_of_plain fun t => ?_
          rw [List.getElem?_eq_none (by omega)]
          simp
    exact key ⟨⟨j, hj⟩, .refl⟩
  · refine ends_of_plain fun t => ?_
    rw [List.getElem?_eq_none (by omega)]
    simp

/-! ### Termination, and what is valid is accepted -/

/-- a result which is no overflow and no cycle, and no exception if everything is valid -/
def Fine (v : Prop) (x : Result) : Prop := ∃ y, x = some y ∧ y ≠ .error .cycle ∧ (v → ∃ st, y = .ok st)

theorem resolveRef_valid {s : Schema} {ps : List Nat} {symbol : Option Nat} {name : Nat} {args : List Ref}
    (h : ValidRef s ps (.named symbol name args)) : resolveRef s ps symbol name args = .ok () := by
  cases h with
  | param _ _ hn _ => simp [resolveRef, hn]
  | symbol j _ _ d hd hu _ =>
    simp only [resolveRef, hd]
    cases d <;> simp_all [Usable]
    intro hp
    exact hu.resolve_left hp

theorem resolveRef_cases (s : Schema) (ps : List Nat) (symbol : Option Nat) (name : Nat) (args : List Ref) :
    resolveRef s ps symbol name args ≠ .error .cycle := by
  unfold resolveRef
  split
  · split <;> simp
  · split <;> first | (split <;> simp) | simp

theorem valid_args {s : Schema} {ps : List Nat} {symbol : Option Nat} {name : Nat} {args : List Ref}
    (h : ValidRef s ps (.named symbol name args)) : ∀ r ∈ args, ValidRef s ps r := by
  cases h with
  | param _ _ _ h => exact h
  | symbol _ _ _ _ _ _ h => exact h

mutual
/-- a reference, if what it mentions is fine -/
theorem fine_ref (s : Schema) (v : Prop) (subs insts : List Nat) : ∀ (r : Ref),
    (∀ j, r.Mentions j → ∃ N, ∀ n ≥ N, ∀ ps st, Fine v (visitNamed s ps n subs insts j st)) →
    ∃ N, ∀ n ≥ N, ∀ ps b st, (v → b = true ∨ ValidRef s ps r) → Fine v (visitRef s ps n b subs insts r st)
  | .builtin k, _ => ⟨1, fun n hn ps b st _ => by
      obtain ⟨n, rfl⟩ : ∃ m, n = m + 1 := ⟨n - 1, by omega⟩
      exact ⟨.ok st, by simp [visitRef]⟩⟩
  | .named symbol name args, h => by
    obtain ⟨N₁, h₁⟩ := fine_refs s v subs insts args (fun r hr j hj => h j (.arg _ _ _ _ _ hr hj))
    obtain ⟨N₂, h₂⟩ : ∃ N, ∀ n ≥ N, ∀ ps st j, symbol = some j → Fine v (visitNamed s ps n subs insts j st) := by
      cases symbol with
      | none => exact ⟨0, by simp⟩
      | some j =>
        obtain ⟨N, hN⟩ := h j (.head _ _ _)
        exact ⟨N, fun n hn ps st k hk => by cases hk; exact hN n hn ps st⟩
    refine ⟨max N₁ N₂ + 1, fun n hn ps b st hv => ?_⟩
    obtain ⟨n, rfl⟩ : ∃ m, n = m + 1 := ⟨n - 1, by omega⟩
    obtain ⟨y, hy, hc, hok⟩ := h₁ n (by omega) ps b st (fun hv' => (hv hv').imp_right valid_args)
    rw [visitRef, hy]
    cases y with
    | error e => exact ⟨_, rfl, hc, fun hv' => by obtain ⟨_, h'⟩ := hok hv'; cases h'⟩
    | ok st' =>
      simp only
      cases b with
      | true =>
        simp only [if_true]
        cases symbol with
        | none => exact ⟨_, rfl, by simp, fun _ => ⟨_, rfl⟩⟩
        | some j => exact h₂ n (by omega) ps st' j rfl
      | false =>
        simp only [Bool.false_eq_true, if_false]
        cases hr : resolveRef s ps symbol name args with
        | error e =>
          refine ⟨_, rfl, ?_, fun hv' => ?_⟩
          · intro he
            cases he
            exact resolveRef_cases s ps symbol name args hr
          · have := (hv hv').resolve_left (by simp)
            rw [resolveRef_valid this] at hr
            cases hr
        | ok u =>
          simp only
          cases symbol with
          | none => exact ⟨_, rfl, by simp, fun _ => ⟨_, rfl⟩⟩
          | some j => exact h₂ n (by omega) ps st' j rfl

theorem fine_refs (s : Schema) (v : Prop) (subs insts : List Nat) : ∀ (rs : List Ref),
    (∀ r ∈ rs, ∀ j, Ref.Mentions r j → ∃ N, ∀ n ≥ N, ∀ ps st, Fine v (visitNamed s ps n subs insts j st)) →
    ∃ N, ∀ n ≥ N, ∀ ps b st, (v → b = true ∨ ∀ r ∈ rs, ValidRef s ps r) → Fine v (visitRefs s ps n b subs insts rs st)
  | [], _ => ⟨1, fun n hn ps b st _ => by
      obtain ⟨n, rfl⟩ : ∃ m, n = m + 1 := ⟨n - 1, by omega⟩
      exact ⟨.ok st, by simp [visitRefs]⟩⟩
  | r :: rs, h => by
    obtain ⟨N₁, h₁⟩ := fine_ref s v subs insts r (fun j hj => h r (by simp) j hj)
    obtain ⟨N₂, h₂⟩ := fine_refs s v subs insts rs (fun r' hr' j hj => h r' (by simp [hr']) j hj)
    refine ⟨max N₁ N₂ + 1, fun n hn ps b st hv => ?_⟩
    obtain ⟨n, rfl⟩ : ∃ m, n = m + 1 := ⟨n - 1, by omega⟩
    obtain ⟨y, hy, hc, hok⟩ := h₁ n (by omega) ps b st (fun hv' => (hv hv').imp_right fun h' => h' r (by simp))
    rw [visitRefs, hy]
    cases y with
    | error e => exact ⟨_, rfl, hc, hok⟩
    | ok st' => exact h₂ n (by omega) ps b st' (fun hv' => (hv hv').imp_right fun h' r' hr' => h' r' (by simp [hr']))
end

theorem valid_any {s : Schema} {ps : List Nat} {r : Ref} (h : ValidRef s [] r) : ValidRef s ps r := by
  induction h with
  | builtin b => exact .builtin b
  | param _ _ hn _ _ => cases hn
  | symbol j name args d hd hu _ ih => exact .symbol j name args d hd hu ih

theorem valid_of {s : Schema} (hv : Valid s) {j : Nat} {d : Decl} (h : s[j]? = some d) : ValidDecl s d :=
  hv d (List.mem_of_getElem? h)

theorem fine_named {s : Schema} {j : Nat} (he : Ends s j) : ∀ subs insts : List Nat,
    (∀ k ∈ subs ++ insts, Relation.TransGen (Uses s) k j) →
    ∃ N, ∀ n ≥ N, ∀ ps st, Fine (Valid s) (visitNamed s ps n subs insts j st) := by
  induction he with
  | intro j hacc ih =>
    intro subs insts hst
    have hcyc : ∀ l : List Nat, (∀ k ∈ l, Relation.TransGen (Uses s) k j) → checkCycle l j = false := by
      intro l hl
      unfold checkCycle
      rw [decide_eq_false_iff_not]
      intro he
      cases l with
      | nil => cases he
      | cons a l =>
        simp only [List.head?_cons, Option.some.injEq] at he
        subst he
        exact ends_irrefl (.intro _ hacc) (hl _ (by simp))
    cases hs : s[j]? with
    | none =>
      refine ⟨1, fun n hn ps st => ?_⟩
      obtain ⟨n, rfl⟩ : ∃ m, n = m + 1 := ⟨n - 1, by omega⟩
      exact ⟨.ok st, by simp [visitNamed, hs]⟩
    | some d =>
      cases d with
      | subtype t =>
        have hu : ∀ k, t.Mentions k → Uses s j k := fun k hk => ⟨t, Or.inl hs, hk⟩
        obtain ⟨N, hN⟩ := fine_ref s (Valid s) (subs ++ [j]) insts t (fun k hk => ih k (hu k hk) _ _ (by
          intro i hi
          simp only [List.append_assoc, List.mem_append, List.mem_cons, List.not_mem_nil, or_false] at hi
          rcases hi with hi | hi | hi
          · exact (hst i (by simp [hi])).tail (hu k hk)
          · exact hi ▸ .single (hu k hk)
          · exact (hst i (by simp [hi])).tail (hu k hk)))
        refine ⟨N + 1, fun n hn ps st => ?_⟩
        obtain ⟨n, rfl⟩ : ∃ m, n = m + 1 := ⟨n - 1, by omega⟩
        rw [visitNamed, hs]
        simp only [hcyc subs (fun k hk => hst k (by simp [hk])), Bool.false_eq_true, if_false]
        obtain ⟨y, hy, hc, hok⟩ := hN n (by omega) ps (st.done.contains j) { st with visits := st.visits + 1 }
          (fun hv => Or.inr (valid_any (valid_of hv hs)))
        rw [hy]
        cases y with
        | error e => exact ⟨_, rfl, hc, fun hv => by obtain ⟨_, h'⟩ := hok hv; cases h'⟩
        | ok st' => exact ⟨_, rfl, by simp, fun _ => ⟨_, rfl⟩⟩
      | instantiate t =>
        have hu : ∀ k, t.Mentions k → Uses s j k := fun k hk => ⟨t, Or.inr hs, hk⟩
        obtain ⟨N, hN⟩ := fine_ref s (Valid s) subs (insts ++ [j]) t (fun k hk => ih k (hu k hk) _ _ (by
          intro i hi
          simp only [List.mem_append, List.mem_cons, List.not_mem_nil, or_false] at hi
          rcases hi with hi | hi | hi
          · exact (hst i (by simp [hi])).tail (hu k hk)
          · exact (hst i (by simp [hi])).tail (hu k hk)
          · exact hi ▸ .single (hu k hk)))
        refine ⟨N + 1, fun n hn ps st => ?_⟩
        obtain ⟨n, rfl⟩ : ∃ m, n = m + 1 := ⟨n - 1, by omega⟩
        rw [visitNamed, hs]
        simp only [hcyc insts (fun k hk => hst k (by simp [hk])), Bool.false_eq_true, if_false]
        obtain ⟨y, hy, hc, hok⟩ := hN n (by omega) ps (st.done.contains j) st
          (fun hv => Or.inr (valid_any (valid_of hv hs).1))
        rw [hy]
        cases y with
        | error e => exact ⟨_, rfl, hc, fun hv => by obtain ⟨_, h'⟩ := hok hv; cases h'⟩
        | ok st' =>
          refine ⟨_, rfl, ?_, fun hv => ?_⟩
          · unfold resolveInstantiate
            split
            · simp
            · split
              · split
                · split <;> simp
                · simp
              · simp
          · obtain ⟨k, name, args, ps', refs, rfl, hk, hne⟩ := (valid_of hv hs).2
            unfold resolveInstantiate
            split
            · exact ⟨_, rfl⟩
            · simp [hk, hne]
      | templatable _ _ =>
        refine ⟨1, fun n hn ps st => ?_⟩
        obtain ⟨n, rfl⟩ : ∃ m, n = m + 1 := ⟨n - 1, by omega⟩
        exact ⟨.ok st, by simp [visitNamed, hs]⟩
      | type _ =>
        refine ⟨1, fun n hn ps st => ?_⟩
        obtain ⟨n, rfl⟩ : ∃ m, n = m + 1 := ⟨n - 1, by omega⟩
        exact ⟨.ok st, by simp [visitNamed, hs]⟩
      | database _ =>
        refine ⟨1, fun n hn ps st => ?_⟩
        obtain ⟨n, rfl⟩ : ∃ m, n = m + 1 := ⟨n - 1, by omega⟩
        exact ⟨.ok st, by simp [visitNamed, hs]⟩
      | noType _ =>
        refine ⟨1, fun n hn ps st => ?_⟩
        obtain ⟨n, rfl⟩ : ∃ m, n = m + 1 := ⟨n - 1, by omega⟩
        exact ⟨.ok st, by simp [visitNamed, hs]⟩

theorem fine_decl {s : Schema} {j : Nat} (hac : ∀ d, s[j]? = some d → ∀ r ∈ d.refs, ∀ k, r.Mentions k → Ends s k) :
    ∃ N, ∀ n ≥ N, ∀ st, Fine (Valid s) (visitDecl s n j st) := by
  have hrefs : ∀ ps refs, (∀ r ∈ refs, ∀ k, Ref.Mentions r k → Ends s k) → (Valid s → ∀ r ∈ refs, ValidRef s ps r) →
      ∃ N, ∀ n ≥ N, ∀ st, Fine (Valid s) (visitRefs s ps n false [] [] refs st) := by
    intro ps refs hac hv
    obtain ⟨N, hN⟩ := fine_refs s (Valid s) [] [] refs (fun r hr k hk => fine_named (hac r hr k hk) [] [] (by simp))
    exact ⟨N, fun n hn st => hN n hn ps false st (fun h => Or.inr (hv h))⟩
  cases hs : s[j]? with
  | none => exact ⟨0, fun n _ st => ⟨.ok st, by simp [visitDecl, hs]⟩⟩
  | some d =>
    cases d with
    | subtype t =>
      have he : Ends s j := by
        constructor
        rintro k ⟨t', ht | ht, hk⟩
        · rw [hs] at ht; cases ht; exact hac _ hs t (by simp [Decl.refs]) k hk
        · rw [hs] at ht; cases ht
      obtain ⟨N, hN⟩ := fine_named he [] [] (by simp)
      exact ⟨N, fun n hn st => by simpa [visitDecl, hs] using hN n hn [] st⟩
    | instantiate t =>
      have he : Ends s j := by
        constructor
        rintro k ⟨t', ht | ht, hk⟩
        · rw [hs] at ht; cases ht
        · rw [hs] at ht; cases ht; exact hac _ hs t (by simp [Decl.refs]) k hk
      obtain ⟨N, hN⟩ := fine_named he [] [] (by simp)
      exact ⟨N, fun n hn st => by simpa [visitDecl, hs] using hN n hn [] st⟩
    | templatable ps refs =>
      obtain ⟨N, hN⟩ := hrefs ps refs (hac _ hs) (fun hv => valid_of hv hs)
      exact ⟨N, fun n hn st => by simpa [visitDecl, hs] using hN n hn st⟩
    | type refs =>
      obtain ⟨N, hN⟩ := hrefs [] refs (hac _ hs) (fun hv => valid_of hv hs)
      exact ⟨N, fun n hn st => by simpa [visitDecl, hs] using hN n hn st⟩
    | database refs =>
      obtain ⟨N, hN⟩ := hrefs [] refs (hac _ hs) (fun hv => valid_of hv hs)
      exact ⟨N, fun n hn st => by simpa [visitDecl, hs] using hN n hn st⟩
    | noType refs =>
      obtain ⟨N, hN⟩ := hrefs [] refs (hac _ hs) (fun hv => valid_of hv hs)
      exact ⟨N, fun n hn st => by simpa [visitDecl, hs] using hN n hn st⟩

theorem fine_decls {s : Schema} {js : List Nat}
    (hac : ∀ j ∈ js, ∀ d, s[j]? = some d → ∀ r ∈ d.refs, ∀ k, r.Mentions k → Ends s k) : ∃ N, ∀ n ≥ N, ∀ st, Fine (Valid s) (visitDecls s n js st) := by
  induction js with
  | nil => exact ⟨0, fun n _ st => ⟨.ok st, by simp [visitDecls]⟩⟩
  | cons j js ih =>
    obtain ⟨N₁, h₁⟩ := fine_decl (hac j (by simp))
    obtain ⟨N₂, h₂⟩ := ih (fun k hk => hac k (by simp [hk]))
    refine ⟨max N₁ N₂, fun n hn st => ?_⟩
    obtain ⟨y, hy, hc, hok⟩ := h₁ n (by omega) st
    rw [visitDecls, hy]
    cases y with
    | error e => exact ⟨_, rfl, hc, hok⟩
    | ok st' => exact h₂ n (by omega) st'

/-! ### What is accepted is valid, and the base types are right -/

/-- all symbols which are resolved have the right base type, and are valid if `v` -/
def Good (s : Schema) (v : Prop) (st : State) : Prop := ∀ j ∈ st.done,
  (∀ t, s[j]? = some (.subtype t) → ∃ r, st.base j = some r ∧ BaseOf s t r) ∧
  (v → ∀ d, s[j]? = some d → ValidDecl s d)

/-- the head of the reference has been resolved, if it is a subtype or template instantiation -/
def HeadDone (s : Schema) (st : State) (r : Ref) : Prop :=
  ∀ j name args t, r = .named (some j) name args → (s[j]? = some (.subtype t) ∨ s[j]? = some (.instantiate t)) → j ∈ st.done

theorem resolveRef_ok {s : Schema} {ps : List Nat} {symbol : Option Nat} {name : Nat} {args : List Ref}
    (h : resolveRef s ps symbol name args = .ok ()) (ha : ∀ r ∈ args, ValidRef s ps r) : ValidRef s ps (.named symbol name args) := by
  unfold resolveRef at h
  split at h
  · split at h
    · rename_i hc; exact .param _ _ (by simpa using hc) ha
    · cases h
  · rename_i j
    split at h <;> try cases h
    · rename_i ps' refs hs
      split at h
      · cases h
      · rename_i hc
        refine .symbol j name args _ hs ?_ ha
        show ps' = [] ∨ args ≠ []
        simp only [Bool.and_eq_true, Bool.not_eq_eq_eq_not, Bool.not_true, List.isEmpty_eq_false_iff, List.isEmpty_iff, not_and] at hc
        by_cases hp : ps' = []
        · exact Or.inl hp
        · exact Or.inr (hc hp)
    · rename_i d h1 h2 h3 hs
      refine .symbol j name args d hs ?_ ha
      cases d with
      | database refs => exact (h2 _ rfl).elim
      | noType refs => exact (h1 _ rfl).elim
      | templatable p q => exact (h3 _ _ rfl).elim
      | subtype _ => trivial
      | instantiate _ => trivial
      | type _ => trivial

/-- without unknown names which are parameters, a subtype or instantiation which is right in a template is right -/
theorem valid_empty {s : Schema} {ps : List Nat} {r : Ref} (h : ValidRef s ps r) (hn : ∀ x, r.Unknown x → x ∉ ps) : ValidRef s [] r := by
  induction h with
  | builtin b => exact .builtin b
  | param name args hp _ _ => exact absurd hp (hn _ (.head _ _))
  | symbol j name args d hd hu _ ih => exact .symbol j name args d hd hu (fun r hr => ih r hr (fun x hx => hn x (.arg _ _ _ _ _ hr hx)))

/-- the template parameters are those of a template, or there are none -/
def Params (s : Schema) (ps : List Nat) : Prop := ps = [] ∨ ∃ refs, .templatable ps refs ∈ s

theorem good_sound (s : Schema) (v : Prop) (ps : List Nat)
    (hv : v → ∀ (j : Nat) (t : Ref), (s[j]? = some (.subtype t) ∨ s[j]? = some (.instantiate t)) → ValidRef s ps t → ValidRef s [] t) : ∀ n,
    (∀ b subs insts r st st', visitRef s ps n b subs insts r st = some (.ok st') → Good s v st →
      Good s v st' ∧ (∀ j ∈ st.done, j ∈ st'.done) ∧ HeadDone s st' r ∧ (b = false → ValidRef s ps r)) ∧
    (∀ b subs insts rs st st', visitRefs s ps n b subs insts rs st = some (.ok st') → Good s v st →
      Good s v st' ∧ (∀ j ∈ st.done, j ∈ st'.done) ∧ (b = false → ∀ r ∈ rs, ValidRef s ps r)) ∧
    (∀ subs insts j st st', visitNamed s ps n subs insts j st = some (.ok st') → Good s v st →
      Good s v st' ∧ (∀ j ∈ st.done, j ∈ st'.done) ∧ (∀ t, (s[j]? = some (.subtype t) ∨ s[j]? = some (.instantiate t)) → j ∈ st'.done)) := by
  intro n
  induction n with
  | zero =>
    refine ⟨?_, ?_, ?_⟩
    · intro b subs insts r st x h; rw [visitRef] at h; cases h
    · intro b subs insts r st x h; rw [visitRefs] at h; cases h
    · intro subs insts j st x h; rw [visitNamed] at h; cases h
  | succ n ih =>
    obtain ⟨h1, h2, h3⟩ := ih
    refine ⟨?_, ?_, ?_⟩
    · intro b subs insts r st st' h hg
      cases r with
      | builtin k =>
        simp only [visitRef, Option.some.injEq, Except.ok.injEq] at h
        subst h
        exact ⟨hg, fun _ h => h, fun _ _ _ _ h => (by cases h), fun _ => .builtin k⟩
      | named symbol name args =>
        rw [visitRef] at h
        split at h
        · rename_i st₁ hr
          obtain ⟨g₁, m₁, v₁⟩ := h2 _ _ _ _ _ _ hr hg
          split at h
          · cases h
          · rename_i hres
            have hval : b = false → ValidRef s ps (.named symbol name args) := by
              intro hb
              rw [hb] at hres
              simp only [Bool.false_eq_true, if_false] at hres
              exact resolveRef_ok hres (v₁ hb)
            cases symbol with
            | none =>
              simp only [Option.some.injEq, Except.ok.injEq] at h
              subst h
              exact ⟨g₁, m₁, fun _ _ _ _ h => (by cases h), hval⟩
            | some j =>
              obtain ⟨g₂, m₂, d₂⟩ := h3 _ _ _ _ _ h g₁
              refine ⟨g₂, fun k hk => m₂ k (m₁ k hk), ?_, hval⟩
              intro j' name' args' t he ht
              cases he
              exact d₂ t ht
        · rename_i hr; exact absurd h (hr _)
    · intro b subs insts rs st st' h hg
      cases rs with
      | nil =>
        simp only [visitRefs, Option.some.injEq, Except.ok.injEq] at h
        subst h
        exact ⟨hg, fun _ h => h, fun _ _ h => by cases h⟩
      | cons r rs =>
        rw [visitRefs] at h
        split at h
        · rename_i st₁ hr
          obtain ⟨g₁, m₁, _, v₁⟩ := h1 _ _ _ _ _ _ hr hg
          obtain ⟨g₂, m₂, v₂⟩ := h2 _ _ _ _ _ _ h g₁
          refine ⟨g₂, fun k hk => m₂ k (m₁ k hk), fun hb r' hr' => ?_⟩
          rcases List.mem_cons.1 hr' with rfl | hr'
          · exact v₁ hb
          · exact v₂ hb r' hr'
        · rename_i hr; exact absurd h (hr _)
    · intro subs insts j st st' h hg
      rw [visitNamed] at h
      cases hs : s[j]? with
      | none =>
        rw [hs] at h
        simp only [Option.some.injEq, Except.ok.injEq] at h
        subst h
        exact ⟨hg, fun _ h => h, fun _ h => (by simp at h)⟩
      | some d =>
        rw [hs] at h
        cases d with
        | subtype t =>
          simp only at h
          split at h
          · cases h
          · split at h
            · rename_i st₁ hr
              obtain ⟨g₁, m₁, d₁, v₁⟩ := h1 _ _ _ _ _ _ hr hg
              simp only [Option.some.injEq, Except.ok.injEq] at h
              subst h
              unfold resolveSubtype
              by_cases hdone : st₁.done.contains j = true
              · rw [if_pos hdone]
                exact ⟨g₁, m₁, fun _ _ => by simpa using hdone⟩
              · rw [if_neg hdone]
                have hjn : j ∉ st₁.done := by simpa using hdone
                have hjn' : st.done.contains j = false := by
                  rw [← Bool.not_eq_true]
                  intro hc
                  exact hjn (m₁ j (by simpa using hc))
                refine ⟨?_, fun k hk => List.mem_cons_of_mem _ (m₁ k hk), fun _ _ => List.mem_cons_self⟩
                intro k hk
                rcases List.mem_cons.1 hk with rfl | hk
                · refine ⟨fun t' ht' => ?_, fun hv' d hd => ?_⟩
                  · rw [hs] at ht'; cases ht'
                    simp only [if_true]
                    cases t with
                    | builtin b => exact ⟨_, rfl, .builtin b⟩
                    | named symbol name args =>
                      simp only
                      cases symbol with
                      | none => exact ⟨_, rfl, .plain _ _ _ (by simp)⟩
                      | some i =>
                        simp only [Option.bind_some]
                        cases hi : s[i]? with
                        | none => exact ⟨_, rfl, .plain _ _ _ (by intro j t hj; cases hj; simp [hi])⟩
                        | some d =>
                          cases d with
                          | subtype t' =>
                            obtain ⟨r, hr₁, hr₂⟩ := (g₁ i (d₁ i name args t' rfl (Or.inl hi))).1 t' hi
                            exact ⟨r, hr₁, .subtype i name args t' r hi hr₂⟩
                          | instantiate t' => exact ⟨t', rfl, .instantiate i name args t' hi⟩
                          | templatable _ _ => exact ⟨_, rfl, .plain _ _ _ (by intro j t hj; cases hj; simp [hi])⟩
                          | type _ => exact ⟨_, rfl, .plain _ _ _ (by intro j t hj; cases hj; simp [hi])⟩
                          | database _ => exact ⟨_, rfl, .plain _ _ _ (by intro j t hj; cases hj; simp [hi])⟩
                          | noType _ => exact ⟨_, rfl, .plain _ _ _ (by intro j t hj; cases hj; simp [hi])⟩
                  · rw [hs] at hd; cases hd
                    exact hv hv' k t (Or.inl hs) (v₁ hjn')
                · obtain ⟨a, b⟩ := g₁ k hk
                  refine ⟨fun t' ht' => ?_, b⟩
                  have : k ≠ j := fun he => hjn (he ▸ hk)
                  simp only [if_neg this]
                  exact a t' ht'
            · rename_i hr; exact absurd h (hr _)
        | instantiate t =>
          simp only at h
          split at h
          · cases h
          · split at h
            · rename_i st₁ hr
              obtain ⟨g₁, m₁, d₁, v₁⟩ := h1 _ _ _ _ _ _ hr hg
              simp only [Option.some.injEq] at h
              unfold resolveInstantiate at h
              by_cases hdone : st₁.done.contains j = true
              · rw [if_pos hdone] at h
                cases h
                exact ⟨g₁, m₁, fun _ _ => by simpa using hdone⟩
              · rw [if_neg hdone] at h
                have hjn : j ∉ st₁.done := by simpa using hdone
                have hjn' : st.done.contains j = false := by
                  rw [← Bool.not_eq_true]
                  intro hc
                  exact hjn (m₁ j (by simpa using hc))
                split at h
                · rename_i i name args
                  split at h
                  · rename_i ps' refs hi
                    split at h
                    · cases h
                    · rename_i hne
                      cases h
                      refine ⟨?_, fun k hk => List.mem_cons_of_mem _ (m₁ k hk), fun _ _ => List.mem_cons_self⟩
                      intro k hk
                      rcases List.mem_cons.1 hk with rfl | hk
                      · refine ⟨fun t' ht' => (by rw [hs] at ht'; cases ht'), fun hv' d hd => ?_⟩
                        rw [hs] at hd; cases hd
                        exact ⟨hv hv' k _ (Or.inr hs) (v₁ hjn'), i, name, args, ps', refs, rfl, hi, by simpa using hne⟩
                      · exact g₁ k hk
                  · cases h
                · cases h
            · rename_i hr; exact absurd h (hr _)
        | templatable _ _ => cases h; exact ⟨hg, fun _ h => h, fun _ h => (by simp at h)⟩
        | type _ => cases h; exact ⟨hg, fun _ h => h, fun _ h => (by simp at h)⟩
        | database _ => cases h; exact ⟨hg, fun _ h => h, fun _ h => (by simp at h)⟩
        | noType _ => cases h; exact ⟨hg, fun _ h => h, fun _ h => (by simp at h)⟩

/-- what holds after a symbol has been visited -/
def DeclDone (s : Schema) (v : Prop) (st : State) (j : Nat) : Prop := ∀ d, s[j]? = some d →
  (∀ t, d = .subtype t → j ∈ st.done) ∧ (v → ValidDecl s d)

theorem valid_param {s : Schema} {v : Prop} (hv : v → NoParameterNames s) {ps refs} (hm : .templatable ps refs ∈ s) :
    v → ∀ (j : Nat) (t : Ref), (s[j]? = some (.subtype t) ∨ s[j]? = some (.instantiate t)) → ValidRef s ps t → ValidRef s [] t := by
  intro h j t ht hvr
  refine valid_empty hvr fun x hx => hv h t ?_ x hx ps refs hm
  exact ht.imp List.mem_of_getElem? List.mem_of_getElem?

theorem good_decl {s : Schema} {v : Prop} (hv : v → NoParameterNames s) {n j : Nat} {st st' : State}
    (h : visitDecl s n j st = some (.ok st')) (hg : Good s v st) :
    Good s v st' ∧ (∀ k ∈ st.done, k ∈ st'.done) ∧ DeclDone s v st' j := by
  have hemp : v → ∀ (j : Nat) (t : Ref), (s[j]? = some (.subtype t) ∨ s[j]? = some (.instantiate t)) → ValidRef s [] t → ValidRef s [] t :=
    fun _ _ _ _ h => h
  unfold visitDecl at h
  cases hs : s[j]? with
  | none =>
    rw [hs] at h; cases h
    exact ⟨hg, fun _ h => h, fun d hd => by rw [hs] at hd; cases hd⟩
  | some d =>
    rw [hs] at h
    cases d with
    | subtype t =>
      obtain ⟨g, m, dn⟩ := (good_sound s v [] hemp n).2.2 _ _ _ _ _ h hg
      have hd := dn t (Or.inl hs)
      refine ⟨g, m, fun d' hd' => ?_⟩
      exact ⟨fun _ _ => hd, fun hv' => (g j hd).2 hv' d' hd'⟩
    | instantiate t =>
      obtain ⟨g, m, dn⟩ := (good_sound s v [] hemp n).2.2 _ _ _ _ _ h hg
      have hd := dn t (Or.inr hs)
      refine ⟨g, m, fun d' hd' => ?_⟩
      exact ⟨fun _ _ => hd, fun hv' => (g j hd).2 hv' d' hd'⟩
    | templatable ps refs =>
      obtain ⟨g, m, vr⟩ := (good_sound s v ps (valid_param hv (List.mem_of_getElem? hs)) n).2.1 _ _ _ _ _ _ h hg
      refine ⟨g, m, fun d' hd' => ?_⟩
      rw [hs] at hd'; cases hd'
      exact ⟨fun _ h => (by cases h), fun _ => vr rfl⟩
    | type refs =>
      obtain ⟨g, m, vr⟩ := (good_sound s v [] hemp n).2.1 _ _ _ _ _ _ h hg
      refine ⟨g, m, fun d' hd' => ?_⟩
      rw [hs] at hd'; cases hd'
      exact ⟨fun _ h => (by cases h), fun _ => vr rfl⟩
    | database refs =>
      obtain ⟨g, m, vr⟩ := (good_sound s v [] hemp n).2.1 _ _ _ _ _ _ h hg
      refine ⟨g, m, fun d' hd' => ?_⟩
      rw [hs] at hd'; cases hd'
      exact ⟨fun _ h => (by cases h), fun _ => vr rfl⟩
    | noType refs =>
      obtain ⟨g, m, vr⟩ := (good_sound s v [] hemp n).2.1 _ _ _ _ _ _ h hg
      refine ⟨g, m, fun d' hd' => ?_⟩
      rw [hs] at hd'; cases hd'
      exact ⟨fun _ h => (by cases h), fun _ => vr rfl⟩

theorem good_decls {s : Schema} {v : Prop} (hv : v → NoParameterNames s) {n : Nat} : ∀ {js : List Nat} {st st' : State},
    visitDecls s n js st = some (.ok st') → Good s v st →
    Good s v st' ∧ (∀ k ∈ st.done, k ∈ st'.done) ∧ ∀ j ∈ js, DeclDone s v st' j
  | [], st, st', h, hg => by cases h; exact ⟨hg, fun _ h => h, by simp⟩
  | j :: js, st, st', h, hg => by
    rw [visitDecls] at h
    split at h
    · rename_i st₁ hk
      obtain ⟨g₁, m₁, d₁⟩ := good_decl hv hk hg
      obtain ⟨g₂, m₂, d₂⟩ := good_decls hv h g₁
      refine ⟨g₂, fun k hk => m₂ k (m₁ k hk), fun k hk => ?_⟩
      rcases List.mem_cons.1 hk with rfl | hk
      · intro d hd
        exact ⟨fun t ht => m₂ _ ((d₁ d hd).1 t ht), (d₁ d hd).2⟩
      · exact d₂ k hk
    · rename_i hr; exact absurd h (hr _)

theorem good_resolve {s : Schema} {v : Prop} (hv : v → NoParameterNames s) {n : Nat} {st : State} (h : resolve s n = some (.ok st)) :
    Good s v st ∧ ∀ j d, s[j]? = some d → (∀ t, d = .subtype t → j ∈ st.done) ∧ (v → ValidDecl s d) := by
  obtain ⟨g, _, d⟩ := good_decls hv h (fun j hj => by cases hj)
  refine ⟨g, fun j d' hd => d j ?_ d' hd⟩
  rw [List.getElem?_eq_some_iff] at hd
  exact List.mem_range.2 hd.1

/-! ### Cycles -/

theorem visitNamed_next {s : Schema} {i k name : Nat} (hs : s[i]? = some (.subtype (.named (some k) name []))) (hk : ∃ t, s[k]? = some (.subtype t)) (ps : List Nat) (n : Nat)
    (subs insts : List Nat) (st : State) : visitNamed s ps (n + 3) subs insts i st =
      if subs.head? = some i then some (.error .cycle)
      else match visitNamed s ps (n + 1) (subs ++ [i]) insts k { st with visits := st.visits + 1 } with
        | some (.ok st) => some (.ok (resolveSubtype s i (.named (some k) name []) st))
        | r => r := by
  obtain ⟨t, ht⟩ := hk
  rw [visitNamed, hs]
  simp only [checkCycle, decide_eq_true_eq]
  split
  · rfl
  · rw [visitRef, visitRefs]
    have hres : (if st.done.contains i then (.ok () : Except Refusal Unit) else resolveRef s ps (some k) name []) = .ok () := by
      split
      · rfl
      · simp [resolveRef, ht]
    simp only [hres]
    rfl

theorem next_source {s : Schema} {i k : Nat} (h : Relation.TransGen (Next s) i k) : ∃ t, s[i]? = some (.subtype t) := by
  obtain ⟨m, hm, _⟩ := Relation.TransGen.head'_iff.1 h
  obtain ⟨name, hn⟩ := hm
  exact ⟨_, hn⟩

theorem next_unique {s : Schema} {i k k' : Nat} (h : Next s i k) (h' : Next s i k') : k = k' := by
  obtain ⟨_, h⟩ := h
  obtain ⟨_, h'⟩ := h'
  rw [h] at h'
  cases h'
  rfl

/-- the first type on the stack is found again -/
theorem cycle_found {s : Schema} {i j : Nat} (h : Relation.TransGen (Next s) i j) (hj : ∃ t, s[j]? = some (.subtype t)) :
    ∃ N, ∀ n ≥ N, ∀ ps subs insts st, subs.head? = some j → visitNamed s ps n subs insts i st = some (.error .cycle) := by
  have hjj : ∀ n ≥ 1, ∀ ps subs insts st, subs.head? = some j → visitNamed s ps n subs insts j st = some (.error .cycle) := by
    intro n hn ps subs insts st hh
    obtain ⟨n, rfl⟩ : ∃ m, n = m + 1 := ⟨n - 1, by omega⟩
    obtain ⟨t, ht⟩ := hj
    rw [visitNamed, ht]
    simp [checkCycle, hh]
  have step : ∀ {i k : Nat}, Next s i k → (∃ t, s[k]? = some (.subtype t)) →
      (∃ N, ∀ n ≥ N, ∀ ps subs insts st, subs.head? = some j → visitNamed s ps n subs insts k st = some (.error .cycle)) →
      ∃ N, ∀ n ≥ N, ∀ ps subs insts st, subs.head? = some j → visitNamed s ps n subs insts i st = some (.error .cycle) := by
    intro i k ⟨name, hs⟩ hk ⟨N, hN⟩
    refine ⟨N + 3, fun n hnn ps subs insts st hh => ?_⟩
    obtain ⟨n, rfl⟩ : ∃ m, n = m + 3 := ⟨n - 3, by omega⟩
    rw [visitNamed_next hs hk]
    split
    · rfl
    · rw [hN (n + 1) (by omega) ps (subs ++ [i]) insts _ (by
        cases subs with
        | nil => cases hh
        | cons a l => simpa using hh)]
  induction h using Relation.TransGen.head_induction_on with
  | single hn => exact step hn hj ⟨1, hjj⟩
  | head hn ht ih => exact step hn (next_source ht) ih

/-- a subtype which is defined by itself is found, if it is visited first -/
theorem cycle_first {s : Schema} {j : Nat} (h : Relation.TransGen (Next s) j j) :
    ∃ N, ∀ n ≥ N, ∀ ps insts st, visitNamed s ps n [] insts j st = some (.error .cycle) := by
  obtain ⟨k, hn, hk⟩ := Relation.TransGen.head'_iff.1 h
  have hj := next_source h
  obtain ⟨name, hs⟩ := hn
  rcases Relation.ReflTransGen.cases_head hk with rfl | ⟨m, hm, hmj⟩
  · refine ⟨3, fun n hnn ps insts st => ?_⟩
    obtain ⟨n, rfl⟩ : ∃ m, n = m + 3 := ⟨n - 3, by omega⟩
    rw [visitNamed_next hs hj]
    obtain ⟨t, ht⟩ := hj
    rw [visitNamed, ht]
    simp [checkCycle]
  · have hkj : Relation.TransGen (Next s) k j := Relation.TransGen.head' hm hmj
    obtain ⟨N, hN⟩ := cycle_found hkj hj
    refine ⟨N + 3, fun n hnn ps insts st => ?_⟩
    obtain ⟨n, rfl⟩ : ∃ m, n = m + 3 := ⟨n - 3, by omega⟩
    rw [visitNamed_next hs (next_source hkj), hN (n + 1) (by omega) ps _ insts _ (by simp)]
    simp

/-- a cycle which does not contain the first type on the stack is not found -/
theorem cycle_missed {s : Schema} {h : Nat} (ps insts : List Nat) : ∀ (n i : Nat) (subs : List Nat) (st : State), Relation.TransGen (Next s) i i →
    subs.head? = some h → ¬ Relation.ReflTransGen (Next s) i h → visitNamed s ps n subs insts i st = none := by
  intro n
  induction n using Nat.strong_induction_on with
  | _ n ih =>
    intro i subs st hc hh hr
    obtain ⟨k, hn, hk⟩ := Relation.TransGen.head'_iff.1 hc
    have hkk : Relation.TransGen (Next s) k k := Relation.TransGen.tail' hk hn
    obtain ⟨name, hs⟩ := id hn
    rcases Nat.lt_or_ge n 3 with hlt | hge
    · cases hv : visitNamed s ps n subs insts i st with
      | none => rfl
      | some x =>
        have h3 := visitNamed_mono (show n ≤ 0 + 3 by omega) hv
        rw [visitNamed_next hs (next_source hkk)] at h3
        rw [if_neg (by rw [hh]; intro he; cases he; exact hr .refl)] at h3
        -- two calls are not enough
        rcases n with _ | _ | n
        · rw [visitNamed] at hv; cases hv
        · rw [visitNamed, hs] at hv
          simp only [checkCycle, hh, decide_eq_true_eq] at hv
          rw [if_neg (by intro he; cases he; exact hr .refl), visitRef] at hv
          cases hv
        · obtain rfl : n = 0 := by omega
          rw [visitNamed, hs] at hv
          simp only [checkCycle, hh, decide_eq_true_eq] at hv
          rw [if_neg (by intro he; cases he; exact hr .refl), visitRef, visitRefs] at hv
          cases hv
    · obtain ⟨n, rfl⟩ : ∃ m, n = m + 3 := ⟨n - 3, by omega⟩
      rw [visitNamed_next hs (next_source hkk), if_neg (by rw [hh]; intro he; cases he; exact hr .refl)]
      rw [ih (n + 1) (by omega) k _ _ hkk (by
        cases subs with
        | nil => cases hh
        | cons a l => simpa using hh) (fun h' => hr (.head hn h'))]

end Zserio.TypeResolve
