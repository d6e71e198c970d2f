import Verif.Spec.Offsets
import Verif.Lemmas.CompoundDemo
set_option linter.unusedSimpArgs false
/-
The example schema satisfies the rules for offsets.
-/
namespace Zserio

theorem demo_param_offset (i : Nat) (env : Env) : Demo.param i env ≠ .error .offset := by
  unfold Demo.param
  split <;> simp

theorem demo_field_offset (i : Nat) (env : Env) : Demo.field i env ≠ .error .offset := by
  unfold Demo.field
  split
  · next v _ => cases v <;> simp [Val.asInt]
  · simp

/-- a field that is not used as an offset -/
theorem demo_field_ignores {same : Nat → Val → Val → Prop} {targets : List Nat} {fs : List FieldDef} {i : Nat} {f : FieldDef}
    (hf : fs[i]? = some f) (hi : i ∉ targets) (ha : f.array = none) (ht : ∃ k, f.type = .int k) :
    (Demo.field i).IgnoresOffsets same targets fs := by
  refine ⟨?_, demo_field_offset i⟩
  intro params prior prior' index hs
  unfold Demo.field
  simp only
  have hl := hs.1
  rcases hv : prior[i]? with _ | v
  · have : prior'[i]? = none := by
      rw [List.getElem?_eq_none_iff] at hv ⊢
      omega
    rw [this]
  · obtain ⟨v', hv'⟩ : ∃ v', prior'[i]? = some v' := by
      have : i < prior.length := by
        rcases Nat.lt_or_ge i prior.length with h | h
        · exact h
        · rw [List.getElem?_eq_none h] at hv; cases hv
      exact ⟨prior'[i]'(by omega), by simp⟩
    rw [hv']
    have := hs.2 i f v v' hf hv hv'
    rw [decide_eq_false hi] at this
    rcases this with rfl | h
    · rfl
    · rw [ha] at h
      obtain ⟨k, hk⟩ := ht
      simp only [Bool.false_eq_true, if_false, hk, ElemType.Same] at h
      rw [h]

theorem demo_const_ignores {α : Type} {same : Nat → Val → Val → Prop} {targets : List Nat} {fs : List FieldDef} (e : Expr α)
    (h1 : ∀ params prior prior' index, e ⟨params, prior', index⟩ = e ⟨params, prior, index⟩) (h2 : ∀ env, e env ≠ .error .offset) :
    e.IgnoresOffsets same targets fs := ⟨fun _ _ _ _ _ => h1 _ _ _ _, h2⟩

theorem demo_offsetRules : Demo.schema.OffsetRules := by
  intro n id
  match id with
  | 0 =>
    refine ⟨?_, ?_, by decide⟩
    · intro f hf
      simp only [List.mem_cons, List.not_mem_nil, or_false] at hf
      rcases hf with rfl | rfl <;> constructor <;> simp
      refine demo_const_ignores _ (fun _ _ _ _ => rfl) ?_
      intro env
      simp only [Demo.param]
      split <;> simp [Bind.bind, Except.bind]
    · intro i f o hf ho
      rcases i with _ | _ | i <;> simp at hf <;> subst hf <;> simp at ho
  | 1 =>
    intro f hf
    simp only [List.mem_cons, List.not_mem_nil, or_false] at hf
    rcases hf with rfl | rfl | rfl <;> refine ⟨rfl, ?_⟩ <;> constructor <;> simp
    exact demo_const_ignores _ (fun _ _ _ _ => rfl) (by simp)
  | 2 =>
    refine ⟨demo_param_offset 0, ?_, ?_⟩
    · intro k hk f hf
      simp only [List.mem_cons, List.not_mem_nil, or_false] at hk
      rcases hk with rfl | rfl <;> simp at hf
      subst hf
      refine ⟨rfl, ?_⟩; constructor <;> simp
    · intro f hf
      simp only [Option.some.injEq] at hf
      subst hf
      refine ⟨rfl, ?_⟩; constructor <;> simp
  | 3 =>
    refine ⟨?_, ?_, by decide⟩
    · intro f hf
      simp only [List.mem_cons, List.not_mem_nil, or_false] at hf
      rcases hf with rfl | rfl | rfl | rfl | rfl | rfl | rfl | rfl | rfl | rfl <;> constructor <;> simp
      · intro env
        have := demo_field_offset 3 env
        rcases h : Demo.field 3 env with e | v
        · rw [h] at this; simpa [Bind.bind, Except.bind] using this
        · simp [Bind.bind, Except.bind]
      · exact demo_const_ignores _ (fun _ _ _ _ => rfl) (by simp)
      · exact demo_field_offset 0
      · exact demo_field_ignores (f := { type := .int (.bitField 8), packable := true }) rfl (by decide) rfl ⟨_, rfl⟩
    · intro i f o hf ho
      rcases i with _ | _ | _ | _ | _ | _ | _ | _ | _ | _ | i <;> simp at hf <;> subst hf <;> simp at ho
      subst ho
      exact ⟨by decide, _, rfl, ⟨32, rfl⟩, rfl, rfl, rfl, rfl⟩
  | 4 =>
    refine ⟨?_, ?_, by decide⟩
    · intro f hf
      simp only [List.mem_cons, List.not_mem_nil, or_false] at hf
      rcases hf with rfl | rfl <;> constructor <;> simp
    · intro i f o hf ho
      rcases i with _ | _ | i <;> simp at hf <;> subst hf <;> simp at ho
  | 5 =>
    refine ⟨?_, ?_, by decide⟩
    · intro f hf
      simp only [List.mem_cons, List.not_mem_nil, or_false] at hf
      rcases hf with rfl | rfl | rfl <;> constructor <;> simp
    · intro i f o hf ho
      rcases i with _ | _ | _ | i <;> simp at hf <;> subst hf <;> simp at ho
  | 6 =>
    refine ⟨?_, ?_, by decide⟩
    · intro f hf
      simp only [List.mem_cons, List.not_mem_nil, or_false] at hf
      rcases hf with rfl | rfl | rfl <;> constructor <;> simp
      exact demo_const_ignores _ (fun _ _ _ _ => rfl) (by simp)
    · intro i f o hf ho
      rcases i with _ | _ | _ | i <;> simp at hf <;> subst hf <;> simp at ho
      subst ho
      exact ⟨by decide, _, rfl, ⟨32, rfl⟩, rfl, rfl, rfl, rfl⟩
  | 7 =>
    refine ⟨?_, ?_, by decide⟩
    · intro f hf
      simp only [List.mem_cons, List.not_mem_nil, or_false] at hf
      rcases hf with rfl | rfl <;> constructor <;> simp
    · intro i f o hf ho
      rcases i with _ | _ | i <;> simp at hf <;> subst hf <;> simp at ho
  | k + 8 =>
    refine ⟨by simp, by simp, by simp [Struct.targets]⟩

end Zserio
