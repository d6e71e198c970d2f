import Verif.Spec.PyClass
/-
Executing the body of a class whose statements come in groups, each of which binds one name.
-/
set_option linter.unusedSimpArgs false
namespace Zserio.Names

variable {δ : Type}

/-- the statements which bind a name to an entry -/
def groupStmts (g : PyStr × ClassEntry δ) : List (ClassStmt δ) :=
  match g.2 with
  | .function b => [.defn none g.1 b]
  | .classMethod b => [.defn (some .classMethod) g.1 b]
  | .staticMethod b => [.defn (some .staticMethod) g.1 b]
  | .property b none => [.defn (some .property) g.1 b]
  | .property b (some s) => [.defn (some .property) g.1 b, .defn (some (.setterOf g.1)) g.1 s]
  | .innerClass b => [.innerClass g.1 b]
  | .constant v => [.assign g.1 v]

/-- the builtins the statements of a group use -/
def ClassEntry.builtin : ClassEntry δ → Option PyStr
  | .classMethod _ => some (py! "classmethod")
  | .staticMethod _ => some (py! "staticmethod")
  | .property _ _ => some (py! "property")
  | _ => none

theorem execStmts_append (ns : Namespace δ) (a b : List (ClassStmt δ)) :
    execStmts ns (a ++ b) = match execStmts ns a with
      | .ok ns' => execStmts ns' b
      | .error e => .error e := by
  induction a generalizing ns with
  | nil => rfl
  | cons s a ih =>
    simp only [List.cons_append, execStmts]
    cases s.exec ns with
    | error e => rfl
    | ok ns' => exact ih ns'

theorem exec_group {ns : Namespace δ} {g : PyStr × ClassEntry δ} (h : ∀ b, g.2.builtin = some b → ns b = none) :
    execStmts ns (groupStmts g) = .ok (ns.bind g.1 g.2) := by
  obtain ⟨name, e⟩ := g
  cases e with
  | function b => rfl
  | classMethod b =>
    have := h _ rfl
    simp [groupStmts, execStmts, ClassStmt.exec, decorated, this, Except.map]
  | staticMethod b =>
    have := h _ rfl
    simp [groupStmts, execStmts, ClassStmt.exec, decorated, this, Except.map]
  | innerClass b => rfl
  | constant b => rfl
  | property b s =>
    have := h _ rfl
    cases s with
    | none => simp [groupStmts, execStmts, ClassStmt.exec, decorated, this, Except.map]
    | some s =>
      simp [groupStmts, execStmts, ClassStmt.exec, decorated, this, Except.map, Namespace.bind]
      funext n
      unfold Namespace.bind
      split <;> rfl

/-- all groups have been executed: a name of no group is not touched, and a name all of whose groups agree is bound -/
theorem exec_groups (gs : List (PyStr × ClassEntry δ)) : ∀ (ns : Namespace δ),
    (∀ g ∈ gs, ∀ b, g.2.builtin = some b → ns b = none) →
    gs.Pairwise (fun a b => b.2.builtin ≠ some a.1) →
    (∀ g ∈ gs, ∀ g' ∈ gs, g.1 = g'.1 → g.2 = g'.2) →
    ∃ ns', execStmts ns (gs.flatMap groupStmts) = .ok ns' ∧ (∀ g ∈ gs, ns' g.1 = some g.2) ∧
      ∀ n, (∀ g ∈ gs, g.1 ≠ n) → ns' n = ns n := by
  induction gs with
  | nil => intro ns _ _ _; exact ⟨ns, rfl, by simp, by simp⟩
  | cons g gs ih =>
    intro ns hb hp hf
    rw [List.pairwise_cons] at hp
    have hg := exec_group (hb g (by simp))
    have hb' : ∀ g' ∈ gs, ∀ b, g'.2.builtin = some b → (ns.bind g.1 g.2) b = none := by
      intro g' hg' b hb2
      unfold Namespace.bind
      rw [if_neg]
      · exact hb g' (by simp [hg']) b hb2
      · rintro rfl; exact hp.1 g' hg' hb2
    obtain ⟨ns', h1, h2, h3⟩ := ih (ns.bind g.1 g.2) hb' hp.2
      (fun a ha b hb => hf a (by simp [ha]) b (by simp [hb]))
    refine ⟨ns', ?_, ?_, ?_⟩
    · rw [List.flatMap_cons, execStmts_append, hg]; exact h1
    · intro a ha
      rw [List.mem_cons] at ha
      rcases ha with rfl | ha
      · by_cases hex : ∃ g' ∈ gs, g'.1 = a.1
        · obtain ⟨g', hg', he⟩ := hex
          rw [← he, h2 g' hg', hf g' (by simp [hg']) a (by simp) he]
        · rw [h3 a.1 (fun g' hg' he => hex ⟨g', hg', he⟩)]
          simp [Namespace.bind]
      · exact h2 a ha
    · intro n hn
      rw [h3 n (fun g' hg' => hn g' (by simp [hg']))]
      unfold Namespace.bind
      rw [if_neg (fun he => hn g (by simp) he.symm)]

theorem bound_groupStmts {g : PyStr × ClassEntry δ} {s : ClassStmt δ} (h : s ∈ groupStmts g) : s.bound = g.1 := by
  obtain ⟨name, e⟩ := g
  unfold groupStmts at h
  split at h <;> simp at h
  case h_5 => rcases h with rfl | rfl <;> rfl
  all_goals subst h; rfl

/-- the definition of a class whose body is made of groups -/
theorem defineClass_groups {gs : List (PyStr × ClassEntry δ)} (hn : ∀ g ∈ gs, IsPythonName g.1)
    (hp : gs.Pairwise (fun a b => b.2.builtin ≠ some a.1))
    (hf : ∀ g ∈ gs, ∀ g' ∈ gs, g.1 = g'.1 → g.2 = g'.2) :
    ∃ ns, defineClass (gs.flatMap groupStmts) = .ok ns ∧ (∀ g ∈ gs, ns g.1 = some g.2) ∧
      ∀ n, (∀ g ∈ gs, g.1 ≠ n) → ns n = none := by
  obtain ⟨ns, h1, h2, h3⟩ := exec_groups gs (fun _ => none) (by simp) hp hf
  refine ⟨ns, ?_, h2, h3⟩
  unfold defineClass
  rw [if_pos, h1]
  intro s hs
  rw [List.mem_flatMap] at hs
  obtain ⟨g, hg, hs⟩ := hs
  rw [bound_groupStmts hs]
  exact hn g hg

end Zserio.Names
