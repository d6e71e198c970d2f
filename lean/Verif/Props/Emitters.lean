import Verif.Spec.Emitters
import Verif.Lemmas.Templates
import Verif.Lemmas.Packages
import Mathlib.Data.List.Perm.Lattice
import Mathlib.Data.List.Nodup
import Mathlib.Data.List.Infix
import Mathlib.Data.List.Permutation
/-
C117: one module for each type, constant and instantiation of a template.
-/
set_option linter.unusedSimpArgs false

namespace Zserio.Emitters
open Templates (PackageName TypeId InstantiateDecl)

/-! ### The walk -/

private def flat (s : List Package) : List (PackageName × Node) := s.flatMap fun p => p.nodes.map fun n => (p.name, n)

private theorem flatMap_flat {β : Type} (s : List Package) (f : PackageName → Node → List β) :
    (s.flatMap fun p => p.nodes.flatMap (f p.name)) = (flat s).flatMap fun x => f x.1 x.2 := by
  unfold flat
  rw [List.flatMap_assoc]
  congr 1
  funext p
  rw [List.flatMap_map]

private theorem mem_flat {s : List Package} {x : PackageName × Node} (h : x ∈ flat s) : ∃ p ∈ s, x.1 = p.name ∧ x.2 ∈ p.nodes := by
  simp only [flat, List.mem_flatMap, List.mem_map] at h
  obtain ⟨p, hp, n, hn, rfl⟩ := h
  exact ⟨p, hp, rfl, hn⟩

private theorem perm_split (l : List Inst) : ((l.filter fun i => ¬ i.Moved) ++ (l.filter fun i => i.Moved)).Perm l := by
  have := List.filter_append_perm (fun i : Inst => decide (¬ i.Moved)) l
  refine List.Perm.trans ?_ this
  refine List.Perm.of_eq ?_
  congr 2
  funext i
  simp

private theorem perm_flatMap {α β : Type} (l : List α) {f g : α → List β} (h : ∀ x ∈ l, (f x).Perm (g x)) : (l.flatMap f).Perm (l.flatMap g) := by
  induction l with
  | nil => exact List.Perm.nil
  | cons x l ih =>
    simp only [List.flatMap_cons]
    exact (h x (by simp)).append (ih fun y hy => h y (by simp [hy]))

/-- Every symbol of a schema which is no template and every instantiation of a template is walked exactly once, if the instantiations are where they
are asked for. -/
theorem C117_walk_partial (s : List Package) (h : Located s) : (walk true s).Perm (expected s) := by
  have hw : walk true s = (flat s).flatMap fun x => visit true x.1 x.2 := flatMap_flat s (visit true)
  have he : expected s = (flat s).flatMap fun x => Node.means x.1 x.2 := flatMap_flat s Node.means
  have hr : (requested s).filter (fun i => i.Moved) = (flat s).flatMap fun x => x.2.requested.filter fun i => i.Moved := by
    have : requested s = (flat s).flatMap fun x => x.2.requested := flatMap_flat s fun _ n => n.requested
    rw [this, List.filter_flatMap]
  have ha : (allInsts s).filter (fun i => i.Moved) = (flat s).flatMap fun x => x.2.insts.filter fun i => i.Moved := by
    have : allInsts s = (flat s).flatMap fun x => x.2.insts := flatMap_flat s fun _ n => n.insts
    rw [this, List.filter_flatMap]
  have hm := h.moved
  rw [hr, ha] at hm
  have hm' := hm.map Inst.symbol
  rw [List.map_flatMap, List.map_flatMap] at hm'
  let stay : PackageName × Node → List Symbol := fun x => match x.2 with
    | .symbol k n => [⟨k, x.1, n⟩]
    | .template _ _ insts => (insts.filter fun i => ¬ i.Moved).map Inst.symbol
    | .instantiateType _ _ => []
  rw [hw, he]
  have h1 : ((flat s).flatMap fun x => visit true x.1 x.2).Perm
      ((flat s).flatMap fun x => stay x ++ (x.2.requested.filter fun i => i.Moved).map Inst.symbol) := by
    refine perm_flatMap _ fun x hx => ?_
    obtain ⟨p, hp, h1, h2⟩ := mem_flat hx
    rcases x with ⟨q, n⟩
    simp only at h1 h2
    subst h1
    rcases n with ⟨k, nm⟩ | ⟨k, nm, insts⟩ | ⟨nm, i⟩
    · exact List.Perm.refl _
    · simp only [visit, stay, if_true, Node.requested, List.filter_nil, List.map_nil, List.append_nil]
      refine List.Perm.of_eq ?_
      congr 1
      refine List.filter_congr fun i hi => ?_
      have := h.home p hp k nm insts h2 i hi
      simp only [Inst.Moved, this, ne_eq, not_not, decide_eq_decide]
      exact eq_comm
    · have := h.own p hp nm i h2
      simp only [visit, stay, Node.requested, true_and, List.nil_append]
      by_cases hq : p.name = i.templatePkg
      · have hnm : ¬ i.Moved := by simp [Inst.Moved, this, hq]
        simp [hq, hnm]
      · have hnm : i.Moved := by simpa [Inst.Moved, this] using hq
        simp [hq, hnm]
  have h2 : ((flat s).flatMap fun x => stay x ++ (x.2.insts.filter fun i => i.Moved).map Inst.symbol).Perm
      ((flat s).flatMap fun x => Node.means x.1 x.2) := by
    refine perm_flatMap _ fun x hx => ?_
    rcases x with ⟨q, n⟩
    rcases n with ⟨k, nm⟩ | ⟨k, nm, insts⟩ | ⟨nm, i⟩
    · exact List.Perm.refl _
    · simp only [stay, Node.means, Node.insts]
      rw [← List.map_append]
      exact (perm_split insts).map _
    · exact List.Perm.refl _
  refine h1.trans (List.Perm.trans ?_ h2)
  refine (List.flatMap_append_perm _ _ _).symm.trans (List.Perm.trans ?_ (List.flatMap_append_perm _ _ _))
  exact List.Perm.append_left _ hm'

/-! ### The files -/

private theorem emit_all (o : Options) (x : Symbol) :
    (emitters.flatMap fun e => (e.emit o x).toList) = if o.wants x.kind then [x.file] else [] := by
  rcases x with ⟨k, p, n⟩
  rcases o with ⟨a, b, c⟩
  cases k <;> cases a <;> cases b <;> cases c <;> rfl

private theorem swap {α β γ : Type} (es : List α) (xs : List β) (f : α → β → Option γ) :
    (es.flatMap fun e => xs.filterMap (f e)).Perm (xs.flatMap fun x => es.flatMap fun e => (f e x).toList) := by
  induction xs with
  | nil => simp
  | cons x xs ih =>
    have : (es.flatMap fun e => (x :: xs).filterMap (f e)) = es.flatMap fun e => (f e x).toList ++ xs.filterMap (f e) := by
      congr 1
      funext e
      rw [List.filterMap_cons]
      cases f e x <;> rfl
    rw [this, List.flatMap_cons]
    exact (List.flatMap_append_perm _ _ _).symm.trans (ih.append_left _)

private theorem flatMap_if {α β : Type} (l : List α) (p : α → Bool) (f : α → β) :
    (l.flatMap fun x => if p x then [f x] else []) = (l.filter p).map f := by
  induction l with
  | nil => rfl
  | cons x l ih =>
    rw [List.flatMap_cons, ih, List.filter_cons]
    cases p x <;> rfl

/-- For every symbol which is walked there is one file if code of its kind is wanted, made from the template for its kind, and no file otherwise. -/
theorem C117_files (o : Options) (s : List Package) : (files o s).Perm (((walk true s).filter fun x => o.wants x.kind).map Symbol.file) := by
  refine (swap emitters (walk true s) (fun e => e.emit o)).trans (List.Perm.of_eq ?_)
  rw [← flatMap_if]
  congr 1
  funext x
  exact emit_all o x

/-- Exactly one file is generated for each symbol which is no template and for each instantiation of a template, as far as code of its kind is wanted,
if the instantiations are where they are asked for. -/
theorem C117_generated_partial (o : Options) (s : List Package) (h : Located s) :
    (files o s).Perm (((expected s).filter fun x => o.wants x.kind).map Symbol.file) :=
  (C117_files o s).trans (((C117_walk_partial s h).filter _).map _)

/-! ### The modules `api` -/

private theorem apiWants_eq (o : Options) (k : Kind) : apiWants o k = o.wants k := by cases k <;> rfl

private theorem addSymbols_some {o : Options} {mapped : List PackageName} {xs : List Symbol} (h : ∀ x ∈ xs, x.pkg ∈ mapped) :
    addSymbols o mapped xs = some (xs.filter fun x => o.wants x.kind) := by
  induction xs with
  | nil => rfl
  | cons x xs ih =>
    unfold addSymbols
    rw [apiWants_eq, ih fun y hy => h y (by simp [hy]), if_pos (h x (by simp)), List.filter_cons]
    cases o.wants x.kind <;> rfl

private theorem addSymbols_eq {o : Options} {mapped : List PackageName} {xs ys : List Symbol} (h : addSymbols o mapped xs = some ys) :
    ys = xs.filter fun x => o.wants x.kind := by
  induction xs generalizing ys with
  | nil => exact (Option.some.inj h).symm
  | cons x xs ih =>
    unfold addSymbols at h
    rw [apiWants_eq] at h
    rw [List.filter_cons]
    cases hw : o.wants x.kind
    · rw [hw] at h
      exact ih h
    · rw [hw, if_pos rfl] at h
      split at h
      · obtain ⟨zs, hz, rfl⟩ := Option.map_eq_some_iff.1 h
        rw [ih hz]
        rfl
      · cases h

private theorem apiWalk_eq {o : Options} {s : List Package} {mapped : List PackageName} {all : List Symbol} (h : apiWalk o mapped s = some all) :
    all = (walk true s).filter fun x => o.wants x.kind := by
  induction s generalizing mapped all with
  | nil => exact (Option.some.inj h).symm
  | cons p s ih =>
    simp only [apiWalk, Option.bind_eq_bind, Option.bind_eq_some_iff] at h
    obtain ⟨xs, hx, rest, hr, h⟩ := h
    rw [← Option.some.inj h, ih hr, addSymbols_eq hx]
    simp [walk]

/-- Whatever the schema is: if the modules `api` are generated, the module of a package imports exactly what is in the generated files in the
directory of the package. -/
theorem C117_api (o : Options) (s : List Package) (all : List Symbol) (h : apiWalk o [] s = some all) (pkg : PackageName) :
    ((files o s).filter fun f => f.dir = pkg).Perm ((apiSymbols all pkg).map Symbol.file) := by
  refine ((C117_files o s).filter _).trans (List.Perm.of_eq ?_)
  rw [List.filter_map, apiWalk_eq h]
  rfl

private theorem mem_mapPackage {mapped : List PackageName} {name x : PackageName} (h : x ∈ mapped) : x ∈ mapPackage mapped name := by
  unfold mapPackage
  split <;> simp [h]

private theorem self_mapPackage (mapped : List PackageName) (name : PackageName) : name ∈ mapPackage mapped name := by
  unfold mapPackage
  split
  · simp [*]
  · next hne =>
    cases name with
    | nil => exact absurd rfl hne
    | cons a l =>
      rw [List.mem_append]
      right
      rw [List.inits, List.tail_cons, List.mem_map]
      exact ⟨l, by simp [List.mem_inits], rfl⟩

/-- The modules `api` can be generated if the instantiations are where they are asked for. -/
theorem C117_api_succeeds_partial (o : Options) (s : List Package) (h : Located s) : ∃ all, apiWalk o [] s = some all := by
  have key : ∀ (t : List Package) (mapped : List PackageName), (∀ p ∈ t, p ∈ s) → ∃ all, apiWalk o mapped t = some all := by
    intro t
    induction t with
    | nil => exact fun _ _ => ⟨[], rfl⟩
    | cons p t ih =>
      intro mapped ht
      obtain ⟨rest, hr⟩ := ih (mapPackage mapped p.name) fun q hq => ht q (by simp [hq])
      have hx : ∀ x ∈ p.nodes.flatMap (visit true p.name), x.pkg ∈ mapPackage mapped p.name := by
        intro x hx
        have hp : x.pkg = p.name := by
          rw [List.mem_flatMap] at hx
          obtain ⟨n, hn, hx⟩ := hx
          rcases n with ⟨k, nm⟩ | ⟨k, nm, insts⟩ | ⟨nm, i⟩
          · simp only [visit, List.mem_singleton] at hx
            rw [hx]
          · simp only [visit, if_true, List.mem_map, List.mem_filter, decide_eq_true_eq] at hx
            obtain ⟨i, ⟨_, hi⟩, rfl⟩ := hx
            exact hi.symm
          · simp only [visit] at hx
            split at hx
            · simp only [List.mem_singleton] at hx
              rw [hx]
              exact h.own p (ht p (by simp)) nm i hn
            · cases hx
        rw [hp]
        exact self_mapPackage _ _
      refine ⟨((p.nodes.flatMap (visit true p.name)).filter fun x => o.wants x.kind) ++ rest, ?_⟩
      simp only [apiWalk, addSymbols_some hx, hr, Option.bind_eq_bind, Option.bind_some]
  exact key s [] fun _ h => h

/-! ### Different modules -/

private theorem visit_pkg {s : List Package} (h : Located s) {p : Package} (hp : p ∈ s) {x : Symbol} (hx : x ∈ p.nodes.flatMap (visit true p.name)) :
    x.pkg = p.name := by
  rw [List.mem_flatMap] at hx
  obtain ⟨n, hn, hx⟩ := hx
  rcases n with ⟨k, nm⟩ | ⟨k, nm, insts⟩ | ⟨nm, i⟩
  · simp only [visit, List.mem_singleton] at hx
    rw [hx]
  · simp only [visit, if_true, List.mem_map, List.mem_filter, decide_eq_true_eq] at hx
    obtain ⟨i, ⟨_, hi⟩, rfl⟩ := hx
    exact hi.symm
  · simp only [visit] at hx
    split at hx
    · simp only [List.mem_singleton] at hx
      rw [hx]
      exact h.own p hp nm i hn
    · cases hx

private theorem checkModules_ok {s : List Package} : checkModules s = .ok () ↔ ∀ p ∈ s,
    (((p.nodes.flatMap (visit true p.name)).filter fun x => x.kind ≠ .ruleGroup).map Symbol.moduleName).Nodup := by
  induction s with
  | nil => simp [checkModules]
  | cons p ps ih =>
    rw [checkModules, List.forall_mem_cons, ← ih]
    have := Names.checkUnique_ok (e := .moduleClash) (seen := [])
      (l := ((p.nodes.flatMap (visit true p.name)).filter fun x => x.kind ≠ .ruleGroup).map Symbol.moduleName)
    simp only [List.not_mem_nil, not_false_eq_true, implies_true, and_true] at this
    rw [← this]
    cases hc : Names.checkUnique .moduleClash [] (((p.nodes.flatMap (visit true p.name)).filter fun x => x.kind ≠ .ruleGroup).map Symbol.moduleName) with
    | ok _ => simp [Bind.bind, Except.bind]
    | error _ => simp [Bind.bind, Except.bind]

private theorem wants_all (k : Kind) : ({} : Options).wants k = decide (k ≠ .ruleGroup) := by cases k <;> rfl

private theorem wants_ruleGroup {o : Options} {k : Kind} (h : o.wants k = true) : k ≠ .ruleGroup := by
  rintro rfl
  cases h

/-- The generator accepts a schema exactly if no two modules would get the same name in the same directory, if the instantiations are where they are
asked for. -/
theorem C117_clashes_partial (s : List Package) (h : Located s) (hn : (s.map (·.name)).Nodup) :
    checkModules s = .ok () ↔ ((files {} s).map fun f => (f.dir, f.root)).Nodup := by
  have hp : ((files {} s).map fun f => (f.dir, f.root)).Perm
      (s.flatMap fun p => ((p.nodes.flatMap (visit true p.name)).filter fun x => x.kind ≠ .ruleGroup).map fun x => (x.pkg, x.moduleName)) := by
    refine ((C117_files {} s).map _).trans (List.Perm.of_eq ?_)
    rw [walk, List.filter_flatMap, List.map_flatMap, List.map_flatMap]
    congr 1
    funext p
    simp only [wants_all, List.map_map]
    rfl
  rw [hp.nodup_iff, List.nodup_flatMap, checkModules_ok]
  have hmap : ∀ p ∈ s, (((p.nodes.flatMap (visit true p.name)).filter fun x => x.kind ≠ .ruleGroup).map fun x => (x.pkg, x.moduleName)) =
      (((p.nodes.flatMap (visit true p.name)).filter fun x => x.kind ≠ .ruleGroup).map Symbol.moduleName).map (Prod.mk p.name) := by
    intro p hp
    rw [List.map_map]
    refine List.map_congr_left fun x hx => ?_
    rw [visit_pkg h hp (List.mem_filter.1 hx).1]
    rfl
  have hinj : ∀ p : Package, Function.Injective (Prod.mk (β := PyStr) p.name) := fun p a b hab => (Prod.mk.inj hab).2
  constructor
  · intro hc
    refine ⟨fun p hp => ?_, ?_⟩
    · rw [hmap p hp]
      exact (hc p hp).map (hinj p)
    · rw [List.Nodup, List.pairwise_map] at hn
      refine hn.imp_of_mem fun {p q} hp hq hpq x hx hx' => hpq ?_
      simp only [hmap p hp, hmap q hq, List.mem_map] at hx hx'
      obtain ⟨_, _, rfl⟩ := hx
      obtain ⟨_, _, e⟩ := hx'
      exact (Prod.mk.inj e).1.symm
  · rintro ⟨hc, _⟩ p hp
    have := hc p hp
    rw [hmap p hp] at this
    exact this.of_map _

/-- No two files which are written for an accepted schema have the same path, whatever is switched off, if the instantiations are where they are asked
for. -/
theorem C117_paths_partial (o : Options) (s : List Package) (h : Located s) (hn : (s.map (·.name)).Nodup) (hc : checkModules s = .ok ()) :
    ((files o s).map fun f => (f.dir, f.root)).Nodup := by
  have hall := (C117_clashes_partial s h hn).1 hc
  rw [((C117_files {} s).map _).nodup_iff] at hall
  rw [((C117_files o s).map _).nodup_iff]
  refine hall.sublist (List.Sublist.map _ (List.Sublist.map _ ?_))
  rw [show ((walk true s).filter fun x => o.wants x.kind) = ((walk true s).filter fun x => ({} : Options).wants x.kind).filter fun x => o.wants x.kind by
    rw [List.filter_filter]
    congr 1
    funext x
    rw [wants_all]
    cases hw : o.wants x.kind
    · rfl
    · simp [wants_ruleGroup hw]]
  exact List.filter_sublist

/-! ### The instantiations -/

private theorem mem_instancesOf {res : Templates.Result} {id : TypeId} {i : Nat} :
    i ∈ instancesOf res id ↔ ∃ e, res.state.entries[i]? = some e ∧ e.template = id := by
  simp only [instancesOf, List.mem_filter, List.mem_range]
  constructor
  · rintro ⟨_, h⟩
    split at h
    · next e he => exact ⟨e, he, by simpa using h⟩
    · cases h
  · rintro ⟨e, he, h⟩
    refine ⟨(List.getElem?_eq_some_iff.1 he).1, ?_⟩
    rw [he]
    simpa using h

private theorem instOf_eq {kindOf : TypeId → Kind} {res : Templates.Result} {i : Nat} {e : Templates.Entry} (h : res.state.entries[i]? = some e) :
    instOf kindOf res i = ⟨kindOf e.template, e.pkg, e.template.pkg, res.names.getD i []⟩ := by
  unfold instOf
  rw [h]

private theorem sources_flat {β : Type} (kindOf : TypeId → Kind) (res : Templates.Result) (ps : List (PackageName × List Source))
    (f : Node → List β) :
    ((tree kindOf res ps).flatMap fun p => p.nodes.flatMap f) = ps.flatMap fun p => p.2.flatMap fun x => f (x.node kindOf res) := by
  simp only [tree, List.flatMap_map]

/-- The instantiations are where they are asked for, if for the reference of each `instantiate` that very `instantiate` was found. -/
theorem C117_located_partial (kindOf : TypeId → Kind) (ts : List Templates.TemplateDef) (locals : PackageName → List PyStr) (n : Nat)
    (refs : List (List InstantiateDecl × Templates.TypeRef)) (res : Templates.Result) (hres : Templates.templator ts locals n refs = .ok res)
    (ps : List (PackageName × List Source)) (h : Processed res ps) : Located (tree kindOf res ps) := by
  obtain ⟨hv, _⟩ := Templates.templator_ok hres
  have inv := (Templates.visitRoot_inv refs _ _ _ hv .start).1
  -- the instantiation which belongs to an `instantiate`
  have hown : ∀ d i, (d, i) ∈ sourceDecls ps → ∃ e, res.state.entries[i]? = some e ∧ e.key = (d.id.pkg, d.id.name, []) := by
    intro d i hd
    obtain ⟨c, hc, rfl, hvis⟩ := h.own d i hd
    obtain ⟨e, he, hk, _⟩ := inv.call c hc
    refine ⟨e, he, ?_⟩
    rw [hk]
    unfold Templates.Call.key Templates.instanceKey
    rw [hvis]
  have hmemd : ∀ p ∈ ps, ∀ d i, .instantiate d i ∈ p.2 → (d, i) ∈ sourceDecls ps := by
    intro p hp d i hd
    simp only [sourceDecls, List.mem_flatMap]
    exact ⟨p, hp, _, hd, by simp⟩
  refine ⟨?_, ?_, ?_⟩
  · intro p hp k nm insts hn i hi
    simp only [tree, List.mem_map] at hp
    obtain ⟨q, hq, rfl⟩ := hp
    simp only [List.mem_map] at hn
    obtain ⟨x, hx, hn⟩ := hn
    rcases x with ⟨k', nm'⟩ | ⟨k', id⟩ | ⟨d, j⟩
    · cases hn
    · simp only [Source.node, Node.template.injEq] at hn
      obtain ⟨_, _, rfl⟩ := hn
      simp only [List.mem_map] at hi
      obtain ⟨j, hj, rfl⟩ := hi
      obtain ⟨e, he, hid⟩ := mem_instancesOf.1 hj
      rw [instOf_eq he]
      simp only
      rw [hid]
      exact h.templatePkg q hq k' id hx
    · cases hn
  · intro p hp nm i hn
    simp only [tree, List.mem_map] at hp
    obtain ⟨q, hq, rfl⟩ := hp
    simp only [List.mem_map] at hn
    obtain ⟨x, hx, hn⟩ := hn
    rcases x with ⟨k', nm'⟩ | ⟨k', id⟩ | ⟨d, j⟩
    · cases hn
    · cases hn
    · simp only [Source.node, Node.instantiateType.injEq] at hn
      obtain ⟨_, rfl⟩ := hn
      obtain ⟨e, he, hk⟩ := hown d j (hmemd q hq d j hx)
      rw [instOf_eq he]
      simp only [Templates.Entry.key, Prod.mk.injEq] at hk
      simp only
      rw [hk.1]
      exact h.declPkg q hq d j hx
  · have hr : requested (tree kindOf res ps) = ((sourceDecls ps).map fun x => x.2).map (instOf kindOf res) := by
      unfold requested sourceDecls
      rw [sources_flat kindOf res ps Node.requested]
      simp only [List.map_flatMap]
      congr 1
      funext p
      congr 1
      funext x
      rcases x with ⟨k', nm'⟩ | ⟨k', id⟩ | ⟨d, j⟩ <;> rfl
    have ha : allInsts (tree kindOf res ps) = ((sourceTemplates ps).flatMap (instancesOf res)).map (instOf kindOf res) := by
      unfold allInsts sourceTemplates
      rw [sources_flat kindOf res ps Node.insts]
      simp only [List.flatMap_assoc, List.map_flatMap]
      congr 1
      funext p
      congr 1
      funext x
      rcases x with ⟨k', nm'⟩ | ⟨k', id⟩ | ⟨d, j⟩ <;> simp [Source.node, Node.insts]
    rw [hr, ha, List.filter_map (f := instOf kindOf res), List.filter_map (f := instOf kindOf res)]
    refine List.Perm.map _ ?_
    have hinj : ∀ x ∈ sourceDecls ps, ∀ y ∈ sourceDecls ps, x.2 = y.2 → x = y := by
      rintro ⟨d, i⟩ hx ⟨d', i'⟩ hy hxy
      simp only at hxy
      subst hxy
      obtain ⟨e, he, hk⟩ := hown d i hx
      obtain ⟨e', he', hk'⟩ := hown d' i hy
      rw [he] at he'
      cases he'
      rw [hk] at hk'
      simp only [Prod.mk.injEq, and_true] at hk'
      refine List.inj_on_of_nodup_map h.decls hx hy ?_
      simp only
      rcases hid : d.id with ⟨a, b⟩
      rcases hid' : d'.id with ⟨a', b'⟩
      rw [hid, hid'] at hk'
      simp only at hk'
      rw [hk'.1, hk'.2]
    have hnd1 : ((sourceDecls ps).map fun x => x.2).Nodup := (List.Nodup.of_map _ h.decls).map_on hinj
    have hnd2 : ((sourceTemplates ps).flatMap (instancesOf res)).Nodup := by
      rw [List.nodup_flatMap]
      refine ⟨fun t _ => List.Nodup.filter _ List.nodup_range, ?_⟩
      refine h.templates.imp ?_
      intro t t' hne
      rw [Function.onFun, List.disjoint_left]
      intro i hi hi'
      obtain ⟨e, he, h1⟩ := mem_instancesOf.1 hi
      obtain ⟨e', he', h2⟩ := mem_instancesOf.1 hi'
      rw [he] at he'
      cases he'
      exact hne (h1.symm.trans h2)
    rw [List.perm_ext_iff_of_nodup (hnd1.filter _) (hnd2.filter _)]
    intro i
    simp only [List.mem_filter, Function.comp, decide_eq_true_eq]
    refine and_congr_left fun hmv => ?_
    constructor
    · intro hi
      simp only [List.mem_map] at hi
      obtain ⟨⟨d, j⟩, hd, rfl⟩ := hi
      obtain ⟨e, he, _⟩ := hown d j hd
      rw [List.mem_flatMap]
      exact ⟨e.template, h.closed e (List.mem_of_getElem? he), mem_instancesOf.2 ⟨e, he, rfl⟩⟩
    · intro hi
      rw [List.mem_flatMap] at hi
      obtain ⟨t, _, hi⟩ := hi
      obtain ⟨e, he, _⟩ := mem_instancesOf.1 hi
      rw [instOf_eq he] at hmv
      simp only [Inst.Moved] at hmv
      obtain ⟨c, hc, hci, hct, _, hck⟩ := inv.entry i e he
      unfold Templates.Call.key Templates.instanceKey at hck
      rcases hvis : Templates.visible c.vis c.template c.args with _ | d
      · rw [hvis] at hck
        simp only [Templates.Entry.key, Prod.mk.injEq] at hck
        exact absurd (by rw [← hck.1, hct]) hmv
      · rw [hvis] at hck
        simp only at hck
        obtain ⟨j, hj⟩ := h.visible c hc d (Templates.visible_some hvis).1
        obtain ⟨e', he', hk'⟩ := hown d j hj
        have := inv.unique i j e e' he he' (by rw [← hck, hk'])
        subst this
        exact List.mem_map.2 ⟨(d, i), hj, rfl⟩

/-! ### Concrete cases -/

namespace Demo
open Templates (TypeRef TemplateDef Result templator)

def p : PackageName := [py! "p"]
def q : PackageName := [py! "q"]
def inner : TypeId := ⟨p, py! "Inner"⟩
def outer : TypeId := ⟨p, py! "Outer"⟩
def uint8 : TypeRef := .builtin (py! "uint8")
def uint16 : TypeRef := .builtin (py! "uint16")
def templates : List TemplateDef := [⟨inner, 1, [.param 0]⟩, ⟨outer, 1, [.param 0]⟩]
def locals (pkg : PackageName) : List PyStr := if pkg = p then [py! "Inner", py! "Outer"] else [py! "InnerU8", py! "OuterX"]
def kindOf (_ : TypeId) : Kind := .structure

/-- `instantiate p.Inner<uint8> InnerU8;` in the package `q` -/
def innerU8 : InstantiateDecl := ⟨⟨q, py! "InnerU8"⟩, inner, [uint8]⟩
/-- `instantiate p.Outer<p.Inner<uint8>> OuterX;` in the package `q` -/
def outerX : InstantiateDecl := ⟨⟨q, py! "OuterX"⟩, outer, [.template inner [uint8]]⟩

/-- the templator for a schema whose file is `q.zs`, which imports `p` -/
def run (refs : List (List InstantiateDecl × TypeRef)) : Result := (templator templates locals 5 refs).toOption.getD ⟨[], {}, []⟩

/-- the packages in the order in which they are walked: the package of the file is the first one -/
def packages (decls : List Source) : List (PackageName × List Source) :=
  [(q, decls ++ [.symbol .service (py! "S")]), (p, [.template .structure inner, .template .structure outer, .symbol .const (py! "MAX")])]

/-- `InnerU8`, and a field of the type `p.Inner<uint16>` -/
def good : Result := run [([innerU8], .template inner [uint8]), ([innerU8], .template inner [uint16])]
/-- `InnerU8` and `OuterX` -/
def bad : Result := run [([innerU8, outerX], .template inner [uint8]), ([innerU8, outerX], .template outer [.template inner [uint8]])]
end Demo
open Demo

example : tree kindOf good (packages [.instantiate innerU8 0]) = [
    ⟨q, [.instantiateType (py! "InnerU8") ⟨.structure, q, p, py! "InnerU8"⟩, .symbol .service (py! "S")]⟩,
    ⟨p, [.template .structure (py! "Inner") [⟨.structure, q, p, py! "InnerU8"⟩, ⟨.structure, p, p, py! "Inner_uint16"⟩],
      .template .structure (py! "Outer") [], .symbol .const (py! "MAX")]⟩] := by decide +kernel

example : Located (tree kindOf good (packages [.instantiate innerU8 0])) := by
  refine C117_located_partial kindOf templates locals 5 [([innerU8], .template inner [uint8]), ([innerU8], .template inner [uint16])] good rfl _
    ⟨?_, ?_, ?_, ?_, ?_, ?_, ?_⟩
  · intro r hr k id hid
    simp only [packages, List.mem_cons, List.not_mem_nil, or_false] at hr
    rcases hr with rfl | rfl
    · simp at hid
    · simp only [List.mem_cons, List.not_mem_nil, or_false, Source.template.injEq, reduceCtorEq] at hid
      rcases hid with ⟨_, rfl⟩ | ⟨_, rfl⟩ <;> rfl
  · intro r hr d i hid
    simp only [packages, List.mem_cons, List.not_mem_nil, or_false] at hr
    rcases hr with rfl | rfl
    · simp at hid
      rw [hid.1]
      rfl
    · simp at hid
  · decide +kernel
  · decide +kernel
  · intro e he
    have : good.state.entries.map (·.template) = [inner, inner] := by decide +kernel
    have hm : e.template ∈ good.state.entries.map (·.template) := List.mem_map_of_mem he
    rw [this] at hm
    have hs : sourceTemplates (packages [.instantiate innerU8 0]) = [inner, outer] := by decide +kernel
    rw [hs]
    simp at hm
    simp [hm]
  · intro c hc d hd
    have : good.state.calls.map (·.vis) = [[innerU8], [innerU8]] := by rfl
    have hm : c.vis ∈ good.state.calls.map (·.vis) := List.mem_map_of_mem hc
    rw [this] at hm
    simp only [List.mem_cons, List.not_mem_nil, or_false, or_self] at hm
    rw [hm] at hd
    simp only [List.mem_singleton] at hd
    subst hd
    exact ⟨0, by simp [sourceDecls, packages]⟩
  · intro d i hd
    have : sourceDecls (packages [.instantiate innerU8 0]) = [(innerU8, 0)] := by rfl
    rw [this] at hd
    simp only [List.mem_singleton, Prod.mk.injEq] at hd
    obtain ⟨rfl, rfl⟩ := hd
    exact ⟨⟨[innerU8], inner, [uint8], 0⟩, by simp [show good.state.calls = [⟨[innerU8], inner, [uint16], 1⟩, ⟨[innerU8], inner, [uint8], 0⟩] by rfl],
      rfl, by rfl⟩

example : (files {} (tree kindOf good (packages [.instantiate innerU8 0]))).map (fun f => (f.dir, f.root)) =
    [(p, py! "max"), (q, py! "inner_u8"), (p, py! "inner_uint16"), (q, py! "s")] := by decide +kernel
example : checkModules (tree kindOf good (packages [.instantiate innerU8 0])) = .ok () ∧
    ((tree kindOf good (packages [.instantiate innerU8 0])).map (·.name)).Nodup := by decide +kernel
/-- what counts are the names of the modules: some_type and sometype, but some_type twice -/
example : checkModules [⟨p, [.symbol .structure (py! "SomeType"), .symbol .service (py! "Sometype")]⟩] = .ok () ∧
    checkModules [⟨p, [.symbol .structure (py! "SomeType"), .symbol .service (py! "Some_Type")]⟩] = .error .moduleClash := by decide +kernel
example : (files { withServiceCode := false } (tree kindOf good (packages [.instantiate innerU8 0]))).map (fun f => (f.dir, f.root)) =
    [(p, py! "max"), (q, py! "inner_u8"), (p, py! "inner_uint16")] := by decide +kernel

/-- The request `instantiate p.Outer<p.Inner<uint8>> OuterX` is not respected if `Inner<uint8>` is itself instantiated by `instantiate` in
another package than its template: the class gets the default name in the package of the template, where it is walked a second time, nothing
is generated for `OuterX`, and the generator fails as the package of the template has not been walked before. -/
theorem C117_nested_deviates :
    Templates.templator templates locals 5
      [([innerU8, outerX], .template inner [uint8]), ([innerU8, outerX], .template outer [.template inner [uint8]])] = .ok bad ∧
    requested (tree kindOf bad (packages [.instantiate innerU8 0, .instantiate outerX 1])) =
      [⟨.structure, q, p, py! "InnerU8"⟩, ⟨.structure, p, p, py! "Outer_Inner_uint8"⟩] ∧
    ((walk true (tree kindOf bad (packages [.instantiate innerU8 0, .instantiate outerX 1]))).count ⟨.structure, p, py! "Outer_Inner_uint8"⟩ = 2) ∧
    (∀ f ∈ files {} (tree kindOf bad (packages [.instantiate innerU8 0, .instantiate outerX 1])), f.symbol.name ≠ py! "OuterX") ∧
    apiWalk {} [] (tree kindOf bad (packages [.instantiate innerU8 0, .instantiate outerX 1])) = none := by
  exact ⟨rfl, by decide +kernel, by decide +kernel, by decide +kernel, by decide +kernel⟩

end Zserio.Emitters
