import Verif.Model.Packages
import Verif.Lemmas.SnakeCase
import Mathlib.Data.List.Nodup
/-
The checks of packages and the files generated for them.
-/
set_option linter.unusedSimpArgs false
namespace Zserio.Names

/-! ### checkers -/

theorem checkEach_ok {α : Type} {e : PackageError} {bad : α → Bool} {l : List α} :
    checkEach e bad l = .ok () ↔ ∀ a ∈ l, bad a = false := by
  unfold checkEach
  split
  · rename_i h
    simp only [List.any_eq_true] at h
    obtain ⟨a, ha, hb⟩ := h
    constructor
    · intro h; cases h
    · intro h; rw [h a ha] at hb; cases hb
  · rename_i h
    simp only [List.any_eq_true, not_exists, not_and, Bool.not_eq_true] at h
    exact ⟨fun _ => h, fun _ => rfl⟩

theorem checkUnique_ok {e : PackageError} : ∀ {l seen : List PyStr},
    checkUnique e seen l = .ok () ↔ l.Nodup ∧ ∀ k ∈ l, k ∉ seen
  | [], seen => by simp [checkUnique]
  | k :: l, seen => by
    simp only [checkUnique]
    by_cases h : k ∈ seen
    · rw [if_pos h]; simp [h]
    · rw [if_neg h, checkUnique_ok]
      simp only [List.nodup_cons, List.mem_cons, not_or, forall_eq_or_imp]
      constructor
      · rintro ⟨h1, h2⟩
        exact ⟨⟨fun hk => (h2 k hk).1 rfl, h1⟩, h, fun t ht => (h2 t ht).2⟩
      · rintro ⟨⟨h1, h2⟩, _, h3⟩
        exact ⟨h2, fun t ht => ⟨fun he => h1 (he ▸ ht), h3 t ht⟩⟩

theorem bind_ok {ε α : Type} {a : Except ε Unit} {f : Unit → Except ε α} {r : α} :
    (a >>= f) = .ok r ↔ a = .ok () ∧ f () = .ok r := by
  cases a with
  | error e => simp [bind, Except.bind]
  | ok u => simp [bind, Except.bind]

theorem checkPackages_ok {f : PackageDecl → Except PackageError Unit} : ∀ {ps : List PackageDecl},
    checkPackages f ps = .ok () ↔ ∀ p ∈ ps, f p = .ok ()
  | [] => by simp [checkPackages]
  | p :: ps => by rw [checkPackages, bind_ok, checkPackages_ok]; simp

theorem mem_childPackages {d : List PyStr} {i : PyStr} : ∀ {l prev : List PyStr},
    (d, i) ∈ childPackages prev l ↔ ∃ a b, l = a ++ i :: b ∧ d = prev ++ a
  | [], prev => by simp [childPackages]
  | x :: l, prev => by
    simp only [childPackages, List.mem_cons, Prod.mk.injEq]
    rw [mem_childPackages (l := l)]
    constructor
    · rintro (⟨rfl, rfl⟩ | ⟨a, b, rfl, rfl⟩)
      · exact ⟨[], l, rfl, by simp⟩
      · exact ⟨x :: a, b, rfl, by simp⟩
    · rintro ⟨a, b, h1, h2⟩
      cases a with
      | nil => simp at h1 h2; exact Or.inl ⟨h2, h1.1.symm⟩
      | cons y a =>
        simp at h1 h2
        exact Or.inr ⟨a, b, h1.2, by rw [h2, h1.1]; simp⟩

theorem mem_childPackages_prefix {d n : List PyStr} {i : PyStr} (h : d ++ [i] <+: n) : (d, i) ∈ childPackages [] n := by
  obtain ⟨b, rfl⟩ := h
  exact mem_childPackages.2 ⟨d, b, by simp, by simp⟩

/-- the checks of `api`, after the flag is set -/
theorem checkApi_true : ∀ {ps : List PackageDecl} {top : Bool}, checkApi top ps = .ok () →
    ∀ p ∈ ps, (py! "api") ∉ p.name.drop 1 ∧ (top = true → (py! "api") ∉ p.name) ∧ ∀ s ∈ p.symbols, clashesWithApi s = false
  | [], top, _ => by simp
  | q :: ps, top, h => by
    rw [checkApi, bind_ok, bind_ok] at h
    obtain ⟨h1, h2, h3⟩ := h
    rw [checkEach_ok] at h1 h2
    have ih := checkApi_true h3
    intro p hp
    rcases List.mem_cons.1 hp with rfl | hp
    · refine ⟨fun hm => ?_, fun ht hm => ?_, h2⟩
      · have := h1 (py! "api") (by
          split
          · exact List.mem_of_mem_drop hm
          · exact hm)
        simp at this
      · rw [ht] at h1
        have := h1 (py! "api") (by simpa using hm)
        simp at this
    · obtain ⟨h4, h5, h6⟩ := ih p hp
      exact ⟨h4, fun ht => h5 (by rw [ht]; rfl), h6⟩

theorem checkApi_default {ps : List PackageDecl} {top : Bool} (h : checkApi top ps = .ok ())
    (hd : ps.head?.map (·.name) = some []) : ∀ p ∈ ps, (py! "api") ∉ p.name := by
  cases ps with
  | nil => simp
  | cons q ps =>
    simp at hd
    rw [checkApi, bind_ok, bind_ok] at h
    obtain ⟨_, _, h3⟩ := h
    intro p hp
    rcases List.mem_cons.1 hp with rfl | hp
    · simp [hd]
    · exact (checkApi_true h3 p hp).2.1 (by simp [hd])

/-! ### names of symbols -/

theorem moduleName_eq (s : SymbolDecl) : s.moduleName = lowerSnake s.name := by
  unfold SymbolDecl.moduleName SymbolDecl.pythonName symbolToModule constantToSymbol
  split
  · rw [toUpperSnakeCase_eq, toLowerSnakeCase_eq, lowerSnake_upperSnake]
  · rw [toLowerSnakeCase_eq]

/-- two symbols with the same name in Python have the same module -/
theorem pythonName_module {s t : SymbolDecl} (h : s.pythonName = t.pythonName) : s.moduleName = t.moduleName := by
  unfold SymbolDecl.moduleName
  rw [h]

/-! ### a tree of files -/

variable {α : Type}

theorem read_of_mem {t : PyTree α} (hf : ∀ f ∈ t, ∀ g ∈ t, f.dir = g.dir → f.root = g.root → f = g) {f : PyFile α}
    (h : f ∈ t) : t.read f.dir f.root = some f.content := by
  unfold PyTree.read
  cases hx : t.reverse.find? fun g => decide (g.dir = f.dir ∧ g.root = f.root) with
  | none =>
    rw [List.find?_eq_none] at hx
    have := hx f (by simpa using h)
    simp at this
  | some g =>
    have h1 := List.find?_some hx
    have h2 := List.mem_of_find?_eq_some hx
    simp at h1 h2
    rw [hf g h2 f h h1.1 h1.2]
    rfl

theorem read_none {t : PyTree α} {d : List PyStr} {n : PyStr} (h : ∀ f ∈ t, ¬ (f.dir = d ∧ f.root = n)) :
    t.read d n = none := by
  unfold PyTree.read
  have : t.reverse.find? (fun f => decide (f.dir = d ∧ f.root = n)) = none := by
    rw [List.find?_eq_none]
    intro f hf
    have := h f (by simpa using hf)
    simpa using this
  rw [this]
  rfl

/-- the import of a name in a package which has an `__init__` in it and in all packages around it -/
theorem importFrom_append {t : PyTree α} : ∀ {l d rest : List PyStr},
    (∀ a b, l = a ++ b → a ≠ [] → (t.read (d ++ a) (py! "__init__")).isSome) →
    t.importFrom d (l ++ rest) = t.importFrom (d ++ l) rest
  | [], d, rest, _ => by simp
  | x :: l, d, rest, h => by
    have hx := h [x] l rfl (by simp)
    have : t.find d x = some (.package (d ++ [x])) := by
      unfold PyTree.find
      rw [if_pos hx]
    simp only [List.cons_append, PyTree.importFrom, this]
    rw [importFrom_append (d := d ++ [x])]
    · simp
    · intro a b hab ha
      have := h (x :: a) b (by rw [hab]; rfl) (by simp)
      simpa using this

theorem meaning_mem {l : List ImportStmt} (hf : ∀ s ∈ l, ∀ t ∈ l, s.name = t.name → s = t) {s : ImportStmt} (h : s ∈ l) :
    meaning l s.name = some s.imported := by
  unfold meaning
  cases hx : l.reverse.find? fun t => decide (t.name = s.name) with
  | none =>
    rw [List.find?_eq_none] at hx
    have := hx s (by simpa using h)
    simp at this
  | some g =>
    have h1 := List.find?_some hx
    have h2 := List.mem_of_find?_eq_some hx
    simp at h1 h2
    rw [hf g h2 s h h1]
    rfl

theorem meaning_some {l : List ImportStmt} {n : PyStr} {x : Imported} (h : meaning l n = some x) :
    ∃ s ∈ l, s.name = n ∧ s.imported = x := by
  unfold meaning at h
  cases hx : l.reverse.find? fun t => decide (t.name = n) with
  | none => rw [hx] at h; cases h
  | some g =>
    rw [hx] at h
    have h1 := List.find?_some hx
    have h2 := List.mem_of_find?_eq_some hx
    simp at h1 h2 h
    exact ⟨g, h2, h1, h⟩

/-! ### `__init__` -/

theorem mem_newInits {d : List PyStr} : ∀ {l processed built : List (PyStr)} {processed : List (List PyStr)},
    d ∈ newInits processed built l ↔ d ∈ processed ∨ ∃ a b, l = a ++ b ∧ a ≠ [] ∧ d = built ++ a
  | [], _, built, processed => by
    simp only [newInits]
    constructor
    · exact Or.inl
    · rintro (h | ⟨a, b, h1, h2, -⟩)
      · exact h
      · simp at h1; exact absurd h1.1 h2
  | x :: l, _, built, processed => by
    simp only [newInits]
    rw [mem_newInits (l := l) (processed := built)]
    have h0 : d ∈ (if built ++ [x] ∈ processed then processed else processed ++ [built ++ [x]]) ↔
        d ∈ processed ∨ d = built ++ [x] := by
      split
      · rename_i h
        constructor
        · exact Or.inl
        · rintro (h' | rfl)
          · exact h'
          · exact h
      · simp
    rw [h0]
    constructor
    · rintro ((h | rfl) | ⟨a, b, rfl, ha, rfl⟩)
      · exact Or.inl h
      · exact Or.inr ⟨[x], l, rfl, by simp, rfl⟩
      · exact Or.inr ⟨x :: a, b, rfl, by simp, by simp⟩
    · rintro (h | ⟨a, b, h1, h2, rfl⟩)
      · exact Or.inl (Or.inl h)
      · cases a with
        | nil => exact absurd rfl h2
        | cons y a =>
          simp at h1
          obtain ⟨rfl, rfl⟩ := h1
          cases a with
          | nil => exact Or.inl (Or.inr rfl)
          | cons z a => exact Or.inr ⟨z :: a, b, rfl, by simp, by simp⟩

theorem mem_initPackages {d : List PyStr} : ∀ {ps : List PackageDecl} {processed : List (List PyStr)},
    d ∈ initPackages processed ps ↔ d ∈ processed ∨ (d = [] ∧ ∃ p ∈ ps, p.name = []) ∨ (d ≠ [] ∧ ∃ p ∈ ps, d <+: p.name)
  | [], processed => by simp [initPackages]
  | p :: ps, processed => by
    rw [initPackages, mem_initPackages]
    by_cases hp : p.name = []
    · rw [if_pos hp]
      simp only [List.mem_append, List.mem_singleton, List.mem_cons, List.not_mem_nil, or_false, exists_eq_or_imp, hp,
        List.prefix_nil, true_or, and_true]
      constructor
      · rintro ((h | h) | h | h)
        · exact Or.inl h
        · exact Or.inr (Or.inl h)
        · exact Or.inr (Or.inl h.1)
        · exact Or.inr (Or.inr ⟨h.1, Or.inr h.2⟩)
      · rintro (h | h | ⟨h, h' | h'⟩)
        · exact Or.inl (Or.inl h)
        · exact Or.inl (Or.inr h)
        · exact absurd h' h
        · exact Or.inr (Or.inr ⟨h, h'⟩)
    · rw [if_neg hp, mem_newInits (processed := [])]
      simp only [List.mem_cons, exists_eq_or_imp, hp, false_or, List.nil_append]
      have : (∃ a b, p.name = a ++ b ∧ a ≠ [] ∧ d = a) ↔ d ≠ [] ∧ d <+: p.name := by
        constructor
        · rintro ⟨a, b, h1, h2, rfl⟩
          exact ⟨h2, b, h1.symm⟩
        · rintro ⟨h1, b, hb⟩
          exact ⟨d, b, hb.symm, h1, rfl⟩
      rw [this, and_or_left]
      constructor
      · rintro ((h | h) | h | h)
        · exact Or.inl h
        · exact Or.inr (Or.inr (Or.inl h))
        · exact Or.inr (Or.inl h)
        · exact Or.inr (Or.inr (Or.inr h))
      · rintro (h | h | h | h)
        · exact Or.inl (Or.inl h)
        · exact Or.inr (Or.inl h)
        · exact Or.inl (Or.inr h)
        · exact Or.inr (Or.inr h)

/-! ### `api` -/

/-- what `packageMapping` contains after packages with these names and symbols -/
structure MappingInv (dflt : Prop) (names : List (List PyStr)) (syms : List (List PyStr × SymbolDecl)) (m : PackageMapping) :
    Prop where
  nodup : (m.map (·.1)).Nodup
  keys : ∀ d, d ∈ m.map (·.1) ↔ (d = [] ∧ dflt) ∨ (d ≠ [] ∧ ∃ n ∈ names, d <+: n)
  subs : ∀ e ∈ m, ∀ stmt, stmt ∈ e.2.subpackages ↔
    ∃ i, stmt = .importAs (e.1 ++ [i] ++ [py! "api"]) i ∧ ∃ n ∈ names, e.1 ++ [i] <+: n
  syms : ∀ e ∈ m, ∀ stmt, stmt ∈ e.2.packageSymbols ↔
    ∃ s, (e.1, s) ∈ syms ∧ stmt = .fromImport (e.1 ++ [s.moduleName]) s.pythonName

theorem contains_iff {m : PackageMapping} {d : List PyStr} : m.contains d = true ↔ d ∈ m.map (·.1) := by
  simp [PackageMapping.contains]

theorem keys_modify {m : PackageMapping} {q : List PyStr} {f : ApiData → ApiData} : (m.modify q f).map (·.1) = m.map (·.1) := by
  simp only [PackageMapping.modify, List.map_map]
  apply List.map_congr_left
  intro e _
  simp only [Function.comp]
  split <;> rfl

theorem mem_modify {m : PackageMapping} {q : List PyStr} {f : ApiData → ApiData} {e : List PyStr × ApiData}
    (h : e ∈ m.modify q f) : ∃ e' ∈ m, e.1 = e'.1 ∧ ((e'.1 = q ∧ e.2 = f e'.2) ∨ (e'.1 ≠ q ∧ e.2 = e'.2)) := by
  simp only [PackageMapping.modify, List.mem_map] at h
  obtain ⟨e', h1, h2⟩ := h
  refine ⟨e', h1, ?_⟩
  split at h2
  · rename_i hq; subst h2; exact ⟨rfl, Or.inl ⟨hq, rfl⟩⟩
  · rename_i hq; subst h2; exact ⟨rfl, Or.inr ⟨hq, rfl⟩⟩

theorem mem_addSubpackage {name : List PyStr} {d : ApiData} {stmt : ImportStmt} :
    stmt ∈ (d.addSubpackage name).subpackages ↔
      stmt ∈ d.subpackages ∨ stmt = .importAs (name ++ [py! "api"]) (name.getLast?.getD []) := by
  unfold ApiData.addSubpackage
  simp only
  split
  · rename_i h
    constructor
    · exact Or.inl
    · rintro (h' | rfl)
      · exact h'
      · exact h
  · simp

theorem addSubpackage_syms {name : List PyStr} {d : ApiData} : (d.addSubpackage name).packageSymbols = d.packageSymbols := by
  unfold ApiData.addSubpackage
  simp only
  split <;> rfl

theorem MappingInv.step {dflt : Prop} {names : List (List PyStr)} {syms : List (List PyStr × SymbolDecl)} {m : PackageMapping}
    {cur : List PyStr} {id : PyStr} (hs : ∀ x ∈ syms, x.1 ∈ names) (hm : MappingInv dflt (cur :: names) syms m) :
    MappingInv dflt ((cur ++ [id]) :: names) syms
      (let m' := if m.contains (cur ++ [id]) then m else m ++ [(cur ++ [id], ({} : ApiData))]
       match (if cur ∈ m.map (·.1) then some cur else none) with
       | some q => m'.modify q (ApiData.addSubpackage (cur ++ [id]))
       | none => m') := by
  -- the mapping with the new package, but not yet mentioned in the package around it
  have h1 : ∀ m', m' = (if m.contains (cur ++ [id]) then m else m ++ [(cur ++ [id], ({} : ApiData))]) →
      (m'.map (·.1)).Nodup ∧
      (∀ d, d ∈ m'.map (·.1) ↔ (d = [] ∧ dflt) ∨ (d ≠ [] ∧ ∃ n ∈ (cur ++ [id]) :: names, d <+: n)) ∧
      (∀ e ∈ m', ∀ stmt, stmt ∈ e.2.subpackages ↔
        ∃ i, stmt = .importAs (e.1 ++ [i] ++ [py! "api"]) i ∧ ∃ n ∈ cur :: names, e.1 ++ [i] <+: n) ∧
      (∀ e ∈ m', ∀ stmt, stmt ∈ e.2.packageSymbols ↔
        ∃ s, (e.1, s) ∈ syms ∧ stmt = .fromImport (e.1 ++ [s.moduleName]) s.pythonName) := by
    intro m' hm'
    have hkeys : ∀ d, ((d = [] ∧ dflt) ∨ (d ≠ [] ∧ ∃ n ∈ (cur ++ [id]) :: names, d <+: n)) ↔
        d ∈ m.map (·.1) ∨ d = cur ++ [id] := by
      intro d
      rw [hm.keys]
      simp only [List.mem_cons, exists_eq_or_imp, List.prefix_concat_iff]
      constructor
      · rintro (h | ⟨h, (h' | h') | h'⟩)
        · exact Or.inl (Or.inl h)
        · exact Or.inr h'
        · exact Or.inl (Or.inr ⟨h, Or.inl h'⟩)
        · exact Or.inl (Or.inr ⟨h, Or.inr h'⟩)
      · rintro ((h | ⟨h, h' | h'⟩) | rfl)
        · exact Or.inl h
        · exact Or.inr ⟨h, Or.inl (Or.inr h')⟩
        · exact Or.inr ⟨h, Or.inr h'⟩
        · exact Or.inr ⟨by simp, Or.inl (Or.inl rfl)⟩
    by_cases hc : m.contains (cur ++ [id]) = true
    · rw [if_pos hc] at hm'
      subst hm'
      rw [contains_iff] at hc
      refine ⟨hm.nodup, fun d => ?_, hm.subs, hm.syms⟩
      rw [hkeys]
      constructor
      · exact Or.inl
      · rintro (h | rfl)
        · exact h
        · exact hc
    · rw [if_neg hc] at hm'
      subst hm'
      rw [contains_iff] at hc
      have hnew : ∀ n ∈ cur :: names, ¬ (cur ++ [id]) <+: n := by
        intro n hn hp
        apply hc
        rw [hm.keys]
        exact Or.inr ⟨by simp, n, hn, hp⟩
      refine ⟨?_, fun d => ?_, ?_, ?_⟩
      · rw [List.map_append, List.nodup_append]
        refine ⟨hm.nodup, by simp, ?_⟩
        intro a ha b hb hab
        simp at hb
        subst hb
        exact hc (hab ▸ ha)
      · rw [hkeys]
        simp
      · intro e he stmt
        rcases List.mem_append.1 he with he | he
        · exact hm.subs e he stmt
        · simp at he
          subst he
          simp only [List.not_mem_nil, false_iff, not_exists, not_and]
          rintro i _ n hn hp
          exact hnew n hn ((List.prefix_append _ _).trans hp)
      · intro e he stmt
        rcases List.mem_append.1 he with he | he
        · exact hm.syms e he stmt
        · simp at he
          subst he
          simp only [List.not_mem_nil, false_iff, not_exists, not_and]
          rintro s hs' _
          exact hnew _ (List.mem_cons_of_mem _ (hs _ hs')) (List.prefix_refl _)
  obtain ⟨n1, k1, s1, y1⟩ := h1 _ rfl
  generalize (if m.contains (cur ++ [id]) then m else m ++ [(cur ++ [id], ({} : ApiData))] : PackageMapping) = m' at n1 k1 s1 y1
  simp only
  have hsub : ∀ (d : List PyStr) (i : PyStr), (∃ n ∈ (cur ++ [id]) :: names, d ++ [i] <+: n) ↔
      (∃ n ∈ cur :: names, d ++ [i] <+: n) ∨ (d = cur ∧ i = id) := by
    intro d i
    simp only [List.mem_cons, exists_eq_or_imp, List.prefix_concat_iff]
    have : d ++ [i] = cur ++ [id] ↔ d = cur ∧ i = id := by
      constructor
      · intro h
        have := List.append_inj' h rfl
        exact ⟨this.1, by simpa using this.2⟩
      · rintro ⟨rfl, rfl⟩; rfl
    rw [this]
    constructor
    · rintro ((h | h) | h)
      · exact Or.inr h
      · exact Or.inl (Or.inl h)
      · exact Or.inl (Or.inr h)
    · rintro ((h | h) | h)
      · exact Or.inl (Or.inr h)
      · exact Or.inr h
      · exact Or.inl (Or.inl h)
  by_cases hcur : cur ∈ m.map (·.1)
  · rw [if_pos hcur]
    refine ⟨by rw [keys_modify]; exact n1, by rw [keys_modify]; exact k1, ?_, ?_⟩
    · intro e he stmt
      obtain ⟨e', he', h1, h2⟩ := mem_modify he
      rw [h1]
      simp only [hsub]
      rcases h2 with ⟨h2, h3⟩ | ⟨h2, h3⟩
      · rw [h3, mem_addSubpackage, s1 e' he', h2]
        constructor
        · rintro (⟨i, h, h'⟩ | rfl)
          · exact ⟨i, h, Or.inl h'⟩
          · exact ⟨id, by simp, Or.inr ⟨rfl, rfl⟩⟩
        · rintro ⟨i, h, h' | ⟨_, rfl⟩⟩
          · exact Or.inl ⟨i, h, h'⟩
          · exact Or.inr (by simpa using h)
      · rw [h3, s1 e' he']
        constructor
        · rintro ⟨i, h, h'⟩
          exact ⟨i, h, Or.inl h'⟩
        · rintro ⟨i, h, h' | ⟨h', _⟩⟩
          · exact ⟨i, h, h'⟩
          · exact absurd h' h2
    · intro e he stmt
      obtain ⟨e', he', h1, h2⟩ := mem_modify he
      rw [h1]
      rcases h2 with ⟨h2, h3⟩ | ⟨h2, h3⟩
      · rw [h3, addSubpackage_syms, y1 e' he']
      · rw [h3, y1 e' he']
  · rw [if_neg hcur]
    refine ⟨n1, k1, ?_, y1⟩
    intro e he stmt
    rw [s1 e he]
    simp only [hsub]
    constructor
    · rintro ⟨i, h, h'⟩
      exact ⟨i, h, Or.inl h'⟩
    · rintro ⟨i, h, h' | ⟨h', _⟩⟩
      · exact ⟨i, h, h'⟩
      · exfalso
        have hk : e.1 ∈ m'.map (·.1) := List.mem_map_of_mem he
        rw [h', k1] at hk
        apply hcur
        rw [hm.keys]
        rcases hk with hk | ⟨hk, _⟩
        · exact Or.inl hk
        · exact Or.inr ⟨hk, cur, by simp, List.prefix_refl _⟩

theorem MappingInv.addPackage {dflt : Prop} {names : List (List PyStr)} {syms : List (List PyStr × SymbolDecl)}
    (hs : ∀ x ∈ syms, x.1 ∈ names) : ∀ {l cur : List PyStr} {m : PackageMapping}, MappingInv dflt (cur :: names) syms m →
    MappingInv dflt ((cur ++ l) :: names) syms (addPackageMapping m (if cur ∈ m.map (·.1) then some cur else none) cur l)
  | [], cur, m, hm => by simpa [addPackageMapping] using hm
  | id :: l, cur, m, hm => by
    have h := hm.step (id := id) hs
    have h2 := MappingInv.addPackage hs (l := l) h
    unfold addPackageMapping
    rw [if_pos ((h.keys _).2 (Or.inr ⟨by simp, _, List.mem_cons_self, List.prefix_refl _⟩))] at h2
    rw [List.append_assoc, List.singleton_append] at h2
    exact h2

theorem MappingInv.symbols {dflt : Prop} {names : List (List PyStr)} {q : List PyStr} :
    ∀ {l : List SymbolDecl} {syms : List (List PyStr × SymbolDecl)} {m : PackageMapping}, MappingInv dflt names syms m →
    MappingInv dflt names (syms ++ l.map (fun s => (q, s)))
      (l.foldl (fun m s => m.modify q (ApiData.addPythonSymbol q s)) m)
  | [], syms, m, hm => by simpa using hm
  | s :: l, syms, m, hm => by
    have h : MappingInv dflt names (syms ++ [(q, s)]) (m.modify q (ApiData.addPythonSymbol q s)) := by
      refine ⟨by rw [keys_modify]; exact hm.nodup, by rw [keys_modify]; exact hm.keys, ?_, ?_⟩
      · intro e he stmt
        obtain ⟨e', he', h1, h2⟩ := mem_modify he
        rw [h1]
        rcases h2 with ⟨h2, h3⟩ | ⟨h2, h3⟩
        · rw [h3]; exact hm.subs e' he' stmt
        · rw [h3]; exact hm.subs e' he' stmt
      · intro e he stmt
        obtain ⟨e', he', h1, h2⟩ := mem_modify he
        rw [h1]
        simp only [List.mem_append, List.mem_singleton, Prod.mk.injEq]
        rcases h2 with ⟨h2, h3⟩ | ⟨h2, h3⟩
        · rw [h3, ApiData.addPythonSymbol]
          simp only [List.mem_append, List.mem_singleton]
          rw [hm.syms e' he', h2]
          constructor
          · rintro (⟨t, h, h'⟩ | rfl)
            · exact ⟨t, Or.inl h, h'⟩
            · exact ⟨s, Or.inr ⟨rfl, rfl⟩, rfl⟩
          · rintro ⟨t, h | ⟨_, rfl⟩, h'⟩
            · exact Or.inl ⟨t, h, h'⟩
            · exact Or.inr h'
        · rw [h3, hm.syms e' he']
          constructor
          · rintro ⟨t, h, h'⟩
            exact ⟨t, Or.inl h, h'⟩
          · rintro ⟨t, h | ⟨h, _⟩, h'⟩
            · exact ⟨t, h, h'⟩
            · exact absurd h h2
    have := MappingInv.symbols (q := q) (l := l) h
    simpa using this

/-- the symbols of packages for which modules are generated -/
def emittedSymbols (ps : List PackageDecl) : List (List PyStr × SymbolDecl) :=
  ps.flatMap fun p => (p.walked.filter (·.emitted)).map fun s => (p.name, s)

theorem emittedSymbols_names {ps : List PackageDecl} : ∀ x ∈ emittedSymbols ps, x.1 ∈ ps.map (·.name) := by
  intro x hx
  simp only [emittedSymbols, List.mem_flatMap, List.mem_map] at hx
  obtain ⟨p, hp, s, _, rfl⟩ := hx
  exact List.mem_map_of_mem hp

theorem apiMapping_inv : ∀ {ps qs : List PackageDecl} {m m' : PackageMapping},
    MappingInv (∃ p ∈ qs, p.name = []) (qs.map (·.name)) (emittedSymbols qs) m → apiMapping m ps = .ok m' →
    MappingInv (∃ p ∈ qs ++ ps, p.name = []) ((qs ++ ps).map (·.name)) (emittedSymbols (qs ++ ps)) m' ∧
      ∀ a b p, ps = a ++ p :: b → p.name = [] → qs = [] ∧ a = []
  | [], qs, m, m', hm, h => by
    simp [apiMapping] at h
    subst h
    simpa using hm
  | p :: ps, qs, m, m', hm, h => by
    rw [apiMapping] at h
    have key : ∀ m1, beginPackage m p.name = .ok m1 →
        MappingInv (∃ p' ∈ qs ++ [p], p'.name = []) ((qs ++ [p]).map (·.name)) (emittedSymbols qs) m1 ∧
        (p.name = [] → qs = []) := by
      intro m1 h1
      unfold beginPackage at h1
      split at h1
      · rename_i hp
        split at h1
        · rename_i he
          cases h1
          have hq : qs = [] := by
            cases qs with
            | nil => rfl
            | cons q qs =>
              exfalso
              have : q.name ∈ m.map (·.1) := by
                rw [hm.keys]
                by_cases hq : q.name = []
                · exact Or.inl ⟨hq, q, by simp, hq⟩
                · exact Or.inr ⟨hq, q.name, by simp, List.prefix_refl _⟩
              rw [List.isEmpty_iff.1 he] at this
              simp at this
          subst hq
          refine ⟨⟨by simp, ?_, ?_, ?_⟩, fun _ => rfl⟩
          · intro d
            simp [hp]
          · intro e he' stmt
            simp at he'
            subst he'
            simp [hp]
          · intro e he' stmt
            simp at he'
            subst he'
            simp [emittedSymbols]
        · cases h1
      · rename_i hp
        cases h1
        refine ⟨?_, fun h => absurd h hp⟩
        have h0 : MappingInv (∃ p ∈ qs, p.name = []) ([] :: qs.map (·.name)) (emittedSymbols qs) m := by
          refine ⟨hm.nodup, fun d => ?_, fun e he stmt => ?_, hm.syms⟩
          · rw [hm.keys]
            simp only [List.mem_cons, exists_eq_or_imp, List.prefix_nil]
            constructor
            · rintro (h | ⟨h, h'⟩)
              · exact Or.inl h
              · exact Or.inr ⟨h, Or.inr h'⟩
            · rintro (h | ⟨h, h' | h'⟩)
              · exact Or.inl h
              · exact absurd h' h
              · exact Or.inr ⟨h, h'⟩
          · rw [hm.subs e he]
            simp
        have h1 := MappingInv.addPackage (emittedSymbols_names) (l := p.name) h0
        have hd : (if m.contains [] = true then some ([] : List PyStr) else none) =
            if [] ∈ m.map (·.1) then some [] else none := by
          by_cases hc : m.contains [] = true
          · rw [if_pos hc, if_pos (contains_iff.1 hc)]
          · rw [if_neg hc, if_neg (fun h => hc (contains_iff.2 h))]
        rw [hd]
        refine ⟨h1.nodup, fun d => ?_, fun e he stmt => ?_, h1.syms⟩
        · rw [h1.keys]
          simp only [List.nil_append, List.map_append, List.map_cons, List.map_nil, List.mem_append, List.mem_singleton,
            List.mem_cons, List.not_mem_nil, or_false]
          constructor
          · rintro (⟨h, x, hx, hx'⟩ | ⟨h, n, hn, hn'⟩)
            · exact Or.inl ⟨h, x, Or.inl hx, hx'⟩
            · exact Or.inr ⟨h, n, hn.symm, hn'⟩
          · rintro (⟨h, x, hx | rfl, hx'⟩ | ⟨h, n, hn, hn'⟩)
            · exact Or.inl ⟨h, x, hx, hx'⟩
            · exact absurd hx' hp
            · exact Or.inr ⟨h, n, hn.symm, hn'⟩
        · rw [h1.subs e he]
          simp only [List.nil_append, List.map_append, List.map_cons, List.map_nil, List.mem_append, List.mem_singleton,
            List.mem_cons, List.not_mem_nil, or_false]
          constructor
          · rintro ⟨i, h, n, hn, hn'⟩
            exact ⟨i, h, n, hn.symm, hn'⟩
          · rintro ⟨i, h, n, hn, hn'⟩
            exact ⟨i, h, n, hn.symm, hn'⟩
    cases h1 : beginPackage m p.name with
    | error e => rw [h1] at h; simp [bind, Except.bind] at h
    | ok m1 =>
      rw [h1] at h
      simp only [bind, Except.bind] at h
      obtain ⟨k1, k2⟩ := key m1 h1
      have h2 := MappingInv.symbols (q := p.name) (l := p.walked.filter (·.emitted)) k1
      have h3 : emittedSymbols (qs ++ [p]) =
          emittedSymbols qs ++ (p.walked.filter (·.emitted)).map (fun s => (p.name, s)) := by
        simp [emittedSymbols]
      rw [← h3] at h2
      obtain ⟨h4, h5⟩ := apiMapping_inv h2 h
      refine ⟨by simpa using h4, ?_⟩
      intro a b p' hab hp'
      cases a with
      | nil =>
        simp at hab
        rw [hab.1] at k2
        exact ⟨k2 hp', rfl⟩
      | cons x a =>
        simp at hab
        have := h5 a b p' hab.2 hp'
        simp at this

end Zserio.Names
