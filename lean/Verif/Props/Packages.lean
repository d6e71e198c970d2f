import Verif.Spec.Packages
import Verif.Lemmas.Packages
/-
C69: the modules generated for the packages of a schema can be imported, and `api` reaches all of them.
-/
set_option linter.unusedSimpArgs false
namespace Zserio.Names

/-- what the checks and the emitters establish -/
structure Facts (ps : List PackageDecl) (t : PyTree FileContent) (m : PackageMapping) : Prop where
  tree : t = ps.flatMap emitSymbols
    ++ (initPackages [] ps).map (fun d => { dir := d, root := py! "__init__", content := .init })
    ++ m.map (fun e => { dir := e.1, root := py! "api", content := .api (e.2.subpackages ++ e.2.packageSymbols) })
  inv : MappingInv (∃ p ∈ ps, p.name = []) (ps.map (·.name)) (emittedSymbols ps) m
  reserved : ∀ p ∈ ps, ∀ id ∈ p.name ++ p.declared.map (·.name), (py! "zserio").isPrefixOf (toLower id) = false
  lower : ∀ p ∈ ps, ∀ id ∈ p.name, id = toLower id
  upper : ∀ p ∈ ps, ∀ s ∈ p.declared, startsUpper s.name = true
  keywords : ∀ p ∈ ps, ∀ id ∈ p.name ++ p.declared.map (·.name), id ∉ extensionKeywords
  typing : ∀ p ∈ ps, p.name.head? ≠ some (py! "typing")
  modules : ∀ p ∈ ps, (p.walked.map (·.moduleName)).Nodup
  packages : ∀ p ∈ ps, ∀ s ∈ p.walked, ∀ q ∈ ps, ¬ (p.name ++ [s.moduleName]) <+: q.name
  apiSymbols : ∀ p ∈ ps, ∀ s ∈ p.symbols, clashesWithApi s = false
  apiPackages : ∀ d ∈ m.map (·.1), ∀ q ∈ ps, ¬ (d ++ [py! "api"]) <+: q.name

theorem generate_facts {ps : List PackageDecl} {t : PyTree FileContent} (h : generate ps = .ok t) : ∃ m, Facts ps t m := by
  unfold generate at h
  rw [bind_ok] at h
  obtain ⟨hc, h⟩ := h
  cases hm : apiMapping [] ps with
  | error e => rw [hm] at h; simp [bind, Except.bind] at h
  | ok m =>
    rw [hm] at h
    simp only [bind, Except.bind, pure, Except.pure, Except.ok.injEq] at h
    unfold checkSchema at hc
    simp only [bind_ok, checkPackages_ok] at hc
    obtain ⟨c1, c2, c3, c4, c5, c6, c7⟩ := hc
    have hinv := apiMapping_inv (qs := []) (ps := ps) (m := []) (m' := m)
      ⟨by simp, by simp, by simp, by simp⟩ hm
    obtain ⟨i1, i2⟩ := hinv
    simp only [List.nil_append] at i1
    have ha := checkApi_true c7
    refine ⟨m, h.symm, i1, ?_, ?_, ?_, ?_, ?_, ?_, ?_, fun p hp => (ha p hp).2.2, ?_⟩
    · intro p hp
      exact checkEach_ok.1 (c1 p hp)
    · intro p hp id hid
      have := c2 p hp
      unfold Package.check at this
      rw [bind_ok, checkEach_ok] at this
      simpa using this.1 id hid
    · intro p hp s hs
      have := c2 p hp
      unfold Package.check at this
      rw [bind_ok, bind_ok, checkEach_ok, checkEach_ok] at this
      simpa using this.2.1 s hs
    · intro p hp id hid
      simpa using checkEach_ok.1 (c3 p hp) id hid
    · intro p hp hd
      have := c4 p hp
      unfold checkTopLevel at this
      split at this
      · rename_i hn; rw [hn] at hd; simp at hd
      · rename_i x r hn
        rw [hn] at hd
        simp at hd
        rw [if_pos hd] at this
        cases this
    · intro p hp
      exact (checkUnique_ok.1 (c5 p hp)).1
    · intro p hp s hs q hq hpre
      unfold checkPackageWithModule at c6
      simp only [checkEach_ok] at c6
      have := c6 p hp
      rw [List.any_eq_false] at this
      apply this s hs
      rw [decide_eq_true_eq, List.mem_flatMap]
      exact ⟨q, hq, mem_childPackages_prefix hpre⟩
    · intro d hd q hq hpre
      obtain ⟨r, hr⟩ := hpre
      rw [i1.keys] at hd
      rcases hd with ⟨rfl, p, hp, hpn⟩ | ⟨hd, -⟩
      · obtain ⟨a, b, rfl⟩ := List.append_of_mem hp
        have := (i2 a b p rfl hpn).2
        subst this
        exact checkApi_default c7 (by simp [hpn]) q hq (by rw [← hr]; simp)
      · apply (ha q hq).1
        rw [← hr]
        cases d with
        | nil => exact absurd rfl hd
        | cons x d => simp

theorem head_lowerSnake {c : Nat} {r : PyStr} : ∃ r', lowerSnake (c :: r) = lowerCaseOf c :: r' := by
  exact ⟨_, by simp only [lowerSnake, separated, List.map_cons]; rfl⟩

theorem head_upperSnake {c : Nat} {r : PyStr} : ∃ r', upperSnake (c :: r) = upperCaseOf c :: r' := by
  exact ⟨_, by simp only [upperSnake, separated, List.map_cons]; rfl⟩

/-- all symbols start with an upper case letter, those whose names are made by the compiler too -/
theorem Facts.starts {ps : List PackageDecl} {t : PyTree FileContent} {m : PackageMapping} (f : Facts ps t m) (hw : FrontEnd ps)
    {p : PackageDecl} (hp : p ∈ ps) {s : SymbolDecl} (hs : s ∈ p.symbols) : ∃ c r, s.name = c :: r ∧ UpperCase c := by
  by_cases hk : s.kind = .instance
  · obtain ⟨x, hx, hxk, r, rest, hr, hrt, hn⟩ := hw.instances p hp s hs hk
    have := f.upper p hp x (by simp [PackageDecl.declared, hx, hxk])
    cases r with
    | nil => exact absurd rfl hr
    | cons c r =>
      obtain ⟨z, hz⟩ := hrt
      rw [← hz] at this
      exact ⟨c, _, hn, isUpper_iff.1 (by simpa [startsUpper] using this)⟩
  · have := f.upper p hp s (by simp [PackageDecl.declared, hs, hk])
    cases hn : s.name with
    | nil => rw [hn] at this; simp [startsUpper] at this
    | cons c r => rw [hn] at this; exact ⟨c, r, rfl, isUpper_iff.1 (by simpa [startsUpper] using this)⟩

theorem Facts.pythonName_starts {ps : List PackageDecl} {t : PyTree FileContent} {m : PackageMapping} (f : Facts ps t m)
    (hw : FrontEnd ps) {p : PackageDecl} (hp : p ∈ ps) {s : SymbolDecl} (hs : s ∈ p.symbols) :
    ∃ c r, s.pythonName = c :: r ∧ UpperCase c := by
  obtain ⟨c, r, hn, hu⟩ := f.starts hw hp hs
  unfold SymbolDecl.pythonName
  split
  · rw [hn, constantToSymbol, toUpperSnakeCase_eq]
    obtain ⟨r', hr'⟩ := head_upperSnake (c := c) (r := r)
    refine ⟨_, r', hr', ?_⟩
    rw [upperCaseOf_id (by unfold UpperCase at hu; unfold LowerCase; omega)]
    exact hu
  · exact ⟨c, r, hn, hu⟩

theorem Facts.module_ne_init {ps : List PackageDecl} {t : PyTree FileContent} {m : PackageMapping} (f : Facts ps t m)
    (hw : FrontEnd ps) {p : PackageDecl} (hp : p ∈ ps) {s : SymbolDecl} (hs : s ∈ p.symbols) :
    s.moduleName ≠ py! "__init__" := by
  obtain ⟨c, r, hn, hu⟩ := f.starts hw hp hs
  rw [moduleName_eq, hn]
  obtain ⟨r', hr'⟩ := head_lowerSnake (c := c) (r := r)
  rw [hr']
  intro h
  have h1 := (List.cons.inj h).1
  unfold lowerCaseOf at h1
  rw [if_pos hu] at h1
  unfold UpperCase at hu
  omega

theorem mem_lowerSnake_underscore {s : PyStr} (h : ch! '_' ∈ s) : ch! '_' ∈ lowerSnake s := by
  have key : ∀ (s : PyStr) (p : Option Nat), ch! '_' ∈ s → ch! '_' ∈ (separated p s).map lowerCaseOf := by
    intro s
    induction s with
    | nil => intro p h; cases h
    | cons c r ih =>
      intro p h
      have hu : lowerCaseOf (ch! '_') = ch! '_' := by decide
      cases p with
      | none =>
        simp only [separated, List.map_cons, List.mem_cons] at h ⊢
        rcases h with h | h
        · exact Or.inl (by rw [← h]; exact hu.symm)
        · exact Or.inr (ih _ h)
      | some p =>
        simp only [separated]
        split
        · simp only [List.map_cons, List.mem_cons]; exact Or.inl hu.symm
        · simp only [List.map_cons, List.mem_cons] at h ⊢
          rcases h with h | h
          · exact Or.inl (by rw [← h]; exact hu.symm)
          · exact Or.inr (ih _ h)
  exact key s none h

theorem Facts.module_ne_api {ps : List PackageDecl} {t : PyTree FileContent} {m : PackageMapping} (f : Facts ps t m)
    (hw : FrontEnd ps) {p : PackageDecl} (hp : p ∈ ps) {s : SymbolDecl} (hs : s ∈ p.walked) :
    s.moduleName ≠ py! "api" := by
  have hsym : s ∈ p.symbols := List.mem_of_mem_filter hs
  have hk : s.kind ≠ .template := by simpa [PackageDecl.walked, hsym] using hs
  intro h
  by_cases hi : s.kind = .instance
  · obtain ⟨x, _, _, r, rest, _, _, hn⟩ := hw.instances p hp s hsym hi
    rw [moduleName_eq] at h
    have : ch! '_' ∈ lowerSnake s.name := mem_lowerSnake_underscore (by rw [hn]; simp)
    rw [h] at this
    revert this
    decide
  · have hc := f.apiSymbols p hp s hsym
    have hkind : s.kind = .const ∨ s.kind = .type := by
      cases hk' : s.kind <;> simp [hk'] at hk hi ⊢
    -- the module has no underscore, so the name differs from it by case only
    have hl : toLower s.pythonName = py! "api" := by
      unfold SymbolDecl.moduleName symbolToModule at h
      rw [toLowerSnakeCase_eq] at h
      have key : ∀ (z : PyStr) (p : Option Nat), ((separated p z).map lowerCaseOf).filter (· ≠ ch! '_') =
          (z.map lowerCaseOf).filter (· ≠ ch! '_') := by
        intro z
        induction z with
        | nil => intro p; cases p <;> rfl
        | cons c r ih =>
          intro p
          have hu : lowerCaseOf (ch! '_') = ch! '_' := by decide
          cases p with
          | none => simp only [separated, List.map_cons, List.filter_cons, ih]
          | some p => simp only [separated]; split <;> simp only [List.map_cons, List.filter_cons, ih, hu] <;> simp
      have h1 := key s.pythonName none
      have h2 : (separated none s.pythonName).map lowerCaseOf = py! "api" := h
      rw [h2] at h1
      have h3 : ch! '_' ∉ s.pythonName := by
        intro hm
        have := mem_lowerSnake_underscore hm
        rw [h] at this
        revert this
        decide
      have h4 : (s.pythonName.map lowerCaseOf).filter (· ≠ ch! '_') = s.pythonName.map lowerCaseOf := by
        rw [List.filter_eq_self]
        intro c hc
        rw [List.mem_map] at hc
        obtain ⟨x, hx, rfl⟩ := hc
        simp only [ne_eq, decide_not, Bool.not_eq_eq_eq_not, Bool.not_true, decide_eq_false_iff_not]
        intro he
        have hx' : x = ch! '_' := by
          unfold lowerCaseOf at he
          split at he
          · rename_i hux; unfold UpperCase at hux; omega
          · exact he
        exact h3 (hx' ▸ hx)
      rw [h4] at h1
      unfold toLower
      rw [lowerChar_eq, ← h1]
      decide
    unfold clashesWithApi at hc
    have : toLower (s.pythonName ++ py! ".py") = toLower (py! "api" ++ py! ".py") := by
      unfold toLower at hl ⊢
      rw [List.map_append, hl]
      decide
    simp [hkind, this] at hc

theorem mem_emitSymbols {p : PackageDecl} {f : PyFile FileContent} :
    f ∈ emitSymbols p ↔ ∃ s ∈ p.walked, s.emitted = true ∧
      f = { dir := p.name, root := s.moduleName, content := .symbol p.name s } := by
  simp only [emitSymbols, List.mem_map, List.mem_filter]
  constructor
  · rintro ⟨s, ⟨h1, h2⟩, rfl⟩; exact ⟨s, h1, h2, rfl⟩
  · rintro ⟨s, h1, h2, rfl⟩; exact ⟨s, ⟨h1, h2⟩, rfl⟩

/-- the files: modules of symbols, `__init__` and `api` -/
theorem Facts.mem_tree {ps : List PackageDecl} {t : PyTree FileContent} {m : PackageMapping} (f : Facts ps t m)
    {x : PyFile FileContent} : x ∈ t ↔
      (∃ p ∈ ps, ∃ s ∈ p.walked, s.emitted = true ∧ x = { dir := p.name, root := s.moduleName, content := .symbol p.name s }) ∨
      (∃ d ∈ initPackages [] ps, x = { dir := d, root := py! "__init__", content := .init }) ∨
      (∃ e ∈ m, x = { dir := e.1, root := py! "api", content := .api (e.2.subpackages ++ e.2.packageSymbols) }) := by
  rw [f.tree]
  simp only [List.mem_append, List.mem_flatMap, List.mem_map, mem_emitSymbols, or_assoc]
  constructor
  · rintro (h | ⟨d, h, rfl⟩ | ⟨e, h, rfl⟩)
    · exact Or.inl h
    · exact Or.inr (Or.inl ⟨d, h, rfl⟩)
    · exact Or.inr (Or.inr ⟨e, h, rfl⟩)
  · rintro (h | ⟨d, h, rfl⟩ | ⟨e, h, rfl⟩)
    · exact Or.inl h
    · exact Or.inr (Or.inl ⟨d, h, rfl⟩)
    · exact Or.inr (Or.inr ⟨e, h, rfl⟩)

theorem walked_symbols {p : PackageDecl} {s : SymbolDecl} (h : s ∈ p.walked) : s ∈ p.symbols := List.mem_of_mem_filter h

theorem Facts.functional {ps : List PackageDecl} {t : PyTree FileContent} {m : PackageMapping} (f : Facts ps t m)
    (hw : FrontEnd ps) : ∀ x ∈ t, ∀ y ∈ t, x.dir = y.dir → x.root = y.root → x = y := by
  intro x hx y hy hd hr
  rw [f.mem_tree] at hx hy
  rcases hx with ⟨p, hp, s, hs, _, rfl⟩ | ⟨d, hd', rfl⟩ | ⟨e, he, rfl⟩ <;>
    rcases hy with ⟨q, hq, u, hu, _, rfl⟩ | ⟨d2, hd2, rfl⟩ | ⟨e2, he2, rfl⟩
  · simp only at hd hr
    have hpq : p = q := List.inj_on_of_nodup_map hw.names hp hq hd
    subst hpq
    have hsu : s = u := List.inj_on_of_nodup_map (f.modules p hp) hs hu hr
    rw [hsu]
  · exact absurd hr (f.module_ne_init hw hp (walked_symbols hs))
  · exact absurd hr (f.module_ne_api hw hp hs)
  · exact absurd hr.symm (f.module_ne_init hw hq (walked_symbols hu))
  · simp only at hd; rw [hd]
  · exact absurd hr (by simp)
  · exact absurd hr.symm (f.module_ne_api hw hq hu)
  · exact absurd hr (by simp)
  · simp only at hd
    have : e = e2 := List.inj_on_of_nodup_map f.inv.nodup he he2 hd
    rw [this]

/-- a package can be imported, and what is looked for in it is looked for in its directory -/
theorem Facts.import_package {ps : List PackageDecl} {t : PyTree FileContent} {m : PackageMapping} (f : Facts ps t m)
    (hw : FrontEnd ps) {d : List PyStr} {p : PackageDecl} (hp : p ∈ ps) (hd : d <+: p.name) (rest : List PyStr) :
    t.importModule (d ++ rest) = t.importFrom d rest := by
  unfold PyTree.importModule
  rw [importFrom_append]
  · simp
  · intro a b hab ha
    have hm : ({ dir := a, root := py! "__init__", content := .init } : PyFile FileContent) ∈ t := by
      rw [f.mem_tree]
      refine Or.inr (Or.inl ⟨a, ?_, rfl⟩)
      rw [mem_initPackages]
      exact Or.inr (Or.inr ⟨ha, p, hp, (List.prefix_append a b).trans (hab ▸ hd)⟩)
    have := read_of_mem (f.functional hw) hm
    simp only at this
    rw [List.nil_append, this]
    rfl

/-- a file which is no package is found -/
theorem Facts.import_file {ps : List PackageDecl} {t : PyTree FileContent} {m : PackageMapping} (f : Facts ps t m)
    (hw : FrontEnd ps) {x : PyFile FileContent} (hx : x ∈ t)
    (hn : ∀ q ∈ ps, ¬ (x.dir ++ [x.root]) <+: q.name) : t.importFrom x.dir [x.root] = some x.content := by
  have h1 : t.read (x.dir ++ [x.root]) (py! "__init__") = none := by
    apply read_none
    rintro y hy ⟨hd, hr⟩
    rw [f.mem_tree] at hy
    rcases hy with ⟨p, hp, s, hs, _, rfl⟩ | ⟨d, hd', rfl⟩ | ⟨e, he, rfl⟩
    · exact f.module_ne_init hw hp (walked_symbols hs) hr
    · simp only at hd
      rw [hd, mem_initPackages] at hd'
      rcases hd' with h | ⟨h, _⟩ | ⟨_, q, hq, h⟩
      · cases h
      · simp at h
      · exact hn q hq h
    · exact absurd hr (by simp)
  have h2 := read_of_mem (f.functional hw) hx
  simp only [PyTree.importFrom, PyTree.find]
  rw [h1, h2]
  simp [h2]

/-- **C69**: if the generator accepts the packages of a schema, the import of `<package>.<name in snake case>` executes the
module generated for the symbol: no other module, package, `__init__` or `api` is in its place. -/
theorem C69_modules (ps : List PackageDecl) (hw : FrontEnd ps) (t : PyTree FileContent) (h : generate ps = .ok t) :
    ∀ p ∈ ps, ∀ s ∈ p.symbols, s.Generated → t.importModule (p.name ++ [lowerSnake s.name]) = some (.symbol p.name s) := by
  obtain ⟨m, f⟩ := generate_facts h
  rintro p hp s hs ⟨hk, he⟩
  have hsw : s ∈ p.walked := by simp [PackageDecl.walked, hs, hk]
  rw [f.import_package hw hp (List.prefix_refl _), ← moduleName_eq]
  exact f.import_file hw (x := { dir := p.name, root := s.moduleName, content := .symbol p.name s })
    (f.mem_tree.2 (Or.inl ⟨p, hp, s, hsw, he, rfl⟩)) (fun q hq => f.packages p hp s hsw q hq)

theorem inPython_eq (s : SymbolDecl) : s.inPython = s.pythonName := by
  unfold SymbolDecl.inPython SymbolDecl.pythonName constantToSymbol
  rw [toUpperSnakeCase_eq]

theorem mem_emittedSymbols {ps : List PackageDecl} {d : List PyStr} {s : SymbolDecl} :
    (d, s) ∈ emittedSymbols ps ↔ ∃ p ∈ ps, p.name = d ∧ s ∈ p.symbols ∧ s.Generated := by
  simp only [emittedSymbols, List.mem_flatMap, List.mem_map, List.mem_filter, PackageDecl.walked, Prod.mk.injEq,
    SymbolDecl.Generated, decide_eq_true_eq]
  constructor
  · rintro ⟨p, hp, s', ⟨⟨h1, h2⟩, h3⟩, h4, rfl⟩
    exact ⟨p, hp, h4, h1, by simpa using h2, h3⟩
  · rintro ⟨p, hp, h1, h2, h3, h4⟩
    exact ⟨p, hp, s, ⟨⟨h2, by simpa using h3⟩, h4⟩, h1, rfl⟩

/-- **C69**: each package of the schema, and each package around one, has a module `api` which can be imported. In it the name
of each package inside means the `api` of that package, the name of each symbol of the package means what the module of that
symbol defines under that name, and there are no other names. So everything generated is reached from the top. -/
theorem C69_api (ps : List PackageDecl) (hw : FrontEnd ps) (t : PyTree FileContent) (h : generate ps = .ok t)
    (d : List PyStr) (hd : (d = [] ∧ ∃ p ∈ ps, p.name = []) ∨ (d ≠ [] ∧ ∃ p ∈ ps, d <+: p.name)) :
    ∃ stmts, t.importModule (d ++ [py! "api"]) = some (.api stmts) ∧
      (∀ q ∈ ps, ∀ id, d ++ [id] <+: q.name → meaning stmts id = some (.aModule (d ++ [id] ++ [py! "api"]))) ∧
      (∀ p ∈ ps, p.name = d → ∀ s ∈ p.symbols, s.Generated →
        meaning stmts s.inPython = some (.definition (d ++ [lowerSnake s.name]) s.inPython)) ∧
      ∀ n x, meaning stmts n = some x →
        (∃ q ∈ ps, d ++ [n] <+: q.name) ∨ ∃ p ∈ ps, p.name = d ∧ ∃ s ∈ p.symbols, s.Generated ∧ n = s.inPython := by
  obtain ⟨m, f⟩ := generate_facts h
  have hk : d ∈ m.map (·.1) := by
    rw [f.inv.keys]
    rcases hd with h | ⟨h, p, hp, h'⟩
    · exact Or.inl h
    · exact Or.inr ⟨h, p.name, List.mem_map_of_mem hp, h'⟩
  have hpre : ∃ p ∈ ps, d <+: p.name := by
    rcases hd with ⟨rfl, p, hp, _⟩ | ⟨_, p, hp, h'⟩
    · exact ⟨p, hp, List.nil_prefix⟩
    · exact ⟨p, hp, h'⟩
  obtain ⟨p, hp, hpre⟩ := hpre
  obtain ⟨e, he, rfl⟩ := List.mem_map.1 hk
  have hsub : ∀ s ∈ e.2.subpackages, ∃ i, s = .importAs (e.1 ++ [i] ++ [py! "api"]) i ∧ ∃ q ∈ ps, e.1 ++ [i] <+: q.name := by
    intro s hs
    obtain ⟨i, h1, n, hn, h2⟩ := (f.inv.subs e he s).1 hs
    obtain ⟨q, hq, rfl⟩ := List.mem_map.1 hn
    exact ⟨i, h1, q, hq, h2⟩
  have hsym : ∀ s ∈ e.2.packageSymbols, ∃ x, s = .fromImport (e.1 ++ [x.moduleName]) x.pythonName ∧
      ∃ q ∈ ps, q.name = e.1 ∧ x ∈ q.symbols ∧ x.Generated := by
    intro s hs
    obtain ⟨x, h1, h2⟩ := (f.inv.syms e he s).1 hs
    exact ⟨x, h2, mem_emittedSymbols.1 h1⟩
  have hlow : ∀ q ∈ ps, ∀ i, e.1 ++ [i] <+: q.name → ∀ c ∈ i, ¬ UpperCase c := by
    intro q hq i hi c hc hu
    have : i = toLower i := f.lower q hq i (hi.subset (by simp))
    rw [this, toLower, List.mem_map] at hc
    obtain ⟨x, _, rfl⟩ := hc
    rw [lowerChar_eq] at hu
    exact lowerCaseOf_not_upper x hu
  have mixed : ∀ s ∈ e.2.subpackages, ∀ u ∈ e.2.packageSymbols, s.name ≠ u.name := by
    intro s hs u hu hn
    obtain ⟨i, rfl, q, hq, hi⟩ := hsub s hs
    obtain ⟨x, rfl, q', hq', _, hx, _⟩ := hsym u hu
    obtain ⟨c, r, hc, huc⟩ := f.pythonName_starts hw hq' hx
    simp only [ImportStmt.name] at hn
    exact hlow q hq i hi c (by rw [hn, hc]; simp) huc
  have func : ∀ s ∈ e.2.subpackages ++ e.2.packageSymbols, ∀ u ∈ e.2.subpackages ++ e.2.packageSymbols,
      s.name = u.name → s = u := by
    intro s hs u hu hn
    rcases List.mem_append.1 hs with hs | hs <;> rcases List.mem_append.1 hu with hu | hu
    · obtain ⟨i, rfl, _⟩ := hsub s hs
      obtain ⟨j, rfl, _⟩ := hsub u hu
      simp only [ImportStmt.name] at hn
      rw [hn]
    · exact absurd hn (mixed s hs u hu)
    · exact absurd hn.symm (mixed u hu s hs)
    · obtain ⟨x, rfl, q, hq, hq', hx, hxg⟩ := hsym s hs
      obtain ⟨y, rfl, q2, hq2, hq2', hy, hyg⟩ := hsym u hu
      simp only [ImportStmt.name] at hn
      rw [pythonName_module hn, hn]
  refine ⟨e.2.subpackages ++ e.2.packageSymbols, ?_, ?_, ?_, ?_⟩
  · rw [f.import_package hw hp hpre]
    exact f.import_file hw
      (x := { dir := e.1, root := py! "api", content := .api (e.2.subpackages ++ e.2.packageSymbols) })
      (f.mem_tree.2 (Or.inr (Or.inr ⟨e, he, rfl⟩))) (fun q hq => f.apiPackages e.1 hk q hq)
  · intro q hq id hid
    have hm : ImportStmt.importAs (e.1 ++ [id] ++ [py! "api"]) id ∈ e.2.subpackages :=
      (f.inv.subs e he _).2 ⟨id, rfl, q.name, List.mem_map_of_mem hq, hid⟩
    exact meaning_mem func (List.mem_append_left _ hm)
  · intro q hq hqn s hs hg
    have hm : ImportStmt.fromImport (e.1 ++ [s.moduleName]) s.pythonName ∈ e.2.packageSymbols :=
      (f.inv.syms e he _).2 ⟨s, mem_emittedSymbols.2 ⟨q, hq, hqn, hs, hg⟩, rfl⟩
    rw [inPython_eq, ← moduleName_eq]
    exact meaning_mem func (List.mem_append_right _ hm)
  · intro n x hx
    obtain ⟨s, hs, rfl, rfl⟩ := meaning_some hx
    rcases List.mem_append.1 hs with hs | hs
    · obtain ⟨i, rfl, q, hq, hi⟩ := hsub s hs
      exact Or.inl ⟨q, hq, hi⟩
    · obtain ⟨y, rfl, q, hq, hqn, hy, hyg⟩ := hsym s hs
      exact Or.inr ⟨q, hq, hqn, y, hy, hyg, (inPython_eq y).symm⟩

theorem newInits_nodup : ∀ {l built : List PyStr} {processed : List (List PyStr)}, processed.Nodup →
    (newInits processed built l).Nodup
  | [], _, _, h => h
  | x :: l, built, processed, h => by
    simp only [newInits]
    apply newInits_nodup
    split
    · exact h
    · rename_i hn
      rw [List.nodup_append]
      exact ⟨h, by simp, fun a ha b hb hab => hn (by simp at hb; rw [← hb, ← hab]; exact ha)⟩

theorem initPackages_nodup : ∀ {ps : List PackageDecl} {processed : List (List PyStr)}, processed.Nodup →
    (ps.map (·.name)).Nodup → ([] ∈ processed → ∀ p ∈ ps, p.name ≠ []) → (initPackages processed ps).Nodup
  | [], _, h, _, _ => h
  | p :: ps, processed, h, hn, hd => by
    rw [List.map_cons, List.nodup_cons] at hn
    rw [initPackages]
    by_cases hp : p.name = []
    · rw [if_pos hp]
      refine initPackages_nodup ?_ hn.2 ?_
      · rw [List.nodup_append]
        refine ⟨h, by simp, fun a ha b hb hab => ?_⟩
        simp at hb
        subst hb
        subst hab
        exact hd ha p (by simp) hp
      · intro _ q hq hqn
        exact hn.1 (by rw [hp, ← hqn]; exact List.mem_map_of_mem hq)
    · rw [if_neg hp]
      refine initPackages_nodup (newInits_nodup h) hn.2 ?_
      intro hm q hq
      rw [mem_newInits (processed := [])] at hm
      rcases hm with hm | ⟨a, b, _, ha, hab⟩
      · exact hd hm q (by simp [hq])
      · simp at hab; exact absurd hab ha

/-- **C69**: no file is written twice: all generated files have different names. -/
theorem C69_files (ps : List PackageDecl) (hw : FrontEnd ps) (t : PyTree FileContent) (h : generate ps = .ok t) :
    (t.map fun f => (f.dir, f.root)).Nodup := by
  obtain ⟨m, f⟩ := generate_facts h
  have hnd : t.Nodup := by
    rw [f.tree, List.nodup_append, List.nodup_append]
    refine ⟨⟨?_, ?_, ?_⟩, ?_, ?_⟩
    · rw [List.nodup_flatMap]
      constructor
      · intro p hp
        unfold emitSymbols
        apply List.Nodup.map_on
        · intro x hx y hy hxy
          simp only [PyFile.mk.injEq, FileContent.symbol.injEq] at hxy
          exact hxy.2.2.2
        · exact ((f.modules p hp).of_map).filter _
      · have := hw.names
        unfold List.Nodup at this
        rw [List.pairwise_map] at this
        refine this.imp ?_
        intro p q hpq x hx hy
        obtain ⟨s, _, _, rfl⟩ := mem_emitSymbols.1 hx
        obtain ⟨u, _, _, hu⟩ := mem_emitSymbols.1 hy
        simp only [PyFile.mk.injEq] at hu
        exact hpq hu.1
    · apply List.Nodup.map
      · intro a b hab
        simpa using hab
      · exact initPackages_nodup (by simp) hw.names (by simp)
    · intro x hx y hy hxy
      subst hxy
      rw [List.mem_flatMap] at hx
      obtain ⟨p, hp, hx⟩ := hx
      obtain ⟨s, hs, _, rfl⟩ := mem_emitSymbols.1 hx
      rw [List.mem_map] at hy
      obtain ⟨d, _, hy⟩ := hy
      simp at hy
    · apply List.Nodup.map_on
      · intro a ha b hb hab
        simp only [PyFile.mk.injEq] at hab
        exact List.inj_on_of_nodup_map f.inv.nodup ha hb hab.1
      · exact f.inv.nodup.of_map
    · intro x hx y hy hxy
      subst hxy
      rw [List.mem_map] at hy
      obtain ⟨e, _, rfl⟩ := hy
      rw [List.mem_append, List.mem_flatMap, List.mem_map] at hx
      rcases hx with ⟨p, hp, hx⟩ | ⟨d, _, hx⟩
      · obtain ⟨s, hs, _, hx⟩ := mem_emitSymbols.1 hx
        simp at hx
      · simp at hx
  apply List.Nodup.map_on _ hnd
  intro x hx y hy hxy
  simp only [Prod.mk.injEq] at hxy
  exact f.functional hw x hx y hy hxy.1 hxy.2

/-- no identifier with an upper case letter at the beginning and an underscore is a keyword -/
theorem keyword_shape : ∀ k ∈ pythonKeywords, (∀ c, k.head? = some c → UpperCase c → k ∈ extensionKeywords ∧ ch! '_' ∉ k ∧
    ∃ x ∈ k, LowerCase x) ∧ (k ∈ extensionKeywords) := by
  have h : ∀ k ∈ pythonKeywords, ((k.head?.map fun c => decide (UpperCase c)) = some true →
      ch! '_' ∉ k ∧ ∃ x ∈ k, LowerCase x) ∧ k ∈ extensionKeywords := by decide +kernel
  intro k hk
  refine ⟨fun c hc hu => ?_, (h k hk).2⟩
  exact ⟨(h k hk).2, (h k hk).1 (by rw [hc]; simp [hu])⟩

/-- **C69** (partial): all names in the import statements are Python names (identifiers which are no keywords): those of
packages, of modules and of symbols. Missing, because it is not checked (`C69_keyword`): the name of a symbol must not be a
keyword in snake case. -/
theorem C69_names_partial (ps : List PackageDecl) (hw : FrontEnd ps) (t : PyTree FileContent) (h : generate ps = .ok t)
    (hk : ∀ p ∈ ps, ∀ s ∈ p.symbols, s.Generated → lowerSnake s.name ∉ pythonKeywords) :
    (∀ p ∈ ps, ∀ id ∈ p.name, IsPythonName id) ∧
    (∀ p ∈ ps, ∀ s ∈ p.symbols, s.Generated → IsPythonName (lowerSnake s.name) ∧ IsPythonName s.inPython) ∧
    ∀ f ∈ t, ∀ stmts, f.content = .api stmts → ∀ s ∈ stmts, IsPythonName s.name ∧ ∀ x ∈ s.path, IsPythonName x := by
  obtain ⟨m, f⟩ := generate_facts h
  have h1 : ∀ p ∈ ps, ∀ id ∈ p.name, IsPythonName id := by
    intro p hp id hid
    exact ⟨hw.ids p hp id hid, fun hm => f.keywords p hp id (by simp [hid]) (keyword_shape id hm).2⟩
  have h2 : ∀ p ∈ ps, ∀ s ∈ p.symbols, s.Generated → IsPythonName (lowerSnake s.name) ∧ IsPythonName s.inPython := by
    intro p hp s hs hg
    have hid := hw.symbols p hp s hs
    refine ⟨⟨identifier_lowerSnake hid, hk p hp s hs hg⟩, ?_, ?_⟩
    · unfold SymbolDecl.inPython
      split
      · exact identifier_upperSnake hid
      · exact hid
    · intro hm
      obtain ⟨c, r, hc, hu⟩ := f.pythonName_starts hw hp hs
      rw [← inPython_eq] at hc
      obtain ⟨k1, k2, x, hx, hxl⟩ := (keyword_shape _ hm).1 c (by rw [hc]; rfl) hu
      unfold SymbolDecl.inPython at hm k1 k2 hx
      split at hm
      · rename_i hc
        rw [if_pos hc] at hx
        exact upperSnake_no_lower _ x hx hxl
      · rename_i hc
        rw [if_neg hc] at k1 k2
        by_cases hi : s.kind = .instance
        · obtain ⟨y, _, _, r, rest, _, _, hn⟩ := hw.instances p hp s hs hi
          exact k2 (by rw [hn]; simp)
        · exact f.keywords p hp s.name (List.mem_append_right _ (List.mem_map_of_mem (by simp [PackageDecl.declared, hs, hi]))) k1
  refine ⟨h1, h2, ?_⟩
  intro x hx stmts hc s hs
  rw [f.mem_tree] at hx
  rcases hx with ⟨p, _, u, _, _, rfl⟩ | ⟨d, _, rfl⟩ | ⟨e, he, rfl⟩
  · cases hc
  · cases hc
  · simp only [FileContent.api.injEq] at hc
    subst hc
    have hapi : IsPythonName (py! "api") := by decide +kernel
    rcases List.mem_append.1 hs with hs | hs
    · obtain ⟨i, rfl, n, hn, hi⟩ := (f.inv.subs e he s).1 hs
      obtain ⟨q, hq, rfl⟩ := List.mem_map.1 hn
      refine ⟨h1 q hq i (hi.subset (by simp)), ?_⟩
      intro y hy
      simp only [ImportStmt.path] at hy
      rcases List.mem_append.1 hy with hy | hy
      · exact h1 q hq y (hi.subset hy)
      · simp at hy; rw [hy]; exact hapi
    · obtain ⟨y, h3, rfl⟩ := (f.inv.syms e he s).1 hs
      obtain ⟨q, hq, hqn, hy, hyg⟩ := mem_emittedSymbols.1 h3
      obtain ⟨h4, h5⟩ := h2 q hq y hy hyg
      refine ⟨by rw [inPython_eq] at h5; exact h5, ?_⟩
      intro z hz
      simp only [ImportStmt.path] at hz
      rcases List.mem_append.1 hz with hz | hz
      · exact h1 q hq z (by rw [hqn]; exact hz)
      · simp at hz; rw [hz, moduleName_eq]; exact h4

/-- **C69** (partial): if there is no default package, no generated module or package is found instead of `typing` or of the
runtime library, which the generated code imports. Missing, because it is not checked: a symbol of the default package may
be called `Typing` (`C69_typing`), and `enum` and `apsw`, which the code for SQL types imports, are not refused (`C69_apsw`). -/
theorem C69_top_level_partial (ps : List PackageDecl) (t : PyTree FileContent) (h : generate ps = .ok t)
    (hd : ∀ p ∈ ps, p.name ≠ []) (n : PyStr) (hn : n = py! "typing" ∨ (py! "zserio") <+: n) : (t.find [] n).isNone := by
  obtain ⟨m, f⟩ := generate_facts h
  have h1 : t.read ([] ++ [n]) (py! "__init__") = none := by
    apply read_none
    rintro y hy ⟨hyd, hr⟩
    have hpre : ∃ q ∈ ps, [n] <+: q.name := by
      rw [f.mem_tree] at hy
      rcases hy with ⟨p, hp, s, hs, _, rfl⟩ | ⟨d, hd', rfl⟩ | ⟨e, he, rfl⟩
      · simp only [List.nil_append] at hyd
        exact ⟨p, hp, by rw [hyd]; exact List.prefix_refl _⟩
      · simp only [List.nil_append] at hyd
        rw [hyd, mem_initPackages] at hd'
        rcases hd' with h | ⟨h, _⟩ | ⟨_, q, hq, h⟩
        · cases h
        · simp at h
        · exact ⟨q, hq, h⟩
      · exact absurd hr (by simp)
    obtain ⟨q, hq, b, hb⟩ := hpre
    rcases hn with rfl | hn
    · exact f.typing q hq (by rw [← hb]; rfl)
    · have := f.reserved q hq n (by rw [← hb]; simp)
      have hlow := f.lower q hq n (by rw [← hb]; simp)
      rw [← hlow] at this
      rw [← List.isPrefixOf_iff_prefix] at hn
      rw [hn] at this
      cases this
  have h2 : t.read [] n = none := by
    apply read_none
    rintro y hy ⟨hyd, hr⟩
    rw [f.mem_tree] at hy
    rcases hy with ⟨p, hp, s, hs, _, rfl⟩ | ⟨d, hd', rfl⟩ | ⟨e, he, rfl⟩
    · exact hd p hp hyd
    · simp only at hyd
      rw [hyd, mem_initPackages] at hd'
      rcases hd' with h | ⟨_, q, hq, h⟩ | ⟨h, _⟩
      · cases h
      · exact hd q hq h
      · exact h rfl
    · have := List.mem_map_of_mem (f := (·.1)) he
      simp only at hyd
      rw [hyd, f.inv.keys] at this
      rcases this with ⟨_, q, hq, h⟩ | ⟨h, _⟩
      · exact hd q hq h
      · exact h rfl
  unfold PyTree.find
  rw [h1, h2]
  rfl

namespace Demo

/-- packages `shop`, `shop.items` and `shop.items.detail`, with a constant, types, a template and its instantiations -/
def packages : List PackageDecl :=
  [{ name := [py! "shop", py! "items"], symbols := [{ name := py! "MAX_ITEMS", kind := .const }, { name := py! "ItemList" },
      { name := py! "Pair", kind := .template }, { name := py! "Pair_uint8_ItemList", kind := .instance }] },
   { name := [py! "shop", py! "items", py! "detail"], symbols := [{ name := py! "Color" }] }]

/-- the packages are accepted by the front end and by the generator, which generates nine files -/
example : FrontEnd packages := by
  refine ⟨by decide +kernel, by decide +kernel, by decide +kernel, ?_⟩
  intro p hp s hs hk
  simp only [packages, List.mem_cons, List.not_mem_nil, or_false] at hp
  rcases hp with rfl | rfl
  · simp only [List.mem_cons, List.not_mem_nil, or_false] at hs
    rcases hs with rfl | rfl | rfl | rfl
    · cases hk
    · cases hk
    · cases hk
    · exact ⟨{ name := py! "Pair", kind := .template }, by simp, rfl, py! "Pair", py! "uint8_ItemList", by simp, by simp,
        by decide +kernel⟩
  · simp only [List.mem_cons, List.not_mem_nil, or_false] at hs
    subst hs
    cases hk

/-- what the `api` of a package generated for the packages means by a name -/
def apiMeaning (ps : List PackageDecl) (d : List PyStr) (n : PyStr) : Option (Option Imported) :=
  match generate ps with
  | .error _ => none
  | .ok t =>
    match t.importModule (d ++ [py! "api"]) with
    | some (.api stmts) => some (meaning stmts n)
    | _ => none

/-- the symbols are reached by way of `shop.api` -/
example : apiMeaning packages [py! "shop"] (py! "items") = some (some (.aModule [py! "shop", py! "items", py! "api"])) ∧
    apiMeaning packages [py! "shop", py! "items"] (py! "Pair_uint8_ItemList") =
      some (some (.definition [py! "shop", py! "items", py! "pair_uint8_item_list"] (py! "Pair_uint8_ItemList"))) ∧
    apiMeaning packages [py! "shop", py! "items"] (py! "Pair") = some none := by decide +kernel

/-- what is found at the top of the generated files -/
def topLevel (ps : List PackageDecl) (n : PyStr) : Option Bool :=
  match generate ps with
  | .error _ => none
  | .ok t => some (t.find [] n).isSome

theorem topLevel_eq {ps : List PackageDecl} {n : PyStr} (h : topLevel ps n = some true) :
    ∃ t, generate ps = .ok t ∧ (t.find [] n).isSome := by
  unfold topLevel at h
  cases hg : generate ps with
  | error e => rw [hg] at h; cases h
  | ok t => rw [hg] at h; exact ⟨t, rfl, by simpa using h⟩

/-- `package a; struct Class { ... };` is accepted, but the module is `a.class`, which no import statement can name, not even
the one of `a.api`. -/
theorem C69_keyword :
    apiMeaning [{ name := [py! "a"], symbols := [{ name := py! "Class" }] }] [py! "a"] (py! "Class") =
      some (some (.definition [py! "a", py! "class"] (py! "Class"))) ∧ ¬ IsPythonName (py! "class") := by
  decide +kernel

/-- `struct Typing { ... };` in the default package is accepted; its module is found instead of `typing`, which it imports. -/
theorem C69_typing : ∃ t, generate [{ name := [], symbols := [{ name := py! "Typing" }] }] = .ok t ∧
    (t.find [] (py! "typing")).isSome :=
  topLevel_eq (by decide +kernel)

/-- The packages `apsw` and `enum` are accepted; the code generated for SQL tables imports modules with these names. -/
theorem C69_apsw : ∃ t, generate [{ name := [py! "apsw"], symbols := [{ name := py! "Table" }] },
      { name := [py! "enum"], symbols := [{ name := py! "Color" }] }] = .ok t ∧ (t.find [] (py! "apsw")).isSome :=
  topLevel_eq (by decide +kernel)

end Demo

end Zserio.Names
