import Verif.Lemmas.Loading
/-
C110: the compiler reads exactly the files a schema consists of, each of them once.
-/
set_option linter.unusedSimpArgs false
namespace Zserio.Loading
open Zserio.Visibility (Name PackageName Import Package Root Imported)

theorem load_run {cfg : Config} {fs : Files} {ps : List Loaded} (h : load cfg fs = .ok ps) :
    Inv cfg fs ps ∧ (∀ f, f ∈ ps.map (·.file) ↔ Needed cfg fs f) ∧
      ∀ l ∈ ps, ∀ i ∈ l.package.imports, cfg.fileOf (target i) ∈ ps.map (·.file) := by
  obtain ⟨st, p, hp, hq, _⟩ := load_ok h
  have h1 := inv_parse (inv_nil cfg fs) (by simp) hp
  have r := run_parse _ _ _ _ h1 hq
  obtain ⟨src, hg, _, _, _, hpp, hst⟩ := parsePackage_ok.1 hp
  rw [List.nil_append] at hst
  obtain ⟨more, hk⟩ := r.kept
  have hin : cfg.inputFile ∈ ps.map (·.file) := by rw [hk, hst]; simp
  have hclosed : ∀ l ∈ ps, ∀ i ∈ l.package.imports, cfg.fileOf (target i) ∈ ps.map (·.file) := by
    intro l hl
    rcases r.closed l hl with hl | hl
    · rw [hst, List.mem_singleton] at hl
      subst hl
      exact r.all
    · exact hl
  refine ⟨r.inv, fun f => ⟨?_, ?_⟩, hclosed⟩
  · intro hf
    obtain ⟨l, hl, rfl⟩ := List.mem_map.1 hf
    rcases r.only (Needed cfg fs) (fun f src i => .imported f src i) (by
      intro i hi
      rw [hpp] at hi
      obtain ⟨j, hj, rfl⟩ := List.mem_map.1 hi
      rw [fileOf_full]
      exact .imported _ src j .input hg hj) l hl with hl | hl
    · rw [hst, List.mem_singleton] at hl
      subst hl
      exact .input
    · exact hl
  · intro hf
    induction hf with
    | input => exact hin
    | imported f src i _ hg' hi ih =>
      obtain ⟨l, hl, rfl⟩ := List.mem_map.1 ih
      obtain ⟨src', hg'', hl', _⟩ := r.inv.content l hl
      rw [hg'] at hg''
      have he := Option.some.inj hg''
      have := hclosed l hl (fullImport cfg.top i) (by
        rw [hl', ← he]
        exact List.mem_map.2 ⟨i, hi, rfl⟩)
      rwa [fileOf_full] at this

/-- The files which are read are the input and the files of all packages which are imported, directly or indirectly (also in cycles), and each is
read just once. -/
theorem C110_files (cfg : Config) (fs : Files) (ps : List Loaded) (h : load cfg fs = .ok ps) :
    (ps.map (·.file)).Nodup ∧ ∀ f, f ∈ ps.map (·.file) ↔ Needed cfg fs f :=
  ⟨(load_run h).1.files, (load_run h).2.1⟩

/-- Each file becomes one package, with the name, the symbols and the imports which are written in the file (below the package given on the command
line); it is stored where a package of this name must be stored.  No two packages have the same name. -/
theorem C110_packages (cfg : Config) (fs : Files) (ps : List Loaded) (h : load cfg fs = .ok ps) :
    (∀ l ∈ ps, ∃ src, fs.get l.file = some src ∧ l.package.name = cfg.top ++ src.package.getD [] ∧ l.package.locals = src.symbols ∧
      l.package.imports = src.imports.map (fullImport cfg.top) ∧ ∀ q, src.package = some q → l.file = cfg.place q) ∧
    (ps.map (·.package.name)).Nodup := by
  refine ⟨?_, (load_run h).1.names⟩
  intro l hl
  obtain ⟨src, hg, hp, hq⟩ := (load_run h).1.content l hl
  exact ⟨src, hg, by rw [hp]; rfl, by rw [hp]; rfl, by rw [hp]; rfl, fun q hs => (hq q hs).symm⟩

/-- A schema is loaded exactly if its input is a file of its package and all imports of all its files are right: the package is declared in its
file, and so is the symbol. -/
theorem C110_loads (cfg : Config) (fs : Files) (hgram : Grammatical fs) : (∃ ps, load cfg fs = .ok ps) ↔ Loadable cfg fs := by
  constructor
  · rintro ⟨ps, h⟩
    obtain ⟨st, p, hp, hq, hres⟩ := load_ok h
    obtain ⟨hinv, hfiles, hclosed⟩ := load_run h
    obtain ⟨src, hg, hqq, _, hpar, hpp, hst⟩ := parsePackage_ok.1 hp
    refine ⟨⟨src, hg, fun q hs => (hqq q hs).symm, ?_⟩, ?_⟩
    · intro hn ht hc
      apply hpar
      refine ⟨by rw [hn, ht]; rfl, ?_⟩
      unfold hasParent
      simpa using hc
    · intro f src' i hf hg' hi
      obtain ⟨l, hl, rfl⟩ := List.mem_map.1 ((hfiles f).2 hf)
      obtain ⟨src'', hg'', hl', _⟩ := hinv.content l hl
      rw [hg'] at hg''
      have he := Option.some.inj hg''
      have hil : fullImport cfg.top i ∈ l.package.imports := by
        rw [hl', ← he]
        exact List.mem_map.2 ⟨i, hi, rfl⟩
      have hr := hres l hl _ hil
      have hne := (hgram _ (get_mem hg')).2 i hi
      -- the package found under the name
      have key : ∀ d, Root.get (ps.map (·.package)) (cfg.top ++ target i) = some d →
          ∃ s, fs.get (cfg.place (target i)) = some s ∧ s.package = some (target i) ∧ d.locals = s.symbols := by
        intro d hd
        obtain ⟨m, hm, hmp, hmn⟩ := root_get_mem hd
        obtain ⟨s, hgs, hps, hqs⟩ := hinv.content m hm
        rw [← hmp, hps] at hmn
        have hmn' : s.package.getD [] = target i := List.append_cancel_left hmn
        cases hs : s.package with
        | none => rw [hs] at hmn'; exact absurd hmn'.symm hne
        | some q =>
          rw [hs] at hmn'
          have hq' : q = target i := hmn'
          refine ⟨s, ?_, by rw [hq'] at hs; exact hs, by rw [← hmp, hps]; rfl⟩
          rw [← hq', hqs q hs]
          exact hgs
      cases i with
      | all q =>
        simp only [fullImport, Import.resolve] at hr
        cases hget : Root.get (ps.map (·.package)) (cfg.top ++ q) with
        | none => rw [hget] at hr; simp at hr
        | some d =>
          obtain ⟨s, h1, h2, _⟩ := key d hget
          exact ⟨s, h1, h2, fun _ _ h => by simp at h⟩
      | single q n =>
        simp only [fullImport, Import.resolve] at hr
        cases hget : Root.get (ps.map (·.package)) (cfg.top ++ q) with
        | none => rw [hget] at hr; simp at hr
        | some d =>
          rw [hget] at hr
          obtain ⟨s, h1, h2, h3⟩ := key d hget
          refine ⟨s, h1, h2, ?_⟩
          intro q' n' he
          simp only [Import.single.injEq] at he
          rw [← he.2, ← h3]
          by_contra hn
          simp [hn] at hr
  · rintro ⟨⟨src, hg, hq, hd⟩, hall⟩
    have hp : parsePackage cfg fs [] cfg.inputFile = .ok ([⟨cfg.inputFile, packageOf cfg src⟩], packageOf cfg src) := by
      rw [parsePackage_ok]
      refine ⟨src, hg, fun q hs => (hq q hs).symm, by simp, ?_, rfl, rfl⟩
      rintro ⟨hn, hpar⟩
      obtain ⟨ht, hs⟩ := List.append_eq_nil_iff.1 hn
      cases hs' : src.package with
      | none =>
        refine hd hs' ht ?_
        unfold hasParent at hpar
        simpa using hpar
      | some q =>
        rw [hs'] at hs
        have : q = [] := hs
        exact (hgram _ (get_mem hg)).1 (by rw [hs', this])
    have h1 := inv_parse (inv_nil cfg fs) (by simp) hp
    obtain ⟨ps, hps⟩ := complete_parse hgram hall fs.length (packageOf cfg src).imports _ h1 (by simp) (by
      intro i hi
      obtain ⟨j, hj, rfl⟩ := List.mem_map.1 hi
      exact ⟨j, rfl, hall _ src j .input hg hj, .imported _ src j .input hg hj⟩)
    have r := run_parse _ _ _ _ h1 hps
    have hfound : resolveAll (ps.map (·.package)) = .ok () := by
      refine (each_ok _ _).2 ?_
      intro i hi
      obtain ⟨p', hp', hi'⟩ := List.mem_flatMap.1 hi
      obtain ⟨l, hl, rfl⟩ := List.mem_map.1 hp'
      obtain ⟨s, hgs, hps', _⟩ := r.inv.content l hl
      rw [hps'] at hi'
      obtain ⟨j, hj, rfl⟩ := List.mem_map.1 hi'
      have hneed : Needed cfg fs l.file := by
        rcases r.only (Needed cfg fs) (fun f src i => .imported f src i) (by
          intro i hi
          obtain ⟨j, hj, rfl⟩ := List.mem_map.1 hi
          rw [fileOf_full]
          exact .imported _ src j .input hg hj) l hl with hl | hl
        · rw [List.mem_singleton] at hl
          subst hl
          exact .input
        · exact hl
      have himp : cfg.fileOf (target (fullImport cfg.top j)) ∈ ps.map (·.file) := by
        rcases r.closed l hl with hl' | hl'
        · rw [List.mem_singleton] at hl'
          subst hl'
          exact r.all _ (List.mem_map.2 ⟨j, by
            rw [hg] at hgs
            rw [Option.some.inj hgs]
            exact hj, rfl⟩)
        · exact hl' _ (by rw [hps']; exact List.mem_map.2 ⟨j, hj, rfl⟩)
      rw [fileOf_full] at himp
      obtain ⟨m, hm, hmf⟩ := List.mem_map.1 himp
      obtain ⟨s', hgs', hms', _⟩ := r.inv.content m hm
      obtain ⟨t, hgt, hpt, hst⟩ := hall _ s j hneed hgs hj
      have hmf' : m.file = cfg.place (target j) := hmf
      rw [hmf', hgt] at hgs'
      have he := Option.some.inj hgs'
      have hname : m.package.name = cfg.top ++ target j := by
        rw [hms', ← he]
        show cfg.top ++ t.package.getD [] = _
        rw [hpt]
        rfl
      have hget := root_get r.inv.names hm
      rw [hname] at hget
      cases j with
      | all q =>
        simp only [target] at hget
        simp only [fullImport, Import.resolve, hget]
      | single q n =>
        simp only [target] at hget
        simp only [fullImport, Import.resolve, hget]
        rw [if_pos]
        rw [hms', ← he]
        exact hst q n rfl
    exact ⟨ps, by unfold load; rw [hp]; simp only; rw [hps]; simp only; rw [hfound]⟩

/-- What is imported is known after loading: the imported package is one of the packages, and the imported symbol is one of its symbols. -/
theorem C110_resolved (cfg : Config) (fs : Files) (ps : List Loaded) (h : load cfg fs = .ok ps) :
    ∀ l ∈ ps, ∀ i ∈ l.package.imports, ∃ m ∈ ps, m.package.name = target i ∧ ∀ q n, i = .single q n → n ∈ m.package.locals := by
  obtain ⟨_, _, _, _, hres⟩ := load_ok h
  intro l hl i hi
  have hr := hres l hl i hi
  cases i with
  | all q =>
    simp only [Import.resolve] at hr
    cases hget : Root.get (ps.map (·.package)) q with
    | none => rw [hget] at hr; simp at hr
    | some d =>
      obtain ⟨m, hm, hmp, hmn⟩ := root_get_mem hget
      exact ⟨m, hm, by rw [hmp]; exact hmn, fun _ _ h => by simp at h⟩
  | single q n =>
    simp only [Import.resolve] at hr
    cases hget : Root.get (ps.map (·.package)) q with
    | none => rw [hget] at hr; simp at hr
    | some d =>
      rw [hget] at hr
      obtain ⟨m, hm, hmp, hmn⟩ := root_get_mem hget
      refine ⟨m, hm, by rw [hmp]; exact hmn, ?_⟩
      intro q' n' he
      simp only [Import.single.injEq] at he
      rw [← he.2, hmp]
      by_contra hn
      simp [hn] at hr

/-- Loading ends for all files, whatever they import: the bound of the model is never reached. -/
theorem C110_bound (cfg : Config) (fs : Files) : load cfg fs ≠ .error .tooDeep := by
  unfold load
  cases hp : parsePackage cfg fs [] cfg.inputFile with
  | error e =>
    simp only [ne_eq, Except.error.injEq]
    rintro rfl
    unfold parsePackage at hp
    split at hp
    · simp at hp
    · simp only at hp
      repeat (split at hp <;> try simp at hp)
  | ok r =>
    obtain ⟨st, p⟩ := r
    have h1 := inv_parse (inv_nil cfg fs) (by simp) hp
    obtain ⟨src, _, _, _, _, _, hst⟩ := parsePackage_ok.1 hp
    simp only
    have hb := bound_parse fs.length p.imports st h1 (by rw [hst]; simp)
    cases hq : parseImported cfg fs fs.length st p.imports with
    | error e =>
      simp only [ne_eq, Except.error.injEq]
      rintro rfl
      exact hb hq
    | ok st2 =>
      simp only
      cases hr : resolveAll (st2.map (·.package)) with
      | error e =>
        simp only [ne_eq, Except.error.injEq]
        rintro rfl
        exact each_error _ _ hr
      | ok u => simp

/-- The same schema but for the order (and repetitions) of imports -/
def SameImports (fs gs : Files) : Prop :=
  ∀ f, match fs.get f, gs.get f with
    | none, none => True
    | some a, some b => a.package = b.package ∧ a.symbols = b.symbols ∧ ∀ i, i ∈ a.imports ↔ i ∈ b.imports
    | _, _ => False

theorem SameImports.symm {fs gs : Files} (h : SameImports fs gs) : SameImports gs fs := by
  intro f
  have := h f
  cases hf : fs.get f <;> cases hg : gs.get f <;> rw [hf, hg] at this <;> simp_all

theorem SameImports.some {fs gs : Files} (h : SameImports fs gs) {f : Path} {a : Source} (ha : fs.get f = .some a) :
    ∃ b, gs.get f = .some b ∧ a.package = b.package ∧ a.symbols = b.symbols ∧ ∀ i, i ∈ a.imports ↔ i ∈ b.imports := by
  have := h f
  rw [ha] at this
  cases hg : gs.get f with
  | none => rw [hg] at this; exact this.elim
  | some b => rw [hg] at this; exact ⟨b, rfl, this⟩

theorem needed_same {cfg : Config} {fs gs : Files} (h : SameImports fs gs) {f : Path} (hf : Needed cfg fs f) : Needed cfg gs f := by
  induction hf with
  | input => exact .input
  | imported f src i _ hg hi ih =>
    obtain ⟨b, hb, _, _, himp⟩ := h.some hg
    exact .imported f b i ih hb ((himp i).1 hi)

theorem loadable_same {cfg : Config} {fs gs : Files} (h : SameImports fs gs) (hl : Loadable cfg fs) : Loadable cfg gs := by
  obtain ⟨⟨src, hg, hq, hd⟩, hall⟩ := hl
  obtain ⟨b, hb, hp, _, _⟩ := h.some hg
  refine ⟨⟨b, hb, by rw [← hp]; exact hq, by rw [← hp]; exact hd⟩, ?_⟩
  intro f src' i hf hg' hi
  obtain ⟨a, ha, _, _, himp⟩ := h.symm.some hg'
  obtain ⟨s, hs, hsp, hsn⟩ := hall f a i (needed_same h.symm hf) ha ((himp i).1 hi)
  obtain ⟨t, ht, htp, hts, _⟩ := h.some hs
  exact ⟨t, ht, by rw [← htp]; exact hsp, by rw [← hts]; exact hsn⟩

/-- The order of the import declarations does not matter: whether a schema is loaded, and which files are read. -/
theorem C110_order (cfg : Config) (fs gs : Files) (h : SameImports fs gs) (hf : Grammatical fs) (hg : Grammatical gs) :
    ((∃ ps, load cfg fs = .ok ps) ↔ ∃ ps, load cfg gs = .ok ps) ∧
    ∀ ps qs, load cfg fs = .ok ps → load cfg gs = .ok qs → ∀ f, f ∈ ps.map (·.file) ↔ f ∈ qs.map (·.file) := by
  refine ⟨?_, ?_⟩
  · rw [C110_loads cfg fs hf, C110_loads cfg gs hg]
    exact ⟨loadable_same h, loadable_same h.symm⟩
  · intro ps qs hp hq f
    rw [(C110_files cfg fs ps hp).2, (C110_files cfg gs qs hq).2]
    exact ⟨needed_same h, needed_same h.symm⟩

/-! ### Names of files -/

theorem fromLastDot_append (base e : Path) (h : 46 ∉ e) : fromLastDot (base ++ 46 :: e) = some (46 :: e) := by
  have hn : fromLastDot e = none := by
    induction e with
    | nil => rfl
    | cons c e ih =>
      rw [List.mem_cons, not_or] at h
      simp only [fromLastDot, ih h.2]
      rw [if_neg (fun hc => h.1 hc.symm)]
  induction base with
  | nil => simp only [List.nil_append, fromLastDot, hn, if_true]
  | cons c base ih => simp only [List.cons_append, fromLastDot, ih]

/-- Imported files have the extension of the input: what follows its last dot. -/
theorem C110_extension (base e : Path) (hb : base ≠ []) (h : 46 ∉ e) : extension (base ++ 46 :: e) = 46 :: e := by
  unfold extension
  rw [fromLastDot_append base e h]
  simp only [List.length_append, List.length_cons]
  rw [if_pos]
  have := List.length_pos_of_ne_nil hb
  omega

example : extension (py! "a.b/map.zs") = py! ".zs" := by decide

theorem append_slash {a b x y : Path} (ha : 47 ∉ a) (hb : 47 ∉ b) (h : a ++ 47 :: x = b ++ 47 :: y) : a = b ∧ x = y := by
  induction a generalizing b with
  | nil =>
    cases b with
    | nil => simpa using h
    | cons d b =>
      simp only [List.nil_append, List.cons_append, List.cons.injEq] at h
      exact absurd (h.1 ▸ List.mem_cons_self) hb
  | cons c a ih =>
    cases b with
    | nil =>
      simp only [List.nil_append, List.cons_append, List.cons.injEq] at h
      exact absurd (h.1 ▸ List.mem_cons_self) ha
    | cons d b =>
      simp only [List.cons_append, List.cons.injEq] at h
      simp only [List.mem_cons, not_or] at ha hb
      have := ih ha.2 hb.2 h.2
      exact ⟨by rw [h.1, this.1], this.2⟩

theorem joinPath_cons (a b : Name) (l : List Name) : joinPath (a :: b :: l) = a ++ 47 :: joinPath (b :: l) := by
  show a ++ [47] ++ joinPath (b :: l) = _
  simp

theorem joinPath_inj : ∀ {q r : PackageName}, (∀ id ∈ q, id ≠ [] ∧ 47 ∉ id) → (∀ id ∈ r, id ≠ [] ∧ 47 ∉ id) → joinPath q = joinPath r → q = r
  | [], [], _, _, _ => rfl
  | [], [b], _, hr, h => absurd h.symm (hr b (by simp)).1
  | [], b :: c :: l, _, _, h => by rw [joinPath_cons] at h; simp [joinPath] at h
  | [a], [], hq, _, h => absurd h (hq a (by simp)).1
  | a :: c :: l, [], _, _, h => by rw [joinPath_cons] at h; simp [joinPath] at h
  | [a], [b], _, _, h => by
    have h' : a = b := h
    rw [h']
  | [a], b :: c :: l, hq, _, h => by
    rw [joinPath_cons] at h
    have h' : a = b ++ 47 :: joinPath (c :: l) := h
    exact absurd (by rw [h']; simp) (hq a (by simp)).2
  | a :: c :: l, [b], _, hr, h => by
    rw [joinPath_cons] at h
    have h' : a ++ 47 :: joinPath (c :: l) = b := h
    exact absurd (by rw [← h']; simp) (hr b (by simp)).2
  | a :: c :: l, b :: d :: m, hq, hr, h => by
    rw [joinPath_cons, joinPath_cons] at h
    obtain ⟨h1, h2⟩ := append_slash (hq a (by simp)).2 (hr b (by simp)).2 h
    have := joinPath_inj (fun id hid => hq id (.tail _ hid)) (fun id hid => hr id (.tail _ hid)) h2
    rw [h1, this]

/-- Each package is located in a separate file. -/
theorem C110_separate (cfg : Config) (q r : PackageName) (hq : ∀ id ∈ q, id ≠ [] ∧ 47 ∉ id) (hr : ∀ id ∈ r, id ≠ [] ∧ 47 ∉ id)
    (h : cfg.place q = cfg.place r) : q = r := by
  unfold Config.place at h
  rw [List.append_cancel_right_eq, List.append_cancel_left_eq] at h
  exact joinPath_inj hq hr h

example : Config.place ⟨some (py! "src"), py! "map.zs", []⟩ [py! "common", py! "geometry"] = py! "src/common/geometry.zs" := by decide
example : ∀ id ∈ [py! "common", py! "geometry"], id ≠ [] ∧ 47 ∉ id := by decide

/-! ### Warnings -/

/-- what is imported so far -/
theorem add_all (st : Imported) (i : Import) (h : importWarnings st i = []) :
    (∀ q, q ∈ (st.add i).packages ↔ q ∈ st.packages ∨ i = .all q) ∧
    ∀ q n, ⟨q, n⟩ ∈ (st.add i).symbols ↔ ⟨q, n⟩ ∈ st.symbols ∨ i = .single q n := by
  cases i with
  | all q =>
    simp only [importWarnings, List.append_eq_nil_iff, List.map_eq_nil_iff, List.filter_eq_nil_iff, decide_eq_true_eq] at h
    have hq : q ∉ st.packages := by
      intro hq
      simp [hq] at h
    refine ⟨?_, ?_⟩
    · intro r
      simp only [Imported.add, if_neg hq, List.mem_append, List.mem_singleton, Import.all.injEq]
      exact ⟨fun h => h.imp id Eq.symm, fun h => h.imp id Eq.symm⟩
    · intro r n
      simp only [Imported.add, List.mem_filter, decide_eq_true_eq, reduceCtorEq, or_false, and_iff_left_iff_imp]
      intro hm hr
      exact h.2 _ hm hr
  | single q n =>
    simp only [importWarnings] at h
    split at h
    · simp at h
    · rename_i h1
      split at h
      · simp at h
      · rename_i h2
        refine ⟨?_, ?_⟩
        · intro r
          simp [Imported.add, h1, h2]
        · intro r m
          simp only [Imported.add, if_neg h1, if_neg h2, List.mem_append, List.mem_singleton, Visibility.Symbol.mk.injEq, Import.single.injEq]
          exact ⟨fun h => h.imp id (fun h => ⟨h.1.symm, h.2.symm⟩), fun h => h.imp id (fun h => ⟨h.1.symm, h.2.symm⟩)⟩

theorem importWarnings_nil (st : Imported) (i : Import) : importWarnings st i = [] ↔
    match i with
    | .all q => q ∉ st.packages ∧ ∀ n, (⟨q, n⟩ : Visibility.Symbol) ∉ st.symbols
    | .single q n => q ∉ st.packages ∧ (⟨q, n⟩ : Visibility.Symbol) ∉ st.symbols := by
  cases i with
  | all q =>
    simp only [importWarnings, List.append_eq_nil_iff, List.map_eq_nil_iff, List.filter_eq_nil_iff, decide_eq_true_eq]
    refine and_congr ?_ ⟨?_, ?_⟩
    · by_cases h : q ∈ st.packages <;> simp [h]
    · exact fun h n hm => h _ hm rfl
    · rintro h ⟨p, n⟩ hm rfl
      exact h n hm
  | single q n =>
    simp only [importWarnings]
    by_cases h1 : q ∈ st.packages
    · simp [h1]
    · by_cases h2 : (⟨q, n⟩ : Visibility.Symbol) ∈ st.symbols <;> simp [h1, h2]

theorem warnings_nil (done imps : List Import) (st : Imported)
    (hp : ∀ q, q ∈ st.packages ↔ .all q ∈ done) (hs : ∀ q n, ⟨q, n⟩ ∈ st.symbols ↔ .single q n ∈ done)
    (hd : done.Nodup ∧ ∀ q n, .single q n ∈ done → .all q ∉ done) :
    warnings st imps = [] ↔ (done ++ imps).Nodup ∧ ∀ q n, .single q n ∈ done ++ imps → .all q ∉ done ++ imps := by
  induction imps generalizing done st with
  | nil => simpa [warnings] using hd
  | cons i rest ih =>
    rw [warnings, List.append_eq_nil_iff]
    have happ : done ++ i :: rest = (done ++ [i]) ++ rest := by simp
    have hfirst : importWarnings st i = [] ↔ ((done ++ [i]).Nodup ∧ ∀ q n, .single q n ∈ done ++ [i] → .all q ∉ done ++ [i]) := by
      rw [importWarnings_nil]
      cases i with
      | all q =>
        simp only [hp, hs]
        constructor
        · rintro ⟨h1, h2⟩
          refine ⟨List.nodup_append.2 ⟨hd.1, by simp, ?_⟩, ?_⟩
          · intro a ha b hb hab
            rw [List.mem_singleton] at hb
            exact h1 (by rw [← hb, ← hab]; exact ha)
          · intro r n hm
            simp only [List.mem_append, List.mem_singleton, reduceCtorEq, or_false] at hm
            simp only [List.mem_append, List.mem_singleton, Import.all.injEq, not_or]
            refine ⟨hd.2 r n hm, ?_⟩
            rintro rfl
            exact h2 n hm
        · rintro ⟨h1, h2⟩
          refine ⟨?_, ?_⟩
          · intro hm
            exact (List.nodup_append.1 h1).2.2 _ hm _ (List.mem_singleton.2 rfl) rfl
          · intro n hm
            exact h2 q n (List.mem_append_left _ hm) (by simp)
      | single q n =>
        simp only [hp, hs]
        constructor
        · rintro ⟨h1, h2⟩
          refine ⟨List.nodup_append.2 ⟨hd.1, by simp, ?_⟩, ?_⟩
          · intro a ha b hb hab
            rw [List.mem_singleton] at hb
            exact h2 (by rw [← hb, ← hab]; exact ha)
          · intro r m hm
            simp only [List.mem_append, List.mem_singleton, Import.single.injEq] at hm
            simp only [List.mem_append, List.mem_singleton, reduceCtorEq, or_false]
            rcases hm with hm | ⟨rfl, _⟩
            · exact hd.2 r m hm
            · exact h1
        · rintro ⟨h1, h2⟩
          refine ⟨?_, ?_⟩
          · intro hm
            exact h2 q n (by simp) (List.mem_append_left _ hm)
          · intro hm
            exact (List.nodup_append.1 h1).2.2 _ hm _ (List.mem_singleton.2 rfl) rfl
    constructor
    · rintro ⟨h1, h2⟩
      obtain ⟨ha, hb⟩ := add_all st i h1
      rw [happ]
      refine (ih (done ++ [i]) (st.add i) ?_ ?_ (hfirst.1 h1)).1 h2
      · intro q
        rw [ha, hp]
        simp [eq_comm]
      · intro q n
        rw [hb, hs]
        simp [eq_comm]
    · intro h
      rw [happ] at h
      have h1 : importWarnings st i = [] := by
        refine hfirst.2 ⟨(List.nodup_append.1 h.1).1, ?_⟩
        intro q n hm hm'
        exact h.2 q n (List.mem_append_left _ hm) (List.mem_append_left _ hm')
      obtain ⟨ha, hb⟩ := add_all st i h1
      refine ⟨h1, (ih (done ++ [i]) (st.add i) ?_ ?_ (hfirst.1 h1)).2 h⟩
      · intro q
        rw [ha, hp]
        simp [eq_comm]
      · intro q n
        rw [hb, hs]
        simp [eq_comm]

/-- There is no warning about the imports of a package exactly if none of them is superfluous: none is repeated, and nothing is imported alone from
a package which is imported as a whole, in whichever order. -/
theorem C110_warnings (p : Package) :
    warnings ⟨[], []⟩ p.imports = [] ↔ p.imports.Nodup ∧ ∀ q n, .single q n ∈ p.imports → .all q ∉ p.imports := by
  have := warnings_nil [] p.imports ⟨[], []⟩ (by simp) (by simp) (by simp)
  simpa using this

/-! ### Examples -/

namespace Demo

def cfg : Config := ⟨some (py! "src"), py! "map.zs", []⟩

/-- two packages which import each other, one of them twice, and a file which is not needed -/
def files : Files :=
  [(py! "src/map.zs", ⟨some [py! "map"], [.all [py! "common", py! "geometry"], .single [py! "common", py! "geometry"] (py! "Point")], [py! "Tile"]⟩),
   (py! "src/common/geometry.zs", ⟨some [py! "common", py! "geometry"], [.single [py! "map"] (py! "Tile")], [py! "Point"]⟩),
   (py! "src/other.zs", ⟨none, [], []⟩)]

example : Grammatical files := by unfold Grammatical; decide
example : (load cfg files).toOption.map (·.map (·.file)) = some [py! "src/map.zs", py! "src/common/geometry.zs"] := by decide +kernel
example : SameImports files (files.reverse) := by
  intro f
  unfold Files.get files
  simp only [List.reverse_cons, List.reverse_nil, List.nil_append, List.singleton_append, List.cons_append, List.find?_cons, List.find?_nil]
  by_cases h1 : py! "src/map.zs" = f
  · subst h1; simp (decide := true)
  · by_cases h2 : py! "src/common/geometry.zs" = f
    · subst h2; simp (decide := true)
    · by_cases h3 : py! "src/other.zs" = f
      · subst h3; simp (decide := true)
      · simp [h1, h2, h3]
/-- a package stored elsewhere, a default package which is imported, a symbol which is not there, a file which is not there -/
example : load ⟨none, py! "a/map.zs", []⟩ [(py! "a/map.zs", ⟨some [py! "map"], [], []⟩)] matches .error .wrongFile := by decide +kernel
example : load ⟨none, py! "a.zs", []⟩ [(py! "a.zs", ⟨some [py! "a"], [.all [py! "b"]], []⟩), (py! "b.zs", ⟨none, [], []⟩)]
    matches .error (.resolve .defaultImported) := by decide +kernel
example : load ⟨none, py! "a.zs", []⟩ [(py! "a.zs", ⟨none, [.all [py! "b"]], []⟩), (py! "b.zs", ⟨none, [], []⟩)]
    matches .error .multipleDefault := by decide +kernel
example : load ⟨none, py! "a.zs", []⟩ [(py! "a.zs", ⟨some [py! "a"], [.single [py! "b"] (py! "X")], []⟩), (py! "b.zs", ⟨some [py! "b"], [], []⟩)]
    matches .error (.resolve .unresolvedImport) := by decide +kernel
example : load ⟨none, py! "a.zs", []⟩ [(py! "a.zs", ⟨some [py! "a"], [.all [py! "b"]], []⟩)] matches .error .unreadable := by decide +kernel
example : load ⟨none, py! "d/a.zs", []⟩ [(py! "d/a.zs", ⟨none, [], []⟩)] matches .error .defaultWithPath := by decide +kernel
/-- with a package on the command line -/
example : (load ⟨none, py! "a.zs", [py! "t"]⟩
    [(py! "a.zs", ⟨some [py! "a"], [.all [py! "b"]], []⟩), (py! "b.zs", ⟨some [py! "b"], [], []⟩)]).toOption.map (·.map (·.package.name)) =
      some [[py! "t", py! "a"], [py! "t", py! "b"]] := by decide +kernel
example : warnings ⟨[], []⟩ [.single [py! "b"] (py! "X"), .all [py! "b"], .all [py! "b"], .single [py! "b"] (py! "X")] =
    [.overwrites [py! "b"] (py! "X"), .duplicatedPackage [py! "b"], .covered [py! "b"] (py! "X")] := by decide +kernel
example : warnings ⟨[], []⟩ [.single [py! "b"] (py! "X"), .all [py! "c"], .single [py! "b"] (py! "Y")] = [] := by decide +kernel

end Demo

end Zserio.Loading
