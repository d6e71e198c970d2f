import Verif.Spec.Loading
import Mathlib.Data.List.Nodup
import Mathlib.Data.List.Perm.Subperm
/-
Lemmas about the loading of schemas.
-/
set_option linter.unusedSimpArgs false
namespace Zserio.Loading
open Zserio.Visibility (Name PackageName Import Package Root Imported)

theorem target_full (top : PackageName) (i : Import) : target (fullImport top i) = top ++ target i := by
  cases i <;> rfl

theorem fileOf_top (cfg : Config) (q : PackageName) : cfg.fileOf (cfg.top ++ q) = cfg.place q := by
  unfold Config.fileOf Config.place Config.full
  rw [List.drop_left]
  cases cfg.src <;> simp

theorem fileOf_full (cfg : Config) (i : Import) : cfg.fileOf (target (fullImport cfg.top i)) = cfg.place (target i) := by
  rw [target_full, fileOf_top]

/-- the package of a file -/
def packageOf (cfg : Config) (src : Source) : Package :=
  ⟨cfg.top ++ src.package.getD [], src.symbols, src.imports.map (fullImport cfg.top)⟩

theorem parsePackage_ok {cfg : Config} {fs : Files} {st st' : List Loaded} {file : Path} {p : Package} :
    parsePackage cfg fs st file = .ok (st', p) ↔
      ∃ src, fs.get file = some src ∧ (∀ q, src.package = some q → cfg.place q = file) ∧
        cfg.top ++ src.package.getD [] ∉ st.map (·.package.name) ∧
        ¬ (cfg.top ++ src.package.getD [] = [] ∧ hasParent cfg.input) ∧ p = packageOf cfg src ∧ st' = st ++ [⟨file, p⟩] := by
  unfold parsePackage
  cases hg : fs.get file with
  | none => simp
  | some src =>
    simp only
    have hq : (src.package.isSome ∧ cfg.fileOf (cfg.top ++ src.package.getD []) ≠ file) ↔ ¬ ∀ q, src.package = some q → cfg.place q = file := by
      cases hp : src.package with
      | none => simp
      | some q => simp [fileOf_top]
    by_cases h1 : src.package.isSome ∧ cfg.fileOf (cfg.top ++ src.package.getD []) ≠ file
    · rw [if_pos h1]
      refine ⟨fun h => by simp at h, ?_⟩
      rintro ⟨src', h, h2, _⟩
      simp only [Option.some.injEq] at h
      subst h
      exact absurd h2 (hq.1 h1)
    · rw [if_neg h1]
      have h1' := not_not.1 (fun h => h1 (hq.2 h))
      by_cases h2 : cfg.top ++ src.package.getD [] ∈ st.map (·.package.name)
      · rw [if_pos h2]
        refine ⟨fun h => by simp at h, ?_⟩
        rintro ⟨src', h, _, h3, _⟩
        simp only [Option.some.injEq] at h
        subst h
        exact absurd h2 h3
      · rw [if_neg h2]
        by_cases h3 : cfg.top ++ src.package.getD [] = [] ∧ hasParent cfg.input = true
        · rw [if_pos h3]
          refine ⟨fun h => by simp at h, ?_⟩
          rintro ⟨src', h, _, _, h4, _⟩
          simp only [Option.some.injEq] at h
          subst h
          exact absurd h3 h4
        · rw [if_neg h3]
          simp only [Except.ok.injEq, Prod.mk.injEq]
          constructor
          · rintro ⟨ha, hb⟩
            exact ⟨src, rfl, h1', h2, h3, hb.symm, by rw [← ha, ← hb]⟩
          · rintro ⟨src', h, _, _, _, hb, ha⟩
            simp only [Option.some.injEq] at h
            subst h
            exact ⟨by rw [ha, hb]; rfl, hb.symm⟩

/-- what is always true of the files read so far -/
structure Inv (cfg : Config) (fs : Files) (st : List Loaded) : Prop where
  content : ∀ l ∈ st, ∃ src, fs.get l.file = some src ∧ l.package = packageOf cfg src ∧ ∀ q, src.package = some q → cfg.place q = l.file
  files : (st.map (·.file)).Nodup
  names : (st.map (·.package.name)).Nodup

theorem inv_parse {cfg : Config} {fs : Files} {st st' : List Loaded} {file : Path} {p : Package} (hi : Inv cfg fs st)
    (hn : file ∉ st.map (·.file)) (h : parsePackage cfg fs st file = .ok (st', p)) : Inv cfg fs st' := by
  obtain ⟨src, hg, hq, hm, _, hp, hs⟩ := parsePackage_ok.1 h
  subst hs
  refine ⟨?_, ?_, ?_⟩
  · intro l hl
    rcases List.mem_append.1 hl with hl | hl
    · exact hi.content l hl
    · simp only [List.mem_singleton] at hl
      subst hl
      exact ⟨src, hg, hp, hq⟩
  · rw [List.map_append, List.nodup_append]
    refine ⟨hi.files, by simp, ?_⟩
    intro a ha b hb hab
    simp only [List.map_cons, List.map_nil, List.mem_singleton] at hb
    subst hb
    exact hn (hab ▸ ha)
  · rw [List.map_append, List.nodup_append]
    refine ⟨hi.names, by simp, ?_⟩
    intro a ha b hb hab
    simp only [List.map_cons, List.map_nil, List.mem_singleton] at hb
    subst hb
    rw [hp] at hab
    have hab' : a = cfg.top ++ src.package.getD [] := hab
    exact hm (hab' ▸ ha)

theorem get_mem {fs : Files} {f : Path} {src : Source} (h : fs.get f = some src) : (f, src) ∈ fs := by
  unfold Files.get at h
  rw [Option.map_eq_some_iff] at h
  obtain ⟨e, he, hs⟩ := h
  have h1 := List.mem_of_find?_eq_some he
  have h2 := List.find?_some he
  simp only [decide_eq_true_eq] at h2
  rw [← h2, ← hs]
  exact h1

theorem inv_length {cfg : Config} {fs : Files} {st : List Loaded} (hi : Inv cfg fs st) : st.length ≤ fs.length := by
  have h : st.map (·.file) ⊆ fs.map (·.1) := by
    intro f hf
    obtain ⟨l, hl, rfl⟩ := List.mem_map.1 hf
    obtain ⟨src, hg, _⟩ := hi.content l hl
    exact List.mem_map.2 ⟨_, get_mem hg, rfl⟩
  have := (List.subperm_of_subset hi.files h).length_le
  simpa using this

theorem parseImported_cons (cfg : Config) (fs : Files) (fuel : Nat) (st : List Loaded) (i : Import) (rest : List Import) :
    parseImported cfg fs fuel st (i :: rest) =
      (if cfg.fileOf (target i) ∈ st.map (·.file) then parseImported cfg fs fuel st rest
      else match fuel with
        | 0 => .error .tooDeep
        | n + 1 =>
          match parsePackage cfg fs st (cfg.fileOf (target i)) with
          | .error e => .error e
          | .ok (st', p) =>
            match parseImported cfg fs n st' p.imports with
            | .error e => .error e
            | .ok st'' => parseImported cfg fs (n + 1) st'' rest) := by
  cases fuel with
  | zero => simp only [parseImported, forImports]
  | succ n =>
    simp only [parseImported, forImports]
    cases parsePackage cfg fs st (cfg.fileOf (target i)) with
    | error e => rfl
    | ok r => rfl

/-- what a successful run has done -/
structure Run (cfg : Config) (fs : Files) (imps : List Import) (st st' : List Loaded) : Prop where
  inv : Inv cfg fs st'
  kept : ∃ more, st' = st ++ more
  all : ∀ i ∈ imps, cfg.fileOf (target i) ∈ st'.map (·.file)
  closed : ∀ l ∈ st', l ∈ st ∨ ∀ i ∈ l.package.imports, cfg.fileOf (target i) ∈ st'.map (·.file)
  only : ∀ R : Path → Prop, (∀ f src i, R f → fs.get f = some src → i ∈ src.imports → R (cfg.place (target i))) →
    (∀ i ∈ imps, R (cfg.fileOf (target i))) → ∀ l ∈ st', l ∈ st ∨ R l.file

theorem run_parse {cfg : Config} {fs : Files} (fuel : Nat) : ∀ (imps : List Import) (st st' : List Loaded), Inv cfg fs st →
    parseImported cfg fs fuel st imps = .ok st' → Run cfg fs imps st st' := by
  induction fuel with
  | zero =>
    intro imps
    induction imps with
    | nil =>
      intro st st' hi h
      simp only [parseImported, forImports, Except.ok.injEq] at h
      subst h
      exact ⟨hi, ⟨[], by simp⟩, by simp, fun l hl => .inl hl, fun R _ _ l hl => .inl hl⟩
    | cons i rest ih =>
      intro st st' hi h
      rw [parseImported_cons] at h
      by_cases hm : cfg.fileOf (target i) ∈ st.map (·.file)
      · rw [if_pos hm] at h
        have r := ih st st' hi h
        refine ⟨r.inv, r.kept, ?_, r.closed, fun R hR hs => r.only R hR fun j hj => hs j (.tail _ hj)⟩
        intro j hj
        rcases List.mem_cons.1 hj with rfl | hj
        · obtain ⟨more, hk⟩ := r.kept
          rw [hk, List.map_append]
          exact List.mem_append_left _ hm
        · exact r.all j hj
      · rw [if_neg hm] at h
        simp at h
  | succ n ihn =>
    intro imps
    induction imps with
    | nil =>
      intro st st' hi h
      simp only [parseImported, forImports, Except.ok.injEq] at h
      subst h
      exact ⟨hi, ⟨[], by simp⟩, by simp, fun l hl => .inl hl, fun R _ _ l hl => .inl hl⟩
    | cons i rest ih =>
      intro st st' hi h
      rw [parseImported_cons] at h
      by_cases hm : cfg.fileOf (target i) ∈ st.map (·.file)
      · rw [if_pos hm] at h
        have r := ih st st' hi h
        refine ⟨r.inv, r.kept, ?_, r.closed, fun R hR hs => r.only R hR fun j hj => hs j (.tail _ hj)⟩
        intro j hj
        rcases List.mem_cons.1 hj with rfl | hj
        · obtain ⟨more, hk⟩ := r.kept
          rw [hk, List.map_append]
          exact List.mem_append_left _ hm
        · exact r.all j hj
      · rw [if_neg hm] at h
        simp only at h
        cases hp : parsePackage cfg fs st (cfg.fileOf (target i)) with
        | error e => rw [hp] at h; simp at h
        | ok r =>
          obtain ⟨st1, p⟩ := r
          rw [hp] at h
          simp only at h
          cases hq : parseImported cfg fs n st1 p.imports with
          | error e => rw [hq] at h; simp at h
          | ok st2 =>
            rw [hq] at h
            simp only at h
            have h1 := inv_parse hi hm hp
            have r2 := ihn p.imports st1 st2 h1 hq
            have r3 := ih st2 st' r2.inv h
            obtain ⟨src, hg, hqq, _, _, hpp, hst⟩ := parsePackage_ok.1 hp
            obtain ⟨more2, hk2⟩ := r2.kept
            obtain ⟨more3, hk3⟩ := r3.kept
            have up : ∀ f, f ∈ st2.map (·.file) → f ∈ st'.map (·.file) := by
              intro f hf
              rw [hk3, List.map_append]
              exact List.mem_append_left _ hf
            refine ⟨r3.inv, ⟨[⟨cfg.fileOf (target i), p⟩] ++ more2 ++ more3, by rw [hk3, hk2, hst]; simp⟩, ?_, ?_, ?_⟩
            · intro j hj
              rcases List.mem_cons.1 hj with rfl | hj
              · apply up
                rw [hk2, hst]
                simp
              · exact r3.all j hj
            · intro l hl
              rcases r3.closed l hl with hl | hl
              · rcases r2.closed l hl with hl | hl
                · rw [hst] at hl
                  rcases List.mem_append.1 hl with hl | hl
                  · exact .inl hl
                  · simp only [List.mem_singleton] at hl
                    subst hl
                    exact .inr fun j hj => up _ (r2.all j hj)
                · exact .inr fun j hj => up _ (hl j hj)
              · exact .inr hl
            · intro R hR hs l hl
              have hRi := hs i (.head _)
              rcases r3.only R hR (fun j hj => hs j (.tail _ hj)) l hl with hl | hl
              · have hs2 : ∀ j ∈ p.imports, R (cfg.fileOf (target j)) := by
                  intro j hj
                  rw [hpp] at hj
                  obtain ⟨j', hj', rfl⟩ := List.mem_map.1 hj
                  rw [fileOf_full]
                  exact hR _ src j' hRi hg hj'
                rcases r2.only R hR hs2 l hl with hl | hl
                · rw [hst] at hl
                  rcases List.mem_append.1 hl with hl | hl
                  · exact .inl hl
                  · simp only [List.mem_singleton] at hl
                    subst hl
                    exact .inr hRi
                · exact .inr hl
              · exact .inr hl

theorem bound_parse {cfg : Config} {fs : Files} (fuel : Nat) : ∀ (imps : List Import) (st : List Loaded), Inv cfg fs st →
    fs.length + 1 ≤ fuel + st.length → parseImported cfg fs fuel st imps ≠ .error .tooDeep := by
  induction fuel with
  | zero =>
    intro imps st hi hf
    have := inv_length hi
    omega
  | succ n ihn =>
    intro imps
    induction imps with
    | nil => intro st _ _; simp [parseImported, forImports]
    | cons i rest ih =>
      intro st hi hf
      rw [parseImported_cons]
      by_cases hm : cfg.fileOf (target i) ∈ st.map (·.file)
      · rw [if_pos hm]
        exact ih st hi hf
      · rw [if_neg hm]
        simp only
        cases hp : parsePackage cfg fs st (cfg.fileOf (target i)) with
        | error e =>
          simp only [ne_eq, Except.error.injEq]
          rintro rfl
          unfold parsePackage at hp
          split at hp
          · simp at hp
          · simp only at hp
            repeat (split at hp <;> try simp at hp)
        | ok r =>
          obtain ⟨st1, p⟩ := r
          simp only
          have h1 := inv_parse hi hm hp
          obtain ⟨src, _, _, _, _, _, hst⟩ := parsePackage_ok.1 hp
          cases hq : parseImported cfg fs n st1 p.imports with
          | error e =>
            simp only [ne_eq, Except.error.injEq]
            rintro rfl
            exact ihn p.imports st1 h1 (by rw [hst]; simp; omega) hq
          | ok st2 =>
            simp only
            have r2 := run_parse n p.imports st1 st2 h1 hq
            obtain ⟨more, hk⟩ := r2.kept
            exact ih st2 r2.inv (by rw [hk, hst]; simp; omega)

theorem complete_parse {cfg : Config} {fs : Files} (hgram : Grammatical fs)
    (hall : ∀ f src i, Needed cfg fs f → fs.get f = some src → i ∈ src.imports → Found cfg fs i) (fuel : Nat) :
    ∀ (imps : List Import) (st : List Loaded), Inv cfg fs st → fs.length + 1 ≤ fuel + st.length →
    (∀ i ∈ imps, ∃ j, i = fullImport cfg.top j ∧ Found cfg fs j ∧ Needed cfg fs (cfg.place (target j))) →
    ∃ st', parseImported cfg fs fuel st imps = .ok st' := by
  induction fuel with
  | zero =>
    intro imps st hi hf
    have := inv_length hi
    omega
  | succ n ihn =>
    intro imps
    induction imps with
    | nil => intro st _ _ _; exact ⟨st, by simp [parseImported, forImports]⟩
    | cons i rest ih =>
      intro st hi hf hs
      rw [parseImported_cons]
      by_cases hm : cfg.fileOf (target i) ∈ st.map (·.file)
      · rw [if_pos hm]
        exact ih st hi hf fun j hj => hs j (.tail _ hj)
      · rw [if_neg hm]
        simp only
        obtain ⟨j, rfl, ⟨src, hg, hpk, _⟩, hneed⟩ := hs i (.head _)
        rw [fileOf_full] at hm ⊢
        have hne : target j ≠ [] := by
          intro h
          exact (hgram _ (get_mem hg)).1 (by rw [hpk, h])
        have hp : parsePackage cfg fs st (cfg.place (target j)) =
            .ok (st ++ [⟨cfg.place (target j), packageOf cfg src⟩], packageOf cfg src) := by
          rw [parsePackage_ok]
          refine ⟨src, hg, ?_, ?_, ?_, rfl, rfl⟩
          · intro q hq
            rw [hpk] at hq
            rw [Option.some.inj hq]
          · intro h
            obtain ⟨l, hl, hn⟩ := List.mem_map.1 h
            obtain ⟨src', hg', hl', hq'⟩ := hi.content l hl
            rw [hl', hpk] at hn
            have hn' : src'.package.getD [] = target j := List.append_cancel_left hn
            cases hs' : src'.package with
            | none =>
              rw [hs'] at hn'
              exact hne hn'.symm
            | some q =>
              rw [hs'] at hn'
              have : q = target j := hn'
              exact hm (List.mem_map.2 ⟨l, hl, by rw [← hq' q hs', this]⟩)
          · rintro ⟨h, _⟩
            rw [hpk] at h
            exact hne (List.append_eq_nil_iff.1 h).2
        rw [hp]
        simp only
        have h1 := inv_parse hi hm hp
        obtain ⟨st2, hq⟩ := ihn (packageOf cfg src).imports _ h1 (by simp; omega) (by
          intro k hk
          obtain ⟨k', hk', rfl⟩ := List.mem_map.1 hk
          exact ⟨k', rfl, hall _ src k' hneed hg hk', .imported _ src k' hneed hg hk'⟩)
        rw [hq]
        simp only
        have r2 := run_parse n _ _ st2 h1 hq
        obtain ⟨more, hk⟩ := r2.kept
        exact ih st2 r2.inv (by rw [hk]; simp; omega) fun j hj => hs j (.tail _ hj)

theorem each_ok {α : Type} (f : α → Except Visibility.Problem Unit) (l : List α) : each f l = .ok () ↔ ∀ a ∈ l, f a = .ok () := by
  induction l with
  | nil => simp [each]
  | cons a l ih =>
    simp only [each, List.forall_mem_cons]
    cases f a with
    | error e => simp
    | ok u => simp [ih]

theorem each_error {α : Type} (f : α → Except Visibility.Problem Unit) (l : List α) : each f l ≠ .error .tooDeep := by
  induction l with
  | nil => simp [each]
  | cons a l ih =>
    simp only [each]
    cases f a with
    | error e => simp
    | ok u => simpa using ih

theorem root_get {ps : List Loaded} (hn : (ps.map (·.package.name)).Nodup) {l : Loaded} (hl : l ∈ ps) :
    Root.get (ps.map (·.package)) l.package.name = some l.package := by
  unfold Root.get
  induction ps with
  | nil => simp at hl
  | cons a ps ih =>
    rw [List.map_cons, List.find?_cons]
    rcases List.mem_cons.1 hl with rfl | hl
    · simp
    · rw [List.map_cons, List.nodup_cons] at hn
      have : a.package.name ≠ l.package.name := fun h => hn.1 (List.mem_map.2 ⟨l, hl, h.symm⟩)
      simp only [this, decide_false]
      exact ih hn.2 hl

theorem root_get_mem {ps : List Loaded} {q : PackageName} {p : Package} (h : Root.get (ps.map (·.package)) q = some p) :
    ∃ l ∈ ps, l.package = p ∧ p.name = q := by
  unfold Root.get at h
  have h1 := List.mem_of_find?_eq_some h
  have h2 := List.find?_some h
  obtain ⟨l, hl, he⟩ := List.mem_map.1 h1
  exact ⟨l, hl, he, by simpa using h2⟩

theorem load_ok {cfg : Config} {fs : Files} {ps : List Loaded} (h : load cfg fs = .ok ps) :
    ∃ st p, parsePackage cfg fs [] cfg.inputFile = .ok (st, p) ∧ parseImported cfg fs fs.length st p.imports = .ok ps ∧
      ∀ l ∈ ps, ∀ i ∈ l.package.imports, Import.resolve (ps.map (·.package)) i = .ok () := by
  unfold load at h
  cases hp : parsePackage cfg fs [] cfg.inputFile with
  | error e => rw [hp] at h; simp at h
  | ok r =>
    obtain ⟨st, p⟩ := r
    rw [hp] at h
    simp only at h
    cases hq : parseImported cfg fs fs.length st p.imports with
    | error e => rw [hq] at h; simp at h
    | ok st2 =>
      rw [hq] at h
      simp only at h
      cases hr : resolveAll (st2.map (·.package)) with
      | error e => rw [hr] at h; simp at h
      | ok u =>
        rw [hr] at h
        simp only [Except.ok.injEq] at h
        subst h
        refine ⟨st, p, rfl, hq, ?_⟩
        intro l hl i hi
        refine (each_ok _ _).1 hr i ?_
        exact List.mem_flatMap.2 ⟨l.package, List.mem_map.2 ⟨l, hl, rfl⟩, hi⟩

theorem inv_nil (cfg : Config) (fs : Files) : Inv cfg fs [] := ⟨by simp, by simp, by simp⟩

end Zserio.Loading
