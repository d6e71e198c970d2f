import Verif.Lemmas.PyModules
import Verif.Spec.Imports
import Mathlib.Data.List.Nodup

set_option linter.unusedSimpArgs false

namespace Zserio.Imports

open Zserio

theorem mem_treeAdd {p q : Path} {l : List Path} : p ∈ treeAdd q l ↔ p = q ∨ p ∈ l := by
  induction l with
  | nil => simp [treeAdd]
  | cons x r ih =>
    simp only [treeAdd]
    split
    · rename_i h; subst h; simp
    · split
      · simp
      · simp only [List.mem_cons, ih]
        constructor
        · rintro (h | h | h)
          · exact .inr (.inl h)
          · exact .inl h
          · exact .inr (.inr h)
        · rintro (h | h | h)
          · exact .inr (.inl h)
          · exact .inl h
          · exact .inr (.inr h)

/-- modules of the schema which are imported -/
def Collector.mods (c : Collector) (p : Path) : Prop := p ∈ c.types ∨ p ∈ c.symbols

def pyPackages : List PyStr := [py! "typing", py! "zserio", py! "apsw"]

def Collector.Ok (c : Collector) : Prop := ∀ p ∈ c.packages, p ∈ pyPackages

/-- from `c` to `c'` the imports of the names are added -/
structure Adds (c c' : Collector) (l : List Name) : Prop where
  mods : ∀ p, c'.mods p ↔ c.mods p ∨ ∃ n ∈ l, p = n.path
  mono : ∀ p ∈ c.packages, p ∈ c'.packages
  ok : c.Ok → c'.Ok

theorem Adds.nil (c : Collector) : Adds c c [] := ⟨by simp, fun _ h => h, id⟩

theorem Adds.comp {c c' c'' : Collector} {l l' : List Name} (h : Adds c c' l) (h' : Adds c' c'' l') : Adds c c'' (l ++ l') := by
  refine ⟨fun p => ?_, fun p hp => h'.mono p (h.mono p hp), fun ho => h'.ok (h.ok ho)⟩
  rw [h'.mods, h.mods, or_assoc]
  apply or_congr Iff.rfl
  constructor
  · rintro (⟨n, hn, e⟩ | ⟨n, hn, e⟩)
    · exact ⟨n, List.mem_append.2 (.inl hn), e⟩
    · exact ⟨n, List.mem_append.2 (.inr hn), e⟩
  · rintro ⟨n, hn, e⟩
    rcases List.mem_append.1 hn with hn | hn
    · exact .inl ⟨n, hn, e⟩
    · exact .inr ⟨n, hn, e⟩

theorem Adds.perm {c c' : Collector} {l l' : List Name} (h : Adds c c' l) (hl : ∀ n, n ∈ l ↔ n ∈ l') : Adds c c' l' :=
  ⟨fun p => by rw [h.mods]; simp only [hl], h.mono, h.ok⟩

theorem Adds.foldl {α : Type} {f : Collector → α → Collector} {g : α → List Name} (h : ∀ c a, Adds c (f c a) (g a)) :
    ∀ (l : List α) (c : Collector), Adds c (l.foldl f c) (l.flatMap g)
  | [], c => .nil c
  | a :: l, c => by
    rw [List.foldl_cons, List.flatMap_cons]
    exact (h c a).comp (Adds.foldl h l _)

theorem adds_package {c : Collector} {k : PyStr} (hk : k ∈ pyPackages) : Adds c (c.importPackage k) [] := by
  unfold Collector.importPackage
  split
  · exact .nil c
  · refine ⟨by simp [Collector.mods], fun p hp => by simp [hp], ?_⟩
    intro h p hp
    rcases List.mem_append.1 hp with hp | hp
    · exact h p hp
    · simp at hp; subst hp; exact hk

theorem mem_importPackage {c : Collector} {k : PyStr} : k ∈ (c.importPackage k).packages := by
  unfold Collector.importPackage
  split
  · assumption
  · simp

theorem adds_symbol {c : Collector} {n : Name} : Adds c (c.importSymbol n) [n] := by
  refine ⟨fun p => ?_, fun p hp => hp, id⟩
  simp only [Collector.mods, Collector.importSymbol, mem_treeAdd, List.mem_singleton, exists_eq_left]
  constructor
  · rintro (h | h | h)
    · exact .inl (.inl h)
    · exact .inr h
    · exact .inl (.inr h)
  · rintro ((h | h) | h)
    · exact .inl h
    · exact .inr (.inr h)
    · exact .inr (.inl h)

theorem adds_type {c : Collector} {t : NativeType} : Adds c (c.importType t) t.names := by
  cases t <;> simp only [Collector.importType, NativeType.names]
  case builtin => exact .nil c
  case bitBuffer => exact .nil c
  case array => exact .nil c
  all_goals
    refine ⟨fun p => ?_, fun p hp => hp, id⟩
    simp only [Collector.mods, mem_treeAdd, List.mem_singleton, exists_eq_left]
    constructor
    · rintro ((h | h) | h)
      · exact .inr h
      · exact .inl (.inl h)
      · exact .inl (.inr h)
    · rintro ((h | h) | h)
      · exact .inl (.inr h)
      · exact .inr h
      · exact .inl (.inl h)

theorem adds_format {c : Collector} {e : ExprNames} : Adds c (c.format e) e.names := by
  unfold Collector.format
  have h1 := Adds.foldl (f := fun c n => c.importType (.user n)) (g := fun n => [n]) (fun c n => adds_type) e.types c
  have h2 := Adds.foldl (f := Collector.importSymbol) (g := fun n => [n]) (fun c n => adds_symbol) e.symbols
    (e.types.foldl (fun c n => c.importType (.user n)) c)
  have h3 := Adds.foldl (f := fun c _ => c.importPackage (py! "zserio")) (g := fun _ => [])
    (fun c (_ : PyStr) => adds_package (by simp [pyPackages])) e.runtime
    (e.symbols.foldl Collector.importSymbol (e.types.foldl (fun c n => c.importType (.user n)) c))
  exact ((h1.comp h2).comp h3).perm (by simp [ExprNames.names])

theorem format_zserio {c : Collector} {e : ExprNames} (h : e.runtime ≠ []) : py! "zserio" ∈ (c.format e).packages := by
  unfold Collector.format
  cases hr : e.runtime with
  | nil => exact absurd hr h
  | cons r l =>
    simp only [List.foldl_cons]
    exact (Adds.foldl (f := fun c _ => c.importPackage (py! "zserio")) (g := fun _ => [])
      (fun c (_ : PyStr) => adds_package (by simp [pyPackages])) l _).mono _ mem_importPackage

theorem adds_field {c : Collector} {f : FieldDecl} : Adds c (c.field f) f.names := by
  unfold Collector.field
  refine ((((adds_type (c := c) (t := f.type)).comp (Adds.foldl (f := Collector.format) (g := ExprNames.names)
    (fun c e => adds_format) f.exprs _)).comp (Adds.foldl (f := Collector.format) (g := ExprNames.names)
    (fun c e => adds_format) f.initializer.toList _)).comp (Adds.foldl (f := Collector.importType) (g := NativeType.names)
    (fun c t => adds_type) f.element.toList _)).comp (Adds.foldl (f := Collector.importType) (g := NativeType.names)
    (fun c t => adds_type) f.parameters _) |>.perm ?_
  intro n
  simp only [FieldDecl.names, List.mem_append]
  tauto

theorem adds_templateArguments {c : Collector} {w : Bool} {ts : List NativeType} :
    Adds c (c.templateArguments w ts) (if w then ts.flatMap (·.names) else []) := by
  unfold Collector.templateArguments
  split
  · exact Adds.foldl (f := Collector.importType) (fun c t => adds_type) ts c
  · exact .nil c

theorem adds_start {c : Collector} {k : PyStr} (hk : k ∈ pyPackages) :
    Adds c ((c.importPackage (py! "typing")).importPackage k) [] :=
  (adds_package (by simp [pyPackages])).comp (adds_package hk)

theorem start_packages {c : Collector} {k : PyStr} (hk : k ∈ pyPackages) :
    py! "typing" ∈ ((c.importPackage (py! "typing")).importPackage k).packages ∧
      k ∈ ((c.importPackage (py! "typing")).importPackage k).packages :=
  ⟨(adds_package hk).mono _ mem_importPackage, mem_importPackage⟩

theorem adds_compound {c : Collector} {w : Bool} {d : CompoundDecl} :
    ∃ c', c' = (c.importPackage (py! "typing")).importPackage (py! "zserio") ∧ Adds c' (c.compound w d) (d.names w) := by
  refine ⟨_, rfl, ?_⟩
  unfold Collector.compound
  refine ((((Adds.foldl (f := Collector.importType) (g := NativeType.names) (fun c t => adds_type) d.parameters _).comp
    (Adds.foldl (f := fun c (f : NativeType × ExprNames) => (c.importType f.1).format f.2) (g := fun f => f.1.names ++ f.2.names)
      (fun c f => adds_type.comp adds_format) d.functions _)).comp
    (Adds.foldl (f := Collector.field) (g := FieldDecl.names) (fun c f => adds_field) d.fields _)).comp
    adds_templateArguments).comp (Adds.foldl (f := Collector.format) (g := ExprNames.names) (fun c e => adds_format)
      d.selectors _) |>.perm ?_
  intro n
  simp only [CompoundDecl.names, List.mem_append]
  tauto

theorem adds_column {c : Collector} {f : ColumnDecl} :
    Adds c (c.column f) (f.type.names ++ f.parameters.flatMap (·.names) ++ f.exprs.flatMap (·.names)) := by
  unfold Collector.column
  exact ((adds_type (c := c) (t := f.type)).comp (Adds.foldl (f := Collector.importType) (g := NativeType.names)
    (fun c t => adds_type) f.parameters _)).comp (Adds.foldl (f := Collector.format) (g := ExprNames.names)
    (fun c e => adds_format) f.exprs _)

/-- the packages outside of the schema a module imports first -/
def basePackages : Decl → List PyStr
  | .constant _ => []
  | .subtype _ => []
  | .sqlTable .. => [py! "typing", py! "apsw"]
  | .sqlDatabase _ => [py! "typing", py! "apsw"]
  | _ => [py! "typing", py! "zserio"]

theorem collect_adds (w : Bool) (d : Decl) :
    ∃ c : Collector, c.mods = (fun _ => False) ∧ c.Ok ∧ (∀ k ∈ basePackages d, k ∈ c.packages) ∧ Adds c (collect w d) (d.names w) := by
  have start : ∀ k, k ∈ pyPackages → ∃ c : Collector, c = (({} : Collector).importPackage (py! "typing")).importPackage k ∧
      c.mods = (fun _ => False) ∧ c.Ok ∧ ∀ x ∈ [py! "typing", k], x ∈ c.packages := by
    intro k hk
    refine ⟨_, rfl, ?_, (adds_start hk).ok (by simp [Collector.Ok]), ?_⟩
    · funext p
      have := (adds_start (c := {}) hk).mods p
      simpa [Collector.mods] using this
    · intro x hx
      have := start_packages (c := {}) hk
      simp only [List.mem_cons, List.not_mem_nil, or_false] at hx
      rcases hx with rfl | rfl
      · exact this.1
      · exact this.2
  cases d with
  | constant value => exact ⟨{}, by funext; simp [Collector.mods], by simp [Collector.Ok], by simp [basePackages], adds_format⟩
  | subtype t => exact ⟨{}, by funext; simp [Collector.mods], by simp [Collector.Ok], by simp [basePackages], adds_type⟩
  | enumeration t e b =>
    obtain ⟨c, hc, h1, h2, h3⟩ := start (py! "zserio") (by simp [pyPackages])
    refine ⟨c, h1, h2, h3, ?_⟩
    simp only [collect, Decl.names, ← hc]
    refine Adds.comp (c' := if w = true then c.importType t else c) ?_ adds_format
    split
    · exact adds_type
    · exact .nil c
  | bitmask t e =>
    obtain ⟨c, hc, h1, h2, h3⟩ := start (py! "zserio") (by simp [pyPackages])
    refine ⟨c, h1, h2, h3, ?_⟩
    simp only [collect, Decl.names, ← hc]
    refine Adds.comp (c' := if w = true then c.importType t else c) ?_ adds_format
    split
    · exact adds_type
    · exact .nil c
  | «structure» d =>
    obtain ⟨c, hc, h1, h2, h3⟩ := start (py! "zserio") (by simp [pyPackages])
    obtain ⟨c', hc', h⟩ := adds_compound (c := {}) (w := w) (d := d)
    rw [← hc] at hc'; subst hc'
    exact ⟨c', h1, h2, h3, h⟩
  | alternative d =>
    obtain ⟨c, hc, h1, h2, h3⟩ := start (py! "zserio") (by simp [pyPackages])
    obtain ⟨c', hc', h⟩ := adds_compound (c := {}) (w := w) (d := d)
    rw [← hc] at hc'; subst hc'
    exact ⟨c', h1, h2, h3, h⟩
  | service ms =>
    obtain ⟨c, hc, h1, h2, h3⟩ := start (py! "zserio") (by simp [pyPackages])
    refine ⟨c, h1, h2, h3, ?_⟩
    simp only [collect, Decl.names, ← hc]
    exact Adds.foldl (f := fun c (m : NativeType × NativeType) => (c.importType m.1).importType m.2)
      (fun c m => adds_type.comp adds_type) ms c
  | pubsub ms =>
    obtain ⟨c, hc, h1, h2, h3⟩ := start (py! "zserio") (by simp [pyPackages])
    refine ⟨c, h1, h2, h3, ?_⟩
    simp only [collect, Decl.names, ← hc]
    exact Adds.foldl (f := fun c (m : NativeType × ExprNames) => (c.importType m.1).format m.2)
      (fun c m => adds_type.comp adds_format) ms c
  | sqlTable k cs ts =>
    obtain ⟨c, hc, h1, h2, h3⟩ := start (py! "apsw") (by simp [pyPackages])
    refine ⟨c, h1, h2, h3, ?_⟩
    simp only [collect, Decl.names, ← hc]
    exact ((Adds.foldl (f := Collector.format) (g := ExprNames.names) (fun c e => adds_format) k.toList c).comp
      (Adds.foldl (f := Collector.column) (fun c f => adds_column) cs _)).comp adds_templateArguments
  | sqlDatabase ts =>
    obtain ⟨c, hc, h1, h2, h3⟩ := start (py! "apsw") (by simp [pyPackages])
    refine ⟨c, h1, h2, h3, ?_⟩
    simp only [collect, Decl.names, ← hc]
    exact Adds.foldl (f := Collector.importType) (fun c t => adds_type) ts c

/-! ### The parts of a module -/

/-- import statements -/
def bodyHead (w : Bool) (d : Decl) : List Stmt :=
  match d with
  | .sqlTable _ columns _ =>
    [.fromImp [py! "enum"] (py! "Enum"), .fromImp [py! "enum"] (py! "IntEnum")] ++ (collect w d).stmts
      ++ (if columns.any (·.isBlob) || w then [.imp [py! "zserio"]] else [])
  | .sqlDatabase _ => (collect w d).stmts ++ (if w then [.imp [py! "zserio"]] else [])
  | d => (collect w d).stmts

/-- expressions -/
def bodyEvals (d : Decl) : List Stmt :=
  match d with
  | .constant value => value.evals
  | .subtype target => target.evals
  | .enumeration _ _ deprecated =>
    [.eval [py! "zserio"] (py! "Enum")] ++ (if deprecated then [.eval [py! "zserio"] (py! "DeprecatedItem")] else [])
  | .structure c => c.fields.flatMap FieldDecl.defaultEvals
  | .service _ => [.eval [py! "zserio"] (py! "ServiceInterface")]
  | .sqlTable _ columns _ => .eval [py! "typing"] (py! "Tuple") :: columns.flatMap (·.type.evals)
  | _ => []

theorem moduleBody_eq (w : Bool) (name : PyStr) (d : Decl) :
    moduleBody w name d = bodyHead w d ++ (bodyEvals d ++ [.define name]) := by
  cases d <;> simp [moduleBody, bodyHead, bodyEvals]

theorem mem_stmts {c : Collector} {p : Path} : p ∈ impsOf c.stmts ↔ (∃ k ∈ c.packages, p = [k]) ∨ c.mods p := by
  unfold Collector.stmts Collector.mods
  rw [mem_impsOf_append, mem_impsOf_append, or_assoc]
  have h : ∀ l : List Path, impsOf (l.map Stmt.imp) = l := by
    intro l; simp [impsOf, List.filterMap_map, Function.comp_def]
  rw [h, h]
  apply or_congr _ Iff.rfl
  simp only [impsOf, List.filterMap_map, List.mem_filterMap, Function.comp_def, Option.some.injEq]
  constructor
  · rintro ⟨k, hk, e⟩; exact ⟨k, hk, e.symm⟩
  · rintro ⟨k, hk, e⟩; exact ⟨k, hk, e.symm⟩

theorem importsOf_stmts (c : Collector) : importsOf c.stmts = impsOf c.stmts := by
  unfold Collector.stmts importsOf impsOf
  simp [List.filterMap_append, List.filterMap_map, Function.comp_def]

theorem noEval_stmts (c : Collector) : ∀ s ∈ c.stmts, ∃ p, s = .imp p := by
  intro s hs
  simp only [Collector.stmts, List.mem_append, List.mem_map] at hs
  rcases hs with (⟨k, _, rfl⟩ | ⟨p, _, rfl⟩) | ⟨p, _, rfl⟩ <;> exact ⟨_, rfl⟩

theorem bodyHead_noEval {w : Bool} {d : Decl} {p : Path} {n : PyStr} : Stmt.eval p n ∉ bodyHead w d := by
  have h := noEval_stmts (collect w d)
  have key : Stmt.eval p n ∉ (collect w d).stmts := fun hs => by obtain ⟨_, e⟩ := h _ hs; cases e
  cases d <;> simp only [bodyHead, List.mem_append, not_or] <;> try exact key
  · refine ⟨⟨by simp, key⟩, ?_⟩
    split <;> simp
  · refine ⟨key, ?_⟩
    split <;> simp

theorem evals_only {d : Decl} : ∀ s ∈ bodyEvals d, ∃ p n, s = .eval p n := by
  have he : ∀ e : ExprNames, ∀ s ∈ e.evals, ∃ p n, s = .eval p n := by
    intro e s hs
    simp only [ExprNames.evals, List.mem_append, List.mem_map] at hs
    rcases hs with ⟨_, _, rfl⟩ | ⟨_, _, rfl⟩ <;> exact ⟨_, _, rfl⟩
  have ht : ∀ t : NativeType, ∀ s ∈ t.evals, ∃ p n, s = .eval p n := by
    intro t s hs
    simp only [NativeType.evals, List.mem_map] at hs
    obtain ⟨_, _, rfl⟩ := hs
    exact ⟨_, _, rfl⟩
  intro s hs
  cases d with
  | constant e => exact he e s hs
  | subtype t => exact ht t s hs
  | enumeration t e b =>
    simp only [bodyEvals, List.mem_append, List.mem_singleton] at hs
    rcases hs with rfl | hs
    · exact ⟨_, _, rfl⟩
    · split at hs
      · simp at hs; exact ⟨_, _, hs⟩
      · cases hs
  | bitmask _ _ => cases hs
  | «structure» c =>
    simp only [bodyEvals, List.mem_flatMap] at hs
    obtain ⟨f, _, hs⟩ := hs
    unfold FieldDecl.defaultEvals at hs
    split at hs
    · exact he _ s hs
    · split at hs
      · cases hs
      · split at hs
        · exact ht _ s hs
        · cases hs
  | alternative _ => cases hs
  | service _ => simp [bodyEvals] at hs; exact ⟨_, _, hs⟩
  | pubsub _ => cases hs
  | sqlTable _ cs _ =>
    simp only [bodyEvals, List.mem_cons, List.mem_flatMap] at hs
    rcases hs with rfl | ⟨c, _, hs⟩
    · exact ⟨_, _, rfl⟩
    · exact ht _ s hs
  | sqlDatabase _ => cases hs

theorem importsOf_evals {d : Decl} {name : PyStr} : importsOf (bodyEvals d ++ [.define name]) = [] := by
  rw [importsOf, List.filterMap_eq_nil_iff]
  intro s hs
  rcases List.mem_append.1 hs with hs | hs
  · obtain ⟨p, n, rfl⟩ := evals_only s hs; rfl
  · simp at hs; subst hs; rfl

/-- the modules outside of the schema -/
def libraryPath (p : Path) : Prop := p ∈ libraries.map (·.1)

theorem package_library {k : PyStr} (h : k ∈ pyPackages) : libraryPath [k] := by
  simp only [pyPackages, List.mem_cons, List.not_mem_nil, or_false] at h
  rcases h with rfl | rfl | rfl <;> simp [libraryPath, libraries]

theorem mem_bodyHead_imps {w : Bool} {d : Decl} {p : Path} (h : p ∈ impsOf (collect w d).stmts) : p ∈ impsOf (bodyHead w d) := by
  cases d <;> simp only [bodyHead, mem_impsOf_append] <;> try exact h
  · exact .inl (.inr h)
  · exact .inl h

/-- the imports of a module are the modules of the names in the declaration and some outside of the schema -/
theorem importsOf_body {w : Bool} {name : PyStr} {d : Decl} {p : Path} (h : p ∈ importsOf (moduleBody w name d)) :
    libraryPath p ∨ ∃ n ∈ d.names w, p = n.path := by
  rw [moduleBody_eq, mem_importsOf_append, importsOf_evals] at h
  rcases h with h | h
  · have key : ∀ p ∈ importsOf (collect w d).stmts, libraryPath p ∨ ∃ n ∈ d.names w, p = n.path := by
      intro p hp
      obtain ⟨c, h1, h2, _, h3⟩ := collect_adds w d
      rw [importsOf_stmts, mem_stmts] at hp
      rcases hp with ⟨k, hk, rfl⟩ | hp
      · exact .inl (package_library (h3.ok h2 k hk))
      · rw [h3.mods, h1] at hp
        rcases hp with hp | hp
        · cases hp
        · exact .inr hp
    have hz : libraryPath [py! "zserio"] := package_library (by simp [pyPackages])
    have hen : libraryPath [py! "enum"] := by simp [libraryPath, libraries]
    cases d <;> simp only [bodyHead, mem_importsOf_append] at h <;> try exact key p h
    · rcases h with (h | h) | h
      · simp [importsOf] at h; subst h; exact .inl hen
      · exact key p h
      · split at h
        · simp [importsOf] at h; subst h; exact .inl hz
        · cases h
    · rcases h with h | h
      · exact key p h
      · split at h
        · simp [importsOf] at h; subst h; exact .inl hz
        · cases h
  · cases h

theorem names_imported {w : Bool} {d : Decl} {n : Name} (h : n ∈ d.names w) : n.path ∈ impsOf (bodyHead w d) := by
  apply mem_bodyHead_imps
  obtain ⟨c, h1, h2, _, h3⟩ := collect_adds w d
  rw [mem_stmts]
  right
  rw [h3.mods]
  exact .inr ⟨n, h, rfl⟩

theorem base_imported {w : Bool} {d : Decl} {k : PyStr} (h : k ∈ basePackages d) : [k] ∈ impsOf (bodyHead w d) := by
  apply mem_bodyHead_imps
  obtain ⟨c, h1, h2, h4, h3⟩ := collect_adds w d
  rw [mem_stmts]
  left
  exact ⟨k, h3.mono k (h4 k h), rfl⟩

theorem definesOf_body {w : Bool} {name : PyStr} {d : Decl} : name ∈ definesOf (moduleBody w name d) := by
  rw [moduleBody_eq, mem_definesOf_append, mem_definesOf_append]
  right; right; simp [definesOf]

/-! ### The program -/

section Program

variable {w : Bool} {s : Schema}

theorem libraries_nodup : (libraries.map (·.1)).Nodup := by decide +kernel

theorem lookup_of_mem {α β : Type} [BEq α] [LawfulBEq α] : ∀ {l : List (α × β)} {a : α} {b : β}, (l.map (·.1)).Nodup → (a, b) ∈ l →
    l.lookup a = some b
  | [], _, _, _, h => by cases h
  | (x, y) :: l, a, b, hn, h => by
    rw [List.map_cons, List.nodup_cons] at hn
    rcases List.mem_cons.1 h with e | h
    · cases e; simp [List.lookup]
    · have : a ≠ x := by
        rintro rfl
        exact hn.1 (List.mem_map.2 ⟨(a, b), ‹(a, b) ∈ l›, rfl⟩)
      rw [List.lookup_cons, beq_false_of_ne this]
      exact lookup_of_mem hn.2 h

theorem mem_of_lookup {α β : Type} [BEq α] [LawfulBEq α] : ∀ {l : List (α × β)} {a : α} {b : β}, l.lookup a = some b → (a, b) ∈ l
  | [], _, _, h => by simp at h
  | (x, y) :: l, a, b, h => by
    rw [List.lookup_cons] at h
    split at h
    · rename_i hx
      have := eq_of_beq hx
      cases h; subst this; exact List.mem_cons_self
    · exact List.mem_cons_of_mem _ (mem_of_lookup h)

theorem modules_keys : (modules w s).map (·.1) =
    libraries.map (·.1) ++ ((s.decls.map fun d => d.1.path) ++ s.apis.map fun a => apiPath a.package) := by
  simp [modules, List.map_append, List.map_map, Function.comp_def]

theorem modules_nodup (hf : FrontEnd w s) : ((modules w s).map (·.1)).Nodup := by
  rw [modules_keys, List.nodup_append]
  refine ⟨libraries_nodup, hf.distinct, ?_⟩
  intro a ha b hb e
  subst e
  obtain ⟨x, hx, rfl⟩ := List.mem_map.1 ha
  exact hf.libraries _ hb x hx rfl

theorem program_iff (hf : FrontEnd w s) {p : Path} {b : List Stmt} : program w s p = some b ↔ (p, b) ∈ modules w s :=
  ⟨mem_of_lookup, lookup_of_mem (modules_nodup hf)⟩

theorem program_decl (hf : FrontEnd w s) {a : Name} {d : Decl} (h : (a, d) ∈ s.decls) :
    program w s a.path = some (moduleBody w a.name d) := by
  rw [program_iff hf]
  simp only [modules, List.mem_append, List.mem_map]
  exact .inl (.inr ⟨(a, d), h, rfl⟩)

theorem program_api (hf : FrontEnd w s) {a : ApiDecl} (h : a ∈ s.apis) :
    program w s (apiPath a.package) = some (apiBody a) := by
  rw [program_iff hf]
  simp only [modules, List.mem_append, List.mem_map]
  exact .inr ⟨a, h, rfl⟩

theorem program_library (hf : FrontEnd w s) {x : Path × List Stmt} (h : x ∈ libraries) : program w s x.1 = some x.2 := by
  rw [program_iff hf]
  simp only [modules, List.mem_append, List.mem_map]
  exact .inl (.inl h)

/-- every module is a library, the module of a symbol or an `api` -/
theorem program_cases (hf : FrontEnd w s) {p : Path} {b : List Stmt} (h : program w s p = some b) :
    (p, b) ∈ libraries ∨ (∃ a d, (a, d) ∈ s.decls ∧ p = a.path ∧ b = moduleBody w a.name d) ∨
      ∃ a ∈ s.apis, p = apiPath a.package ∧ b = apiBody a := by
  rw [program_iff hf] at h
  simp only [modules, List.mem_append, List.mem_map] at h
  rcases h with (h | ⟨⟨a, d⟩, hd, e⟩) | ⟨a, ha, e⟩
  · exact .inl h
  · cases e; exact .inr (.inl ⟨a, d, hd, rfl, rfl⟩)
  · cases e; exact .inr (.inr ⟨a, ha, rfl, rfl⟩)

theorem path_injective (hf : FrontEnd w s) {a b : Name} {d e : Decl} (ha : (a, d) ∈ s.decls) (hb : (b, e) ∈ s.decls)
    (h : a.path = b.path) : a = b ∧ d = e := by
  have hn := (List.nodup_append.1 hf.distinct).1
  have := List.inj_on_of_nodup_map hn ha hb h
  exact Prod.mk.inj this

theorem path_not_library (hf : FrontEnd w s) {a : Name} {d : Decl} (ha : (a, d) ∈ s.decls) : ¬ libraryPath a.path := by
  intro h
  obtain ⟨x, hx, e⟩ := List.mem_map.1 h
  exact hf.libraries a.path (List.mem_append.2 (.inl (List.mem_map.2 ⟨_, ha, rfl⟩))) x hx (by rw [e])

theorem api_not_library (hf : FrontEnd w s) {a : ApiDecl} (ha : a ∈ s.apis) : ¬ libraryPath (apiPath a.package) := by
  intro h
  obtain ⟨x, hx, e⟩ := List.mem_map.1 h
  exact hf.libraries (apiPath a.package) (List.mem_append.2 (.inr (List.mem_map.2 ⟨_, ha, rfl⟩))) x hx (by rw [e])

theorem api_ne_path (hf : FrontEnd w s) {a : ApiDecl} {b : Name} {d : Decl} (ha : a ∈ s.apis) (hb : (b, d) ∈ s.decls) :
    apiPath a.package ≠ b.path := by
  have hn := (List.nodup_append.1 hf.distinct).2.2
  exact fun e => hn b.path (List.mem_map.2 ⟨_, hb, rfl⟩) (apiPath a.package) (List.mem_map.2 ⟨_, ha, rfl⟩) e.symm

theorem library_imports {x : Path × List Stmt} (h : x ∈ libraries) : ∀ p ∈ importsOf x.2, libraryPath p := by
  have : ∀ x ∈ libraries, ∀ p ∈ importsOf x.2, p ∈ libraries.map (·.1) := by decide +kernel
  exact this x h

/-- what a set of modules closed under imports contains -/
theorem reaches_closed {prog : Program} {P : Path → Prop} (hP : ∀ a b, P a → prog a = some b → ∀ p ∈ importsOf b, P p) {a x : Path}
    (h : Reaches prog a x) : P a → P x := by
  induction h with
  | refl => exact id
  | step hb hp _ ih => exact fun ha => ih (hP _ _ ha hb _ hp)

theorem library_program (hf : FrontEnd w s) {p : Path} {b : List Stmt} (hp : libraryPath p) (h : program w s p = some b) :
    (p, b) ∈ libraries := by
  rcases program_cases hf h with h | ⟨a, d, hd, rfl, _⟩ | ⟨a, ha, rfl, _⟩
  · exact h
  · exact absurd hp (path_not_library hf hd)
  · exact absurd hp (api_not_library hf ha)

theorem reaches_library (hf : FrontEnd w s) {a x : Path} (h : Reaches (program w s) a x) (ha : libraryPath a) : libraryPath x :=
  reaches_closed (P := libraryPath) (fun _ _ hp hb => library_imports (library_program hf hp hb)) h ha

/-- a set of declarations, closed under the names in them, together with the libraries -/
theorem reaches_decls (hf : FrontEnd w s) {Q : Name → Prop}
    (hQ : ∀ c d, (c, d) ∈ s.decls → Q c → ∀ n ∈ d.names w, Q n) {a : Name} {d : Decl} (hd : (a, d) ∈ s.decls) (ha : Q a) {x : Path}
    (h : Reaches (program w s) a.path x) : libraryPath x ∨ ∃ c e, (c, e) ∈ s.decls ∧ Q c ∧ x = c.path := by
  apply reaches_closed (P := fun x => libraryPath x ∨ ∃ c e, (c, e) ∈ s.decls ∧ Q c ∧ x = c.path) _ h (.inr ⟨a, d, hd, ha, rfl⟩)
  rintro y b (hy | ⟨c, e, hc, hq, rfl⟩) hb p hp
  · exact .inl (library_imports (library_program hf hy hb) p hp)
  · rw [program_decl hf hc] at hb; cases hb
    rcases importsOf_body hp with h | ⟨n, hn, rfl⟩
    · exact .inl h
    · obtain ⟨e', he'⟩ := hf.resolved c e hc n hn
      exact .inr ⟨n, e', he', hQ c e hc hq n hn, rfl⟩

/-- the modules which are reached are those of the symbols which are named -/
theorem reaches_refers (hf : FrontEnd w s) {a c : Name} {d e : Decl} (hd : (a, d) ∈ s.decls) (hc : (c, e) ∈ s.decls) :
    Reaches (program w s) a.path c.path ↔ Relation.ReflTransGen (s.Refers w) a c := by
  constructor
  · intro h
    rcases reaches_decls hf (Q := fun x => Relation.ReflTransGen (s.Refers w) a x)
      (fun x dx hx hq n hn => hq.tail ⟨dx, hx, hn⟩) hd .refl h with h | ⟨x, dx, hx, hq, e⟩
    · exact absurd h (path_not_library hf hc)
    · rw [(path_injective hf hc hx e).1]; exact hq
  · intro h
    induction h using Relation.ReflTransGen.head_induction_on generalizing d with
    | refl => exact .refl
    | head hab _ ih =>
      obtain ⟨dx, hx, hn⟩ := hab
      obtain ⟨e', he'⟩ := hf.resolved _ dx hx _ hn
      refine .step (program_decl hf hx) ?_ (ih he')
      rw [moduleBody_eq, mem_importsOf_append]
      exact .inl (impsOf_sub (names_imported hn))

theorem isValue_decl {a : Name} (h : s.IsValue a) :
    ∃ d, (a, d) ∈ s.decls ∧ (∀ c, d ≠ .structure c) := by
  cases h with
  | constant h => exact ⟨_, h, by simp⟩
  | enumeration h => exact ⟨_, h, by simp⟩
  | bitmask h => exact ⟨_, h, by simp⟩
  | builtin h _ => exact ⟨_, h, by simp⟩
  | subtype h _ _ => exact ⟨_, h, by simp⟩

theorem value_not_reaches (hf : FrontEnd w s) {a b : Name} {d : Decl} (hd : (a, d) ∈ s.decls) (ha : s.IsValue a)
    (hb : b ∈ d.names w) : ¬ Reaches (program w s) b.path a.path := by
  intro h
  obtain ⟨rank, hr⟩ := hf.values
  obtain ⟨hv, hlt⟩ := hr a d hd ha b hb
  obtain ⟨e, he⟩ := hf.resolved a d hd b hb
  rcases reaches_decls hf (Q := fun x => s.IsValue x ∧ rank x ≤ rank b)
    (fun x dx hx hq n hn => ⟨(hr x dx hx hq.1 n hn).1, le_trans (le_of_lt (hr x dx hx hq.1 n hn).2) hq.2⟩) he ⟨hv, le_refl _⟩ h
    with h | ⟨x, dx, hx, hq, e⟩
  · exact path_not_library hf hd h
  · have := (path_injective hf hd hx e).1
    subst this
    omega

theorem structure_not_reaches (hf : FrontEnd w s) {a b : Name} {c : CompoundDecl} (hd : (a, .structure c) ∈ s.decls)
    (hv : s.IsValue b) : ¬ Reaches (program w s) b.path a.path := by
  intro h
  obtain ⟨rank, hr⟩ := hf.values
  obtain ⟨e, he, _⟩ := isValue_decl hv
  rcases reaches_decls hf (Q := fun x => s.IsValue x) (fun x dx hx hq n hn => (hr x dx hx hq n hn).1) he hv h
    with h | ⟨x, dx, hx, hq, e⟩
  · exact path_not_library hf hd h
  · obtain ⟨h1, h2⟩ := path_injective hf hd hx e
    subst h1 h2
    obtain ⟨d', hd', hne⟩ := isValue_decl hq
    exact hne c (path_injective hf hd hd' rfl).2.symm

theorem table_not_reaches (hf : FrontEnd w s) {a b : Name} {k : Option ExprNames} {cs : List ColumnDecl} {ts : List NativeType}
    (hd : (a, .sqlTable k cs ts) ∈ s.decls) (hb : b ∈ (Decl.sqlTable k cs ts).names w) :
    ¬ Reaches (program w s) b.path a.path := by
  intro h
  obtain ⟨e, he⟩ := hf.resolved a _ hd b hb
  have hnb : ¬ s.IsSql b := by
    intro hs
    rcases hf.tables a _ hd b hb hs with ⟨_, h⟩ | ⟨_, h⟩ <;> cases h
  rcases reaches_decls hf (Q := fun x => ¬ s.IsSql x) (by
      intro x dx hx hq n hn hs
      rcases hf.tables x dx hx n hn hs with ⟨_, rfl⟩ | ⟨_, rfl⟩
      · exact hq (.database hx)
      · exact hq (.subtype hx hn hs)) he hnb h with h | ⟨x, dx, hx, hq, e⟩
  · exact path_not_library hf hd h
  · obtain ⟨h1, h2⟩ := path_injective hf hd hx e
    subst h1 h2
    exact hq (.table hd)

end Program

end Zserio.Imports
