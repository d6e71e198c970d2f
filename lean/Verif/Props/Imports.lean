import Verif.Lemmas.ImportsSound

/-!
C72: the generated modules can be imported, in any order.
-/

set_option linter.unusedSimpArgs false

namespace Zserio.Imports

open Zserio

/-- C72 (without subtypes of `extern` and without cycles through subtypes): the modules generated for an accepted schema can be
imported in any order, also if types refer to each other, and contain what they are generated for. The modules of all symbols which
a declaration names have been imported by its module, so that its methods find them. -/
theorem C72_imports_partial {w : Bool} {s : Schema} (hf : FrontEnd w s) (hx : NoExtern s) (hc : NoSubtypeCycle w s)
    (ps : List Path) (hps : ∀ p ∈ ps, IsModule s p) :
    ∃ st, ImportsAll (program w s) {} ps st ∧
      (∀ p ∈ ps, p ∈ st.complete) ∧
      (∀ a d, (a, d) ∈ s.decls → a.path ∈ ps → (a.path, a.name) ∈ st.defined) ∧
      (∀ a d, (a, d) ∈ s.decls → a.path ∈ ps → ∀ b ∈ d.names w, .imp b.path ∈ moduleBody w a.name d ∧ b.path ∈ st.complete ∧
        (b.path, b.name) ∈ st.defined) ∧
      (∀ a ∈ s.apis, apiPath a.package ∈ ps → ∀ n ∈ a.symbols, (apiPath a.package, n.name) ∈ st.defined) := by
  obtain ⟨st, h1, h2, _, h3⟩ := importsAll_succeeds (program_sound hf hx hc) ps {} ⟨by simp, by simp⟩ (by
    intro p hp
    rcases hps p hp with ⟨a, d, hd, rfl⟩ | ⟨a, ha, rfl⟩
    · exact ⟨_, program_decl hf hd⟩
    · exact ⟨_, program_api hf ha⟩)
  refine ⟨st, h1, h3, ?_, ?_, ?_⟩
  · intro a d hd hp
    obtain ⟨b, hb, _, hdef⟩ := h2.complete _ (h3 _ hp)
    rw [program_decl hf hd] at hb; cases hb
    exact hdef _ definesOf_body
  · intro a d hd hp b hb
    have himp := names_imported hb
    obtain ⟨body, hbody, hst, _⟩ := h2.complete _ (h3 _ hp)
    rw [program_decl hf hd] at hbody; cases hbody
    rw [moduleBody_eq] at hst ⊢
    have hc := (h2.started _ (hst _ (mem_importsOf_append.2 (.inl (impsOf_sub himp))))).resolve_right (by simp)
    refine ⟨List.mem_append.2 (.inl ?_), hc, ?_⟩
    · simp only [impsOf, List.mem_filterMap] at himp
      obtain ⟨x, hx, he⟩ := himp
      split at he
      · cases he; exact hx
      · cases he
    · obtain ⟨e, he⟩ := hf.resolved a d hd b hb
      obtain ⟨body, hbody, _, hdef⟩ := h2.complete _ hc
      rw [program_decl hf he] at hbody; cases hbody
      exact hdef _ definesOf_body
  · intro a ha hp n hn
    obtain ⟨b, hb, _, hdef⟩ := h2.complete _ (h3 _ hp)
    rw [program_api hf ha] at hb; cases hb
    refine hdef _ ?_
    rw [apiBody, mem_definesOf_append]
    right
    simp only [definesOf, List.filterMap_map, List.mem_filterMap, Function.comp_def, Option.some.injEq]
    exact ⟨n, hn, rfl⟩

theorem not_sql {w : Bool} {s : Schema} (hf : FrontEnd w s) {c a : Name} (h : Relation.ReflTransGen (s.Refers w) c a)
    (hc : ¬ s.IsSql c) : ¬ s.IsSql a := by
  induction h with
  | refl => exact hc
  | tail _ hxy ih =>
    intro hs
    obtain ⟨dx, hx, hy⟩ := hxy
    rcases hf.tables _ dx hx _ hy hs with ⟨_, rfl⟩ | ⟨_, rfl⟩
    · exact ih (.database hx)
    · exact ih (.subtype hx hy hs)

/-- C72 (what is missing): if a type leads to another name for itself then its module cannot be imported first. -/
theorem C72_subtype_cycle {w : Bool} {s : Schema} (hf : FrontEnd w s) {a b : Name} {t : NativeType}
    (ha : (a, Decl.subtype t) ∈ s.decls) (hb : b ∈ t.names) (hne : a ≠ b) (hr : Relation.ReflTransGen (s.Refers w) b a) :
    ¬ ∃ st, Imports (program w s) {} b.path st := by
  obtain ⟨d, hd⟩ := hf.resolved a _ ha b hb
  have hnt : ∀ k cs ts, d ≠ .sqlTable k cs ts := by
    rintro k cs ts rfl
    rcases hr.cases_head with rfl | ⟨c, ⟨e, he, hc⟩, hca⟩
    · exact hne rfl
    · have := (path_injective hf he hd rfl).2
      subst this
      have hnc : ¬ s.IsSql c := fun hs => by
        rcases hf.tables b _ he c hc hs with ⟨_, h⟩ | ⟨_, h⟩ <;> cases h
      have hna : ¬ s.IsSql a := not_sql hf hca hnc
      exact hna (.subtype ha hb (.table hd))
  have hbody : ∃ imps : List Path, bodyHead w d = imps.map .imp := by
    have hs : ∀ c : Collector, c.stmts = (c.packages.map (fun p => [p]) ++ c.types ++ c.symbols).map .imp := by
      intro c; simp [Collector.stmts, List.map_append, List.map_map, Function.comp_def]
    cases d
    case sqlTable k cs ts => exact absurd rfl (hnt k cs ts)
    case sqlDatabase ts =>
      simp only [bodyHead]
      rw [hs]
      by_cases hw : w = true
      · exact ⟨_, by rw [if_pos hw]; exact (List.map_append (f := Stmt.imp) (l₂ := [[py! "zserio"]])).symm⟩
      · exact ⟨_, by rw [if_neg hw, List.append_nil]⟩
    all_goals exact ⟨_, hs _⟩
  obtain ⟨imps, himps⟩ := hbody
  have hpa : a.path ≠ b.path := fun e => hne (path_injective hf ha hd e).1
  refine import_fails (program_decl hf ha) (N := b.name) ?_ (imps := imps)
    (by rw [program_decl hf hd, moduleBody_eq, himps]) importsOf_evals hpa ((reaches_refers hf hd ha).2 hr)
  rw [moduleBody_eq]
  refine List.mem_append.2 (.inr (List.mem_append.2 (.inl ?_)))
  cases t <;> simp [NativeType.names] at hb <;> subst hb <;> simp [bodyEvals, NativeType.evals, NativeType.fullName]

/-- C72 (what is missing): the module of another name for `extern` can never be imported. -/
theorem C72_extern {w : Bool} {s : Schema} (hf : FrontEnd w s) {a : Name} (ha : (a, Decl.subtype .bitBuffer) ∈ s.decls) :
    ∀ st st', Imports (program w s) st a.path st' → a.path ∈ st.started := by
  intro st st' h
  cases h with
  | cached h => exact h
  | execute _ hb hrun =>
    rw [program_decl hf ha] at hb; cases hb
    simp only [moduleBody, collect, Collector.importType, Collector.stmts, NativeType.evals, NativeType.fullName, List.map_nil,
      Option.toList, List.map_cons, List.nil_append, List.cons_append] at hrun
    cases hrun with
    | eval hv _ =>
      obtain ⟨⟨x, hx, _⟩, _⟩ := hv
      cases hx

/-- C72 (exactness): without other names for `extern`, each module can be imported first exactly if no type leads to another
name for itself. -/
theorem C72_exact {w : Bool} {s : Schema} (hf : FrontEnd w s) (hx : NoExtern s)
    (hself : ∀ a t, (a, Decl.subtype t) ∈ s.decls → a ∉ t.names) :
    (∀ p, IsModule s p → ∃ st, Imports (program w s) {} p st) ↔ NoSubtypeCycle w s := by
  constructor
  · intro h a t b ha hb hr
    obtain ⟨d, hd⟩ := hf.resolved a _ ha b hb
    exact C72_subtype_cycle hf ha hb (fun e => hself a t ha (e ▸ hb)) hr (h b.path (.inl ⟨b, d, hd, rfl⟩))
  · intro hc p hp
    obtain ⟨st, h, _⟩ := C72_imports_partial hf hx hc [p] (by simpa using hp)
    cases h with
    | cons h _ => exact ⟨_, h⟩

namespace Demo

def name (module name : PyStr) : Name := ⟨[py! "p"], module, name⟩

def width := name (py! "width") (py! "WIDTH")
def color := name (py! "color") (py! "Color")
def ident := name (py! "alias") (py! "Alias")
def parent := name (py! "parent") (py! "Parent")
def child := name (py! "child") (py! "Child")
def table := name (py! "table") (py! "Table")
def database := name (py! "database") (py! "Database")

/-- ```
package p;
const int32 WIDTH = numbits(10);
subtype int32 Alias;
enum bit<WIDTH> Color { ... };
struct Parent { Child(this) child; Color color = Color.RED; Alias value; };
struct Child(Parent parent) { int8 value; optional Parent next; };
sql_table Table { int32 id; Parent parent; };
sql_database Database { Table table; };
``` -/
def schema : Schema where
  decls := [
    (width, .constant { runtime := [py! "numbits"] }),
    (ident, .subtype .builtin),
    (color, .enumeration .builtin { symbols := [width] } false),
    (parent, .structure { fields := [{ type := .user child, parameters := [.user parent] },
      { type := .user color, initializer := some { types := [color] } }, { type := .subtype ident true }] }),
    (child, .structure { parameters := [.user parent], fields := [{ type := .builtin }, { type := .user parent, optional := true }] }),
    (table, .sqlTable none [{ type := .builtin }, { type := .user parent, isBlob := true }] []),
    (database, .sqlDatabase [.user table])]
  apis := [{ package := [py! "p"], symbols := [width, ident, color, parent, child, table, database] }]

theorem isSql {a : Name} (h : schema.IsSql a) : a = table ∨ a = database := by
  cases h with
  | table h => simp [schema] at h; exact .inl h.1
  | database h => simp [schema] at h; exact .inr h.1
  | subtype h hb _ => simp [schema] at h; obtain ⟨rfl, rfl⟩ := h; cases hb

theorem isValue {a : Name} (h : schema.IsValue a) : a = width ∨ a = ident ∨ a = color := by
  cases h with
  | constant h => simp [schema] at h; exact .inl h.1
  | enumeration h => simp [schema] at h; exact .inr (.inr h.1)
  | bitmask h => simp [schema] at h
  | builtin h _ => simp [schema] at h; exact .inr (.inl h.1)
  | subtype h hb _ => simp [schema] at h; obtain ⟨rfl, rfl⟩ := h; cases hb

theorem frontEnd : FrontEnd true schema where
  resolved := by
    have : ∀ x ∈ schema.decls, ∀ b ∈ x.2.names true, ∃ y ∈ schema.decls, y.1 = b := by decide +kernel
    intro a d h b hb
    obtain ⟨y, hy, rfl⟩ := this (a, d) h b hb
    exact ⟨y.2, hy⟩
  distinct := by decide +kernel
  libraries := by decide +kernel
  values := by
    refine ⟨fun n => if n = color then 1 else 0, ?_⟩
    intro a d h ha b hb
    rcases isValue ha with rfl | rfl | rfl
    · have : d = .constant { runtime := [py! "numbits"] } := by simpa [schema, width, ident, color, parent, child, table, database, name] using h
      subst this; cases hb
    · have : d = .subtype .builtin := by simpa [schema, width, ident, color, parent, child, table, database, name] using h
      subst this; cases hb
    · have : d = .enumeration .builtin { symbols := [width] } false := by simpa [schema, width, ident, color, parent, child, table, database, name] using h
      subst this
      simp [Decl.names, NativeType.names, ExprNames.names] at hb
      subst hb
      exact ⟨.constant (e := { runtime := [py! "numbits"] }) (by simp [schema]), by decide +kernel⟩
  initializers := by
    intro a c h f hf e he b hb
    simp only [schema, List.mem_cons, Prod.mk.injEq, reduceCtorEq, and_false, false_or, Decl.structure.injEq, List.not_mem_nil, or_false] at h
    rcases h with ⟨rfl, rfl⟩ | ⟨rfl, rfl⟩
    · simp only [List.mem_cons, List.not_mem_nil, or_false] at hf
      rcases hf with rfl | rfl | rfl
      · cases he
      · cases he
        simp [ExprNames.names] at hb; subst hb
        exact .enumeration (t := .builtin) (e := { symbols := [width] }) (b := false) (by simp [schema])
      · cases he
    · simp only [List.mem_cons, List.not_mem_nil, or_false] at hf
      rcases hf with rfl | rfl <;> cases he
  builtins := by
    intro a c h f hf n he
    simp only [schema, List.mem_cons, Prod.mk.injEq, reduceCtorEq, and_false, false_or, Decl.structure.injEq, List.not_mem_nil, or_false] at h
    rcases h with ⟨rfl, rfl⟩ | ⟨rfl, rfl⟩
    · simp only [List.mem_cons, List.not_mem_nil, or_false] at hf
      rcases hf with rfl | rfl | rfl
      · cases he
      · cases he
      · cases he
        exact .builtin (t := .builtin) (by simp [schema]) rfl
    · simp only [List.mem_cons, List.not_mem_nil, or_false] at hf
      rcases hf with rfl | rfl <;> cases he
  tables := by
    have : ∀ x ∈ schema.decls, ∀ b ∈ x.2.names true, b = table ∨ b = database → x.2 = .sqlDatabase [.user table] := by decide +kernel
    intro a d h b hb hs
    exact .inl ⟨_, this (a, d) h b hb (isSql hs)⟩
  columns := by
    intro a k cs ts h c hc
    simp [schema] at h
    obtain ⟨_, _, rfl, _⟩ := h
    simp at hc
    rcases hc with rfl | rfl <;> simp
  runtime := by
    intro a d h e he r hr
    rcases he with rfl | ⟨c, rfl, f, hf, he⟩
    · simp [schema] at h
      obtain ⟨_, rfl⟩ := h
      simp at hr; exact .inr (.inl hr)
    · simp only [schema, List.mem_cons, Prod.mk.injEq, reduceCtorEq, and_false, false_or, Decl.structure.injEq, List.not_mem_nil, or_false] at h
      rcases h with ⟨rfl, rfl⟩ | ⟨rfl, rfl⟩
      · simp only [List.mem_cons, List.not_mem_nil, or_false] at hf
        rcases hf with rfl | rfl | rfl
        · cases he
        · cases he; cases hr
        · cases he
      · simp only [List.mem_cons, List.not_mem_nil, or_false] at hf
        rcases hf with rfl | rfl <;> cases he
  apis := by
    have : ∀ a ∈ schema.apis, (∀ p ∈ a.subpackages, ∃ b ∈ schema.apis, b.package = p) ∧
        ∀ n ∈ a.symbols, ∃ d ∈ schema.decls, d.1 = n := by decide +kernel
    intro a ha
    refine ⟨(this a ha).1, fun n hn => ?_⟩
    obtain ⟨d, hd, rfl⟩ := (this a ha).2 n hn
    exact ⟨d.2, hd⟩

/-- the hypotheses are met although `Parent` and `Child` refer to each other: the module of the child can be imported before
the one of the parent, the other way round, and through `api` -/
example : (∃ st, ImportsAll (program true schema) {} [child.path, parent.path] st) ∧
    (∃ st, ImportsAll (program true schema) {} [parent.path, child.path] st) ∧
    ∃ st, ImportsAll (program true schema) {} [apiPath [py! "p"]] st ∧ (apiPath [py! "p"], py! "Child") ∈ st.defined := by
  have hx : NoExtern schema := by intro a h; simp [schema] at h
  have hc : NoSubtypeCycle true schema := by
    intro a t b h hb
    simp [schema] at h
    obtain ⟨rfl, rfl⟩ := h; cases hb
  have hp : IsModule schema parent.path := .inl ⟨parent, _, List.mem_cons_of_mem _ (List.mem_cons_of_mem _ (List.mem_cons_of_mem _
    List.mem_cons_self)), rfl⟩
  have hch : IsModule schema child.path := .inl ⟨child, _, List.mem_cons_of_mem _ (List.mem_cons_of_mem _ (List.mem_cons_of_mem _
    (List.mem_cons_of_mem _ List.mem_cons_self))), rfl⟩
  have hapi : IsModule schema (apiPath [py! "p"]) := .inr ⟨_, List.mem_cons_self, rfl⟩
  obtain ⟨s1, h1, _⟩ := C72_imports_partial frontEnd hx hc [child.path, parent.path] (by simp [hp, hch])
  obtain ⟨s2, h2, _⟩ := C72_imports_partial frontEnd hx hc [parent.path, child.path] (by simp [hp, hch])
  obtain ⟨s3, h3, _, _, h4⟩ := C72_imports_partial frontEnd hx hc [apiPath [py! "p"]] (by simp [hapi])
  exact ⟨⟨s1, h1⟩, ⟨s2, h2⟩, s3, h3, h4.2 _ List.mem_cons_self (by simp) child (by simp)⟩

def node := name (py! "node") (py! "Node")
def link := name (py! "link") (py! "Link")

/-- `struct Node { optional Link next; }; subtype Node Link; subtype extern Blob;` -/
def recursive : Schema where
  decls := [(node, .structure { fields := [{ type := .subtype link false, optional := true }] }), (link, .subtype (.user node)),
    (name (py! "blob") (py! "Blob"), .subtype .bitBuffer)]

theorem recursive_noSql (b : Name) : ¬ recursive.IsSql b := by
  intro hs
  induction hs with
  | table h => simp [recursive] at h
  | database h => simp [recursive] at h
  | subtype _ _ _ ih => exact ih

theorem recursive_frontEnd : FrontEnd false recursive where
  resolved := by
    have : ∀ x ∈ recursive.decls, ∀ b ∈ x.2.names false, ∃ y ∈ recursive.decls, y.1 = b := by decide +kernel
    intro a d h b hb
    obtain ⟨y, hy, rfl⟩ := this (a, d) h b hb
    exact ⟨y.2, hy⟩
  distinct := by decide +kernel
  libraries := by decide +kernel
  values := by
    refine ⟨fun _ => 0, ?_⟩
    have key : ∀ a, recursive.IsValue a → a = name (py! "blob") (py! "Blob") := by
      intro a ha
      induction ha with
      | constant h => simp [recursive] at h
      | enumeration h => simp [recursive] at h
      | bitmask h => simp [recursive] at h
      | builtin h hn =>
        simp [recursive] at h
        rcases h with ⟨_, rfl⟩ | ⟨rfl, _⟩
        · cases hn
        · rfl
      | subtype h hb _ ih =>
        simp [recursive] at h
        rcases h with ⟨_, rfl⟩ | ⟨rfl, rfl⟩
        · simp [NativeType.names] at hb; subst hb; exact absurd ih (by decide +kernel)
        · cases hb
    intro a d h ha b hb
    have := key a ha; subst this
    simp [recursive, node, link, name] at h
    subst h; cases hb
  initializers := by
    intro a c h f hf e he
    simp [recursive] at h
    obtain ⟨_, rfl⟩ := h
    simp at hf; subst hf; cases he
  builtins := by
    intro a c h f hf n he
    simp [recursive] at h
    obtain ⟨_, rfl⟩ := h
    simp at hf; subst hf; simp at he
  tables := by
    intro a d h b hb hs
    exact absurd hs (recursive_noSql b)
  columns := by intro a k cs ts h; simp [recursive] at h
  runtime := by
    intro a d h e he r hr
    rcases he with rfl | ⟨c, rfl, f, hf, he⟩
    · simp [recursive] at h
    · simp [recursive] at h
      obtain ⟨_, rfl⟩ := h
      simp at hf; subst hf; cases he
  apis := by simp [recursive]

/-- a structure with a field whose type is another name for the structure cannot be imported -/
theorem C72_recursive : ¬ ∃ st, Imports (program false recursive) {} node.path st := by
  refine C72_subtype_cycle recursive_frontEnd (a := link) (b := node) (t := .user node) (by simp [recursive]) (by simp [NativeType.names])
    (by decide +kernel) (.single ⟨_, List.mem_cons_self, by decide +kernel⟩)

/-- the module of another name for `extern` cannot be imported -/
theorem C72_blob : ¬ ∃ st, Imports (program false recursive) {} [py! "p", py! "blob"] st := by
  rintro ⟨st, h⟩
  have := C72_extern recursive_frontEnd (a := name (py! "blob") (py! "Blob")) (by simp [recursive]) {} st h
  cases this

end Demo

end Zserio.Imports
