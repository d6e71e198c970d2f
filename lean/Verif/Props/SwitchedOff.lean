import Verif.Spec.SwitchedOff
import Verif.Props.Imports

/-!
C118: the generated modules can be imported if code is switched off.
-/

set_option linter.unusedSimpArgs false

namespace Zserio.Imports

open Zserio

theorem emitted_iff {o : Emitters.Options} {d : Decl} : d.emitted o = true ↔ ¬ SwitchedOff o d := by
  constructor
  · rintro h (h' | h' | h' | h') <;> simp [Decl.emitted, h'] at h
  · intro h
    cases d <;> simp only [Decl.emitted] <;> by_contra hc <;> simp only [Bool.not_eq_true] at hc
    · exact h (.service hc)
    · exact h (.pubsub hc)
    · exact h (.table hc)
    · exact h (.database hc)

theorem mem_emitted {o : Emitters.Options} {s : Schema} {a : Name} {d : Decl} :
    (a, d) ∈ (s.emitted o).decls ↔ (a, d) ∈ s.decls ∧ ¬ SwitchedOff o d := by
  simp [Schema.emitted, List.mem_filter, emitted_iff]

theorem mem_emitted_apis {o : Emitters.Options} {s : Schema} {b : ApiDecl} (h : b ∈ (s.emitted o).apis) :
    ∃ a ∈ s.apis, b.package = a.package ∧ b.subpackages = a.subpackages ∧
      ∀ n, n ∈ b.symbols ↔ n ∈ a.symbols ∧ ∃ d, (n, d) ∈ s.decls ∧ ¬ SwitchedOff o d := by
  simp only [Schema.emitted, List.mem_map] at h
  obtain ⟨a, ha, rfl⟩ := h
  refine ⟨a, ha, rfl, rfl, fun n => ?_⟩
  simp only [List.mem_filter, Schema.inApi, List.any_eq_true, Bool.and_eq_true, decide_eq_true_eq, emitted_iff, Prod.exists]
  constructor
  · rintro ⟨h1, x, d, h2, rfl, h3⟩; exact ⟨h1, d, h2, h3⟩
  · rintro ⟨h1, d, h2, h3⟩; exact ⟨h1, n, d, h2, rfl, h3⟩

theorem emitted_isValue {o : Emitters.Options} {s : Schema} {a : Name} : (s.emitted o).IsValue a ↔ s.IsValue a := by
  constructor
  · intro h
    induction h with
    | constant h => exact .constant (mem_emitted.1 h).1
    | enumeration h => exact .enumeration (mem_emitted.1 h).1
    | bitmask h => exact .bitmask (mem_emitted.1 h).1
    | builtin h hn => exact .builtin (mem_emitted.1 h).1 hn
    | subtype h hb _ ih => exact .subtype (mem_emitted.1 h).1 hb ih
  · intro h
    induction h with
    | constant h => exact .constant (mem_emitted.2 ⟨h, by rintro ⟨⟩⟩)
    | enumeration h => exact .enumeration (mem_emitted.2 ⟨h, by rintro ⟨⟩⟩)
    | bitmask h => exact .bitmask (mem_emitted.2 ⟨h, by rintro ⟨⟩⟩)
    | builtin h hn => exact .builtin (mem_emitted.2 ⟨h, by rintro ⟨⟩⟩) hn
    | subtype h hb _ ih => exact .subtype (mem_emitted.2 ⟨h, by rintro ⟨⟩⟩) hb ih

theorem emitted_isSql {o : Emitters.Options} {s : Schema} {a : Name} (h : (s.emitted o).IsSql a) : s.IsSql a := by
  induction h with
  | table h => exact .table (mem_emitted.1 h).1
  | database h => exact .database (mem_emitted.1 h).1
  | subtype h hb _ ih => exact .subtype (mem_emitted.1 h).1 hb ih

theorem emitted_keys {o : Emitters.Options} {s : Schema} :
    List.Sublist (((s.emitted o).decls.map fun d => d.1.path) ++ (s.emitted o).apis.map fun a => apiPath a.package)
      ((s.decls.map fun d => d.1.path) ++ s.apis.map fun a => apiPath a.package) := by
  refine List.Sublist.append ?_ ?_
  · exact (List.filter_sublist).map _
  · simp [Schema.emitted, List.map_map, Function.comp_def]

theorem emitted_frontEnd {w : Bool} {o : Emitters.Options} {s : Schema} (hf : FrontEnd w s) (hn : ¬ NamesSwitchedOff w o s) :
    FrontEnd w (s.emitted o) where
  resolved := by
    intro a d h b hb
    obtain ⟨h1, h2⟩ := mem_emitted.1 h
    obtain ⟨e, he⟩ := hf.resolved a d h1 b hb
    exact ⟨e, mem_emitted.2 ⟨he, fun hs => hn ⟨a, d, b, e, h1, h2, hb, he, hs⟩⟩⟩
  distinct := hf.distinct.sublist emitted_keys
  libraries := fun p hp => hf.libraries p (emitted_keys.subset hp)
  values := by
    obtain ⟨rank, h⟩ := hf.values
    refine ⟨rank, fun a d hd ha b hb => ?_⟩
    have := h a d (mem_emitted.1 hd).1 (emitted_isValue.1 ha) b hb
    exact ⟨emitted_isValue.2 this.1, this.2⟩
  initializers := fun a c h f hff e he b hb => emitted_isValue.2 (hf.initializers a c (mem_emitted.1 h).1 f hff e he b hb)
  builtins := fun a c h f hff n hn => emitted_isValue.2 (hf.builtins a c (mem_emitted.1 h).1 f hff n hn)
  tables := fun a d h b hb hs => hf.tables a d (mem_emitted.1 h).1 b hb (emitted_isSql hs)
  columns := fun a k cs ts h => hf.columns a k cs ts (mem_emitted.1 h).1
  runtime := fun a d h => hf.runtime a d (mem_emitted.1 h).1
  apis := by
    intro b hb
    obtain ⟨a, ha, h1, h2, h3⟩ := mem_emitted_apis hb
    refine ⟨fun p hp => ?_, fun n hn => ?_⟩
    · obtain ⟨c, hc, rfl⟩ := (hf.apis a ha).1 p (h2 ▸ hp)
      exact ⟨_, List.mem_map.2 ⟨c, hc, rfl⟩, rfl⟩
    · obtain ⟨_, d, h4, h5⟩ := (h3 n).1 hn
      exact ⟨d, mem_emitted.2 ⟨h4, h5⟩⟩

theorem emitted_noCycle {w : Bool} {o : Emitters.Options} {s : Schema} (hc : NoSubtypeCycle w s) : NoSubtypeCycle w (s.emitted o) := by
  intro a t b ha hb hr
  refine hc a t b (mem_emitted.1 ha).1 hb (Relation.ReflTransGen.mono (p := s.Refers w) ?_ _ _ hr)
  rintro x y ⟨d, hd, hy⟩
  exact ⟨d, (mem_emitted.1 hd).1, hy⟩

/-- C118: a module exists exactly if it is wanted: nothing is written for what is switched off, and nothing else is missing. -/
theorem C118_written {w : Bool} {o : Emitters.Options} {s : Schema} (hf : FrontEnd w s) {a : Name} {d : Decl} (h : (a, d) ∈ s.decls) :
    ((program w (s.emitted o) a.path).isSome ↔ ¬ SwitchedOff o d) ∧
      (¬ SwitchedOff o d → program w (s.emitted o) a.path = program w s a.path) := by
  have hk : ((modules w (s.emitted o)).map (·.1)).Nodup := by
    have := modules_nodup hf
    rw [modules_keys] at this ⊢
    exact this.sublist (emitted_keys.append_left _)
  have key : ¬ SwitchedOff o d → program w (s.emitted o) a.path = some (moduleBody w a.name d) := by
    intro hs
    refine lookup_of_mem hk ?_
    simp only [modules, List.mem_append, List.mem_map]
    exact .inl (.inr ⟨(a, d), mem_emitted.2 ⟨h, hs⟩, rfl⟩)
  refine ⟨⟨fun hp => ?_, fun hs => by rw [key hs]; rfl⟩, fun hs => by rw [key hs, program_decl hf h]⟩
  obtain ⟨b, hb⟩ := Option.isSome_iff_exists.1 hp
  have := mem_of_lookup hb
  simp only [modules, List.mem_append, List.mem_map, Prod.mk.injEq, Prod.exists] at this
  rcases this with (h' | ⟨c, e, hc, hp, _⟩) | ⟨c, hc, hp, _⟩
  · exact absurd (List.mem_map.2 ⟨_, h', rfl⟩) (path_not_library hf h)
  · obtain ⟨h1, h2⟩ := mem_emitted.1 hc
    have := path_injective hf h1 h hp
    rwa [this.2] at h2
  · obtain ⟨c', hc', e, _⟩ := mem_emitted_apis hc
    exact absurd (e ▸ hp) (api_ne_path hf hc' h)

/-- C118 (if nothing which is wanted names something which is switched off, and with the conditions of C72): the modules which are wanted can be
imported in any order and contain what they are generated for, and each module `api` contains the symbols which are wanted. -/
theorem C118_imports_partial {w : Bool} {o : Emitters.Options} {s : Schema} (hf : FrontEnd w s) (hx : NoExtern s) (hc : NoSubtypeCycle w s)
    (hn : ¬ NamesSwitchedOff w o s) (ps : List Path) (hps : ∀ p ∈ ps, IsWanted o s p) :
    ∃ st, ImportsAll (program w (s.emitted o)) {} ps st ∧
      (∀ p ∈ ps, p ∈ st.complete) ∧
      (∀ a d, (a, d) ∈ s.decls → ¬ SwitchedOff o d → a.path ∈ ps → (a.path, a.name) ∈ st.defined ∧
        ∀ b ∈ d.names w, b.path ∈ st.complete ∧ (b.path, b.name) ∈ st.defined) ∧
      (∀ a ∈ s.apis, apiPath a.package ∈ ps → ∀ n ∈ a.symbols, ∀ d, (n, d) ∈ s.decls → ¬ SwitchedOff o d →
        (apiPath a.package, n.name) ∈ st.defined) := by
  obtain ⟨st, h1, h2, h3, h4, h5⟩ := C72_imports_partial (emitted_frontEnd hf hn) (s := s.emitted o)
    (fun a h => hx a (mem_emitted.1 h).1) (emitted_noCycle hc) ps (by
      intro p hp
      rcases hps p hp with ⟨a, d, h, hs, rfl⟩ | ⟨a, ha, rfl⟩
      · exact .inl ⟨a, d, mem_emitted.2 ⟨h, hs⟩, rfl⟩
      · exact .inr ⟨_, List.mem_map.2 ⟨a, ha, rfl⟩, rfl⟩)
  refine ⟨st, h1, h2, ?_, ?_⟩
  · intro a d h hs hp
    exact ⟨h3 a d (mem_emitted.2 ⟨h, hs⟩) hp, fun b hb => (h4 a d (mem_emitted.2 ⟨h, hs⟩) hp b hb).2⟩
  · intro a ha hp n hn d hd hs
    refine h5 _ (List.mem_map.2 ⟨a, ha, rfl⟩) hp n ?_
    simp only [List.mem_filter, Schema.inApi, List.any_eq_true, Bool.and_eq_true, decide_eq_true_eq, emitted_iff, Prod.exists]
    exact ⟨hn, n, d, hd, rfl, hs⟩

/-- C118: if only the code of tables and databases is switched off, then only other names for these can name something which is switched off. -/
theorem C118_only_subtypes {w : Bool} {o : Emitters.Options} {s : Schema} (hf : FrontEnd w s) (hsv : o.withServiceCode = true)
    (hps : o.withPubsubCode = true) (h : NamesSwitchedOff w o s) :
    ∃ a t b e, (a, Decl.subtype t) ∈ s.decls ∧ b ∈ t.names ∧ (b, e) ∈ s.decls ∧ SwitchedOff o e ∧ s.IsSql b := by
  obtain ⟨a, d, b, e, h1, h2, hb, he, h3⟩ := h
  have hs : s.IsSql b ∧ o.withSqlCode = false := by
    cases h3 with
    | table ho => exact ⟨.table he, ho⟩
    | database ho => exact ⟨.database he, ho⟩
    | service ho => rw [hsv] at ho; cases ho
    | pubsub ho => rw [hps] at ho; cases ho
  rcases hf.tables a d h1 b hb hs.1 with ⟨ts, rfl⟩ | ⟨t, rfl⟩
  · exact absurd (.database hs.2) h2
  · exact ⟨a, t, b, e, h1, hb, he, h3, hs.1⟩

/-- C118 (what is missing): nothing which leads to a missing module can be imported: neither the module of a declaration which names, also
through others, something which is switched off, nor a module `api` with its symbol. -/
theorem C118_lost {w : Bool} {o : Emitters.Options} {s : Schema} (hf : FrontEnd w s) {a b c : Name} {d e f : Decl}
    (ha : (a, d) ∈ s.decls) (hr : Relation.ReflTransGen ((s.emitted o).Refers w) a b) (hb : (b, e) ∈ s.decls) (hs : ¬ SwitchedOff o e)
    (hbc : c ∈ e.names w) (hc : (c, f) ∈ s.decls) (hoff : SwitchedOff o f) :
    (¬ ∃ st, Imports (program w (s.emitted o)) {} a.path st) ∧
      ∀ x ∈ s.apis, a ∈ x.symbols → ¬ SwitchedOff o d → ¬ ∃ st, Imports (program w (s.emitted o)) {} (apiPath x.package) st := by
  have hnone : program w (s.emitted o) c.path = none := by
    have := (C118_written (o := o) hf hc).1
    cases h : program w (s.emitted o) c.path with
    | none => rfl
    | some _ => exact absurd hoff (this.1 (by simp [h]))
  have himp : ∀ {x y : Name} {dx : Decl}, (x, dx) ∈ s.decls → ¬ SwitchedOff o dx → y ∈ dx.names w →
      ∃ body, program w (s.emitted o) x.path = some body ∧ y.path ∈ importsOf body := by
    intro x y dx hx hsx hy
    refine ⟨_, ((C118_written hf hx).2 hsx).trans (program_decl hf hx), ?_⟩
    rw [moduleBody_eq, mem_importsOf_append]
    exact .inl (impsOf_sub (names_imported hy))
  have hreach : Reaches (program w (s.emitted o)) a.path c.path := by
    induction hr using Relation.ReflTransGen.head_induction_on generalizing d with
    | refl =>
      obtain ⟨body, h1, h2⟩ := himp hb hs hbc
      exact .step h1 h2 .refl
    | head hxy _ ih =>
      obtain ⟨dx, hdx, hy⟩ := hxy
      obtain ⟨h1, h2⟩ := mem_emitted.1 hdx
      obtain ⟨body, h3, h4⟩ := himp h1 h2 hy
      obtain ⟨dy, hdy⟩ := hf.resolved _ dx h1 _ hy
      exact .step h3 h4 (ih hdy)
  have key : ∀ p, Reaches (program w (s.emitted o)) p c.path → ¬ ∃ st, Imports (program w (s.emitted o)) {} p st := by
    rintro p hp ⟨st, hst⟩
    obtain ⟨_, h2, h3⟩ := hst.closed
    have hcl := h3 [] (by intro x hx; cases hx)
    have hin : c.path ∈ st.started := by
      clear hst hreach
      revert h2
      generalize hq : c.path = q at hp
      induction hp with
      | refl => exact id
      | step hbody himp' _ ih =>
        intro h2
        rcases hcl _ h2 with h | ⟨body, e1, e2⟩
        · cases h
        · rw [hbody] at e1; cases e1
          exact ih hq (e2 _ himp')
    rcases hcl _ hin with h | ⟨body, e1, _⟩
    · cases h
    · rw [hnone] at e1; cases e1
  refine ⟨key _ hreach, fun x hx hax hsd => key _ ?_⟩
  have hk : ((modules w (s.emitted o)).map (·.1)).Nodup := by
    have := modules_nodup hf
    rw [modules_keys] at this ⊢
    exact this.sublist (emitted_keys.append_left _)
  have hprog : program w (s.emitted o) (apiPath x.package) = some (apiBody { x with symbols := x.symbols.filter (s.inApi o) }) := by
    refine lookup_of_mem hk ?_
    simp only [modules, List.mem_append, List.mem_map]
    exact .inr ⟨_, List.mem_map.2 ⟨x, hx, rfl⟩, rfl⟩
  refine .step hprog ?_ hreach
  rw [apiBody, mem_importsOf_append]
  right
  simp only [importsOf, List.filterMap_map, List.mem_filterMap, Function.comp_def, Option.some.injEq, List.mem_filter, Schema.inApi,
    List.any_eq_true, Bool.and_eq_true, decide_eq_true_eq, emitted_iff, Prod.exists]
  exact ⟨a, ⟨hax, a, d, ha, rfl, hsd⟩, rfl⟩

/-- C118 (exactness): under the conditions of C72, all wanted modules can be imported exactly if nothing which is wanted names something which
is switched off. -/
theorem C118_exact {w : Bool} {o : Emitters.Options} {s : Schema} (hf : FrontEnd w s) (hx : NoExtern s) (hc : NoSubtypeCycle w s) :
    (∀ p, IsWanted o s p → ∃ st, Imports (program w (s.emitted o)) {} p st) ↔ ¬ NamesSwitchedOff w o s := by
  constructor
  · rintro h ⟨a, d, b, e, h1, h2, hb, he, h3⟩
    exact (C118_lost hf h1 .refl h1 h2 hb he h3).1 (h a.path (.inl ⟨a, d, h1, h2, rfl⟩))
  · intro hn p hp
    obtain ⟨st, h, _⟩ := C118_imports_partial hf hx hc hn [p] (by simpa using hp)
    cases h with
    | cons h _ => exact ⟨_, h⟩

namespace Demo

def noSql : Emitters.Options := { withSqlCode := false }

/-- without the code of tables and databases the schema of C72 (with a table, a database and mutually recursive structures) can be imported
through `api`; the module of the table is not there -/
example : (∃ st, Imports (program true (schema.emitted noSql)) {} (apiPath [py! "p"]) st) ∧ program true (schema.emitted noSql) table.path = none := by
  have hx : NoExtern schema := by intro a h; simp [schema] at h
  have hc : NoSubtypeCycle true schema := by
    intro a t b h hb
    simp [schema] at h
    obtain ⟨rfl, rfl⟩ := h; cases hb
  refine ⟨(C118_exact frontEnd hx hc).2 ?_ _ (.inr ⟨_, List.mem_cons_self, rfl⟩), by decide +kernel⟩
  intro h
  obtain ⟨a, t, b, e, h1, h2, _⟩ := C118_only_subtypes frontEnd rfl rfl h
  simp [schema] at h1
  obtain ⟨rfl, rfl⟩ := h1; cases h2

def other := name (py! "other") (py! "Other")

/-- ```
package p;
sql_table Table { int32 id; };
subtype Table Other;
``` -/
def renamed : Schema where
  decls := [(table, .sqlTable none [{ type := .builtin }] []), (other, .subtype (.user table))]
  apis := [{ package := [py! "p"], symbols := [table, other] }]

theorem renamed_frontEnd (w : Bool) : FrontEnd w renamed where
  resolved := by
    have : ∀ x ∈ renamed.decls, ∀ b ∈ x.2.names w, ∃ y ∈ renamed.decls, y.1 = b := by cases w <;> decide +kernel
    intro a d h b hb
    obtain ⟨y, hy, rfl⟩ := this (a, d) h b hb
    exact ⟨y.2, hy⟩
  distinct := by decide +kernel
  libraries := by decide +kernel
  values := by
    have key : ∀ a, ¬ renamed.IsValue a := by
      intro a ha
      induction ha with
      | constant h => simp [renamed] at h
      | enumeration h => simp [renamed] at h
      | bitmask h => simp [renamed] at h
      | builtin h hn => simp [renamed] at h; obtain ⟨_, rfl⟩ := h; cases hn
      | subtype _ _ _ ih => exact ih
    exact ⟨fun _ => 0, fun a d _ ha => absurd ha (key a)⟩
  initializers := by intro a c h; simp [renamed] at h
  builtins := by intro a c h; simp [renamed] at h
  tables := by
    intro a d h b hb _
    simp only [renamed, List.mem_cons, Prod.mk.injEq, List.not_mem_nil, or_false] at h
    rcases h with ⟨rfl, rfl⟩ | ⟨rfl, rfl⟩
    · cases w <;> cases hb
    · exact .inr ⟨_, rfl⟩
  columns := by
    intro a k cs ts h c hc
    simp [renamed] at h
    obtain ⟨_, _, rfl, _⟩ := h
    simp at hc; subst hc; simp
  runtime := by
    intro a d h e he
    rcases he with rfl | ⟨c, rfl, _⟩ <;> simp [renamed] at h
  apis := by
    have : ∀ a ∈ renamed.apis, (∀ p ∈ a.subpackages, ∃ b ∈ renamed.apis, b.package = p) ∧
        ∀ n ∈ a.symbols, ∃ d ∈ renamed.decls, d.1 = n := by decide +kernel
    intro a ha
    refine ⟨(this a ha).1, fun n hn => ?_⟩
    obtain ⟨d, hd, rfl⟩ := (this a ha).2 n hn
    exact ⟨d.2, hd⟩

/-- C118 (deviation): a schema with another name for a table can be imported, but if the code of tables is switched off then neither the module
of the other name nor the module `api` of the package can be imported, although both are written. -/
theorem C118_renamed_deviates (w : Bool) :
    (∃ st, Imports (program w (renamed.emitted {})) {} (apiPath [py! "p"]) st) ∧
      (program w (renamed.emitted noSql) other.path).isSome ∧ (program w (renamed.emitted noSql) (apiPath [py! "p"])).isSome ∧
      (¬ ∃ st, Imports (program w (renamed.emitted noSql)) {} other.path st) ∧
      ¬ ∃ st, Imports (program w (renamed.emitted noSql)) {} (apiPath [py! "p"]) st := by
  have hf := renamed_frontEnd w
  have ht : (table, Decl.sqlTable none [{ type := .builtin }] []) ∈ renamed.decls := List.mem_cons_self
  have ho : (other, Decl.subtype (.user table)) ∈ renamed.decls := List.mem_cons_of_mem _ List.mem_cons_self
  have hlost := C118_lost (o := noSql) hf ho .refl ho (by rintro ⟨⟩) (c := table) (by simp [Decl.names, NativeType.names]) ht (.table rfl)
  refine ⟨?_, (C118_written hf ho).1.2 (by rintro ⟨⟩), by cases w <;> decide +kernel, hlost.1,
    hlost.2 _ List.mem_cons_self (by simp) (by rintro ⟨⟩)⟩
  refine (C118_exact hf ?_ ?_).2 ?_ _ (.inr ⟨_, List.mem_cons_self, rfl⟩)
  · intro a h; simp [renamed] at h
  · intro a t b h hb hr
    simp [renamed] at h
    obtain ⟨rfl, rfl⟩ := h
    simp [NativeType.names] at hb
    subst hb
    rcases hr.cases_head with h | ⟨c, ⟨d, hd, hc⟩, _⟩
    · exact absurd h (by decide +kernel)
    · simp only [renamed, List.mem_cons, Prod.mk.injEq, List.not_mem_nil, or_false] at hd
      rcases hd with ⟨_, rfl⟩ | ⟨h, _⟩
      · cases w <;> cases hc
      · exact absurd h (by decide +kernel)
  · rintro ⟨_, _, _, _, _, _, _, _, h | h | h | h⟩ <;> cases h

end Demo

end Zserio.Imports
