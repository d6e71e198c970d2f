import Verif.Lemmas.Templates
import Verif.Lemmas.Packages
/-
C79: a reference to a template resolves to the instantiation it asks for.
C80: names of instantiations.
-/
namespace Zserio.Templates
set_option linter.unusedSimpArgs false

/-! ## Schemas for examples -/

/-- a built-in type -/
def uint8 : TypeRef := .builtin (py! "uint8")
/-- a built-in type -/
def uint16 : TypeRef := .builtin (py! "uint16")
/-- a template in package `p` -/
def tplInner : TypeId := ⟨[py! "p"], py! "Inner"⟩
/-- a template of the same name in package `r` -/
def tplInner' : TypeId := ⟨[py! "r"], py! "Inner"⟩
/-- a template in package `q` -/
def tplOuter : TypeId := ⟨[py! "q"], py! "Outer"⟩

/-- `struct Inner<T> { T value; }` in `p` and in `r`, `struct Outer<T> { T value; Inner<T> more; }` in `q` -/
def demoTemplates : List TemplateDef :=
  [⟨tplInner, 1, [.param 0]⟩, ⟨tplInner', 1, [.param 0]⟩, ⟨tplOuter, 1, [.param 0, .template tplInner [.param 0]]⟩]

/-- `instantiate p.Inner<uint8> In1;` and `instantiate r.Inner<uint8> In2;` in package `q` -/
def demoDecls : List InstantiateDecl :=
  [⟨⟨[py! "q"], py! "In1"⟩, tplInner, [uint8]⟩, ⟨⟨[py! "q"], py! "In2"⟩, tplInner', [uint8]⟩]

instance : DecidableEq Ty := fun t u => decidable_of_iff _ (Ty.same_iff t u)

/-- The instantiation a reference has been resolved to. -/
def TypeRef.index : TypeRef → Option Nat
  | .inst _ i _ _ _ => some i
  | _ => none

/-- An outcome as the examples look at it. -/
structure Outcome where
  error : Option TemplateError
  indices : List (Option Nat)
  made : List (TypeId × List Ty)
  names : List (PackageName × PyStr)
  deriving DecidableEq

/-- To which instantiations the references have been resolved; the template, the arguments,
the package and the name of each instantiation. -/
def outcome (r : Except TemplateError Result) :
    Outcome :=
  match r with
  | .ok r => ⟨none, r.refs.map TypeRef.index, r.state.entries.map fun e => (e.template, denotes e.args),
      (r.state.entries.map (·.pkg)).zip r.names⟩
  | .error e => ⟨some e, [], [], []⟩

theorem outcome_ok {r : Except TemplateError Result} {a : List (Option Nat)} {b : List (TypeId × List Ty)}
    {c : List (PackageName × PyStr)} (h : outcome r = ⟨none, a, b, c⟩) :
    ∃ res, r = .ok res ∧ res.refs.map TypeRef.index = a ∧ (∀ i t args, res.state.Made i t args ↔ b[i]? = some (t, args)) ∧
      (res.state.entries.map (·.pkg)).zip res.names = c := by
  cases r with
  | error e => simp [outcome] at h
  | ok res =>
    simp only [outcome, Outcome.mk.injEq] at h
    obtain ⟨_, rfl, rfl, rfl⟩ := h
    refine ⟨res, rfl, rfl, fun i t args => ?_, rfl⟩
    simp [State.Made, List.getElem?_map]

/-! ## C79 -/

/-- **C79 (part).** A schema which declares no types by `instantiate` and which uses no subtypes of templates as arguments, and
in which hash codes tell long names apart: every reference to a template resolves to an instantiation of that template with the
arguments which are written. The same holds for all references within instantiations (`calls`), and two references to the same
template with the same arguments resolve to the same instantiation.
Missing: declarations `instantiate` and subtypes (see `C79_calls_partial`), and it is false in general. -/
theorem C79_resolved_partial {ts : List TemplateDef} {locals : PackageName → List PyStr} {n : Nat}
    {refs : List (List InstantiateDecl × TypeRef)} {res : Result} (h : templator ts locals n refs = .ok res)
    (hts : ∀ t ∈ ts, AllSimple t.params t.refs) (hrefs : ∀ p ∈ refs, p.1 = [] ∧ p.2.Simple 0)
    (hn : ∀ c ∈ res.state.calls, ∀ c' ∈ res.state.calls, ¬ c.Collides c') :
    (∀ (i : Nat) p, refs[i]? = some p → ∃ r, res.refs[i]? = some r ∧ res.state.Resolved p.2 r) ∧
    (∀ c ∈ res.state.calls, res.state.Made c.index c.template (denotes c.args)) ∧
    (∀ c ∈ res.state.calls, ∀ c' ∈ res.state.calls, c.template = c'.template → denotes c.args = denotes c'.args →
      c.index = c'.index) := by
  obtain ⟨hv, _⟩ := templator_ok h
  obtain ⟨hr, hres⟩ := visitRoot_mixed hts hn refs {} _ _ hrefs ⟨.start, by simp⟩ hv (.refl _)
  have hset : ∀ c ∈ res.state.calls, AllSettled c.vis c.args := fun c hc => by
    rw [(hr.2 c hc).1]; exact (hr.2 c hc).2
  refine ⟨hres, fun c hc => hr.1.made hc ?_ (fun c' hc' _ => hset c' hc') (fun c' hc' => hn c' hc' c hc), ?_⟩
  · intro c' hc' d hd
    rw [(hr.2 c' hc').1] at hd
    simp at hd
  · intro c hc c' hc' ht hd
    obtain ⟨e, he, hk, _⟩ := hr.1.call c hc
    obtain ⟨e', he', hk', _⟩ := hr.1.call c' hc'
    refine hr.1.unique _ _ e e' he he' ?_
    have hg : ∀ full, generateName full c.vis c.template c.args = generateName full c'.vis c'.template c'.args := by
      intro full
      rw [generateName_settled _ (hset c hc), generateName_settled _ (hset c' hc'), ht, hd]
    rw [hk, hk']
    unfold Call.key instanceKey
    rw [show visible c.vis c.template c.args = none by rw [(hr.2 c hc).1, visible_nil],
      show visible c'.vis c'.template c'.args = none by rw [(hr.2 c' hc').1, visible_nil]]
    simp only [shortName, hashCode, hg]
    rw [ht]

theorem not_collides {c c' : Call} (h : (generateName false c.vis c.template c.args).length ≤ 64)
    (h' : (generateName false c'.vis c'.template c'.args).length ≤ 64) : ¬ c.Collides c' := by
  rintro ⟨h1 | h1, _⟩ <;> omega

/-- The names of all calls are short enough. -/
def shortCalls (r : Except TemplateError Result) : Bool :=
  match r with
  | .ok r => r.state.calls.all fun c => decide ((generateName false c.vis c.template c.args).length ≤ 64)
  | .error _ => false

theorem shortCalls_ok {res : Result} (h : shortCalls (.ok res) = true) :
    ∀ c ∈ res.state.calls, ∀ c' ∈ res.state.calls, ¬ c.Collides c' := by
  simp only [shortCalls, List.all_eq_true, decide_eq_true_eq] at h
  exact fun c hc c' hc' => not_collides (h c hc) (h c' hc')

/-- A schema in which a template is instantiated for two arguments, from two references to it and from within another one. -/
example : outcome (templator demoTemplates (fun _ => []) 5
      [([], .template tplOuter [uint8]), ([], .template tplInner [uint16]), ([], uint8), ([], .template tplInner [uint8])]) =
    ⟨none, [some 0, some 2, none, some 1],
      [(tplOuter, [uint8.denote]), (tplInner, [uint8.denote]), (tplInner, [uint16.denote])],
      [([py! "q"], py! "Outer_uint8"), ([py! "p"], py! "Inner_uint8"), ([py! "p"], py! "Inner_uint16")]⟩ ∧
    (∀ t ∈ demoTemplates, AllSimple t.params t.refs) ∧
    (∀ p ∈ [(([] : List InstantiateDecl), .template tplOuter [uint8]), ([], .template tplInner [uint16]), ([], uint8),
      ([], .template tplInner [uint8])], p.1 = [] ∧ p.2.Simple 0) ∧
    shortCalls (templator demoTemplates (fun _ => []) 5
      [([], .template tplOuter [uint8]), ([], .template tplInner [uint16]), ([], uint8), ([], .template tplInner [uint8])]) =
      true := by
  refine ⟨by decide +kernel, ?_, ?_, by decide +kernel⟩
  · simp [demoTemplates, AllSimple, TypeRef.Simple]
  · simp [AllSimple, TypeRef.Simple, uint8, uint16]

/-- **C79 (part).** With declarations `instantiate`: if the arguments are settled — what is written for them in a name is made
from what they stand for — the instantiation a call returns is one of the template it asks for, with its arguments. -/
theorem C79_calls_partial {ts : List TemplateDef} {locals : PackageName → List PyStr} {n : Nat}
    {refs : List (List InstantiateDecl × TypeRef)} {res : Result} (h : templator ts locals n refs = .ok res)
    {c : Call} (hc : c ∈ res.state.calls)
    (hd : ∀ c' ∈ res.state.calls, ∀ d ∈ c'.vis, ∀ d' ∈ c.vis, d.id = d'.id → d = d')
    (hs : ∀ c' ∈ res.state.calls, keys c'.args = keys c.args → AllSettled c'.vis c'.args)
    (hn : ∀ c' ∈ res.state.calls, ¬ c'.Collides c) : res.state.Made c.index c.template (denotes c.args) :=
  (visitRoot_inv refs _ _ _ (templator_ok h).1 .start).1.made hc hd hs hn

/-- **C79 (part).** Whatever the schema is: an instantiation which a reference resolves to has arguments with the names of those
which are written, and a reference which a declaration `instantiate` is visible for resolves to the type declared by it. -/
theorem C79_names_partial {ts : List TemplateDef} {locals : PackageName → List PyStr} {n : Nat}
    {refs : List (List InstantiateDecl × TypeRef)} {res : Result} (h : templator ts locals n refs = .ok res)
    {c : Call} (hc : c ∈ res.state.calls) :
    ∃ e name, res.state.entries[c.index]? = some e ∧ res.names[c.index]? = some name ∧ keys e.args = keys c.args ∧
      (∀ d, visible c.vis c.template c.args = some d → e.pkg = d.id.pkg ∧ name = d.id.name) ∧
      (visible c.vis c.template c.args = none → e.pkg = c.template.pkg) := by
  obtain ⟨hv, hn⟩ := templator_ok h
  obtain ⟨e, he, hk, ha⟩ := (visitRoot_inv refs _ _ _ hv .start).1.call c hc
  obtain ⟨name, hname, hr⟩ := resolveNames_ok hn _ e he
  refine ⟨e, name, he, hname, ha, ?_, ?_⟩
  · intro d hd
    simp only [Entry.key, Call.key, instanceKey, hd, Prod.mk.injEq] at hk
    obtain ⟨h1, h2, h3⟩ := hk
    simp only [resolveName, h3, if_pos, Except.ok.injEq] at hr
    exact ⟨h1, by rw [← hr, h2]⟩
  · intro hd
    simp only [Entry.key, Call.key, instanceKey, hd, Prod.mk.injEq] at hk
    exact hk.1

/-- **C79**, declarations `instantiate`: the declaration which is used for a template with arguments is one of those which are
visible, for that template, and its arguments stand for the same types; if none is used there is none of this kind. -/
theorem C79_declaration (vis : List InstantiateDecl) (template : TypeId) (args : List TypeRef)
    (hd : ∀ d ∈ vis, AllHome d.args) (ha : AllHome args) :
    (∀ d, visible vis template args = some d →
      d ∈ vis ∧ d.template = template ∧ denotes d.args = denotes args) ∧
    (visible vis template args = none → ∀ d ∈ vis, d.template = template → denotes d.args ≠ denotes args) := by
  constructor
  · intro d h
    obtain ⟨h1, h2, h3⟩ := visible_some h
    rw [home_keys _ (hd d h1), home_keys _ ha] at h3
    exact ⟨h1, h2, h3⟩
  · intro h d h1 h2 h3
    unfold visible at h
    have := List.find?_eq_none.1 h d h1
    simp only [Bool.and_eq_true, decide_eq_true_eq, Ty.sameAll_iff, not_and] at this
    apply this h2
    rw [home_keys _ (hd d h1), home_keys _ ha, h3]

/-- Two declarations `instantiate q.Outer<p.Inner<uint8>> O1;` and `instantiate q.Outer<r.Inner<uint8>> O2;`: each reference
finds its own, and there is none for `q.Outer<uint8>`. -/
example :
    let d1 : InstantiateDecl := ⟨⟨[py! "q"], py! "O1"⟩, tplOuter, [.template tplInner [uint8]]⟩
    let d2 : InstantiateDecl := ⟨⟨[py! "q"], py! "O2"⟩, tplOuter, [.template tplInner' [uint8]]⟩
    (∀ d ∈ [d1, d2], AllHome d.args) ∧
    (visible [d1, d2] tplOuter [.inst tplInner' 3 [py! "r"] tplInner' [uint8]]).map (·.id.name) = some (py! "O2") ∧
    (visible [d1, d2] tplOuter [uint8]).map (·.id.name) = none := by
  refine ⟨?_, by decide +kernel, by decide +kernel⟩
  intro d hd
  simp only [List.mem_cons, List.not_mem_nil, or_false] at hd
  rcases hd with rfl | rfl <;> simp [AllHome, TypeRef.Home, uint8]

/-- **C79 is false (1).** Two templates with the same name, instantiated by `instantiate` in one package: a template instantiated
with the second of them resolves to its instantiation with the first of them, without an error.
`Outer<p.Inner<uint8>>` and `Outer<r.Inner<uint8>>` are the same class. -/
theorem C79_counterexample_instantiate :
    ∃ res, templator [⟨tplInner, 1, [.param 0]⟩, ⟨tplInner', 1, [.param 0]⟩, ⟨tplOuter, 1, [.param 0]⟩]
        (fun _ => [py! "Outer", py! "In1", py! "In2"]) 5
        [(demoDecls, .template tplInner [uint8]), (demoDecls, .template tplInner' [uint8]),
         (demoDecls, .template tplOuter [.template tplInner [uint8]]),
         (demoDecls, .template tplOuter [.template tplInner' [uint8]])] = .ok res ∧
      res.refs.map TypeRef.index = [some 0, some 1, some 2, some 2] ∧
      res.state.Made 2 tplOuter [.mk tplInner [uint8.denote]] ∧
      ¬ res.state.Made 2 tplOuter [.mk tplInner' [uint8.denote]] := by
  obtain ⟨res, h, hi, hm, _⟩ := outcome_ok (show outcome (templator [⟨tplInner, 1, [.param 0]⟩, ⟨tplInner', 1, [.param 0]⟩,
        ⟨tplOuter, 1, [.param 0]⟩] (fun _ => [py! "Outer", py! "In1", py! "In2"]) 5
        [(demoDecls, .template tplInner [uint8]), (demoDecls, .template tplInner' [uint8]),
         (demoDecls, .template tplOuter [.template tplInner [uint8]]),
         (demoDecls, .template tplOuter [.template tplInner' [uint8]])]) =
    ⟨none, [some 0, some 1, some 2, some 2],
      [(tplInner, [uint8.denote]), (tplInner', [uint8.denote]), (tplOuter, [.mk tplInner [uint8.denote]])],
      [([py! "q"], py! "In1"), ([py! "q"], py! "In2"), ([py! "q"], py! "Outer_Inner_uint8")]⟩ by decide +kernel)
  exact ⟨res, h, hi, (hm _ _ _).mpr (by decide), fun h => absurd ((hm _ _ _).mp h) (by decide)⟩

/-- a name of 65 characters -/
def longA : TypeId := ⟨[py! "p"], List.replicate 63 (ch! 'A') ++ py! "az"⟩
/-- another name of 65 characters with the same hash code -/
def longB : TypeId := ⟨[py! "p"], List.replicate 63 (ch! 'A') ++ py! "bU"⟩

/-- **C79 is false (2).** Two templates in one package whose long names have the same hash code: the reference to the second one
resolves to the instantiation of the first one, without an error. -/
theorem C79_counterexample_hash :
    ∃ res, templator [⟨longA, 1, [.param 0]⟩, ⟨longB, 1, [.param 0, .param 0]⟩] (fun _ => []) 5
        [([], .template longA [uint8]), ([], .template longB [uint8])] = .ok res ∧
      res.refs.map TypeRef.index = [some 0, some 0] ∧ longA ≠ longB ∧
      ¬ res.state.Made 0 longB [uint8.denote] := by
  obtain ⟨res, h, hi, hm, _⟩ := outcome_ok (show outcome (templator [⟨longA, 1, [.param 0]⟩, ⟨longB, 1, [.param 0, .param 0]⟩]
        (fun _ => []) 5 [([], .template longA [uint8]), ([], .template longB [uint8])]) =
      ⟨none, [some 0, some 0], [(longA, [uint8.denote])], [([py! "p"], List.replicate 63 (ch! 'A') ++ py! "_")]⟩ by
    decide +kernel)
  exact ⟨res, h, hi, by decide +kernel, fun h => absurd ((hm _ _ _).mp h) (by decide +kernel)⟩

/-- **C79 is false (3).** A subtype of an instantiation as an argument: two references to the same template with arguments which
stand for the same type resolve to two classes. -/
theorem C79_counterexample_subtype :
    ∃ res, templator demoTemplates (fun _ => []) 5
        [([], .template tplInner [uint8]),
         ([], .template tplOuter [.subtype (.inst tplInner 0 [py! "p"] tplInner [uint8])]),
         ([], .template tplOuter [.template tplInner [uint8]])] = .ok res ∧
      (∃ i j, res.refs.map TypeRef.index = [some 0, some i, some j] ∧ i ≠ j ∧
        res.state.Made i tplOuter [.mk tplInner [uint8.denote]] ∧ res.state.Made j tplOuter [.mk tplInner [uint8.denote]]) := by
  obtain ⟨res, h, hi, hm, _⟩ := outcome_ok (show outcome (templator demoTemplates (fun _ => []) 5
        [([], .template tplInner [uint8]),
         ([], .template tplOuter [.subtype (.inst tplInner 0 [py! "p"] tplInner [uint8])]),
         ([], .template tplOuter [.template tplInner [uint8]])]) =
      ⟨none, [some 0, some 1, some 3],
        [(tplInner, [uint8.denote]), (tplOuter, [.mk tplInner [uint8.denote]]), (tplInner, [.mk tplInner [uint8.denote]]),
         (tplOuter, [.mk tplInner [uint8.denote]]), (tplInner, [.mk tplInner [uint8.denote]])],
        [([py! "p"], py! "Inner_uint8"), ([py! "q"], py! "Outer_Inner"), ([py! "p"], py! "Inner_Inner"),
         ([py! "q"], py! "Outer_Inner_uint8"), ([py! "p"], py! "Inner_Inner_uint8")]⟩ by
    decide +kernel)
  exact ⟨res, h, 1, 3, hi, by decide, (hm _ _ _).mpr (by decide), (hm _ _ _).mpr (by decide)⟩

/-- Subtypes of two instantiations of one template as arguments: the schema is refused although the arguments differ. -/
theorem C79_refused_subtype :
    outcome (templator demoTemplates (fun _ => []) 5
        [([], .template tplInner [uint8]), ([], .template tplInner [uint16]),
         ([], .template tplOuter [.subtype (.inst tplInner 0 [py! "p"] tplInner [uint8])]),
         ([], .template tplOuter [.subtype (.inst tplInner 1 [py! "p"] tplInner [uint16])])]) = ⟨some .nameClash, [], [], []⟩ := by
  decide +kernel

/-! ## C80 -/

/-- The symbols of a package which are instantiations. -/
def Result.instances (res : Result) (pkg : PackageName) : List Names.SymbolDecl :=
  ((res.state.entries.zip res.names).filter fun x => decide (x.1.pkg = pkg)).map fun x =>
    { name := x.2, kind := if x.1.hash = [] then .type else .instance }

/-- **C80.** The class generated for a reference to a template: if a declaration `instantiate` is visible, it is located in the
package of that declaration and has its name; otherwise it is located in the package of the template, its name is not that of a
symbol declared there, and it has at most 64 characters. -/
theorem C80_name {ts : List TemplateDef} {locals : PackageName → List PyStr} {n : Nat}
    {refs : List (List InstantiateDecl × TypeRef)} {res : Result} (h : templator ts locals n refs = .ok res)
    {c : Call} (hc : c ∈ res.state.calls) :
    ∃ e name, res.state.entries[c.index]? = some e ∧ res.names[c.index]? = some name ∧
      (∀ d, visible c.vis c.template c.args = some d → e.pkg = d.id.pkg ∧ name = d.id.name) ∧
      (visible c.vis c.template c.args = none →
        e.pkg = c.template.pkg ∧ name ∉ locals c.template.pkg ∧ name.length ≤ 64) := by
  obtain ⟨e, name, he, hname, _, h1, h2⟩ := C79_names_partial h hc
  refine ⟨e, name, he, hname, h1, fun hv => ⟨h2 hv, ?_⟩⟩
  obtain ⟨hvis, hn⟩ := templator_ok h
  obtain ⟨e', he', hk, _⟩ := (visitRoot_inv refs _ _ _ hvis .start).1.call c hc
  rw [he] at he'
  obtain rfl := Option.some.inj he'
  obtain ⟨name', hname', hr⟩ := resolveNames_ok hn _ e he
  rw [hname] at hname'
  obtain rfl := Option.some.inj hname'
  simp only [Entry.key, Call.key, instanceKey, hv, Prod.mk.injEq] at hk
  obtain ⟨k1, k2, k3⟩ := hk
  unfold resolveName at hr
  rw [if_neg (by rw [k3]; exact hashCode_ne_nil _ _ _)] at hr
  have hlen : (if isClash (e.pkg, e.short) res.state.clashes ∨ e.short ∈ locals e.pkg then withHash e.short e.hash
      else e.short).length ≤ 64 := by
    split
    · exact withHash_length (by rw [k3, hashCode_length])
    · rw [k2]; exact shortName_length _ _ _
  generalize (if isClash (e.pkg, e.short) res.state.clashes ∨ e.short ∈ locals e.pkg then withHash e.short e.hash
      else e.short) = name' at hr hlen
  simp only at hr
  by_cases hl : name' ∈ locals e.pkg
  · rw [if_pos hl] at hr; cases hr
  · rw [if_neg hl] at hr
    injection hr with hr
    subst hr
    exact ⟨k1 ▸ hl, hlen⟩

/-- **C80.** In a schema which the check of modules accepts (PythonModuleClashChecker), different instantiations located in a
package have different names, and are generated into different modules. -/
theorem C80_distinct {ts : List TemplateDef} {locals : PackageName → List PyStr} {n : Nat}
    {refs : List (List InstantiateDecl × TypeRef)} {res : Result} (_ : templator ts locals n refs = .ok res)
    {p : Names.PackageDecl} (hp : (res.instances p.name).Subperm p.walked) (hc : Names.checkModules p = .ok ())
    {i j : Nat} {e e' : Entry} {name name' : PyStr} (hi : res.state.entries[i]? = some e) (hj : res.state.entries[j]? = some e')
    (hn : res.names[i]? = some name) (hn' : res.names[j]? = some name') (he : e.pkg = p.name) (he' : e'.pkg = p.name)
    (hij : i ≠ j) : Names.symbolToModule name ≠ Names.symbolToModule name' ∧ name ≠ name' := by
  suffices h : Names.symbolToModule name ≠ Names.symbolToModule name' from ⟨h, fun hh => h (hh ▸ rfl)⟩
  have hnd : ((res.instances p.name).map (·.moduleName)).Nodup := by
    obtain ⟨l, hl, hs⟩ := hp
    have h1 := (Names.checkUnique_ok.mp hc).1
    exact (hl.map _).nodup_iff.mp (h1.sublist (hs.map _))
  unfold Result.instances at hnd
  rw [List.map_map, List.Nodup, List.pairwise_map, List.pairwise_filter, List.pairwise_iff_getElem] at hnd
  have hz : ∀ {k : Nat} {a : Entry} {b : PyStr}, res.state.entries[k]? = some a → res.names[k]? = some b →
      (res.state.entries.zip res.names)[k]? = some (a, b) := by
    intro k a b ha hb
    rw [List.getElem?_zip_eq_some]
    exact ⟨ha, hb⟩
  have key : ∀ {i j : Nat} {e e' : Entry} {name name' : PyStr}, (res.state.entries.zip res.names)[i]? = some (e, name) →
      (res.state.entries.zip res.names)[j]? = some (e', name') → e.pkg = p.name → e'.pkg = p.name → i < j →
      Names.symbolToModule name ≠ Names.symbolToModule name' := by
    intro i j e e' name name' h1 h2 he he' hlt
    obtain ⟨l1, g1⟩ := List.getElem?_eq_some_iff.mp h1
    obtain ⟨l2, g2⟩ := List.getElem?_eq_some_iff.mp h2
    have := hnd i j l1 l2 hlt
    rw [g1, g2] at this
    have h3 := this (by simp [he]) (by simp [he'])
    have hpy : ∀ (n : PyStr) (e : Entry), (Names.SymbolDecl.moduleName
        { name := n, kind := if e.hash = [] then .type else .instance }) = Names.symbolToModule n := by
      intro n e
      unfold Names.SymbolDecl.moduleName Names.SymbolDecl.pythonName
      split <;> simp
    simpa [hpy] using h3
  rcases Nat.lt_or_gt_of_ne hij with hlt | hlt
  · exact key (hz hi hn) (hz hj hn') he he' hlt
  · exact fun hh => key (hz hj hn') (hz hi hn) he' he hlt hh.symm

/-- **C80.** Names depend on which instantiations the references of a schema ask for, not on their order or number. -/
theorem C80_order {ts ts' : List TemplateDef} {locals : PackageName → List PyStr} {n n' : Nat}
    {refs refs' : List (List InstantiateDecl × TypeRef)} {res res' : Result}
    (h : templator ts locals n refs = .ok res) (h' : templator ts' locals n' refs' = .ok res')
    (hk : ∀ k, (∃ c ∈ res.state.calls, c.key = k) ↔ ∃ c ∈ res'.state.calls, c.key = k)
    {c c' : Call} (hc : c ∈ res.state.calls) (hc' : c' ∈ res'.state.calls) (hcc : c.key = c'.key) :
    ∃ name, res.names[c.index]? = some name ∧ res'.names[c'.index]? = some name := by
  obtain ⟨hv, hn⟩ := templator_ok h
  obtain ⟨hv', hn'⟩ := templator_ok h'
  have i1 := (visitRoot_inv refs _ _ _ hv .start).1
  have i2 := (visitRoot_inv refs' _ _ _ hv' .start).1
  have c1 := visitRoot_keeps (P := ClashInv) (fun _ _ _ _ _ _ h hp => instantiate_clash h hp) refs _ _ _ hv .start
  have c2 := visitRoot_keeps (P := ClashInv) (fun _ _ _ _ _ _ h hp => instantiate_clash h hp) refs' _ _ _ hv' .start
  obtain ⟨e, he, hek, _⟩ := i1.call c hc
  obtain ⟨e', he', hek', _⟩ := i2.call c' hc'
  obtain ⟨name, hname, hr⟩ := resolveNames_ok hn _ e he
  obtain ⟨name', hname', hr'⟩ := resolveNames_ok hn' _ e' he'
  have hee : e.key = e'.key := by rw [hek, hek', hcc]
  simp only [Entry.key, Prod.mk.injEq] at hee
  obtain ⟨k1, k2, k3⟩ := hee
  have lift : ∀ {a b : State}, Inv a → Inv b → ClashInv a → ClashInv b →
      (∀ k, (∃ c ∈ a.calls, c.key = k) → ∃ c ∈ b.calls, c.key = k) → ∀ k, isClash k a.clashes = true →
      isClash k b.clashes = true := by
    intro a b ia ib ca cb hab k hka
    rw [ca.clash] at hka
    obtain ⟨i, j, hij, ⟨x, hx, hxk⟩, y, hy, hyk⟩ := hka
    have move : ∀ {i : Nat} {x : Entry}, a.entries[i]? = some x → ∃ (i' : Nat) (x' : Entry), b.entries[i']? = some x' ∧ x'.key = x.key := by
      intro i x hx
      obtain ⟨cx, hcx, _, _, _, hkx⟩ := ia.entry i x hx
      obtain ⟨cy, hcy, hky⟩ := hab _ ⟨cx, hcx, rfl⟩
      obtain ⟨x', hx', hkx', _⟩ := ib.call cy hcy
      exact ⟨cy.index, x', hx', by rw [hkx', hky, hkx]⟩
    obtain ⟨i', x', hx', kx⟩ := move hx
    obtain ⟨j', y', hy', ky⟩ := move hy
    have hsh : ∀ {u v : Entry}, u.key = v.key → (u.pkg, u.short) = (v.pkg, v.short) := by
      intro u v huv
      simp only [Entry.key, Prod.mk.injEq] at huv
      rw [huv.1, huv.2.1]
    have hne : i' ≠ j' := by
      rintro rfl
      rw [hx'] at hy'
      obtain rfl := Option.some.inj hy'
      have := ia.unique i j x y hx hy (kx.symm.trans ky)
      omega
    rw [cb.clash]
    rcases Nat.lt_or_gt_of_ne hne with hlt | hlt
    · exact ⟨i', j', hlt, ⟨x', hx', (hsh kx).trans hxk⟩, y', hy', (hsh ky).trans hyk⟩
    · exact ⟨j', i', hlt, ⟨y', hy', (hsh ky).trans hyk⟩, x', hx', (hsh kx).trans hxk⟩
  have hcl : isClash (e.pkg, e.short) res.state.clashes = isClash (e.pkg, e.short) res'.state.clashes := by
    rw [Bool.eq_iff_iff]
    exact ⟨lift i1 i2 c1 c2 (fun k => (hk k).mp) _, lift i2 i1 c2 c1 (fun k => (hk k).mpr) _⟩
  have : resolveName locals res.state.clashes e = resolveName locals res'.state.clashes e' := by
    unfold resolveName
    rw [← k1, ← k2, ← k3, hcl]
  rw [this, hr'] at hr
  injection hr with hr
  subst hr
  exact ⟨name', hname, hname'⟩

/-- type `A` of packages `a` and `b`, and a type of package `a` whose name looks like a hash code -/
def typA : TypeRef := .type ⟨[py! "a"], py! "A"⟩
/-- the same name in another package -/
def typB : TypeRef := .type ⟨[py! "b"], py! "A"⟩
/-- `Inner_a_A` has this hash code -/
def typH : TypeRef := .type ⟨[py! "a"], py! "A_" ++ hashCode [] tplInner [typA]⟩

/-- Names of clashing instantiations get hash codes; a reference more in a schema changes the name of a class. -/
example :
    outcome (templator demoTemplates (fun _ => []) 5 [([], .template tplInner [typA])]) =
      ⟨none, [some 0], [(tplInner, [typA.denote])], [([py! "p"], py! "Inner_A")]⟩ ∧
    outcome (templator demoTemplates (fun _ => []) 5 [([], .template tplInner [typA]), ([], .template tplInner [typB])]) =
      ⟨none, [some 0, some 1], [(tplInner, [typA.denote]), (tplInner, [typB.denote])],
        [([py! "p"], py! "Inner_A_" ++ hashCode [] tplInner [typA]), ([py! "p"], py! "Inner_A_" ++ hashCode [] tplInner [typB])]⟩ ∧
    outcome (templator demoTemplates (fun _ => [py! "Inner_A"]) 5 [([], .template tplInner [typA])]) =
      ⟨none, [some 0], [(tplInner, [typA.denote])], [([py! "p"], py! "Inner_A_" ++ hashCode [] tplInner [typA])]⟩ := by
  decide +kernel

/-- The core of the compiler alone does not keep names apart: here two instantiations have the same name, and only the check of
modules refuses the schema. -/
theorem C80_core_clash :
    outcome (templator demoTemplates (fun _ => []) 5
        [([], .template tplInner [typA]), ([], .template tplInner [typB]), ([], .template tplInner [typH])]) =
      ⟨none, [some 0, some 1, some 2], [(tplInner, [typA.denote]), (tplInner, [typB.denote]), (tplInner, [typH.denote])],
        [([py! "p"], py! "Inner_A_" ++ hashCode [] tplInner [typA]), ([py! "p"], py! "Inner_A_" ++ hashCode [] tplInner [typB]),
         ([py! "p"], py! "Inner_A_" ++ hashCode [] tplInner [typA])]⟩ := by
  decide +kernel

/-- The check of modules for a package whose symbols are the instantiations. -/
def modulesOk (r : Except TemplateError Result) (pkg : PackageName) : Bool :=
  match r with
  | .ok res => match Names.checkModules { name := pkg, symbols := res.instances pkg } with
    | .ok _ => true
    | .error _ => false
  | .error _ => false

/-- The check accepts the instantiations of the first example of C79 and refuses those of `C80_core_clash`. -/
example :
    modulesOk (templator demoTemplates (fun _ => []) 5
      [([], .template tplOuter [uint8]), ([], .template tplInner [uint16]), ([], .template tplInner [uint8])]) [py! "p"] = true ∧
    modulesOk (templator demoTemplates (fun _ => []) 5
      [([], .template tplInner [typA]), ([], .template tplInner [typB]), ([], .template tplInner [typH])]) [py! "p"] = false := by
  decide +kernel

end Zserio.Templates
