import Mathlib.Data.List.Nodup
import Verif.Spec.DocLinks
import Verif.Spec.Visibility
import Mathlib.Tactic.Common
/-
C115: links of `@see` tags.
-/
set_option linter.unusedSimpArgs false

namespace Zserio.DocLinks
open Visibility Names

private theorem foldl_called (S : Sources) (pkg : Package) (ids : List Name) (l : List Decl) (r : Reference) (h : r.resolveCalled = true) :
    l.foldl (fun r d => r.resolve S pkg (scopedTypeOf d) ids) r = r := by
  induction l with
  | nil => rfl
  | cons d l ih =>
    simp only [List.foldl_cons]
    have : r.resolve S pkg (scopedTypeOf d) ids = r := by simp [Reference.resolve, h]
    rw [this]
    exact ih

private theorem visitTag_eq (S : Sources) (pkg : Package) (d : Decl) (inst : List Decl) (ids : List Name) :
    visitTag S pkg d inst ids = ⟨true, (resolve S pkg (scopedTypeOf d) ids).toOption⟩ := by
  unfold visitTag
  simp only [List.foldl_cons]
  rw [foldl_called _ _ _ _ _ (by simp [Reference.resolve])]
  simp [Reference.resolve]

private theorem resolveScopeSymbol_two (S : Sources) (pkg : Package) (owner : Option Decl) (pre : List Name) (T f : Name) :
    resolveScopeSymbol S pkg owner (pre ++ [T, f]) =
      match visibleDecl S pkg (qualifiedPackage S.top pre) T with
      | .error e => .error e
      | .ok none => .ok none
      | .ok (some d) =>
        if d.isScoped then
          match d.find f with
          | some m => .ok (some (.member d m))
          | none => .error .unresolved
        else .ok none := by
  have h1 : (pre ++ [T, f]).take ((pre ++ [T, f]).length - 2) = pre := by simp
  have h2 : (pre ++ [T, f]).getD ((pre ++ [T, f]).length - 2) [] = T := by simp [List.getD_eq_getElem?_getD]
  have h3 : (pre ++ [T, f]).getD ((pre ++ [T, f]).length - 1) [] = f := by simp [List.getD_eq_getElem?_getD]
  generalize hids : pre ++ [T, f] = ids at h1 h2 h3
  match ids, hids with
  | [], h => simp at h
  | [x], h =>
    have := congrArg List.length h
    simp at this
  | a :: b :: rest, _ =>
    unfold resolveScopeSymbol
    simp only
    rw [h1, h2, h3]
    rcases visibleDecl S pkg (qualifiedPackage S.top pre) T with e | _ | d <;> rfl

private theorem resolvePackageSymbol_one (S : Sources) (pkg : Package) (pre : List Name) (T : Name) :
    resolvePackageSymbol S pkg (pre ++ [T]) =
      match visibleDecl S pkg (qualifiedPackage S.top pre) T with
      | .error e => .error e
      | .ok d => .ok (d.map .symbol) := by
  have h1 : (pre ++ [T]).take ((pre ++ [T]).length - 1) = pre := by simp
  have h2 : (pre ++ [T]).getD ((pre ++ [T]).length - 1) [] = T := by simp [List.getD_eq_getElem?_getD]
  unfold resolvePackageSymbol
  rw [h1, h2, if_pos (by simp)]
  rcases visibleDecl S pkg (qualifiedPackage S.top pre) T with e | _ | d <;> rfl

private theorem visibleDecl_iff {S : Sources} {pkg : Package} {pre : List Name} {T : Name} {d : Decl} :
    visibleDecl S pkg (qualifiedPackage S.top pre) T = .ok (some d) ↔ Denotes S pkg pre T d := by
  unfold visibleDecl Denotes
  split
  · next e he => simp [he]
  · next he => simp [he]
  · next s he => simp [he]

/-- A name without dots means the member of this name of the type in which the comment is, if it has one (comments of bitmasks excepted, see
`C115_bitmask_deviates`). -/
theorem C115_own_partial (S : Sources) (pkg : Package) (d : Decl) (inst : List Decl) (n : Name) (m : Member)
    (hk : ∀ ms, d.kind ≠ .scoped .bitmask ms) (hm : d.find n = some m) :
    (visitTag S pkg d inst [n]).target = some (.member d m) := by
  rw [visitTag_eq]
  have : scopedTypeOf d = some d := by
    unfold scopedTypeOf
    unfold Decl.find at hm
    split
    · next ms h => exact absurd h (hk ms)
    · rfl
    · next h1 h2 =>
      split at hm
      · next k ms h => exact absurd h (h2 k ms)
      · cases hm
  simp [resolve, resolveScopeSymbol, this, hm, Except.toOption]

/-- `TYPE.FIELD`, with a package before it or without, means the member of the type which the name means, wherever the comment is. -/
theorem C115_type_field (S : Sources) (pkg : Package) (d : Decl) (inst : List Decl) (pre : List Name) (T f : Name) (d' : Decl) (m : Member)
    (hd : Denotes S pkg pre T d') (hm : d'.find f = some m) :
    (visitTag S pkg d inst (pre ++ [T, f])).target = some (.member d' m) := by
  rw [visitTag_eq]
  have hs : d'.isScoped = true := by
    unfold Decl.isScoped
    unfold Decl.find at hm
    split at hm
    · next h => simp [h]
    · cases hm
  simp [resolve, resolveScopeSymbol_two, visibleDecl_iff.2 hd, hs, hm, Except.toOption]

/-- `TYPE`, with a package before it or without, means the type or constant, unless the name is also one of a member of the type in which the
comment is, or the identifier before it is the name of another type or constant. -/
theorem C115_type (S : Sources) (pkg : Package) (d : Decl) (inst : List Decl) (pre : List Name) (T : Name) (d' : Decl)
    (hd : Denotes S pkg pre T d') (hown : pre = [] → d.find T = none)
    (hpre : ∀ pre' last, pre = pre' ++ [last] → pkg.visible S.root (qualifiedPackage S.top pre') last = .ok none) :
    (visitTag S pkg d inst (pre ++ [T])).target = some (.symbol d') := by
  rw [visitTag_eq]
  have h1 : resolveScopeSymbol S pkg (scopedTypeOf d) (pre ++ [T]) = .ok none := by
    rcases List.eq_nil_or_concat pre with rfl | ⟨pre', last, rfl⟩
    · simp only [List.nil_append, resolveScopeSymbol]
      unfold scopedTypeOf
      split
      · next o ho =>
        rfl
      · next o ho =>
        split at ho
        · cases ho
        · cases ho
          simp [hown rfl]
        · cases ho
    · have := hpre pre' last (by simp)
      rw [List.concat_eq_append, List.append_assoc]
      show resolveScopeSymbol S pkg (scopedTypeOf d) (pre' ++ [last, T]) = _
      rw [resolveScopeSymbol_two]
      simp [visibleDecl, this]
  simp [resolve, h1, resolvePackageSymbol_one, visibleDecl_iff.2 hd, Except.toOption]

private theorem scope_none (S : Sources) (pkg : Package) (d : Decl) (ids : List Name) (hown : ∀ n, ids = [n] → d.find n = none)
    (hpre : ∀ pre T f, ids = pre ++ [T, f] → pkg.visible S.root (qualifiedPackage S.top pre) T = .ok none) :
    resolveScopeSymbol S pkg (scopedTypeOf d) ids = .ok none := by
  rcases List.eq_nil_or_concat ids with rfl | ⟨l, f, rfl⟩
  · rfl
  · rcases List.eq_nil_or_concat l with rfl | ⟨pre, T, rfl⟩
    · have hf := hown f rfl
      simp only [List.concat_eq_append, List.nil_append, resolveScopeSymbol]
      unfold scopedTypeOf
      split
      · rfl
      · next o ho =>
        split at ho
        · cases ho
        · cases ho
          simp [hf]
        · cases ho
    · have he : (pre.concat T).concat f = pre ++ [T, f] := by simp
      rw [he] at hpre ⊢
      rw [resolveScopeSymbol_two]
      simp [visibleDecl, hpre pre T f rfl]

/-- The name of a package, without that of the top level package, means the package if it means nothing else. -/
theorem C115_package (S : Sources) (pkg : Package) (d : Decl) (inst : List Decl) (ids : List Name) (p : Package)
    (hp : S.root.get (qualifiedPackage S.top ids) = some p) (hown : ∀ n, ids = [n] → d.find n = none)
    (hsym : ∀ pre T, ids = pre ++ [T] → pkg.visible S.root (qualifiedPackage S.top pre) T = .ok none)
    (hpre : ∀ pre T f, ids = pre ++ [T, f] → pkg.visible S.root (qualifiedPackage S.top pre) T = .ok none) :
    (visitTag S pkg d inst ids).target = some (.package (qualifiedPackage S.top ids)) := by
  rw [visitTag_eq]
  have h2 : resolvePackageSymbol S pkg ids = .ok none := by
    rcases List.eq_nil_or_concat ids with rfl | ⟨pre, T, rfl⟩
    · rfl
    · rw [List.concat_eq_append] at hsym ⊢
      rw [resolvePackageSymbol_one]
      simp [visibleDecl, hsym pre T rfl]
  have hn : p.name = qualifiedPackage S.top ids := by
    unfold Root.get at hp
    simpa using List.find?_some hp
  simp [resolve, scope_none S pkg d ids hown hpre, h2, resolvePackage, hp, hn, Except.toOption]

/-- A member which the named type does not have is never replaced by something else. -/
theorem C115_missing_member (S : Sources) (pkg : Package) (d : Decl) (inst : List Decl) (pre : List Name) (T f : Name) (d' : Decl)
    (hd : Denotes S pkg pre T d') (hs : d'.isScoped = true) (hm : d'.find f = none) :
    (visitTag S pkg d inst (pre ++ [T, f])).target = none := by
  rw [visitTag_eq]
  simp [resolve, resolveScopeSymbol_two, visibleDecl_iff.2 hd, hs, hm, Except.toOption]

/-- Whatever a reference is resolved to has been named: a member of the type in which the comment is, a member of a type which the package of
the comment sees under the name before the last dot, a symbol it sees under the whole name, or an existing package of this name. -/
theorem C115_sound (S : Sources) (pkg : Package) (d : Decl) (inst : List Decl) (ids : List Name) (t : Target)
    (h : (visitTag S pkg d inst ids).target = some t) :
    Named S pkg d ids t := by
  rw [visitTag_eq] at h
  simp only at h
  have hr : resolve S pkg (scopedTypeOf d) ids = .ok t := by
    cases hh : resolve S pkg (scopedTypeOf d) ids with
    | error e => rw [hh] at h; simp [Except.toOption] at h
    | ok t' => rw [hh] at h; simp [Except.toOption] at h; rw [h]
  clear h
  unfold resolve at hr
  split at hr
  · cases hr
  · next t' h1 =>
    cases hr
    rcases List.eq_nil_or_concat ids with rfl | ⟨l, f, rfl⟩
    · simp [resolveScopeSymbol] at h1
    · rcases List.eq_nil_or_concat l with rfl | ⟨pre, T, rfl⟩
      · simp only [List.concat_eq_append, List.nil_append, resolveScopeSymbol] at h1 ⊢
        split at h1
        · cases h1
        · next o ho =>
          have ho' : o = d := by
            unfold scopedTypeOf at ho
            split at ho
            · cases ho
            · cases ho; rfl
            · cases ho
          subst ho'
          simp only [Except.ok.injEq, Option.map_eq_some_iff] at h1
          obtain ⟨m, hm, rfl⟩ := h1
          exact Or.inl ⟨f, rfl, rfl, hm⟩
      · have he : (pre.concat T).concat f = pre ++ [T, f] := by simp
        rw [he] at h1 ⊢
        rw [resolveScopeSymbol_two] at h1
        split at h1
        · cases h1
        · cases h1
        · next d' hd =>
          split at h1
          · split at h1
            · next m hm =>
              cases h1
              exact Or.inr ⟨pre, T, f, rfl, visibleDecl_iff.1 hd, hm⟩
            · cases h1
          · cases h1
  · split at hr
    · cases hr
    · next t' h1 =>
      cases hr
      rcases List.eq_nil_or_concat ids with rfl | ⟨pre, T, rfl⟩
      · simp [resolvePackageSymbol] at h1
      · rw [List.concat_eq_append] at h1 ⊢
        rw [resolvePackageSymbol_one] at h1
        split at h1
        · cases h1
        · next od hd =>
          simp only [Except.ok.injEq, Option.map_eq_some_iff] at h1
          obtain ⟨d', rfl, rfl⟩ := h1
          exact ⟨pre, T, rfl, visibleDecl_iff.1 hd⟩
    · split at hr
      · next t' h1 =>
        cases hr
        unfold resolvePackage at h1
        simp only [Option.map_eq_some_iff] at h1
        obtain ⟨p, hp, rfl⟩ := h1
        refine ⟨p, hp, ?_⟩
        unfold Root.get at hp
        have := List.find?_some hp
        simpa using this
      · cases hr

private theorem find_mem {d : Decl} {n : Name} {m : Member} (h : d.find n = some m) : ∃ k ms, d.kind = .scoped k ms ∧ m ∈ ms := by
  unfold Decl.find at h
  split at h
  · next k ms hk => exact ⟨k, ms, hk, List.mem_of_find?_eq_some h⟩
  · cases h

private theorem decl_mem {S : Sources} {s : Symbol} {d : Decl} (h : S.decl s = some d) : d ∈ S.decls := List.mem_of_find?_eq_some h

private theorem member_link {S : Sources} {d : Decl} {n : Name} {m : Member} {ids : List Name} (hg : d ∈ S.decls) (ht : d.isTemplate = false)
    (hwf : d.WellFormed) (hm : d.find n = some m) (hmsg : ∀ s, m.kind ≠ .message false s) :
    ∃ l, makeLink ⟨true, some (.member d m)⟩ ids = some l ∧ l.Valid S := by
  obtain ⟨k, ms, hk, hmem⟩ := find_mem hm
  have hG : Generated S d := ⟨hg, ht, by rw [hk]; intro h; cases h⟩
  have hp : pythonSymbol d = some (classPath d) := by
    unfold pythonSymbol
    rw [hk]
    rfl
  simp only [Decl.WellFormed, hk] at hwf
  have ha := hwf m hmem
  obtain ⟨n', mk⟩ := m
  simp only at hmsg ha
  refine ⟨_, by simp only [makeLink, hp, Option.map_some]; rfl, ?_⟩
  unfold Link.Valid
  cases k with
  | enum =>
    obtain ⟨r, rfl⟩ := ha
    simp only [hk, Bool.false_eq_true, if_false]
    cases r
    · exact .enumItem hG hk hmem
    · exact .removedItem hG hk hmem
  | bitmask =>
    simp only [Allowed] at ha
    subst ha
    simp only [hk, Bool.false_eq_true, if_false]
    exact .bitmaskValue hG hk hmem
  | compound =>
    simp only [hk, Bool.false_eq_true, if_false]
    have hs : scopeSymbolSuffix d ⟨n', mk⟩ = [toLowerSnakeCase n'] := by
      rcases ha with rfl | rfl | rfl <;> simp [scopeSymbolSuffix, hk]
    rw [hs]
    exact .property hG hk (Or.inl rfl) hmem ha
  | sqlTable =>
    simp only [Allowed] at ha
    subst ha
    simp only [hk, if_true]
    have hs : scopeSymbolSuffix d ⟨n', .field⟩ = [py! "Rows", n'] := by simp [scopeSymbolSuffix, hk]
    rw [hs]
    exact .column hG hk hmem
  | sqlDatabase =>
    simp only [Allowed] at ha
    subst ha
    simp only [hk, Bool.false_eq_true, if_false]
    have hs : scopeSymbolSuffix d ⟨n', .field⟩ = [toLowerSnakeCase n'] := by simp [scopeSymbolSuffix, hk]
    rw [hs]
    exact .property hG hk (Or.inr rfl) hmem (Or.inl rfl)
  | service =>
    simp only [Allowed] at ha
    subst ha
    simp only [hk, Bool.false_eq_true, if_false]
    exact .clientMethod hG hk hmem
  | pubsub =>
    obtain ⟨p, s, rfl⟩ := ha
    simp only [hk, Bool.false_eq_true, if_false]
    cases p
    · exact absurd rfl (hmsg s)
    · exact .publish hG hk hmem

/-- what a reference has to lead to for its link to be valid: nothing which belongs to a template, no group of rules and no message which is only
subscribed to -/
def Target.Ordinary : Target → Prop
  | .package _ => True
  | .symbol d => d.isTemplate = false ∧ d.kind ≠ .ruleGroup
  | .member d m => d.isTemplate = false ∧ ∀ s, m.kind ≠ .message false s

/-- The link of a resolved reference leads to an object of the generated code, or to a label of its documentation.  (Excepted: references to
templates and their members, to groups of rules, and to messages which are only subscribed to; see the theorems below.) -/
theorem C115_link_partial (S : Sources) (hwf : ∀ d ∈ S.decls, d.WellFormed) (pkg : Package) (d : Decl) (hd : d ∈ S.decls) (inst : List Decl)
    (ids : List Name) (t : Target) (h : (visitTag S pkg d inst ids).target = some t) (ho : t.Ordinary) :
    ∃ l, makeLink (visitTag S pkg d inst ids) ids = some l ∧ l.Valid S := by
  have hs := C115_sound S pkg d inst ids t h
  have hv : visitTag S pkg d inst ids = ⟨true, some t⟩ := by
    rw [visitTag_eq] at h ⊢
    simp only at h
    rw [h]
  rw [hv]
  cases t with
  | package q =>
    obtain ⟨p, hp, rfl⟩ := hs
    exact ⟨_, rfl, by simpa [Link.Valid] using PyObject.package hp⟩
  | symbol d' =>
    obtain ⟨pre, T, _, s, _, hdecl⟩ := hs
    have hG : Generated S d' := ⟨decl_mem hdecl, ho.1, ho.2⟩
    by_cases hc : d'.kind = .constant
    · refine ⟨⟨_, false⟩, by simp only [makeLink, pythonSymbol, hc, Option.map_some]; rfl, ?_⟩
      simpa [Link.Valid, symbolToModule, constantToSymbol] using PyObject.constant hG hc
    · have hp : pythonSymbol d' = some (classPath d') := by
        unfold pythonSymbol
        split
        · next h' => exact absurd h' hc
        · next h' => exact absurd h' ho.2
        · rfl
      refine ⟨⟨_, false⟩, by simp only [makeLink, hp, Option.map_some]; rfl, ?_⟩
      simpa [Link.Valid] using PyObject.type hG hc
  | member d' m =>
    rcases hs with ⟨n, _, rfl, hm⟩ | ⟨pre, T, f, _, ⟨s, _, hdecl⟩, hm⟩
    · exact member_link hd ho.1 (hwf _ hd) hm ho.2
    · exact member_link (decl_mem hdecl) ho.1 (hwf _ (decl_mem hdecl)) hm ho.2

/-- What the names in references mean: the declaration in the package where the name is visible, if symbols are declared once. -/
theorem C115_declaration (S : Sources) (hu : (S.decls.map (·.symbol)).Nodup) (pkg : Package) (prefixIds : List Name) (n : Name) (d : Decl) :
    Denotes S pkg prefixIds n d ↔ pkg.visible S.root (qualifiedPackage S.top prefixIds) n = .ok (some d.symbol) ∧ d ∈ S.decls := by
  constructor
  · rintro ⟨s, h1, h2⟩
    have h3 := List.find?_some h2
    have : d.symbol = s := of_decide_eq_true h3
    subst this
    exact ⟨h1, decl_mem h2⟩
  · rintro ⟨h1, h2⟩
    refine ⟨_, h1, ?_⟩
    unfold Sources.decl
    cases hf : S.decls.find? fun x => decide (x.symbol = d.symbol) with
    | none =>
      rw [List.find?_eq_none] at hf
      exact absurd (decide_eq_true rfl) (hf d h2)
    | some x =>
      have h3 := List.find?_some hf
      have h4 : x.symbol = d.symbol := of_decide_eq_true h3
      rw [List.inj_on_of_nodup_map hu (List.mem_of_find?_eq_some hf) h2 h4]

/-- What the names of members mean: the member of that name, if members have different names. -/
theorem C115_member (d : Decl) (k : ScopedKind) (ms : List Member) (hk : d.kind = .scoped k ms) (hu : (ms.map (·.name)).Nodup) (n : Name)
    (m : Member) : d.find n = some m ↔ m ∈ ms ∧ m.name = n := by
  have hf : d.find n = ms.find? fun m => m.name = n := by unfold Decl.find; rw [hk]
  rw [hf]
  constructor
  · intro h
    have h3 := List.find?_some h
    exact ⟨List.mem_of_find?_eq_some h, of_decide_eq_true h3⟩
  · rintro ⟨h1, rfl⟩
    cases hf : ms.find? fun x => decide (x.name = m.name) with
    | none =>
      rw [List.find?_eq_none] at hf
      exact absurd (decide_eq_true rfl) (hf m h1)
    | some x =>
      have h3 := List.find?_some hf
      have h4 : x.name = m.name := of_decide_eq_true h3
      rw [List.inj_on_of_nodup_map hu (List.mem_of_find?_eq_some hf) h1 h4]

/-- A reference which cannot be resolved never stops the generator: its link is the text of the reference. -/
theorem C115_unresolved (S : Sources) (pkg : Package) (d : Decl) (inst : List Decl) (ids : List Name)
    (h : (visitTag S pkg d inst ids).target = none) :
    makeLink (visitTag S pkg d inst ids) ids = some ⟨ids, false⟩ := by
  simp [makeLink, h]

/-- The same reference in the same comment always means the same: the instantiations of a template have the links of the template. -/
theorem C115_once (S : Sources) (pkg : Package) (d : Decl) (inst inst' : List Decl) (ids : List Name) :
    visitTag S pkg d inst ids = visitTag S pkg d inst' ids := by
  rw [visitTag_eq, visitTag_eq]

/-! ### Deviations and concrete cases -/

namespace Demo

/-- `package app; bitmask uint8 Rights { READ, WRITE }; struct Box<T> { T value; }; pubsub News { subscribe("a") Box news; publish("b") …};
rule_group Checks { }; enum uint8 Color { RED, @removed OLD }; struct Tile { uint8 tileWidth; }` -/
def app : Package := ⟨[py! "app"], [py! "Rights", py! "Box", py! "News", py! "Checks", py! "Color", py! "Tile"], []⟩
def rights : Decl := ⟨⟨[py! "app"], py! "Rights"⟩, .scoped .bitmask [⟨py! "READ", .bitmaskValue⟩, ⟨py! "WRITE", .bitmaskValue⟩], false⟩
def box : Decl := ⟨⟨[py! "app"], py! "Box"⟩, .scoped .compound [⟨py! "value", .field⟩], true⟩
def boxOfTile : Decl := ⟨⟨[py! "app"], py! "Box_Tile"⟩, .scoped .compound [⟨py! "value", .field⟩], false⟩
def news : Decl := ⟨⟨[py! "app"], py! "News"⟩, .scoped .pubsub [⟨py! "news", .message false true⟩, ⟨py! "alarm", .message true false⟩], false⟩
def checks : Decl := ⟨⟨[py! "app"], py! "Checks"⟩, .ruleGroup, false⟩
def color : Decl := ⟨⟨[py! "app"], py! "Color"⟩, .scoped .enum [⟨py! "RED", .enumItem false⟩, ⟨py! "OLD", .enumItem true⟩], false⟩
def tile : Decl := ⟨⟨[py! "app"], py! "Tile"⟩, .scoped .compound [⟨py! "tileWidth", .field⟩], false⟩
def sources : Sources := ⟨[app], [], [rights, box, boxOfTile, news, checks, color, tile]⟩

end Demo
open Demo

example : (sources.decls.map (·.symbol)).Nodup ∧ Denotes sources app [] (py! "Tile") tile := ⟨by decide +kernel, tile.symbol, by decide +kernel, by decide +kernel⟩

private theorem sources_wf : ∀ d ∈ sources.decls, d.WellFormed := by
  intro d hd
  simp only [sources, List.mem_cons, List.not_mem_nil, or_false] at hd
  rcases hd with rfl | rfl | rfl | rfl | rfl | rfl | rfl <;>
    simp [Decl.WellFormed, rights, box, boxOfTile, news, checks, color, tile, Allowed]

/-- In a comment of a bitmask the names of its values are not resolved, although those of the members of other types are. -/
theorem C115_bitmask_deviates : ∃ (S : Sources) (pkg : Package) (d : Decl) (n : Name), d ∈ S.decls ∧ (d.find n).isSome ∧
    (visitTag S pkg d [] [n]).target = none ∧ pkg.In S.root :=
  ⟨sources, app, rights, py! "READ", by decide +kernel, by decide +kernel, by decide +kernel, rfl⟩

private theorem two_le_of_pyObject {S : Sources} {p : List PyStr} (h : PyObject S p) : ((∃ d, S.root.get p = some d) ∨
    ∃ d, Generated S d ∧ ∃ rest, p = (if d.kind = .constant then d.symbol.package ++ [toLowerSnakeCase (toUpperSnakeCase d.symbol.name),
      toUpperSnakeCase d.symbol.name] else classPath d) ++ rest) := by
  cases h with
  | package h => exact Or.inl ⟨_, h⟩
  | type h hc => exact Or.inr ⟨_, h, [], by simp [hc]⟩
  | constant h hc => exact Or.inr ⟨_, h, [], by simp [hc]⟩
  | enumItem h hk _ => exact Or.inr ⟨_, h, _, by simp [hk]; rfl⟩
  | removedItem h hk _ => exact Or.inr ⟨_, h, _, by simp [hk]; rfl⟩
  | bitmaskValue h hk _ => exact Or.inr ⟨_, h, _, by simp [hk]; rfl⟩
  | property h hk _ _ _ => exact Or.inr ⟨_, h, _, by simp [hk]; rfl⟩
  | clientMethod h hk _ => exact Or.inr ⟨_, h, _, by simp [hk]; rfl⟩
  | publish h hk _ => exact Or.inr ⟨_, h, _, by simp [hk]; rfl⟩
  | subscribe h hk _ => exact Or.inr ⟨_, h, _, by simp [hk]; rfl⟩

/-- In a comment of a template, which is also the comment of its instantiations, the link to one of its own members leads to nothing: no class of
the template is generated. -/
theorem C115_template_deviates : ∃ (S : Sources) (pkg : Package) (d i : Decl) (n : Name), (∀ d ∈ S.decls, d.WellFormed) ∧ pkg.In S.root ∧
    d ∈ S.decls ∧ i ∈ S.decls ∧ d.isTemplate = true ∧ i.isTemplate = false ∧ (i.find n).isSome ∧
    ∃ l, makeLink (visitTag S pkg d [i] [n]) [n] = some l ∧ ¬ l.Valid S := by
  refine ⟨sources, app, box, boxOfTile, py! "value", sources_wf, rfl, by decide +kernel, by decide +kernel, rfl, rfl, by decide +kernel,
    ⟨[py! "app", py! "box", py! "Box", py! "value"], false⟩, by decide +kernel, ?_⟩
  intro h
  have h' : PyObject sources [py! "app", py! "box", py! "Box", py! "value"] := by simpa [Link.Valid] using h
  rcases two_le_of_pyObject h' with ⟨d, hd⟩ | ⟨d, ⟨hd, ht, hk⟩, rest, hr⟩
  · have : sources.root.get [py! "app", py! "box", py! "Box", py! "value"] = none := by rfl
    rw [this] at hd
    cases hd
  · simp only [sources, List.mem_cons, List.not_mem_nil, or_false] at hd
    have hhead : ∀ d ∈ [rights, boxOfTile, news, color, tile], ∀ rest,
        [py! "app", py! "box", py! "Box", py! "value"] ≠ classPath d ++ rest := by
      intro d hd rest he
      have h3 := congrArg (List.take 3) he
      simp only [List.mem_cons, List.not_mem_nil, or_false] at hd
      rcases hd with rfl | rfl | rfl | rfl | rfl
      all_goals
        simp only [classPath, List.append_assoc, rights, boxOfTile, news, color, tile, List.cons_append, List.nil_append, List.take_succ_cons,
          List.take_zero, List.cons.injEq] at h3
        revert h3
        decide +kernel
    rcases hd with rfl | rfl | rfl | rfl | rfl | rfl | rfl
    · exact hhead rights (by simp) rest (by rwa [if_neg (by decide)] at hr)
    · cases ht
    · exact hhead boxOfTile (by simp) rest (by rwa [if_neg (by decide)] at hr)
    · exact hhead news (by simp) rest (by rwa [if_neg (by decide)] at hr)
    · exact hk rfl
    · exact hhead color (by simp) rest (by rwa [if_neg (by decide)] at hr)
    · exact hhead tile (by simp) rest (by rwa [if_neg (by decide)] at hr)

/-- A link to a message which is only subscribed to leads to a method for publishing, which does not exist. -/
theorem C115_message_deviates : ∃ (S : Sources) (pkg : Package) (d : Decl) (n : Name) (ms : List Member), pkg.In S.root ∧ d ∈ S.decls ∧
    d.kind = .scoped .pubsub ms ∧ ⟨n, .message false true⟩ ∈ ms ∧
    makeLink (visitTag S pkg d [] [n]) [n] = some ⟨classPath d ++ [py! "publish_" ++ toLowerSnakeCase n], false⟩ ∧
    ∀ s, (⟨n, .message true s⟩ : Member) ∉ ms :=
  ⟨sources, app, news, py! "news", _, rfl, by decide +kernel, rfl, by decide +kernel, by decide +kernel, by
    intro s
    cases s <;> decide +kernel⟩

/-- A reference to a group of rules is resolved, and then stops the generator. -/
theorem C115_rule_group_deviates : ∃ (S : Sources) (pkg : Package) (d : Decl) (ids : List Name), pkg.In S.root ∧ d ∈ S.decls ∧
    (visitTag S pkg d [] ids).target.isSome ∧ makeLink (visitTag S pkg d [] ids) ids = none :=
  ⟨sources, app, tile, [py! "Checks"], rfl, by decide +kernel, by decide +kernel, by decide +kernel⟩

/-- `@see tileWidth` in a comment of Tile -/
example : makeLink (visitTag sources app tile [] [py! "tileWidth"]) [py! "tileWidth"] =
    some ⟨[py! "app", py! "tile", py! "Tile", py! "tile_width"], false⟩ := by decide +kernel
/-- `@see Color.OLD` -/
example : makeLink (visitTag sources app tile [] [py! "Color", py! "OLD"]) [py! "Color", py! "OLD"] =
    some ⟨[py! "app", py! "color", py! "Color", py! "ZSERIO_REMOVED_OLD"], false⟩ := by decide +kernel
/-- `@see app.Rights.READ` -/
example : makeLink (visitTag sources app tile [] [py! "app", py! "Rights", py! "READ"]) [py! "app", py! "Rights", py! "READ"] =
    some ⟨[py! "app", py! "rights", py! "Rights", py! "Values", py! "READ"], false⟩ := by decide +kernel
example : Denotes sources app [py! "app"] (py! "Rights") rights := ⟨⟨[py! "app"], py! "Rights"⟩, by rfl, by decide +kernel⟩
example : app.visible sources.root (qualifiedPackage sources.top []) (py! "app") = .ok none := by rfl
/-- `@see app` and `@see Tile.height` -/
example : (visitTag sources app tile [] [py! "app"]).target = some (.package [py! "app"]) := by decide +kernel
example : (visitTag sources app color [] [py! "Tile", py! "height"]).target = none := by decide +kernel
example : (Target.member tile ⟨py! "tileWidth", .field⟩).Ordinary := ⟨rfl, by intro s h; cases h⟩

end Zserio.DocLinks
