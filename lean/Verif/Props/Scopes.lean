import Verif.Lemmas.ScopesBodies
import Verif.Model.JsonText
set_option linter.unusedSimpArgs false
/-
C89: expressions of a compound type can use exactly what has been read before, also through functions.

Full statement: in an accepted schema, no expression reads a field which comes after it, directly or through the functions it calls;
each name means the field of that name if there is one; functions do not call themselves; and a schema which follows these rules is
accepted.

Proved: this holds for all names of fields which are not names of symbols of the package or of enumeration items and bitmask values
which can be used without their type (C89_order_partial, C89_meaning_partial); functions do not call themselves (C89_acyclic); which
names are visible (C89_scopes); exactly which compound types are accepted (C89_accepted_iff, C89_accepts, C89_names).

Missing: for a field with the name of a constant the first part is false (C89_order_deviates): the result of a function is evaluated
again for each call, in the scope of the call, and the last call decides what it means for all of them.  For the same reason names in
functions can mean the constant and not the field (C89_meaning_deviates), and `isset` with unqualified values does not work in
functions which are called (C89_isset_deviates).
-/
namespace Zserio.Scopes

/-! ### Names and scopes -/

/-- Names of parameters, fields and functions must differ, and nothing else is refused when scopes are built. -/
theorem C89_names (c : Compound) : (∃ slots, c.slots = .ok slots) ↔ c.names.Nodup :=
  ⟨fun ⟨_, h⟩ => (slots_ok.1 h).1, fun h => ⟨_, slots_ok.2 ⟨h, rfl⟩⟩⟩

/-- Each expression of the compound type gets a scope.  It contains all parameters, the fields which come before the expression, all
functions (but not the one whose result the expression is), and in cases of a choice the items of the type of the selector. -/
theorem C89_scopes {c : Compound} {slots : List Slot} (h : c.slots = .ok slots) :
    (∀ r e, c.Has r e ↔ ∃ slot ∈ slots, slot.role = r ∧ slot.expr = e) ∧
    ∀ slot ∈ slots, ∀ n,
      (slot.scope.find n = some (.sym .param n) ↔ n ∈ c.params) ∧
      (slot.scope.find n = some (.sym .field n) ↔ ∃ i, c.IsField i n ∧ c.MayUse slot.role i) ∧
      (slot.scope.find n = some (.sym .func n) ↔ n ∈ c.funcs.map Prod.fst ∧ slot.role ≠ .body n) ∧
      (slot.scope.find n = some (.item n) → n ∈ c.caseItems slot.role) ∧
      (n ∈ c.caseItems slot.role → slot.scope.find n ≠ none) := by
  obtain ⟨hn, rfl⟩ := slots_ok.1 h
  refine ⟨fun r e => ⟨fun h => has_slot h, ?_⟩, fun slot hs n => ?_⟩
  · rintro ⟨slot, hs, rfl, rfl⟩
    exact (allSlots_right hn hs).has
  · have hr := allSlots_right hn hs
    have key : ∀ k, slot.scope.find n = some (.sym k n) ↔ (n, k) ∈ slot.scope.symbols := fun k =>
      scopeOk_find hn hr.scopeOk
    refine ⟨(key _).trans (hr.param n), (key _).trans (hr.field n), (key _).trans (hr.func n), ?_, ?_⟩
    · intro h; rw [← hr.items]; exact (find_item h).2.1
    · intro h; rw [← hr.items] at h; intro hc; exact (find_none hc).2 h

/-! ### What expressions read -/

/-- In an accepted compound type, evaluating an expression reads only fields which come before it (in a constraint, also the field
itself), directly and in the functions it calls. -/
theorem C89_order_partial {c : Compound} {pkg : List Name} {ev : Evaluated} (h : c.evaluate pkg = .ok ev) {r : Role} {rs : List Ref}
    (hr : (r, rs) ∈ ev.refs) {n : Name} (hc : c.Clear pkg n) (hu : Reads ev.bodies rs n) : ∃ i, c.IsField i n ∧ c.MayUse r i := by
  obtain ⟨hn, ha⟩ := evaluate_after h
  obtain ⟨slot, hs, rfl, -, b, b', hres⟩ := ha.refs r rs hr
  have hright := ha.right slot hs
  have hu' := reads_uses ha.bodies hu (resolve_refers hn hright.scopeOk hright.items_ok (has_items (pkg := pkg) hright.has) hres)
  obtain ⟨l, hl, hul⟩ := uses_leaf hu'.1 slot.scope
  obtain ⟨b1, r1, h1⟩ := own_leaves hres l hl
  obtain ⟨hsym, hit⟩ := leaves_scope hl
  rcases forced_uses hul h1 with hk | hk
  · rcases hf : l.1.find n with _ | r
    · exact absurd hf hk
    · rcases find_kinds hf with ⟨k, rfl⟩ | rfl
      · have h2 := (find_key hf).2
        rw [hsym] at h2
        rw [scopeOk_field hn hright.scopeOk h2 hu'.2] at h2
        exact (hright.field n).1 h2
      · rcases hit n (find_item hf).2.1 with h2 | h2
        · rw [hright.items] at h2
          unfold Compound.caseItems at h2
          split at h2
          · split at h2
            · rename_i hm; exact absurd h2 (hc.2.2 _ _ _ hm)
            · cases h2
          · cases h2
        · exact absurd h2 (hc.2.1 _ _ hright.has)
  · exact absurd hk hc.1

/-- Each expression of an accepted compound type, and each result of a function, is resolved, and refers to exactly the fields and
functions it names. -/
theorem C89_meaning_partial {c : Compound} {pkg : List Name} {ev : Evaluated} (h : c.evaluate pkg = .ok ev) (hc : c.NoClash pkg)
    {r : Role} {e : Expr} (he : c.Has r e) :
    (∀ f, r = .body f → ∃ rs, ev.bodies.get f = some rs ∧ c.Means e rs) ∧
    ((∀ f, r ≠ .body f) → ∃ rs, (r, rs) ∈ ev.refs ∧ c.Means e rs) := by
  obtain ⟨hn, ha⟩ := evaluate_after h
  obtain ⟨slot, hs, rfl, rfl⟩ := has_slot he
  have hright := ha.right slot hs
  have means : ∀ {e : Expr} {rs : List Ref}, c.Refers pkg e rs → c.Means e rs := fun hr =>
    ⟨fun n => ⟨fun hm => ⟨(hr.fields n hm).1, mem_names.1 (hr.fields n hm).2⟩, fun hm => hr.found hc n hm.1 (mem_names.2 hm.2)⟩, hr.calls⟩
  refine ⟨fun f hf => ?_, fun hf => ?_⟩
  · have hk := (ha.keys f).2 ⟨slot, hs, .inl hf⟩
    rcases hg : ev.bodies.get f with _ | rs
    · exact absurd hk (get_none.1 hg)
    · obtain ⟨e, h1, -, h3⟩ := ha.bodies f rs (get_some hg)
      have h4 := has_body hn (hf ▸ he)
      rw [h4] at h1
      injection h1 with h1
      exact ⟨rs, rfl, h1 ▸ means h3⟩
  · obtain ⟨rs, h1, b, b', h2⟩ := ha.all slot hs hf
    exact ⟨rs, h1, means (resolve_refers hn hright.scopeOk hright.items_ok (has_items (pkg := pkg) hright.has) h2)⟩

/-- In an accepted compound type no function calls itself, directly or through others, so generated functions terminate. -/
theorem C89_acyclic {c : Compound} {pkg : List Name} {ev : Evaluated} (h : c.evaluate pkg = .ok ev) {f : Name} {e : Expr}
    (hf : (f, e) ∈ c.funcs) : ¬ c.Calls e f := by
  obtain ⟨hn, ha⟩ := evaluate_after h
  have hb := has_body hn (.body hf)
  obtain ⟨slot, hs, h1, h2⟩ := has_slot (.body hf)
  have hk := (ha.keys f).2 ⟨slot, hs, .inl h1⟩
  obtain ⟨⟨f', rs⟩, hm, rfl⟩ := List.mem_map.1 hk
  obtain ⟨e', h3, h4, -⟩ := ha.bodies _ _ hm
  rw [hb] at h3
  injection h3 with h3
  exact h3 ▸ h4

/-! ### Which compound types are accepted -/

/-- A compound type is accepted if and only if its names differ and everything which is evaluated is allowed where it is evaluated: the
identifiers of each expression and of the functions it calls are known in the scope of the expression, and no function calls itself.
The result of a function which an earlier expression calls is not evaluated in its own scope. -/
theorem C89_accepted_iff (c : Compound) (pkg : List Name) :
    (∃ ev, c.evaluate pkg = .ok ev) ↔ c.names.Nodup ∧ ∀ slots, c.slots = .ok slots → ∀ pre slot post, slots = pre ++ slot :: post →
      (∀ f, slot.role = .body f → ∀ slot' ∈ pre, ¬ c.Calls slot'.expr f) →
      ∀ l ∈ slot.expr.leaves slot.scope, c.Allowed pkg l.1 l.2 := by
  constructor
  · rintro ⟨ev, h⟩
    obtain ⟨slots, h1, h2⟩ := bind_ok h
    obtain ⟨hn, rfl⟩ := slots_ok.1 h1
    refine ⟨hn, fun slots hs pre slot post hp hcall => ?_⟩
    obtain ⟨-, rfl⟩ := slots_ok.1 hs
    have hright : ∀ s ∈ c.allSlots, s.Right c := fun s hs => allSlots_right hn hs
    have honce := allSlots_once hn
    rw [hp] at h2 hright honce
    obtain ⟨ev1, h3, ev2, h4⟩ := evalSlots_split h2
    have ha := evalSlots_after hn (fun s hs => hright s (List.mem_append_left _ hs)) (after_nil c pkg) h3
    refine ok_evalSlot ha h4 (fun f hf s' hs' => ⟨?_, hcall f hf s' (by simpa using hs')⟩)
    exact (List.pairwise_append.1 honce).2.2 s' (by simpa using hs') slot (by simp) f hf
  · rintro ⟨hn, h⟩
    have hsl : c.slots = .ok c.allSlots := slots_ok.2 ⟨hn, rfl⟩
    have hright : ∀ s ∈ c.allSlots, s.Right c := fun s hs => allSlots_right hn hs
    have hstep : ∀ pre slot post, c.allSlots = pre ++ slot :: post →
        (∀ f, slot.role = .body f → ∀ slot' ∈ pre, slot'.role ≠ .body f ∧ ¬ c.Calls slot'.expr f) →
        (∀ f, slot.role = .body f → ¬ c.Calls slot.expr f) ∧ ∀ l ∈ slot.expr.leaves slot.scope, c.Allowed pkg l.1 l.2 := by
      intro pre slot post hp hcall
      have h1 := h _ hsl pre slot post hp (fun f hf s hs => (hcall f hf s hs).2)
      refine ⟨fun f hf hc => ?_, h1⟩
      obtain ⟨l, hl, hcl⟩ := calls_leaf hc slot.scope
      obtain ⟨-, e, h2, h3⟩ := (h1 l hl).2 f hcl
      have h4 := has_body hn (hf ▸ (hright slot (by rw [hp]; simp)).has)
      rw [h4] at h2
      injection h2 with h2
      exact h3 (h2 ▸ hc)
    obtain ⟨ev, hev⟩ := evalSlots_ok hn hright hstep (pre := []) (post := c.allSlots) rfl (after_nil c pkg)
    exact ⟨ev, by unfold Compound.evaluate; rw [hsl]; exact hev⟩

/-- A compound type with different names is accepted if its expressions use, directly and in the functions they call, only parameters,
fields which come before, and symbols of the package, if they call only functions of the compound type, and if no function calls itself. -/
theorem C89_accepts {c : Compound} {pkg : List Name} (hn : c.names.Nodup)
    (hu : ∀ r e n, c.Has r e → c.Uses e n → n ∈ c.params ∨ (∃ i, c.IsField i n ∧ c.MayUse r i) ∨ n ∈ pkg)
    (hc : ∀ r e f, c.Has r e → f ∈ e.calls → f ∈ c.funcs.map Prod.fst)
    (ha : ∀ f e, (f, e) ∈ c.funcs → ¬ c.Calls e f) : ∃ ev, c.evaluate pkg = .ok ev := by
  rw [C89_accepted_iff]
  refine ⟨hn, fun slots hs pre slot post hp _ l hl => ?_⟩
  obtain ⟨-, rfl⟩ := slots_ok.1 hs
  have hr := allSlots_right hn (slot := slot) (by rw [hp]; simp)
  obtain ⟨hsym, -⟩ := leaves_scope hl
  have hso : c.ScopeOk l.1 := fun n k hk => hr.scopeOk n k (hsym ▸ hk)
  refine ⟨fun n hm => ?_, fun f hm => ?_⟩
  · have key : ∀ k, (n, k) ∈ slot.scope.symbols → Known pkg l.1 n := fun k hk =>
      .inl (by rw [(scopeOk_find hn hso).2 (hsym ▸ hk)]; simp)
    rcases hu _ _ n hr.has (leaf_uses hl hm) with h | h | h
    · exact key .param ((hr.param n).2 h)
    · exact key .field ((hr.field n).2 h)
    · exact .inr h
  · have hcf := leaf_calls hl hm
    have hfun : f ∈ c.funcs.map Prod.fst := calls_func hc hcf hr.has
    obtain ⟨⟨f', b⟩, hb, rfl⟩ := List.mem_map.1 hfun
    refine ⟨(scopeOk_find hn hso).2 (hsym ▸ (hr.func _).2 ⟨hfun, fun hrole => ?_⟩), b, has_body hn (.body hb), ha _ _ hb⟩
    have := hr.has
    rw [hrole] at this
    cases this with
    | body h => exact ha _ _ h hcf

/-! ### Examples -/

deriving instance DecidableEq for Except


/-- `struct S(uint8 p) { uint8 a : a < p; uint8 b if f() != Max; uint8 c[g()]; function uint8 f() { return a + p; }
function uint8 g() { return f() + b; } };` -/
def sample : Compound where
  params := [py! "p"]
  members := .struct [
    ⟨py! "a", [], some (.op (.id (py! "a")) (.id (py! "p")))⟩,
    ⟨py! "b", [.op (.call (py! "f")) (.id (py! "Max"))], none⟩,
    ⟨py! "c", [.call (py! "g")], none⟩]
  funcs := [(py! "f", .op (.id (py! "a")) (.id (py! "p"))), (py! "g", .op (.call (py! "f")) (.id (py! "b")))]

/-- it is accepted, and this is what its expressions mean -/
theorem sample_ok : sample.evaluate [py! "Max"] = .ok ⟨[
    (.constraint 0, [.sym .field (py! "a"), .sym .param (py! "p")]),
    (.before 1, [.call (py! "f"), .package (py! "Max")]),
    (.before 2, [.call (py! "g")])], [
    (py! "g", [.call (py! "f"), .sym .field (py! "b")]),
    (py! "f", [.sym .field (py! "a"), .sym .param (py! "p")]),
    (py! "f", [.sym .field (py! "a"), .sym .param (py! "p")])]⟩ := by decide +kernel

/-- no field of the example has the name of something else -/
theorem sample_clear : sample.NoClash [py! "Max"] := by
  intro i n h
  have hn : n ∈ sample.members.names := mem_names.2 ⟨i, h⟩
  have hall : ∀ n ∈ sample.members.names, n ∉ [py! "Max"] := by decide +kernel
  refine ⟨hall n hn, ?_, by intro _ _ _ h; cases h⟩
  intro r e he hm
  have hno : (∀ f ∈ [(⟨py! "a", [], some (.op (.id (py! "a")) (.id (py! "p")))⟩ : Field),
      ⟨py! "b", [.op (.call (py! "f")) (.id (py! "Max"))], none⟩, ⟨py! "c", [.call (py! "g")], none⟩],
        (∀ e ∈ f.before, e.items = []) ∧ ∀ e ∈ f.constraint, e.items = []) ∧ ∀ p ∈ sample.funcs, p.2.items = [] := by
    decide +kernel
  have : e.items = [] := by
    cases he with
    | before h1 h2 => exact (hno.1 _ (List.mem_of_getElem? h1)).1 _ h2
    | constraint h1 h2 => exact (hno.1 _ (List.mem_of_getElem? h1)).2 _ h2
    | selector h => cases h
    | case h => cases h
    | body h => exact hno.2 _ h
  rw [this] at hm
  cases hm

/-- C89_scopes, C89_accepted_iff: the names of the example differ -/
example : (∃ slots, sample.slots = .ok slots) ∧ sample.names.Nodup :=
  ⟨(C89_names _).2 (by decide +kernel), by decide +kernel⟩

/-- C89_order_partial: the length of `c` reads `a`, through two functions -/
example : Reads [
    (py! "g", [.call (py! "f"), .sym .field (py! "b")]),
    (py! "f", [.sym .field (py! "a"), .sym .param (py! "p")]),
    (py! "f", [.sym .field (py! "a"), .sym .param (py! "p")])] [.call (py! "g")] (py! "a") ∧
    ∃ i, sample.IsField i (py! "a") ∧ sample.MayUse (.before 2) i := by
  have h : Reads [
    (py! "g", [.call (py! "f"), .sym .field (py! "b")]),
    (py! "f", [.sym .field (py! "a"), .sym .param (py! "p")]),
    (py! "f", [.sym .field (py! "a"), .sym .param (py! "p")])] [.call (py! "g")] (py! "a") :=
    .through (f := py! "g") (rs' := [.call (py! "f"), .sym .field (py! "b")]) (by simp) (by decide +kernel)
      (.through (f := py! "f") (rs' := [.sym .field (py! "a"), .sym .param (py! "p")]) (by simp) (by decide +kernel) (.direct (by simp)))
  exact ⟨h, C89_order_partial sample_ok (by simp) (sample_clear 0 _ ⟨_, rfl, rfl⟩) h⟩

/-- C89_meaning_partial, C89_acyclic -/
example : ∃ rs, (Role.before 1, rs) ∈ (Evaluated.refs ⟨[
    (.constraint 0, [.sym .field (py! "a"), .sym .param (py! "p")]),
    (.before 1, [.call (py! "f"), .package (py! "Max")]),
    (.before 2, [.call (py! "g")])], [
    (py! "g", [.call (py! "f"), .sym .field (py! "b")]),
    (py! "f", [.sym .field (py! "a"), .sym .param (py! "p")]),
    (py! "f", [.sym .field (py! "a"), .sym .param (py! "p")])]⟩) ∧
    sample.Means (.op (.call (py! "f")) (.id (py! "Max"))) rs :=
  (C89_meaning_partial sample_ok sample_clear (.before (i := 1) rfl (by simp))).2 (by simp)

example : ¬ sample.Calls (.op (.call (py! "f")) (.id (py! "b"))) (py! "g") := C89_acyclic sample_ok (by simp [sample])

/-- `struct S { uint8 a; uint8 b if f(); function uint8 f() { return a; } };` -/
def small : Compound := ⟨[], .struct [⟨py! "a", [], none⟩, ⟨py! "b", [.call (py! "f")], none⟩], [(py! "f", .id (py! "a"))]⟩

theorem small_has {r : Role} {e : Expr} (h : small.Has r e) :
    (r = .before 1 ∧ e = .call (py! "f")) ∨ (r = .body (py! "f") ∧ e = .id (py! "a")) := by
  cases h with
  | @before i f e h1 h2 =>
    rcases i with _ | _ | i
    · cases h1; cases h2
    · cases h1; rw [List.mem_singleton] at h2; exact .inl ⟨rfl, h2⟩
    · simp [small, Members.field?] at h1
  | @constraint i f e h1 h2 =>
    rcases i with _ | _ | i
    · cases h1; cases h2
    · cases h1; cases h2
    · simp [small, Members.field?] at h1
  | selector h => cases h
  | case h => cases h
  | body h => simp only [small, List.mem_singleton, Prod.mk.injEq] at h; exact .inr ⟨by rw [h.1], h.2⟩

theorem small_calls {f : Name} : ¬ small.Calls (.id (py! "a")) f := by
  intro h
  cases h with
  | direct h => simp [Expr.calls] at h
  | through h => simp [Expr.calls] at h

/-- C89_accepts: the condition of `b` uses `a` through a function -/
example : ∃ ev, small.evaluate [] = .ok ev := by
  refine C89_accepts (by decide +kernel) ?_ ?_ ?_
  · intro r e n h hu
    have ha : small.IsField 0 (py! "a") := ⟨_, rfl, rfl⟩
    rcases small_has h with ⟨rfl, rfl⟩ | ⟨rfl, rfl⟩
    · cases hu with
      | direct h => simp [Expr.ids] at h
      | through h1 h2 h3 =>
        simp only [Expr.calls, List.mem_singleton] at h1
        subst h1
        have : small.body (py! "f") = some (.id (py! "a")) := rfl
        rw [this] at h2
        injection h2 with h2
        subst h2
        cases h3 with
        | direct h => simp only [Expr.ids, List.mem_singleton] at h; subst h; exact .inr (.inl ⟨0, ha, ⟨_, rfl⟩, by omega⟩)
        | through h => simp [Expr.calls] at h
    · cases hu with
      | direct h => simp only [Expr.ids, List.mem_singleton] at h; subst h; exact .inr (.inl ⟨0, ha, trivial⟩)
      | through h => simp [Expr.calls] at h
  · intro r e f h hc
    rcases small_has h with ⟨rfl, rfl⟩ | ⟨rfl, rfl⟩
    · simp only [Expr.calls, List.mem_singleton] at hc; simp [hc, small]
    · simp [Expr.calls] at hc
  · intro f e h
    rcases small_has (.body h) with ⟨h, -⟩ | ⟨-, rfl⟩
    · cases h
    · exact small_calls

/-- using a field which comes later is refused, also through a function; so is a function which calls itself through another one -/
example :
    (Compound.mk [] (.struct [⟨py! "a", [.id (py! "b")], none⟩, ⟨py! "b", [], none⟩]) []).evaluate [] = .error .unresolved ∧
    (Compound.mk [] (.struct [⟨py! "a", [.call (py! "f")], none⟩, ⟨py! "b", [], none⟩]) [(py! "f", .id (py! "b"))]).evaluate []
      = .error .unresolved ∧
    (Compound.mk [] (.struct [⟨py! "a", [.call (py! "f")], none⟩]) [(py! "f", .call (py! "g")), (py! "g", .call (py! "f"))]).evaluate [] = .error .cyclic := by
  decide +kernel

/-! ### Where the full statement fails -/

/-- `const uint8 Size = 1; struct S { uint8 a if f() > 0; uint8 Size; uint8 b if f() > 0; function uint8 f() { return Size; } };` where
only the second condition depends on `again` -/
def clash (again : Bool) : Compound where
  params := []
  members := .struct [⟨py! "a", [.call (py! "f")], none⟩, ⟨py! "Size", [], none⟩,
    ⟨py! "b", [if again then .call (py! "f") else .lit], none⟩]
  funcs := [(py! "f", .id (py! "Size"))]

/-- A schema is accepted although the condition of a field reads a field which comes later: the function means the field because of a
later call.  Reading the compound type uses the field before it has been read. -/
theorem C89_order_deviates : ∃ (c : Compound) (pkg : List Name) (ev : Evaluated) (r : Role) (rs : List Ref) (n : Name),
    c.evaluate pkg = .ok ev ∧ (r, rs) ∈ ev.refs ∧ Reads ev.bodies rs n ∧ (∃ i, c.IsField i n) ∧ ¬ ∃ i, c.IsField i n ∧ c.MayUse r i := by
  refine ⟨clash true, [py! "Size"], ⟨[(.before 0, [.call (py! "f")]), (.before 2, [.call (py! "f")])],
    [(py! "f", [.sym .field (py! "Size")]), (py! "f", [.package (py! "Size")])]⟩, .before 0, [.call (py! "f")], py! "Size",
    by decide +kernel, by simp, .through (f := py! "f") (rs' := [.sym .field (py! "Size")]) (by simp) (by decide +kernel)
      (.direct (by simp)), ⟨1, _, rfl, rfl⟩, ?_⟩
  rintro ⟨i, -, -, h⟩
  omega

/-- A name in a function means the constant although the compound type has a field of that name; with another call of the function, in
another field, it means the field. -/
theorem C89_meaning_deviates : ∃ (c c' : Compound) (pkg : List Name) (ev ev' : Evaluated) (f n : Name) (e : Expr),
    c.evaluate pkg = .ok ev ∧ c'.evaluate pkg = .ok ev' ∧ c.funcs = c'.funcs ∧ c.members.names = c'.members.names ∧
    c.body f = some e ∧ n ∈ e.ids ∧ (∃ i, c.IsField i n) ∧
    ev.bodies.get f = some [.package n] ∧ ev'.bodies.get f = some [.sym .field n] :=
  ⟨clash false, clash true, [py! "Size"], ⟨[(.before 0, [.call (py! "f")]), (.before 2, [])], [(py! "f", [.package (py! "Size")])]⟩,
    ⟨[(.before 0, [.call (py! "f")]), (.before 2, [.call (py! "f")])],
      [(py! "f", [.sym .field (py! "Size")]), (py! "f", [.package (py! "Size")])]⟩, py! "f", py! "Size", .id (py! "Size"),
    by decide +kernel, by decide +kernel, rfl, rfl, by decide +kernel, by simp [Expr.ids], ⟨1, _, rfl, rfl⟩, by decide +kernel,
    by decide +kernel⟩

/-- `struct S { TestBitmask m; uint8 x if f(); function bool f() { return isset(m, INT); } };`, with the condition only if `called` -/
def issets (called : Bool) : Compound where
  params := []
  members := .struct [⟨py! "m", [], none⟩, ⟨py! "x", if called then [.call (py! "f")] else [], none⟩]
  funcs := [(py! "f", .isset (.id (py! "m")) [py! "INT"] (.id (py! "INT")))]

/-- A function with `isset` is accepted, but not if it is called in its compound type (there it would need the name of the bitmask). -/
theorem C89_isset_deviates : (∃ ev, (issets false).evaluate [] = .ok ev) ∧ (issets true).evaluate [] = .error .unresolved ∧
    (issets false).funcs = (issets true).funcs :=
  ⟨⟨⟨[], [(py! "f", [.sym .field (py! "m"), .item (py! "INT")])]⟩, by decide +kernel⟩, by decide +kernel, rfl⟩

end Zserio.Scopes
