import Verif.Model.PathNames
/-
C124: names in expressions read, in the generated code, the values which they mean.
-/
namespace Zserio.PathNames
open Zserio.Names

/-- the identifier of a step -/
def Step.symbol : Step → Symbol
  | .field n => .field n
  | .parameter n => .parameter n

/-- the name which the schema gives to a step -/
def Step.name : Step → PyStr
  | .field n => n
  | .parameter n => n

theorem readDotted_flatMap (s : PyStr) (l : List PyStr) :
    readDotted (.name s :: l.flatMap fun x => [.dot, .name x]) = some (s :: l) := by
  induction l generalizing s with
  | nil => rfl
  | cons x l ih =>
    show (readDotted (.name x :: l.flatMap fun y => [.dot, .name y])).map (s :: ·) = _
    rw [ih]; rfl

theorem joinDots_eq (s : PyStr) (l : List PyStr) : joinDots (s :: l) = .name s :: l.flatMap fun x => [.dot, .name x] := by
  induction l generalizing s with
  | nil => rfl
  | cons x l ih =>
    show .name s :: .dot :: joinDots (x :: l) = _
    rw [ih]; rfl

theorem readDotted_joinDots {l : List PyStr} (h : l ≠ []) : readDotted (joinDots l) = some l := by
  cases l with
  | nil => exact absurd rfl h
  | cons s l => rw [joinDots_eq, readDotted_flatMap]

theorem joinDots_append {l : List PyStr} (h : l ≠ []) (m : List PyStr) :
    joinDots l ++ (m.flatMap fun x => [.dot, .name x]) = joinDots (l ++ m) := by
  cases l with
  | nil => exact absurd rfl h
  | cons s l => rw [List.cons_append, joinDots_eq, joinDots_eq]; simp [List.flatMap_append]

theorem lookup_of_mem {l : List (PyStr × Nat)} (hn : (l.map Prod.fst).Nodup) {k : PyStr} {v : Nat} (h : (k, v) ∈ l) :
    l.lookup k = some v := by
  induction l with
  | nil => simp at h
  | cons x l ih =>
    obtain ⟨k', v'⟩ := x
    simp only [List.map_cons, List.nodup_cons] at hn
    rw [List.lookup_cons]
    rcases List.mem_cons.mp h with h | h
    · cases h; simp
    · have hne : k ≠ k' := fun he => hn.1 (he ▸ List.mem_map.mpr ⟨(k, v), h, rfl⟩)
      have : (k == k') = false := by simpa using hne
      rw [this]; exact ih hn.2 h

theorem mem_of_lookup {l : List (PyStr × Nat)} {k : PyStr} {v : Nat} (h : l.lookup k = some v) : (k, v) ∈ l := by
  induction l with
  | nil => simp at h
  | cons x l ih =>
    obtain ⟨k', v'⟩ := x
    rw [List.lookup_cons] at h
    by_cases he : k = k'
    · subst he; simp at h; simp [h]
    · have : (k == k') = false := by simpa using he
      rw [this] at h
      exact List.mem_cons_of_mem _ (ih h)

/-- no two attributes of an object have the same name (C68), and the chosen field is one of the declared ones -/
def Object.Ok (ob : Object) : Prop :=
  (ob.attributes.map Prod.fst).Nodup ∧
  match ob.body with
  | .struct _ => True
  | .choice declared chosen _ => chosen ∈ declared

/-- the policy with which the expressions of the type of an object are written -/
def Object.policy (ob : Object) : Policy :=
  match ob.body with
  | .struct _ => .struct
  | .choice .. => .choice

theorem property_mem {ob : Object} (h : ob.Ok) {s : Step} {v : Nat} (hv : ob.value s = some v) :
    (propertyName s.name, v) ∈ ob.attributes := by
  obtain ⟨ps, b⟩ := ob
  cases s with
  | parameter n =>
    have := mem_of_lookup hv
    exact List.mem_append_left _ (List.mem_flatMap.mpr ⟨_, this, by simp [Step.name]⟩)
  | field n =>
    cases b with
    | struct fs =>
      have := mem_of_lookup (show fs.lookup n = some v from hv)
      exact List.mem_append_right _ (List.mem_flatMap.mpr ⟨_, this, by simp [Step.name]⟩)
    | choice d c w =>
      have hv' : (if n = c then some w else none) = some v := hv
      split at hv'
      · rename_i hn
        cases hv'; subst hn
        exact List.mem_append_right _ (List.mem_cons_of_mem _ (List.mem_map.mpr ⟨_, h.2, rfl⟩))
      · exact absurd hv' (by simp)

/-- the attribute which the first identifier of a path reads -/
def firstName (p : Policy) : Step → PyStr
  | .parameter n => memberName n
  | .field n => match p with | .struct => memberName n | .choice => py! "_choice"

theorem member_mem {ob : Object} {s : Step} {v : Nat} (hv : ob.value s = some v) :
    (firstName ob.policy s, v) ∈ ob.attributes := by
  obtain ⟨ps, b⟩ := ob
  cases s with
  | parameter n =>
    have := mem_of_lookup hv
    exact List.mem_append_left _ (List.mem_flatMap.mpr ⟨_, this, by simp [firstName]⟩)
  | field n =>
    cases b with
    | struct fs =>
      have := mem_of_lookup (show fs.lookup n = some v from hv)
      exact List.mem_append_right _ (List.mem_flatMap.mpr ⟨_, this, by simp [firstName, Object.policy]⟩)
    | choice d c w =>
      have hv' : (if n = c then some w else none) = some v := hv
      split at hv'
      · cases hv'
        exact List.mem_append_right _ (by simp [firstName, Object.policy])
      · exact absurd hv' (by simp)

theorem formatRest_steps (p : Policy) (owner : Bool) (prev : Symbol) (hp : prev ≠ .package) (l : List Step) :
    formatRest p owner prev (l.map Step.symbol) = (l.map fun s => propertyName s.name).flatMap fun x => [.dot, .name x] := by
  induction l generalizing prev with
  | nil => rfl
  | cons s l ih =>
    have hs : s.symbol ≠ .package := by cases s <;> simp [Step.symbol]
    rw [List.map_cons, formatRest, ih _ hs, if_neg hp]
    cases s <;> rfl

theorem formatPath_steps (p : Policy) (owner : Bool) (s : Step) (l : List Step) :
    readDotted (formatPath p owner ((s :: l).map Step.symbol)) =
      some (py! "self" :: ((if owner then [py! "_owner"] else []) ++ firstName p s :: l.map fun x => propertyName x.name)) := by
  have hs : s.symbol ≠ .package := by cases s <;> simp [Step.symbol]
  rw [← readDotted_flatMap, List.map_cons, formatPath, formatRest_steps _ _ _ hs]
  cases s <;> cases owner <;> rfl

theorem foldlM_steps {st : Store} (hok : ∀ a ob, st a = some ob → ob.Ok) (l : List Step) (a v : Nat)
    (h : st.value a l = some v) : (l.map fun x => propertyName x.name).foldlM (getattr st) (.ref a) = some (.ref v) := by
  induction l generalizing a with
  | nil => cases h; rfl
  | cons s l ih =>
    rw [Store.value] at h
    cases ho : st a with
    | none => rw [ho] at h; exact absurd h (by simp)
    | some ob =>
      rw [ho] at h
      cases hw : ob.value s with
      | none => simp [hw] at h
      | some w =>
        simp only [hw, Option.bind_eq_bind, Option.bind_some] at h
        have hl := lookup_of_mem (hok a ob ho).1 (property_mem (hok a ob ho) hw)
        rw [List.map_cons, List.foldlM_cons]
        simp only [getattr, ho, hl, Option.bind_some, Option.map_some, Option.bind_eq_bind]
        exact ih w h

/-- the object in whose methods an expression is evaluated, or the factory of the elements of one of its arrays -/
def selfOf (owner : Bool) (a : Nat) : PyObj := if owner then .factory a else .ref a

/-- C124: whatever the objects are, a path of fields and parameters which has a value in an object is written as a text which reads
this value, in the methods of the object as well as in the factories of the elements of its arrays.  Missing: that paths without value
read nothing, which is false of choices and unions (`C124_choice_deviates`). -/
theorem C124_reads_partial {st : Store} (hok : ∀ a ob, st a = some ob → ob.Ok) {a : Nat} {ob : Object} (ho : st a = some ob)
    {path : List Step} (hne : path ≠ []) {v : Nat} (h : st.value a path = some v) (owner : Bool) :
    evalSelf st (selfOf owner a) (formatPath ob.policy owner (path.map Step.symbol)) = some (.ref v) := by
  cases path with
  | nil => exact absurd rfl hne
  | cons s l =>
    rw [Store.value, ho] at h
    cases hw : ob.value s with
    | none => simp [hw] at h
    | some w =>
      simp only [hw, Option.bind_eq_bind, Option.bind_some] at h
      have hl := lookup_of_mem (hok a ob ho).1 (member_mem hw)
      have hr := foldlM_steps hok l w v h
      have hg : getattr st (.ref a) (firstName ob.policy s) = some (.ref w) := by simp [getattr, ho, hl]
      rw [evalSelf, formatPath_steps]
      cases owner
      · simp only [selfOf, if_pos, Bool.false_eq_true, if_false, List.nil_append, List.foldlM_cons, hg, Option.bind_eq_bind,
          Option.bind_some, hr]
      · simp only [selfOf, if_pos, List.cons_append, List.nil_append, List.foldlM_cons, getattr, Option.bind_eq_bind,
          Option.bind_some]
        simp only [getattr] at hg
        simp only [hg, Option.bind_some, hr]

/-- C124, deviation: in choices and unions the name of any field reads the value of the chosen field, even if the field which is
named is another one and has no value. -/
theorem C124_choice_deviates {st : Store} {a : Nat} {ob : Object} (ho : st a = some ob) (hok : ob.Ok)
    {declared : List PyStr} {chosen : PyStr} {w : Nat} (hb : ob.body = .choice declared chosen w) (n : PyStr) :
    evalSelf st (.ref a) (formatPath ob.policy false [.field n]) = some (.ref w) ∧ (n ≠ chosen → st.value a [.field n] = none) := by
  constructor
  · have hm : (py! "_choice", w) ∈ ob.attributes := by
      obtain ⟨ps, b⟩ := ob; cases hb
      exact List.mem_append_right _ (by simp)
    have hl := lookup_of_mem hok.1 hm
    have hp : ob.policy = .choice := by rw [Object.policy, hb]
    have ht := formatPath_steps .choice false (.field n) []
    rw [evalSelf, hp]
    simp only [List.map_cons, List.map_nil, Step.symbol] at ht
    rw [ht]
    simp [firstName, getattr, ho, hl]
  · intro hn
    simp [Store.value, ho, Object.value, hb, hn]

theorem formatRest_packages (p : Policy) (owner : Bool) (k : Nat) (s : Symbol) (l : List Symbol) :
    formatRest p owner .package (List.replicate k .package ++ s :: l) = formatSymbol p owner false s ++ formatRest p owner s l := by
  induction k with
  | zero => rfl
  | succ k ih => exact ih

theorem formatPath_packages (p : Policy) (owner : Bool) (k : Nat) {s : Symbol}
    (hs : formatSymbol p owner true s = formatSymbol p owner false s) (l : List Symbol) :
    formatPath p owner (List.replicate k .package ++ s :: l) = formatSymbol p owner false s ++ formatRest p owner s l := by
  cases k with
  | zero => show formatSymbol p owner true s ++ _ = _; rw [hs]
  | succ k => exact formatRest_packages p owner k s l

theorem enumItemSymbol_eq (n : PyStr) (removed : Bool) :
    enumItemSymbol n removed = (if removed then py! "ZSERIO_REMOVED_" else []) ++ toUpperSnakeCase n := by
  cases removed <;> rfl

/-- C124: an item of an enumeration is written with its full name, with the type in front of it or (where items are known without) not,
and after any names of packages. -/
theorem C124_items (p : Policy) (owner : Bool) (k : Nat) {full : List PyStr} (hf : full ≠ []) (n : PyStr) (removed : Bool) :
    readDotted (formatPath p owner (List.replicate k .package ++ [.type full, .enumItem full n removed])) =
      some (full ++ [(if removed then py! "ZSERIO_REMOVED_" else []) ++ toUpperSnakeCase n]) ∧
    readDotted (formatPath p owner [.enumItem full n removed]) =
      some (full ++ [(if removed then py! "ZSERIO_REMOVED_" else []) ++ toUpperSnakeCase n]) := by
  rw [formatPath_packages p owner k (s := .type full) rfl, ← enumItemSymbol_eq]
  have h : readDotted (joinDots full ++ [.dot, .name (enumItemSymbol n removed)]) = some (full ++ [enumItemSymbol n removed]) := by
    rw [← readDotted_joinDots (l := full ++ [enumItemSymbol n removed]) (by simp), ← joinDots_append hf]; rfl
  constructor
  · simpa [formatSymbol, formatRest] using h
  · simpa [formatPath, formatSymbol, formatRest] using h

/-- C124: the same for the values of bitmasks, which are attributes of the class `Values` in that of the bitmask. -/
theorem C124_values (p : Policy) (owner : Bool) (k : Nat) {full : List PyStr} (hf : full ≠ []) (n : PyStr) :
    readDotted (formatPath p owner (List.replicate k .package ++ [.type full, .bitmaskValue full n])) =
      some (full ++ [py! "Values", toUpperSnakeCase n]) ∧
    readDotted (formatPath p owner [.bitmaskValue full n]) = some (full ++ [py! "Values", toUpperSnakeCase n]) := by
  rw [formatPath_packages p owner k (s := .type full) rfl]
  have h : readDotted (joinDots full ++ [.dot, .name (py! "Values"), .dot, .name (toUpperSnakeCase n)]) =
      some (full ++ [py! "Values", toUpperSnakeCase n]) := by
    rw [← readDotted_joinDots (l := full ++ [py! "Values", toUpperSnakeCase n]) (by simp), ← joinDots_append hf]; rfl
  constructor
  · simpa [formatSymbol, formatRest] using h
  · simpa [formatPath, formatSymbol, formatRest] using h

/-- C124: a constant is written with its full name, with or without its package in front. -/
theorem C124_constants (p : Policy) (owner : Bool) (k : Nat) {full : List PyStr} (hf : full ≠ []) :
    readDotted (formatPath p owner (List.replicate k .package ++ [.constant full])) = some full := by
  rw [formatPath_packages p owner k (s := .constant full) rfl]
  simpa [formatSymbol, formatRest] using readDotted_joinDots hf

namespace Demo

/-- a structure with the parameter `maxLen` and the fields `header` and `body`; `body` is a choice of `a` and `bigB`, which is chosen -/
def store : Store
  | 0 => some ⟨[(py! "maxLen", 9)], .struct [(py! "header", 7), (py! "bodyPart", 1)]⟩
  | 1 => some ⟨[(py! "sel", 7)], .choice [py! "a", py! "bigB"] (py! "bigB") 5⟩
  | _ => none

theorem ok (a : Nat) (ob : Object) (h : store a = some ob) : ob.Ok := by
  match a with
  | 0 => cases h; exact ⟨by decide +kernel, trivial⟩
  | 1 => cases h; exact ⟨by decide +kernel, by simp⟩
  | n + 2 => exact absurd h (by simp [store])

/-- the hypotheses of `C124_reads_partial` hold of `bodyPart.bigB` and `maxLen` in the structure and of `bigB` in the choice -/
example : evalSelf store (selfOf false 0) (formatPath .struct false [.field (py! "bodyPart"), .field (py! "bigB")]) = some (.ref 5) ∧
    evalSelf store (selfOf true 0) (formatPath .struct true [.parameter (py! "maxLen")]) = some (.ref 9) ∧
    evalSelf store (selfOf false 1) (formatPath .choice false [.field (py! "bigB")]) = some (.ref 5) :=
  ⟨C124_reads_partial ok (a := 0) rfl (path := [.field (py! "bodyPart"), .field (py! "bigB")]) (by simp) rfl false,
   C124_reads_partial ok (a := 0) rfl (path := [.parameter (py! "maxLen")]) (by simp) rfl true,
   C124_reads_partial ok (a := 1) rfl (path := [.field (py! "bigB")]) (by simp) rfl false⟩

/-- their texts -/
example : formatPath .struct false [.field (py! "bodyPart"), .field (py! "bigB")] =
      [.name (py! "self"), .dot, .name (py! "_body_part_"), .dot, .name (py! "big_b")] ∧
    formatPath .struct true [.parameter (py! "maxLen")] =
      [.name (py! "self"), .dot, .name (py! "_owner"), .dot, .name (py! "_max_len_")] := by decide +kernel

/-- `C124_choice_deviates`: `a` reads the value of `bigB` -/
example : evalSelf store (.ref 1) (formatPath .choice false [.field (py! "a")]) = some (.ref 5) ∧
    store.value 1 [.field (py! "a")] = none :=
  ⟨(C124_choice_deviates (st := store) rfl (ok 1 _ rfl) rfl (py! "a")).1,
   (C124_choice_deviates (st := store) rfl (ok 1 _ rfl) rfl (py! "a")).2 (by decide)⟩

/-- `pkg.Color.darkRed` and `darkRed` -/
example : readDotted (formatPath .struct false [.package, .type [py! "pkg", py! "color", py! "Color"],
      .enumItem [py! "pkg", py! "color", py! "Color"] (py! "darkRed") false]) =
    some [py! "pkg", py! "color", py! "Color", py! "DARK_RED"] :=
  (C124_items .struct false 1 (full := [py! "pkg", py! "color", py! "Color"]) (by simp) (py! "darkRed") false).1.trans (by decide +kernel)

/-- the same path without package, of a bitmask, and a constant after two packages -/
example : readDotted (formatPath .choice false [.bitmaskValue [py! "m", py! "M"] (py! "x")]) = some [py! "m", py! "M", py! "Values", py! "X"] ∧
    readDotted (formatPath .choice true [.package, .package, .constant [py! "p", py! "c", py! "C"]]) = some [py! "p", py! "c", py! "C"] :=
  ⟨(C124_values .choice false 0 (full := [py! "m", py! "M"]) (by simp) (py! "x")).2.trans (by decide +kernel),
   C124_constants .choice true 2 (full := [py! "p", py! "c", py! "C"]) (by simp)⟩

end Demo
end Zserio.PathNames
