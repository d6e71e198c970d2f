import Verif.Spec.EnumWarnings
import Verif.Props.Enumeration
/-
Property C121: warnings for deprecated items of enumerations.
-/
namespace Zserio
open EnumClass

namespace EnumClass
variable {e : EnumClass}

theorem warned_once (m : e.Member) : WarnsOnce (warned m) := by
  refine ⟨fun m' h => ?_, fun x h => by cases h⟩
  simp only [warned, Except.ok.injEq] at h
  subst h; rfl

theorem error_once (x : Err) : WarnsOnce (e := e) (.error x, []) :=
  ⟨fun m' h => (by cases h), fun _ _ => rfl⟩

theorem find_once (p : e.Member → Bool) (x : Err) (l : List e.Member) :
    WarnsOnce (e := e) (match l.find? p with | some m => warned m | none => (.error x, [])) := by
  split
  · exact warned_once _
  · exact error_once x

theorem fromNameWarns_once (n : PyStr) : ∀ l : List e.Member, WarnsOnce (fromNameWarns e n l)
  | [] => error_once _
  | m :: ms => by
    unfold fromNameWarns
    split
    · exact warned_once m
    · exact fromNameWarns_once n ms

theorem fromNameWarns_chain (n : PyStr) : ∀ l : List e.Member, (fromNameWarns e n l).1 =
    ((fromNameChain e n l).elim (Except.error Err.enumValue) Except.ok : Except Err e.Member)
  | [] => rfl
  | m :: ms => by
    unfold fromNameWarns fromNameChain
    split
    · rfl
    · exact fromNameWarns_chain n ms

theorem typeInfoItems_fst : ∀ l : List e.Member, (typeInfoItems e l).1 =
    l.map fun m => ⟨e.items[m].name, m, e.items[m].deprecated, e.items[m].removed⟩
  | [] => rfl
  | m :: ms => by simp only [typeInfoItems, List.map_cons, typeInfoItems_fst ms]

theorem typeInfoItems_snd : ∀ l : List e.Member, (typeInfoItems e l).2 = l.filter fun m => e.items[m].deprecated
  | [] => rfl
  | m :: ms => by
    simp only [typeInfoItems, typeInfoItems_snd ms, getAttribute, warned, isDeprecated, List.filter_cons]
    split <;> simp_all

end EnumClass

/-- **C121.** However an item is asked for, by attribute, by subscript, by value, by `from_name` or by reading: one warning is
fired if it is deprecated, none otherwise, and none if there is an exception. -/
theorem C121_obtain (e : EnumClass) (m : e.Member) (name : PyStr) (v : Int) (read : Except Err Int) :
    WarnsOnce (getAttribute m) ∧ WarnsOnce (e.getItem name) ∧ WarnsOnce (e.callWarns v) ∧
    WarnsOnce (e.fromNameWarns name (List.finRange e.items.length)) ∧ WarnsOnce (e.readWarns read) := by
  refine ⟨warned_once m, find_once _ _ _, find_once _ _ _, fromNameWarns_once _ _, ?_⟩
  unfold readWarns
  split
  · exact find_once _ _ _
  · exact error_once _

/-- **C121.** All ways to ask for an item give that item. -/
theorem C121_same (e : EnumClass) (he : e.WellFormed) (m : e.Member) :
    (getAttribute m).1 = .ok m ∧ (e.getItem e.items[m].name).1 = .ok m ∧ (e.callWarns e.items[m].value).1 = .ok m ∧
    (e.fromNameWarns e.items[m].name (List.finRange e.items.length)).1 = .ok m ∧
    (e.readWarns (.ok e.items[m].value)).1 = .ok m := by
  have hcall : (e.callWarns e.items[m].value).1 = .ok m := by
    unfold callWarns
    split
    · rename_i m' hm
      have := value_injective he (m := m') (m' := m) (by have h0 := List.find?_some hm; exact of_decide_eq_true h0)
      subst this; rfl
    · rename_i hm
      rw [List.find?_eq_none] at hm
      exact absurd (decide_eq_true (show value m = e.items[m].value from rfl)) (hm m (List.mem_finRange m))
  refine ⟨rfl, ?_, hcall, ?_, hcall⟩
  · unfold getItem
    split
    · rename_i m' hm
      have := name_injective he (m := m') (m' := m) (by simpa using List.find?_some hm)
      subst this; rfl
    · rename_i hm
      rw [List.find?_eq_none] at hm
      simpa using hm m (List.mem_finRange m)
  · rw [fromNameWarns_chain]
    rcases hc : fromNameChain e e.items[m].name (List.finRange e.items.length) with _ | m'
    · exact absurd rfl (chain_none hc m (List.mem_finRange m))
    · have := name_injective he (m := m') (m' := m) (chain_some hc).symm
      subst this; rfl

/-- **C121.** No other item is found: what is given for a name or a value has that name or value. -/
theorem C121_only (e : EnumClass) (m : e.Member) (name : PyStr) (v : Int) :
    ((e.getItem name).1 = .ok m → e.items[m].name = name) ∧ ((e.callWarns v).1 = .ok m → e.items[m].value = v) ∧
    ((e.fromNameWarns name (List.finRange e.items.length)).1 = .ok m → e.items[m].name = name) := by
  refine ⟨fun h => ?_, fun h => ?_, fun h => ?_⟩
  · unfold getItem at h
    split at h
    · rename_i m' hm
      simp only [warned, Except.ok.injEq] at h
      subst h; simpa using List.find?_some hm
    · cases h
  · unfold callWarns at h
    split at h
    · rename_i m' hm
      simp only [warned, Except.ok.injEq] at h
      subst h; have h0 := List.find?_some hm; exact of_decide_eq_true h0
    · cases h
  · rw [fromNameWarns_chain] at h
    rcases hc : fromNameChain e name (List.finRange e.items.length) with _ | m'
    · rw [hc] at h; cases h
    · rw [hc] at h
      simp only [Option.elim, Except.ok.injEq] at h
      subst h; exact (chain_some hc).symm

/-- **C121.** Writing fires no warning: only removed items are looked at, and these are not deprecated. -/
theorem C121_write (e : EnumClass) (he : e.Marked) (m : e.Member) :
    (checkWarns m).2 = [] ∧ ((checkWarns m).1 = .ok () ↔ e.items[m].removed = false) := by
  constructor
  · simp only [checkWarns, List.flatMap_eq_nil_iff]
    intro r hr
    have h := he _ (List.getElem_mem r.2)
    have h' := mem_removedItems.1 hr
    have hd : isDeprecated r = false := by
      cases hd : isDeprecated r
      · rfl
      · exact absurd ⟨hd, h'⟩ h
    simp only [getAttribute, warned, hd]; rfl
  · simp only [checkWarns, removedItemsCheck, mem_removedItems]
    cases e.items[m].removed <;> simp

/-- **C121.** `type_info` describes the items of the enumeration, in their order, with their marks. -/
theorem C121_type_info (e : EnumClass) :
    (typeInfo e).1.length = e.items.length ∧ ∀ (i : Nat) (h : i < e.items.length),
      (typeInfo e).1[i]? = some ⟨e.items[i].name, ⟨i, h⟩, e.items[i].deprecated, e.items[i].removed⟩ := by
  unfold typeInfo
  rw [typeInfoItems_fst]
  refine ⟨by simp, fun i h => ?_⟩
  simp [h]

/-- **C121, the deviation.** `type_info` asks for no item, but every call fires a warning for every deprecated item: it is
silent exactly if the enumeration has no deprecated item. -/
theorem C121_type_info_deviates (e : EnumClass) :
    (∀ m : e.Member, m ∈ (typeInfo e).2 ↔ e.items[m].deprecated = true) ∧ (typeInfo e).2.Nodup ∧
    ((typeInfo e).2 = [] ↔ ∀ item ∈ e.items, item.deprecated = false) := by
  have h1 : ∀ m : e.Member, m ∈ (typeInfo e).2 ↔ e.items[m].deprecated = true := by
    intro m; unfold typeInfo; rw [typeInfoItems_snd]; simp
  refine ⟨h1, ?_, ?_⟩
  · unfold typeInfo; rw [typeInfoItems_snd]; exact (List.nodup_finRange _).filter _
  · constructor
    · intro h item hi
      obtain ⟨i, hl, rfl⟩ := List.mem_iff_getElem.1 hi
      have := h1 ⟨i, hl⟩
      rw [h] at this
      cases hd : e.items[i].deprecated
      · rfl
      · exact absurd (this.2 hd) (List.not_mem_nil)
    · intro h
      rw [List.eq_nil_iff_forall_not_mem]
      intro m hm
      exact absurd ((h1 m).1 hm) (by rw [show e.items[m].deprecated = false from h _ (List.getElem_mem m.2)]; decide)

/-! Non-trivial instances. -/

theorem color_marked : Color.Marked := by unfold EnumClass.Marked Color; decide

example : (Color.callWarns 2) = (.ok ⟨1, by decide⟩, [⟨1, by decide⟩]) ∧ (Color.callWarns 3) = (.ok ⟨2, by decide⟩, []) ∧
    (typeInfo Color).2 = [⟨1, by decide⟩] := ⟨by decide +kernel, by decide +kernel, by decide +kernel⟩

example : (checkWarns (e := Color) ⟨3, by decide⟩).1 = .error .removedItem ∧ (checkWarns (e := Color) ⟨0, by decide⟩).1 = .ok () :=
  ⟨by decide +kernel, by decide +kernel⟩

end Zserio
