import Verif.Spec.Enumeration
import Verif.Props.RoundTrip
import Verif.Props.PackedArray
import Verif.Lemmas.CompoundEq
import Verif.Lemmas.CompoundElem
import Mathlib.Data.List.Nodup
/-
Property C39: enumerations.
-/
namespace Zserio
open Writer

namespace EnumClass
variable {e : EnumClass}

theorem value_injective (h : e.WellFormed) {m m' : e.Member} (hv : value m = value m') : m = m' := by
  have hl : e.items.length = (e.items.map (·.value)).length := by simp
  exact Fin.ext ((List.Nodup.getElem_inj_iff h.values (hi := hl ▸ m.2) (hj := hl ▸ m'.2)).1 (by simpa [value] using hv))

theorem name_injective (h : e.WellFormed) {m m' : e.Member} (hv : e.items[m].name = e.items[m'].name) : m = m' := by
  have hl : e.items.length = (e.items.map (·.name)).length := by simp
  exact Fin.ext ((List.Nodup.getElem_inj_iff h.names (hi := hl ▸ m.2) (hj := hl ▸ m'.2)).1 (by simpa using hv))

theorem call_ok {v : Int} {m : e.Member} {b : Bool} (h : e.call v = .ok (m, b)) :
    value m = v ∧ b = e.items[m].deprecated := by
  unfold call at h
  split at h
  · rename_i m' hm
    simp only [Except.ok.injEq, Prod.mk.injEq] at h
    obtain ⟨rfl, rfl⟩ := h
    exact ⟨by simpa using List.find?_some hm, rfl⟩
  · cases h

theorem call_member (h : e.WellFormed) (m : e.Member) : e.call (value m) = .ok (m, e.items[m].deprecated) := by
  unfold call
  split
  · rename_i m' hm
    have := value_injective h (m := m') (m' := m) (by simpa using List.find?_some hm)
    subst this; rfl
  · rename_i hm
    rw [List.find?_eq_none] at hm
    simpa using hm m (List.mem_finRange m)

theorem call_unknown {v : Int} (h : ∀ item ∈ e.items, item.value ≠ v) : e.call v = .error .enumValue := by
  unfold call
  split
  · rename_i m' hm
    exact absurd (show value m' = v by simpa using List.find?_some hm) (h _ (List.getElem_mem m'.2))
  · rfl

theorem chain_some {n : PyStr} {m : e.Member} : ∀ {l : List e.Member}, fromNameChain e n l = some m →
    n = e.items[m].name
  | [], h => by cases h
  | a :: l, h => by
    unfold fromNameChain at h
    split at h
    · simp only [Option.some.injEq] at h; subst h; assumption
    · exact chain_some h

theorem chain_none {n : PyStr} : ∀ {l : List e.Member}, fromNameChain e n l = none → ∀ m ∈ l, n ≠ e.items[m].name
  | [], _ => by simp
  | a :: l, h => by
    unfold fromNameChain at h
    split at h
    · cases h
    · intro m hm
      rcases List.mem_cons.1 hm with rfl | hm
      · assumption
      · exact chain_none h m hm

theorem mem_removedItems {m : e.Member} : m ∈ removedItems (e := e) ↔ e.items[m].removed = true := by
  simp [removedItems]

end EnumClass

open EnumClass

/-- **C39.** Every item which is not removed can be written at any position of any stream, takes the announced number of
bits, and whatever is written behind it, is read back as the same item. -/
theorem C39_round_trip (e : EnumClass) (he : e.WellFormed) (m : e.Member) (hm : e.items[m].removed = false)
    (w0 : Writer) (hw0 : w0.Reachable) :
    ∃ n w1, bitsizeof m w0.pos = .ok n ∧ write m w0 = (.ok (), w1) ∧ w1.pos = w0.pos + n ∧
      ∀ later r, ReadsAt r (w1.runAll later).bytes w0.pos w1.pos →
        ∃ warned, e.fromReader r = (.ok (m, warned), { r with pos := w0.pos + n }) := by
  obtain ⟨b0, rfl⟩ := hw0.eq_ofBits
  obtain ⟨bs, hbs⟩ := e.underlying.runs_of_inRange (value m) (he.inRange _ (List.getElem_mem m.2)) b0
  have hsize := (e.underlying.sizeExact (value m) b0 bs hbs).1
  have hpos : (Writer.ofBits b0).pos = b0.length := rfl
  refine ⟨bs.length, Writer.ofBits (b0 ++ bs), hsize, ?_, by simp [Writer.ofBits], ?_⟩
  · have hc : removedItemsCheck m = .ok () := by
      unfold removedItemsCheck
      rw [if_neg]
      rw [mem_removedItems, hm]; simp
    unfold write
    rw [hc]
    exact hbs
  rintro later r ⟨h1, h2, h3, h4⟩
  refine ⟨e.items[m].deprecated, read_after (mr := e.fromReader)
    (P := fun r x => x = (.ok (m, e.items[m].deprecated), { r with pos := (Writer.ofBits b0).pos + bs.length })) ?_
    later r h1 h2 h3 h4⟩
  intro s r' hwf hp' hs
  have hp := e.underlying.readsTo 0 (value m) b0 bs hbs s r' hwf hp' hs
  unfold EnumClass.fromReader
  rw [M.bind_ok hp, call_member he, M.lift_apply, Reader.advance, hp', hpos]

/-- **C39.** Reading any value that is not an item raises; and whatever is read is an item with the value found in the
stream. -/
theorem C39_read (e : EnumClass) (r r' : Reader) (v : Int) (hv : e.underlying.traits.read 0 r = (.ok v, r')) :
    ((∀ item ∈ e.items, item.value ≠ v) → e.fromReader r = (.error .enumValue, r')) ∧
    (∀ m warned r'', e.fromReader r = (.ok (m, warned), r'') → e.items[m].value = v ∧ r'' = r') ∧
    (e.WellFormed → ∀ m : e.Member, e.items[m].value = v →
      e.fromReader r = (.ok (m, e.items[m].deprecated), r')) := by
  unfold EnumClass.fromReader
  rw [M.bind_ok hv]
  refine ⟨fun h => by rw [call_unknown h]; rfl, fun m b r'' h => ?_, fun he m hm => ?_⟩
  · rcases hc : e.call v with x | ⟨m', b'⟩
    · rw [hc] at h; cases h
    · rw [hc] at h
      simp only [M.lift_apply, Prod.mk.injEq, Except.ok.injEq] at h
      obtain ⟨⟨rfl, rfl⟩, rfl⟩ := h
      exact ⟨(call_ok hc).1, rfl⟩
  · have : value m = v := hm
    rw [← this, call_member he, M.lift_apply]

/-- **C39.** The same for packed arrays: what the packing context delivers must be an item. -/
theorem C39_read_packed (e : EnumClass) (c c' : DeltaContext) (r r' : Reader) (v : Int)
    (hv : c.read e.underlying.traits r = (.ok (v, c'), r')) :
    ((∀ item ∈ e.items, item.value ≠ v) → e.fromReaderPacked c r = (.error .enumValue, r')) ∧
    (e.WellFormed → ∀ m : e.Member, e.items[m].value = v →
      e.fromReaderPacked c r = (.ok ((m, e.items[m].deprecated), c'), r')) := by
  unfold EnumClass.fromReaderPacked
  rw [M.bind_ok hv]
  refine ⟨fun h => ?_, fun he m hm => ?_⟩
  · simp only [call_unknown h]; rfl
  · have : value m = v := hm
    simp only [← this, call_member he]; rfl

/-- **C39.** Removed items are never written: the attempt raises and leaves the stream (and the packing context) alone.
Conversely, only removed items raise so. -/
theorem C39_removed (e : EnumClass) (m : e.Member) (hm : e.items[m].removed = true) (w : Writer) (c : DeltaContext) :
    write m w = (.error .removedItem, w) ∧ writePacked m c w = (.error .removedItem, w) := by
  have hc : removedItemsCheck m = .error .removedItem := by
    unfold removedItemsCheck
    rw [if_pos (mem_removedItems.2 hm)]
  unfold write writePacked
  rw [hc]
  exact ⟨rfl, rfl⟩

/-- **C39.** `from_name` finds exactly the items of the enumeration, by their names. -/
theorem C39_from_name (e : EnumClass) (he : e.WellFormed) (name : PyStr) :
    (∀ m : e.Member, e.items[m].name = name → e.fromName name = .ok (m, e.items[m].deprecated)) ∧
    ((∀ item ∈ e.items, item.name ≠ name) → e.fromName name = .error .enumValue) := by
  unfold fromName
  constructor
  · intro m hm
    rcases hc : fromNameChain e name (List.finRange e.items.length) with _ | m'
    · exact absurd hm.symm (chain_none hc m (List.mem_finRange m))
    · have := name_injective he (m := m') (m' := m) ((chain_some hc).symm.trans hm.symm)
      subst this; rfl
  · intro h
    rcases hc : fromNameChain e name (List.finRange e.items.length) with _ | m'
    · rfl
    · exact absurd (chain_some hc).symm (h _ (List.getElem_mem m'.2))

/-- **C39.** Items are found by value; a warning is fired exactly for the deprecated ones. -/
theorem C39_call (e : EnumClass) (he : e.WellFormed) (v : Int) :
    (∀ m : e.Member, e.items[m].value = v → e.call v = .ok (m, e.items[m].deprecated)) ∧
    ((∀ item ∈ e.items, item.value ≠ v) → e.call v = .error .enumValue) :=
  ⟨fun m hm => by have : value m = v := hm; rw [← this]; exact call_member he m, call_unknown⟩

/-- **C39.** The hash of an item is a 32-bit number which depends on its value only. -/
theorem C39_hash (e : EnumClass) (m : e.Member) : 0 ≤ EnumClass.hash m ∧ EnumClass.hash m < 2 ^ 32 := by
  have hs : hashIntegral e.underlying.wide HASH_SEED (some (value m)) = EnumClass.hash m := rfl
  rw [← hs]
  exact hashIntegral_is32 _ _ _

/-- **C39.** Enumeration fields of compounds (properties C32, C33, C36, C49) behave as the class: their `write`. -/
theorem C39_compound_write (e : EnumClass) (he : e.WellFormed) (m : e.Member) (c : Ctx) (w : Writer) :
    enumWrite e.toDef none c (.int (value m)) w = (write m >>= fun _ => pure c) w := by
  have hmem : value m ∈ e.toDef.items := List.mem_map.2 ⟨_, List.getElem_mem m.2, rfl⟩
  have hrem : value m ∈ e.toDef.removed ↔ m ∈ removedItems (e := e) := by
    rw [mem_removedItems]
    simp only [toDef, List.mem_map, List.mem_filter]
    constructor
    · rintro ⟨item, ⟨h1, h2⟩, h3⟩
      obtain ⟨i, hi, rfl⟩ := List.mem_iff_getElem.1 h1
      have := value_injective he (m := ⟨i, hi⟩) (m' := m) h3
      subst this; exact h2
    · intro h; exact ⟨_, ⟨List.getElem_mem m.2, h⟩, rfl⟩
  unfold enumWrite enumValue write removedItemsCheck
  simp only [Val.asInt, ok_bind, if_pos hmem]
  by_cases h : m ∈ removedItems (e := e)
  · rw [if_pos h]
    simp only [M.bind_apply, M.lift_apply]
    rw [if_pos (hrem.2 h)]; rfl
  · rw [if_neg h]
    simp only [M.bind_apply, M.lift_apply]
    rw [if_neg (fun hc => h (hrem.1 hc))]
    rfl

/-- **C39.** Enumeration fields of compounds behave as the class: their `read`. -/
theorem C39_compound_read (e : EnumClass) (c : Ctx) (r : Reader) :
    enumRead e.toDef none c r = (e.fromReader >>= fun m => pure (.int (value m.1), c)) r := by
  unfold enumRead EnumClass.fromReader
  rcases hv : e.underlying.traits.read 0 r with ⟨x | v, r1⟩
  · have h1 : intRead e.toDef.underlying none c r = (.error x, r1) := by
      show (e.underlying.traits.read 0 >>= fun y => pure (y, c)) r = _
      rw [M.bind_error hv]
    rw [M.bind_error h1, M.bind_error]
    rw [M.bind_error hv]
  · have h1 : intRead e.toDef.underlying none c r = (.ok (v, c), r1) := by
      show (e.underlying.traits.read 0 >>= fun y => pure (y, c)) r = _
      rw [M.bind_ok hv]; rfl
    rw [M.bind_ok h1]
    have h2 : (e.underlying.traits.read 0 >>= fun v => M.lift (e.call v)) r = (e.call v, r1) := by
      rw [M.bind_ok hv, M.lift_apply]
    by_cases hm : v ∈ e.toDef.items
    · simp only [if_pos hm]
      rcases hc : e.call v with x | ⟨m, b⟩
      · exfalso
        obtain ⟨item, h3, h4⟩ := List.mem_map.1 hm
        obtain ⟨i, hi, rfl⟩ := List.mem_iff_getElem.1 h3
        unfold call at hc
        split at hc
        · cases hc
        · rename_i hf
          rw [List.find?_eq_none] at hf
          exact hf ⟨i, hi⟩ (List.mem_finRange _) (decide_eq_true h4)
      · rw [hc] at h2
        rw [M.bind_ok h2, M.pure_apply, M.pure_apply, (call_ok hc).1]
    · simp only [if_neg hm]
      have : e.call v = .error .enumValue := call_unknown fun item hi hv => hm (List.mem_map.2 ⟨item, hi, hv⟩)
      rw [this] at h2
      rw [M.bind_error h2]; rfl

/-! A non-trivial instance of the hypotheses. -/

/-- `enum int8 Color { NONE = -1, @deprecated RED = 2, BLUE = 3, @removed OLD = 7 }` -/
def Color : EnumClass where
  underlying := .signedBitField 8
  items := [⟨[0x4e], -1, false, false⟩, ⟨[0x52], 2, true, false⟩, ⟨[0x42], 3, false, false⟩, ⟨[0x4f], 7, false, true⟩]

theorem color_wellFormed : Color.WellFormed := ⟨by decide, by decide, by decide⟩

example : ∃ m m' : Color.Member, Color.items[m].removed = false ∧ Color.items[m'].removed = true ∧
    Color.call 2 = .ok (m, true) ∧ Color.call 5 = .error .enumValue ∧ Color.fromName [0x4f] = .ok (m', false) :=
  ⟨⟨1, by decide⟩, ⟨3, by decide⟩, rfl, rfl, by decide +kernel, by decide +kernel, by decide +kernel⟩

example : ∃ r', Color.underlying.traits.read 0 ⟨[0xff], 8, 0⟩ = (.ok (-1), r') ∧
    ∃ r'', Color.underlying.traits.read 0 ⟨[0x05], 8, 0⟩ = (.ok 5, r'') ∧ ∀ item ∈ Color.items, item.value ≠ 5 :=
  ⟨⟨[0xff], 8, 8⟩, by decide +kernel, ⟨[0x05], 8, 8⟩, by decide +kernel, by decide⟩

example : (DeltaContext.read {} Color.underlying.traits ⟨[0x7f, 0x80], 16, 0⟩).1.map (·.1) = .ok (-1) := by decide +kernel

end Zserio
