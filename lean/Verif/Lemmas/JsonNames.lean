import Verif.Spec.JsonReader
/-
The texts of enumerations and bitmasks.
-/
set_option linter.unusedSimpArgs false
namespace Zserio.Json

theorem Identifier.start {s : PyStr} (h : Identifier s) : ∃ c r, s = c :: r ∧ isNameStart c = true := by
  obtain ⟨h1, h2, h3⟩ := h
  cases s with
  | nil => exact absurd rfl h1
  | cons c r =>
    refine ⟨c, r, rfl, ?_⟩
    have h4 := h2 c (by simp)
    have h5 := h3 c rfl
    simp [isNameStart] at h4 h5 ⊢
    omega

theorem Identifier.chars {s : PyStr} (h : Identifier s) : ∀ c ∈ s, isPySpace c = false ∧ c ≠ ch! '|' := by
  intro c hc
  have := h.2.1 c hc
  simp [isPySpace] at this ⊢
  omega

/-! ### Enumerations -/

theorem parseEnumString_name {items : List EnumItem} (h : (items.map EnumItem.name).Nodup) {item : EnumItem} (hi : item ∈ items) :
    parseEnumString item.name items = some item.value := by
  induction items with
  | nil => cases hi
  | cons a as ih =>
    simp only [List.map_cons, List.nodup_cons] at h
    rw [parseEnumString]
    rw [List.mem_cons] at hi
    rcases hi with rfl | hi
    · simp
    · rw [if_neg, ih h.2 hi]
      intro he
      exact h.1 (List.mem_map.mpr ⟨item, hi, he⟩)

theorem enumText_name {items : List EnumItem} {x : Int} (h : ∃ item ∈ items, item.value = x) :
    ∃ item ∈ items, item.value = x ∧ JsonWriter.enumText items x = item.name := by
  induction items with
  | nil => simp at h
  | cons a as ih =>
    rw [JsonWriter.enumText]
    split
    · rename_i hx
      exact ⟨a, by simp, hx, rfl⟩
    · rename_i hx
      obtain ⟨item, hi, hv⟩ := h
      rw [List.mem_cons] at hi
      rcases hi with rfl | hi
      · exact absurd hv hx
      · obtain ⟨b, hb, h1, h2⟩ := ih ⟨item, hi, hv⟩
        exact ⟨b, by simp [hb], h1, h2⟩

theorem enumFromString_text {e : EnumClass} (hn : Names (e.items.map EnumItem.name)) {x : Int}
    (h : ∃ item ∈ e.items, item.value = x) : enumFromString e (JsonWriter.enumText e.items x) = .ok x := by
  obtain ⟨item, hi, hv, ht⟩ := enumText_name h
  rw [ht]
  obtain ⟨c, r, hc, hs⟩ := (hn.identifiers item.name (List.mem_map_of_mem hi)).start
  have := parseEnumString_name hn.nodup hi
  unfold enumFromString
  rw [hc] at this ⊢
  simp only [hs, if_true, this, hv]

theorem call_item {e : EnumClass} {x : Int} (h : ∃ item ∈ e.items, item.value = x) :
    ∃ r, EnumClass.call (e := e) x = .ok r ∧ EnumClass.value r.1 = x := by
  unfold EnumClass.call
  obtain ⟨item, hi, hv⟩ := h
  obtain ⟨k, hk, hik⟩ := List.getElem_of_mem hi
  cases hf : (List.finRange e.items.length).find? fun m => decide (EnumClass.value m = x) with
  | none =>
    have := List.find?_eq_none.mp hf ⟨k, hk⟩ (List.mem_finRange _)
    simp [EnumClass.value, hik, hv] at this
  | some m =>
    have := List.find?_some hf
    exact ⟨_, rfl, by simpa using this⟩

/-! ### Bitmasks -/

theorem dropWhile_space {a s : PyStr} (ha : ∀ c ∈ a, isPySpace c = true) (hs : ∀ c, s.head? = some c → isPySpace c = false) :
    (a ++ s).dropWhile isPySpace = s := by
  induction a with
  | nil =>
    cases s with
    | nil => rfl
    | cons c r => simp [List.dropWhile, hs c rfl]
  | cons c a ih =>
    simp [List.dropWhile, ha c (by simp), ih fun c hc => ha c (by simp [hc])]

theorem strip_name {a n b : PyStr} (ha : ∀ c ∈ a, isPySpace c = true) (hn : ∀ c ∈ n, isPySpace c = false) (hne : n ≠ [])
    (hb : ∀ c ∈ b, isPySpace c = true) : strip (a ++ n ++ b) = n := by
  unfold strip
  rw [List.append_assoc, dropWhile_space ha, List.reverse_append, dropWhile_space (by simpa using hb)]
  · simp
  · intro c hc
    exact hn c (by simpa using List.mem_of_mem_head? hc)
  · intro c hc
    cases n with
    | nil => exact absurd rfl hne
    | cons d n =>
      simp at hc
      subst hc
      exact hn _ (by simp)

theorem splitBar_last {w : PyStr} (h : ∀ c ∈ w, c ≠ ch! '|') : splitBar w = [w] := by
  induction w with
  | nil => rfl
  | cons c w ih => simp [splitBar, h c (by simp), ih fun c hc => h c (by simp [hc])]

theorem splitBar_more {w s : PyStr} (h : ∀ c ∈ w, c ≠ ch! '|') : splitBar (w ++ ch! '|' :: s) = w :: splitBar s := by
  induction w with
  | nil => simp [splitBar]
  | cons c w ih => simp [splitBar, h c (by simp), ih fun c hc => h c (by simp [hc])]

theorem bitmaskItem_name {items : List (PyStr × Int)} (h : (items.map Prod.fst).Nodup) {p : PyStr × Int} (hp : p ∈ items) :
    bitmaskItem p.1 items = some p.2 := by
  induction items with
  | nil => cases hp
  | cons a as ih =>
    simp only [List.map_cons, List.nodup_cons] at h
    rw [bitmaskItem]
    rw [List.mem_cons] at hp
    rcases hp with rfl | hp
    · simp
    · rw [if_neg, ih h.2 hp]
      intro he
      exact h.1 (List.mem_map.mpr ⟨p, hp, he⟩)

/-- the items which the writer names -/
def named (v : Int) (items : List (PyStr × Int)) : List (PyStr × Int) :=
  items.filter fun p => decide ((p.2 ≠ 0 ∧ Int.land v p.2 = p.2) ∨ (p.2 = 0 ∧ v = 0))

theorem bitmaskNames_eq (v : Int) (items : List (PyStr × Int)) (check : Int) (text : PyStr) :
    JsonWriter.bitmaskNames v items check text = ((named v items).foldl (fun a p => Int.lor a p.2) check,
      (named v items).foldl (fun s p => (if s ≠ [] then s ++ py! " | " else s) ++ p.1) text) := by
  induction items generalizing check text with
  | nil => rfl
  | cons p ps ih =>
    obtain ⟨n, x⟩ := p
    rw [JsonWriter.bitmaskNames]
    by_cases h : (x ≠ 0 ∧ Int.land v x = x) ∨ (x = 0 ∧ v = 0)
    · rw [if_pos h, ih]
      simp only [named, List.filter_cons, h, decide_true, if_true, List.foldl_cons]
    · rw [if_neg h, ih]
      simp only [named, List.filter_cons, h, decide_false, Bool.false_eq_true, if_false]

theorem joined (ps : List (PyStr × Int)) {text : PyStr} (h : text ≠ []) :
    ps.foldl (fun s p => (if s ≠ [] then s ++ py! " | " else s) ++ p.1) text = text ++ ps.flatMap fun p => py! " | " ++ p.1 := by
  induction ps generalizing text with
  | nil => simp
  | cons p ps ih =>
    rw [List.foldl_cons, ih (by simp [h])]
    simp [h]

theorem bitmaskLoop_joined {items : List (PyStr × Int)} (hn : Names (items.map Prod.fst)) (ps : List (PyStr × Int))
    (hps : ∀ p ∈ ps, p ∈ items) (p : PyStr × Int) (hp : p ∈ items) (a : PyStr) (ha : ∀ c ∈ a, c = 32) (value : Int) :
    bitmaskLoop items (splitBar (a ++ p.1 ++ ps.flatMap fun p => py! " | " ++ p.1)) value =
      some ((p :: ps).foldl (fun a p => Int.lor a p.2) value) := by
  induction ps generalizing p a value with
  | nil =>
    have hid := hn.identifiers p.1 (List.mem_map_of_mem hp)
    rw [List.flatMap_nil, List.append_nil, splitBar_last]
    · simp only [bitmaskLoop]
      have hs := strip_name (a := a) (b := []) (fun c hc => by rw [ha c hc]; rfl) (fun c hc => (hid.chars c hc).1) hid.1 (by simp)
      rw [List.append_nil] at hs
      rw [hs, bitmaskItem_name hn.nodup hp]
      rfl
    · intro c hc
      rw [List.mem_append] at hc
      rcases hc with hc | hc
      · rw [ha c hc]; simp
      · exact (hid.chars c hc).2
  | cons q ps ih =>
    have hid := hn.identifiers p.1 (List.mem_map_of_mem hp)
    have hsplit : a ++ p.1 ++ (q :: ps).flatMap (fun p => py! " | " ++ p.1) =
        (a ++ p.1 ++ [32]) ++ ch! '|' :: ([32] ++ q.1 ++ ps.flatMap fun p => py! " | " ++ p.1) := by simp
    rw [hsplit, splitBar_more]
    · simp only [bitmaskLoop]
      rw [strip_name (a := a) (b := [32]) (fun c hc => by rw [ha c hc]; rfl) (fun c hc => (hid.chars c hc).1) hid.1
        (fun c hc => by simp at hc; subst hc; rfl), bitmaskItem_name hn.nodup hp]
      simp only
      rw [ih (fun p hp => hps p (by simp [hp])) q (hps q (by simp)) [32] (by simp)]
      rfl
    · intro c hc
      simp only [List.mem_append, List.mem_singleton] at hc
      rcases hc with (hc | hc) | hc
      · rw [ha c hc]; simp
      · exact (hid.chars c hc).2
      · rw [hc]; simp

theorem digitsAfter_stop {ds s : PyStr} (hd : ∀ c ∈ ds, isAsciiDigit c = true) {c : Nat} (hc : isAsciiDigit c = false) :
    digitsAfter (ds ++ c :: s) = .ok ds := by
  induction ds with
  | nil => simp [digitsAfter, hc]
  | cons d ds ih => simp [digitsAfter, hd d (by simp), ih fun c hc => hd c (by simp [hc]), Except.map]

theorem digitsAfter_end {ds : PyStr} (hd : ∀ c ∈ ds, isAsciiDigit c = true) : digitsAfter ds = .error .index := by
  induction ds with
  | nil => rfl
  | cons d ds ih => simp [digitsAfter, hd d (by simp), ih fun c hc => hd c (by simp [hc]), Except.map]

theorem decimalNat_ascii (n : Nat) : (∀ c ∈ decimalNat n, isAsciiDigit c = true) ∧ decimalNat n ≠ [] ∧ asciiNumber (decimalNat n) = n := by
  unfold decimalNat
  split
  · rename_i h
    subst h
    exact ⟨by simp [isAsciiDigit], by simp, by simp [asciiNumber]⟩
  · rename_i h
    refine ⟨?_, by simpa [Nat.digits_eq_nil_iff_eq_zero] using h, ?_⟩
    · intro c hc
      simp only [List.mem_map, List.mem_reverse] at hc
      obtain ⟨d, hd, rfl⟩ := hc
      have := Nat.digits_lt_base (by norm_num) hd
      simp [isAsciiDigit]
      omega
    · unfold asciiNumber
      rw [← List.map_reverse, List.reverse_reverse, List.map_map]
      have : ((fun x => x - ch! '0') ∘ fun x => ch! '0' + x) = id := by
        funext x
        simp
      rw [this, List.map_id, Nat.ofDigits_digits]

theorem parseBitmaskNumber_text (v : Int) (hv : 0 ≤ v) (s : PyStr) :
    ∃ c r, decimalInt v ++ 32 :: s = c :: r ∧ isAsciiDigit c = true ∧ parseBitmaskNumber (decimalInt v ++ 32 :: s) = .ok v := by
  obtain ⟨h1, h2, h3⟩ := decimalNat_ascii v.natAbs
  have hd : decimalInt v = decimalNat v.natAbs := by simp [decimalInt, not_lt.mpr hv]
  rw [hd]
  cases hx : decimalNat v.natAbs with
  | nil => exact absurd hx h2
  | cons c ds =>
    rw [hx] at h1 h3
    refine ⟨c, _, rfl, h1 c (by simp), ?_⟩
    simp only [List.cons_append, parseBitmaskNumber]
    rw [digitsAfter_stop (fun c hc => h1 c (by simp [hc])) rfl]
    simp only [Except.map, h3]
    rw [Int.natAbs_of_nonneg hv]

theorem digit_not_start {c : Nat} (h : isAsciiDigit c = true) : isNameStart c = false := by
  simp [isAsciiDigit, isNameStart] at h ⊢
  omega

theorem bitmaskFromString_text {d : BitmaskDef} (hn : Names (d.values.map Prod.fst)) {v : Int} (h0 : 0 ≤ v) (hl : d.lowerBound ≤ v)
    (hu : v ≤ d.upperBound) : bitmaskFromString d (JsonWriter.bitmaskText d.values v) = .ok v := by
  have hfrom : (Bitmask.fromValue (d := d) v).map Bitmask.value = .ok v := by
    unfold Bitmask.fromValue
    rw [if_neg (by omega)]
    rfl
  have hnum : ∀ s, bitmaskFromString d (decimalInt v ++ 32 :: s) = .ok v := by
    intro s
    obtain ⟨c, r, h1, h2, h3⟩ := parseBitmaskNumber_text v h0 s
    unfold bitmaskFromString
    rw [h1] at h3 ⊢
    simp only [digit_not_start h2, h2, Bool.false_eq_true, if_false, if_true, h3]
    exact hfrom
  unfold JsonWriter.bitmaskText
  rw [bitmaskNames_eq]
  simp only
  cases hm : named v d.values with
  | nil =>
    simp only [List.foldl_nil, if_true]
    exact hnum _
  | cons p ps =>
    have hp : ∀ q ∈ p :: ps, q ∈ d.values := by
      intro q hq
      rw [← hm] at hq
      exact (List.mem_filter.mp hq).1
    have hid := hn.identifiers p.1 (List.mem_map_of_mem (hp p (by simp)))
    have htext : (p :: ps).foldl (fun s p => (if s ≠ [] then s ++ py! " | " else s) ++ p.1) [] =
        p.1 ++ ps.flatMap fun p => py! " | " ++ p.1 := by
      rw [List.foldl_cons]
      simp only [ne_eq, not_true_eq_false, if_false, List.nil_append]
      exact joined ps hid.1
    rw [htext]
    rw [if_neg (by simp [hid.1])]
    split
    · rw [List.append_assoc, List.append_assoc]
      exact hnum _
    · rename_i hv
      have hloop := bitmaskLoop_joined hn ps (fun q hq => hp q (by simp [hq])) p (hp p (by simp)) [] (by simp) 0
      simp only [List.nil_append] at hloop
      obtain ⟨c, r, hc, hs⟩ := hid.start
      unfold bitmaskFromString
      have hx : p.1 ++ ps.flatMap (fun p => py! " | " ++ p.1) = c :: (r ++ ps.flatMap fun p => py! " | " ++ p.1) := by rw [hc]; rfl
      rw [hx] at hloop ⊢
      simp only [hs, if_true, parseBitmaskString, hloop]
      rw [← not_not.mp hv]
      exact hfrom

end Zserio.Json
