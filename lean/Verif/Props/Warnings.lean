import Verif.Spec.Warnings
import Verif.Props.ChoiceCheck
/-
C105: warnings about items which are not handled and about types which are not used.
-/
namespace Zserio.Warnings
open ChoiceCheck

theorem removeItems_some {items : List Item} : ∀ {is u u' : List Item}, u.Nodup → removeItems items is u = some u' →
    u'.Nodup ∧ (∀ i ∈ is, i ∈ items) ∧ ∀ i, i ∈ u' ↔ i ∈ u ∧ i ∉ is
  | [], u, u', hn, h => by
    cases h
    exact ⟨hn, by simp, by simp⟩
  | i :: is, u, u', hn, h => by
    rw [removeItems] at h
    split at h
    · rename_i hc
      obtain ⟨a, b, c⟩ := removeItems_some (hn.erase i) h
      refine ⟨a, ?_, ?_⟩
      · intro x hx
        rcases List.mem_cons.1 hx with rfl | hx
        · simpa using hc
        · exact b x hx
      · intro x
        rw [c, hn.mem_erase_iff]
        simp only [List.mem_cons, not_or]
        tauto
    · cases h

theorem unhandledItems_some {items : List Item} : ∀ {es : List EnumExpr} {u u' : List Item}, u.Nodup → unhandledItems items es u = some u' →
    (∀ e ∈ es, ∀ i ∈ e.referenced, i ∈ items) ∧ ∀ i, i ∈ u' ↔ i ∈ u ∧ ∀ e ∈ es, i ∉ e.referenced
  | [], u, u', hn, h => by
    cases h
    simp
  | e :: es, u, u', hn, h => by
    rw [unhandledItems] at h
    split at h
    · cases h
    · rename_i u₁ hr
      obtain ⟨a, b, c⟩ := removeItems_some hn hr
      obtain ⟨b', c'⟩ := unhandledItems_some a h
      refine ⟨?_, ?_⟩
      · intro x hx
        rcases List.mem_cons.1 hx with rfl | hx
        · exact b
        · exact b' x hx
      · intro i
        rw [c', c]
        simp only [List.mem_cons, forall_eq_or_imp, and_assoc]

theorem isEnum_nodup {enum : Nat} {items : List Item} (h : IsEnum enum items) : items.Nodup := List.Nodup.of_map _ h.1

/-- **C105**: there are warnings for exactly those items which are not mentioned in any case, and only without a default. -/
theorem C105_items (c : EnumChoice) (he : IsEnum c.enum c.items) (w : List Item) (h : warnUnhandled c = some w) (i : Item) :
    i ∈ w ↔ c.default = none ∧ i ∈ c.items ∧ ∀ k ∈ c.cases, ∀ e ∈ k.1, i ∉ e.referenced := by
  unfold warnUnhandled at h
  split at h
  · cases h
  · rename_i u hu
    obtain ⟨_, hm⟩ := unhandledItems_some (isEnum_nodup he) hu
    simp only [Option.some.injEq] at h
    subst h
    cases hd : c.default with
    | none =>
      simp only [Option.isNone_none, if_true, true_and]
      rw [hm]
      simp only [List.mem_flatMap, forall_exists_index, and_imp]
      constructor
      · rintro ⟨a, b⟩
        exact ⟨a, fun k hk e he => b e k hk he⟩
      · rintro ⟨a, b⟩
        exact ⟨a, fun e k hk he => b k hk e he⟩
    | some f => simp

theorem referenced_item {e : EnumExpr} (h : e.IsItem) : e.referenced = [e.value] := by
  obtain ⟨i, rfl⟩ := h
  rfl

theorem plain_referenced {e : EnumExpr} (h : e.Plain) {i : Item} (hi : i ∈ e.referenced) : e.value = i := by
  cases e with
  | item j => simpa [EnumExpr.referenced, EnumExpr.value, eq_comm] using hi
  | const j => cases hi
  | cond c x y => exact h.elim

/-- **C105 (partial)**: if there is no warning, and cases have no conditional operator, every item of the enumeration is listed in a case or
there is a default.  (With conditional operators it is false: `C105_conditional_deviates`.) -/
theorem C105_handled_partial (c : EnumChoice) (he : IsEnum c.enum c.items) (hp : ∀ k ∈ c.cases, ∀ e ∈ k.1, e.Plain)
    (h : warnUnhandled c = some []) (i : Item) (hi : i ∈ c.items) : c.default ≠ none ∨ c.Lists i := by
  by_contra hn
  simp only [ne_eq, not_or, not_not] at hn
  have := (C105_items c he [] h i).2 ⟨hn.1, hi, fun k hk e hke hr => hn.2 ⟨k, hk, e, hke, plain_referenced (hp k hk e hke) hr⟩⟩
  cases this

/-- **C105 (partial)**: hence no item makes the generated code report that no case matches. -/
theorem C105_noMatch_partial (c : EnumChoice) (he : IsEnum c.enum c.items) (hp : ∀ k ∈ c.cases, ∀ e ∈ k.1, e.Plain)
    (h : warnUnhandled c = some []) (i : Item) (hi : i ∈ c.items) (text : EnumExpr → PyStr) (u : Bool) (hc : check (c.decl text) = .ok u)
    (a : Action) (ha : execute (clauses u (c.decl text)) i.value = some a) : ∃ f, a = .member f := by
  have hu : u = false := by
    have := (check_ok.mp hc).1
    simpa [EnumChoice.decl, checkUnreachableDefault, eq_comm] using this
  subst hu
  unfold clauses at ha
  rw [execute_cases] at ha
  simp only [Bool.false_eq_true, if_false] at ha
  cases hf : firstCase (c.decl text).cases i.value with
  | some k =>
    rw [hf] at ha
    exact ⟨_, (Option.some.inj ha).symm⟩
  | none =>
    rcases C105_handled_partial c he hp h i hi with hd | ⟨k, hk, e, hke, rfl⟩
    · obtain ⟨f, hd⟩ := Option.ne_none_iff_exists'.1 hd
      rw [hf] at ha
      have hd' : (c.decl text).default = some f := hd
      refine ⟨f, ?_⟩
      simp only [hd'] at ha
      split at ha <;> exact (Option.some.inj ha).symm
    · exact absurd ⟨_, List.mem_map.2 ⟨e, hke, rfl⟩, rfl⟩ (firstCase_none.1 hf _ (List.mem_map.2 ⟨k, hk, rfl⟩))

/-- **C105**: an item with a warning is not listed in any case, if all cases are items; so the warning is right. -/
theorem C105_warned_partial (c : EnumChoice) (he : IsEnum c.enum c.items) (hp : ∀ k ∈ c.cases, ∀ e ∈ k.1, e.IsItem)
    (w : List Item) (h : warnUnhandled c = some w) (i : Item) (hi : i ∈ w) : c.default = none ∧ ¬ c.Lists i := by
  obtain ⟨hd, _, hr⟩ := (C105_items c he w h i).1 hi
  refine ⟨hd, fun ⟨k, hk, e, hke, hv⟩ => hr k hk e hke ?_⟩
  rw [referenced_item (hp k hk e hke), hv]
  simp

/-- **C105**: cases which mention items of another enumeration are refused. -/
theorem C105_other (c : EnumChoice) (he : IsEnum c.enum c.items) (w : List Item) (h : warnUnhandled c = some w) :
    ∀ k ∈ c.cases, ∀ e ∈ k.1, ∀ i ∈ e.referenced, i ∈ c.items := by
  unfold warnUnhandled at h
  split at h
  · cases h
  · rename_i u hu
    intro k hk e hke
    exact (unhandledItems_some (isEnum_nodup he) hu).1 e (List.mem_flatMap.2 ⟨k, hk, hke⟩)

/-! `enum uint8 Color { RED = 1, GREEN = 2, BLUE = 3 };` -/
def red : Item := ⟨0, 0, 1⟩
def green : Item := ⟨0, 1, 2⟩
def blue : Item := ⟨0, 2, 3⟩
def color : List Item := [red, green, blue]

theorem color_isEnum : IsEnum 0 color := ⟨by decide, by decide⟩

/-- `case RED: case GREEN: …; case BLUE: ;`: no warning; without the last case there is one -/
example : warnUnhandled ⟨0, color, [([.item red, .item green], none), ([.item blue], none)], none⟩ = some [] ∧
    warnUnhandled ⟨0, color, [([.item red, .item green], none)], none⟩ = some [blue] ∧
    warnUnhandled ⟨0, color, [([.item red, .item green], none)], some none⟩ = some [] := by decide

/-- the hypotheses of the theorems can be met -/
example : ∃ (c : EnumChoice) (text : EnumExpr → PyStr), IsEnum c.enum c.items ∧ (∀ k ∈ c.cases, ∀ e ∈ k.1, e.IsItem) ∧
    (∀ k ∈ c.cases, ∀ e ∈ k.1, e.Plain) ∧ warnUnhandled c = some [] ∧ check (c.decl text) = .ok false ∧ c.items.length = 3 := by
  refine ⟨⟨0, color, [([.item red, .item green], none), ([.item blue], none)], none⟩, fun e => [e.value.name], color_isEnum, ?_, ?_, by decide,
    ?_, rfl⟩
  · simp [EnumExpr.IsItem]
  · simp [EnumExpr.Plain]
  · rfl

/-- **C105 (deviation)**: `case RED: case (true ? GREEN : BLUE):` gives no warning, although `BLUE` is in no case: both items of the conditional
operator count as handled.  The generated code reports that no case matches. -/
theorem C105_conditional_deviates :
    let c : EnumChoice := ⟨0, color, [([.item red], none), ([.cond true (.item green) (.item blue)], none)], none⟩
    warnUnhandled c = some [] ∧ ¬ c.Lists blue ∧ check (c.decl fun e => [e.value.name]) = .ok false ∧
      execute (clauses false (c.decl fun e => [e.value.name])) blue.value = some .noMatch := by
  refine ⟨by decide, ?_, rfl, rfl⟩
  rintro ⟨k, hk, e, he, hv⟩
  simp only [List.mem_cons, List.not_mem_nil, or_false] at hk
  rcases hk with rfl | rfl <;> simp only [List.mem_cons, List.not_mem_nil, or_false] at he <;> subst he <;> revert hv <;> decide

/-- **C105 (deviation)**: `const Color FAVOURITE = Color.BLUE; … case RED: case GREEN: case FAVOURITE:` gives a warning for `BLUE`, although it
is handled. -/
theorem C105_constant_deviates :
    let c : EnumChoice := ⟨0, color, [([.item red, .item green, .const blue], none)], none⟩
    warnUnhandled c = some [blue] ∧ c.Lists blue := by
  refine ⟨by decide, ⟨_, by simp; rfl, .const blue, by simp, rfl⟩⟩

/-! ### Types which are not used -/

/-- **C105**: a type is reported exactly if no definition refers to it as a type. -/
theorem C105_unused (ds : List Definition) (n : Nat) : n ∈ warnUnused ds ↔
    (∃ d ∈ ds, d.reported = true ∧ d.name = n) ∧ ∀ d ∈ ds, n ∉ d.typeRefs := by
  simp only [warnUnused, definedNames, usedNames, List.mem_filter, List.mem_map, Bool.not_eq_eq_eq_not, Bool.not_true, List.contains_eq_mem,
    decide_eq_false_iff_not, List.mem_flatMap, not_exists, not_and, and_assoc]

/-- **C105 (partial)**: a type which is reported and whose items are in no expression can be removed: all names in the other definitions are
still defined.  (With items in expressions it is false: `C105_expression_deviates`.) -/
theorem C105_removable_partial (ds : List Definition) (hc : Closed ds) (n : Nat) (h : n ∈ warnUnused ds) (hx : ∀ d ∈ ds, n ∉ d.exprRefs) :
    Closed (ds.filter fun d => d.name ≠ n) := by
  obtain ⟨_, ht⟩ := (C105_unused ds n).1 h
  intro d hd m hm
  obtain ⟨hd, _⟩ := List.mem_filter.1 hd
  obtain ⟨d', hd', rfl⟩ := hc d hd m hm
  refine ⟨d', List.mem_filter.2 ⟨hd', ?_⟩, rfl⟩
  simp only [ne_eq, decide_not, Bool.not_eq_eq_eq_not, Bool.not_true, decide_eq_false_iff_not]
  rintro he
  rcases hm with hm | hm
  · exact ht d hd (he ▸ hm)
  · exact hx d hd (he ▸ hm)

/-- **C105**: a type which is needed by no definition is reported. -/
theorem C105_reported (ds : List Definition) (d : Definition) (hd : d ∈ ds) (hr : d.reported = true) (h : ¬ Needed ds d.name) :
    d.name ∈ warnUnused ds :=
  (C105_unused ds d.name).2 ⟨⟨d, hd, hr, rfl⟩, fun d' hd' ht => h ⟨d', hd', Or.inl ht⟩⟩

/-- `enum uint8 Color …; struct Pixel { uint8 value : value != valueof(Color.RED); }; struct Image { Pixel pixels[]; }; struct Old { uint8 x; };` -/
def demo : List Definition := [⟨0, true, [], []⟩, ⟨1, true, [], [0]⟩, ⟨2, true, [1], []⟩, ⟨3, true, [], []⟩]

/-- the hypotheses can be met: `Old` can be removed -/
example : Closed demo ∧ 3 ∈ warnUnused demo ∧ (∀ d ∈ demo, 3 ∉ d.exprRefs) ∧ ¬ Needed demo 3 := by
  refine ⟨?_, by decide, by decide, by unfold Needed; decide⟩
  intro d hd n hn
  simp only [demo, List.mem_cons, List.not_mem_nil, or_false] at hd
  rcases hd with rfl | rfl | rfl | rfl <;> simp [demo] at hn ⊢ <;> omega

/-- **C105 (deviation)**: a type whose items are used in expressions only is reported as not used, although the schema is wrong without it. -/
theorem C105_expression_deviates : 0 ∈ warnUnused demo ∧ Needed demo 0 ∧ ¬ Closed (demo.filter fun d => d.name ≠ 0) := by
  refine ⟨by decide, ⟨⟨1, true, [], [0]⟩, by decide, by decide⟩, ?_⟩
  intro h
  obtain ⟨d, hd, h0⟩ := h ⟨1, true, [], [0]⟩ (by decide) 0 (by decide)
  simp [demo] at hd
  rcases hd with rfl | rfl | rfl <;> simp at h0

/-- **C105 (deviation)**: a recursive type which no other definition uses is not reported. -/
theorem C105_recursive_deviates : warnUnused [⟨0, true, [0], []⟩, ⟨1, true, [], []⟩] = [1] := by decide

end Zserio.Warnings
