import Verif.Spec.Typed
import Verif.Spec.Rebuild
import Verif.Lemmas.JsonRead
import Verif.Lemmas.CreatorStep
import Verif.Lemmas.CompoundSafe
/-
A tree creator which is given values of the expected types only builds typed objects; the JSON reader gives it such values only.
-/
set_option linter.unusedSimpArgs false
namespace Zserio
namespace Creator
variable {I : TypeInfos} {root : Nat} {args : List Int}

/-- the default values of the fields of structures have the types of the fields -/
def TypedDefaults (I : TypeInfos) : Prop :=
  ∀ (id i : Nat) (m : MemberInfo) (v : Val), (I id).kind = .struct → (I id).fields[i]? = some m → (I id).defaults[i]? = some v →
    Typed I (.field m) v

theorem typed_new (hI : I.Regular) (hd : TypedDefaults I) {id : Nat} {ps : List Int} {o : Val} (h : (I id).new ps = .ok o) :
    Typed I (.object id) o ∧ ∃ k tag fs, o = .obj ps k tag fs := by
  unfold CompoundInfo.new at h
  split at h
  · cases h
  · rename_i hl
    rw [not_not] at hl
    split at h <;> cases h
    · rename_i hk
      exact ⟨.struct hk hl (hI.defaults id hk) fun i m v hm hv => hd id i m v hk hm hv, _, _, _, rfl⟩
    · rename_i hk
      exact ⟨.noUnion hk hl, _, _, _, rfl⟩
    · rename_i hk
      exact ⟨.noChoice hk hl, _, _, _, rfl⟩

theorem typed_set (hI : I.Regular) {id : Nat} {o o' v : Val} {m : MemberInfo} (ho : Typed I (.object id) o) (hm : m ∈ (I id).fields)
    (hv : Typed I (.field m) (m.stored v)) (h : (I id).setAttr o m v = .ok o') : Typed I (.object id) o' := by
  obtain ⟨i, hi⟩ := List.getElem?_of_mem hm
  have hp := hI.numbered _ _ _ hi
  unfold CompoundInfo.setAttr at h
  cases ho with
  | @struct _ ps k fs hk hl hlen hf =>
    rw [hk] at h
    cases h
    refine .struct hk hl (by simpa using hlen) fun j m' w hm' hw => ?_
    by_cases hj : m.prop = j
    · subst hj
      rw [hp] at hm' hw
      rw [hi] at hm'
      cases hm'
      rw [List.getElem?_set_self', show Function.const Val (m.stored v) <$> fs[i]? = fs[i]?.map fun _ => m.stored v from rfl,
        Option.map_eq_some_iff] at hw
      obtain ⟨_, _, rfl⟩ := hw
      exact hv
    · rw [List.getElem?_set_ne hj] at hw
      exact hf j m' w hm' hw
  | union hk hl _ _ => rw [hk] at h; cases h; rw [hp]; exact .union hk hl hi hv
  | noUnion hk hl => rw [hk] at h; cases h; rw [hp]; exact .union hk hl hi hv
  | choice hk hl _ _ => rw [hk] at h; cases h; exact .choice hk hl hm hv
  | noChoice hk hl => rw [hk] at h; cases h; exact .choice hk hl hm hv

theorem setAttr_params {ci : CompoundInfo} {ps : List Int} {k : Nat} {tag : Int} {fs : List Val} {m : MemberInfo} {v o' : Val}
    (h : ci.setAttr (.obj ps k tag fs) m v = .ok o') : ∃ k tag fs, o' = .obj ps k tag fs := by
  unfold CompoundInfo.setAttr at h
  simp only at h
  split at h <;> cases h <;> exact ⟨_, _, _, rfl⟩

/-- The stacks hold typed objects and arrays, one inside of the other. -/
inductive Stack (I : TypeInfos) (root : Nat) (args : List Int) : CreatorState → List MemberInfo → List Val → Prop where
  | root {o : Val} : Typed I (.object root) o → (∃ k tag fs, o = .obj args k tag fs) → Stack I root args .inCompound [] [o]
  | compound {ms : List MemberInfo} {vs : List Val} {p o : Val} {pid cid : Nat} {m : MemberInfo} :
    Stack I root args .inCompound ms (p :: vs) → topType root ms = some pid → m ∈ (I pid).fields → m.isArray = false →
    m.type = .compound cid → Typed I (.object cid) o → Stack I root args .inCompound (m :: ms) (o :: p :: vs)
  | array {ms : List MemberInfo} {xs vs : List Val} {p : Val} {pid : Nat} {m : MemberInfo} :
    Stack I root args .inCompound ms (p :: vs) → topType root ms = some pid → m ∈ (I pid).fields → m.isArray = true →
    (∀ x ∈ xs, Typed I (.item m.type) x) → Stack I root args .inArray (m :: ms) (.arr xs :: p :: vs)
  | element {ms : List MemberInfo} {vs : List Val} {o : Val} {cid : Nat} {m : MemberInfo} :
    Stack I root args .inArray (m :: ms) vs → m.isArray = true → m.type = .compound cid → Typed I (.object cid) o →
    Stack I root args .inCompound (m :: ms) (o :: vs)

/-- what is true of a creator between calls which succeed -/
structure Ok (I : TypeInfos) (root : Nat) (args : List Int) (c : Creator) : Prop where
  type : c.rootType = root
  rootArgs : c.rootArgs = args
  stack : (c.state = .beforeRoot ∧ c.memberStack = [] ∧ c.valueStack = []) ∨ Stack I root args c.state c.memberStack c.valueStack

theorem Ok.new : Ok I root args (Creator.new root args) := ⟨rfl, rfl, .inl ⟨rfl, rfl, rfl⟩⟩

theorem Stack.top {ms : List MemberInfo} {vs : List Val} {o : Val} {id : Nat} (h : Stack I root args .inCompound ms (o :: vs))
    (ht : topType root ms = some id) : Typed I (.object id) o := by
  cases h with
  | root h _ => cases ht; exact h
  | compound _ _ _ _ hm h => simp only [topType, hm, Option.some.injEq] at ht; subst ht; exact h
  | element _ _ hm h => simp only [topType, hm, Option.some.injEq] at ht; subst ht; exact h

theorem Stack.set (hI : I.Regular) {ms : List MemberInfo} {vs : List Val} {o o' v : Val} {id : Nat} {m : MemberInfo}
    (h : Stack I root args .inCompound ms (o :: vs)) (ht : topType root ms = some id) (hm : m ∈ (I id).fields)
    (hv : Typed I (.field m) (m.stored v)) (hs : (I id).setAttr o m v = .ok o') : Stack I root args .inCompound ms (o' :: vs) := by
  have hty := typed_set hI (h.top ht) hm hv hs
  cases h with
  | root _ hp =>
    cases ht
    obtain ⟨k, tag, fs, rfl⟩ := hp
    exact .root hty (setAttr_params hs)
  | compound h1 h2 h3 h4 h5 _ => simp only [topType, h5, Option.some.injEq] at ht; subst ht; exact .compound h1 h2 h3 h4 h5 hty
  | element h1 h2 h3 _ => simp only [topType, h3, Option.some.injEq] at ht; subst ht; exact .element h1 h2 h3 hty

theorem typed_stored {m : MemberInfo} {v : Val} (h : v = .none ∨ m.isArray = false ∧ Typed I (.item m.type) v ∨
    m.isArray = true ∧ ∃ xs, v = .arr xs ∧ ∀ x ∈ xs, Typed I (.item m.type) x) : Typed I (.field m) (m.stored v) := by
  rcases h with rfl | ⟨ha, h⟩ | ⟨ha, xs, rfl, h⟩
  · simp only [MemberInfo.stored]
    cases ha : m.isArray
    · simp; exact .single ha .none
    · cases ho : m.optional
      · simp; exact .array ha (by simp)
      · simp; exact .noArray ha ho
  · have : m.stored v = v := by
      unfold MemberInfo.stored
      split
      · simp [ha]
      · rfl
    rw [this]
    exact .single ha h
  · exact .array ha h

theorem mem_of_find {fields : List MemberInfo} {name : PyStr} {m : MemberInfo} (h : findMember fields name = .ok m) : m ∈ fields := by
  obtain ⟨l, r, rfl, _⟩ := findMember_iff.mp h
  simp

theorem member_inv {c : Creator} {name : PyStr} {id : Nat} {m : MemberInfo} (h : c.member I name = .ok (id, m)) :
    topType c.rootType c.memberStack = some id ∧ m ∈ (I id).fields := by
  unfold member typeId at h
  split at h
  · cases h
  · rename_i id' ht
    cases hf : findMember (I id').fields name with
    | error e => rw [hf] at h; cases h
    | ok m' =>
      rw [hf] at h
      cases h
      exact ⟨ht, mem_of_find hf⟩

/-- the stack of a creator in the state -/
theorem Ok.stackOf {c : Creator} (h : Ok I root args c) {st : CreatorState} (hs : c.state = st) (hne : st ≠ .beforeRoot) :
    Stack I root args st c.memberStack c.valueStack := by
  rcases h.stack with ⟨h, _⟩ | h
  · rw [hs] at h; exact absurd h hne
  · rw [hs] at h; exact h

theorem Ok.beginRoot (hI : I.Regular) (hd : TypedDefaults I) {c c' : Creator} (h : Ok I root args c)
    (hc : Creator.beginRoot I c = (.ok (), c')) : Ok I root args c' := by
  unfold Creator.beginRoot at hc
  split at hc
  · cases hc
  · rename_i hs
    rw [not_not] at hs
    split at hc <;> cases hc
    rename_i o ho
    rw [h.type, h.rootArgs] at ho
    obtain ⟨h1, h2⟩ := typed_new hI hd ho
    rcases h.stack with ⟨_, hms, hvs⟩ | hst
    · refine ⟨h.type, h.rootArgs, .inr ?_⟩
      simp only [hms, hvs]
      exact .root h1 h2
    · rw [hs] at hst; cases hst

theorem Ok.endRoot {c c' : Creator} {o : Val} (h : Ok I root args c) (hc : Creator.endRoot c = (.ok o, c')) :
    Typed I (.object root) o ∧ ∃ k tag fs, o = .obj args k tag fs := by
  unfold Creator.endRoot at hc
  split at hc
  · cases hc
  · rename_i hs
    rw [not_or, not_not, not_not] at hs
    have hst := h.stackOf hs.1 (by simp)
    simp only at hc
    split at hc <;> cases hc
    rename_i vs hvs
    have hl := hs.2
    rw [hvs] at hst hl
    generalize c.memberStack = ms at hst
    cases hst with
    | root h1 h2 => exact ⟨h1, h2⟩
    | compound _ _ _ _ _ _ => simp at hl
    | element h1 _ _ _ => cases h1 <;> simp at hl

theorem Ok.setTop (hI : I.Regular) {c c' : Creator} {id : Nat} {m : MemberInfo} {v : Val} (hr : c.rootType = root) (ha : c.rootArgs = args)
    (hst : Stack I root args .inCompound c.memberStack c.valueStack) (ht : topType root c.memberStack = some id) (hm : m ∈ (I id).fields)
    (hv : Typed I (.field m) (m.stored v)) (hc : Creator.setTop I id m v c = (.ok (), c')) :
    Stack I root args .inCompound c'.memberStack c'.valueStack ∧ c' = { c with valueStack := c'.valueStack } := by
  unfold Creator.setTop at hc
  split at hc
  · cases hc
  · rename_i o vs hvs
    split at hc <;> cases hc
    rename_i o' hs
    rw [hvs] at hst
    exact ⟨hst.set hI ht hm hv hs, rfl⟩

theorem Ok.beginArray {c c' : Creator} {name : PyStr} (h : Ok I root args c) (hc : Creator.beginArray I name c = (.ok (), c')) :
    Ok I root args c' := by
  unfold Creator.beginArray at hc
  split at hc
  · cases hc
  · rename_i hs
    rw [not_not] at hs
    split at hc
    · cases hc
    · rename_i id m hm
      split at hc <;> cases hc
      rename_i ha
      obtain ⟨h1, h2⟩ := member_inv hm
      rw [h.type] at h1
      have hst := h.stackOf hs (by simp)
      refine ⟨h.type, h.rootArgs, .inr ?_⟩
      simp only
      match hvs : c.valueStack with
      | [] =>
        rw [hvs] at hst
        generalize c.memberStack = ms at hst
        cases hst
      | p :: vs =>
        rw [hvs] at hst
        exact .array hst h1 h2 (by simpa using ha) (by simp)

theorem Ok.popAndSet (hI : I.Regular) {c c' : Creator} {m : MemberInfo} {ms : List MemberInfo} {v p : Val} {vs : List Val} {pid : Nat}
    (hr : c.rootType = root) (ha : c.rootArgs = args) (hms : c.memberStack = m :: ms) (hvs : c.valueStack = v :: p :: vs)
    (hst : Stack I root args .inCompound ms (p :: vs)) (ht : topType root ms = some pid) (hm : m ∈ (I pid).fields)
    (hv : Typed I (.field m) (m.stored v)) (hc : Creator.popAndSet I c = (.ok (), c')) :
    Stack I root args .inCompound c'.memberStack c'.valueStack ∧ c'.rootType = root ∧ c'.rootArgs = args ∧ c'.state = c.state := by
  unfold Creator.popAndSet at hc
  rw [hms] at hc
  simp only [hvs, typeId, hr, ht] at hc
  obtain ⟨h1, h2⟩ := Ok.setTop hI (c := { c with memberStack := ms, valueStack := p :: vs }) hr ha hst ht hm hv (by rw [← hc, ← hr])
  refine ⟨h1, ?_⟩
  rw [h2]
  exact ⟨hr, ha, rfl⟩

theorem Ok.endArray (hI : I.Regular) {c c' : Creator} (h : Ok I root args c) (hc : Creator.endArray I c = (.ok (), c')) :
    Ok I root args c' := by
  unfold Creator.endArray at hc
  split at hc
  · cases hc
  · rename_i hs
    rw [not_not] at hs
    have hst := h.stackOf hs (by simp)
    generalize hms : c.memberStack = ms at hst
    generalize hvs : c.valueStack = vs at hst
    cases hst with
    | array h1 h2 h3 h4 h5 =>
      split at hc <;> cases hc
      rename_i s hp
      obtain ⟨g1, g2, g3, _⟩ := Ok.popAndSet hI h.type h.rootArgs hms hvs h1 h2 h3 (typed_stored (.inr (.inr ⟨h4, _, rfl, h5⟩))) hp
      exact ⟨g2, g3, .inr g1⟩

theorem typed_create (hI : I.Regular) (hd : TypedDefaults I) {pci : CompoundInfo} {m : MemberInfo} {id : Nat} {p o : Val} {idx : Option Nat}
    (h : createObject I pci m id p idx = .ok o) : Typed I (.object id) o := by
  unfold createObject at h
  cases h1 : argEnv pci p m idx with
  | error e => rw [h1] at h; cases h
  | ok env =>
    rw [h1] at h
    simp only [ok_bind] at h
    cases h2 : evalArgs m.args env with
    | error e => rw [h2] at h; cases h
    | ok as => rw [h2] at h; exact (typed_new hI hd h).1

theorem Ok.beginCompound (hI : I.Regular) (hd : TypedDefaults I) {c c' : Creator} {name : PyStr} (h : Ok I root args c)
    (hc : Creator.beginCompound I name c = (.ok (), c')) : Ok I root args c' := by
  unfold Creator.beginCompound at hc
  split at hc
  · cases hc
  · rename_i hs
    rw [not_not] at hs
    split at hc
    · cases hc
    · rename_i pid m hm
      split at hc
      · cases hc
      · rename_i ha
        split at hc
        · rename_i id hty
          split at hc
          · cases hc
          · rename_i p vs hvs
            split at hc <;> cases hc
            rename_i o ho
            obtain ⟨h1, h2⟩ := member_inv hm
            rw [h.type] at h1
            have hst := h.stackOf hs (by simp)
            refine ⟨h.type, h.rootArgs, .inr ?_⟩
            simp only
            rw [hvs] at hst ⊢
            exact .compound hst h1 h2 (by simpa using ha) hty (typed_create hI hd ho)
        · cases hc

theorem Ok.endCompound (hI : I.Regular) {c c' : Creator} (h : Ok I root args c) (hc : Creator.endCompound I c = (.ok (), c')) :
    Ok I root args c' := by
  unfold Creator.endCompound at hc
  split at hc
  · cases hc
  · rename_i m ms hms
    split at hc
    · cases hc
    · rename_i hs
      rw [not_not] at hs
      split at hc
      · cases hc
      · rename_i ha
        have hst := h.stackOf hs (by simp)
        rw [hms] at hst
        generalize hvs : c.valueStack = vs at hst
        cases hst with
        | compound h1 h2 h3 h4 h5 h6 =>
          obtain ⟨g1, g2, g3, g4⟩ := Ok.popAndSet hI h.type h.rootArgs hms hvs h1 h2 h3
            (typed_stored (.inr (.inl ⟨h4, by rw [h5]; exact .compound h6⟩))) hc
          exact ⟨g2, g3, .inr (by rw [g4, hs]; exact g1)⟩
        | element _ h2 _ _ => exact absurd h2 ha

theorem Ok.setValue (hI : I.Regular) {c c' : Creator} {name : PyStr} {v : Val} (h : Ok I root args c)
    (hv : ∀ id m, c.member I name = .ok (id, m) → checkValue m v = true → Typed I (.item m.type) v) (hc : Creator.setValue I name v c = (.ok (), c')) :
    Ok I root args c' := by
  unfold Creator.setValue at hc
  split at hc
  · cases hc
  · rename_i hs
    rw [not_not] at hs
    split at hc
    · cases hc
    · rename_i id m hm
      split at hc
      · cases hc
      · rename_i ha
        split at hc
        · cases hc
        · rename_i hck
          obtain ⟨h1, h2⟩ := member_inv hm
          rw [h.type] at h1
          have hst := h.stackOf hs (by simp)
          have hty : Typed I (.field m) (m.stored v) := by
            apply typed_stored
            by_cases hn : v = .none
            · exact .inl hn
            · refine .inr (.inl ⟨?_, hv id m hm (by simpa using hck)⟩)
              cases v <;> simp_all [Val.isNone]
          obtain ⟨g1, g2⟩ := Ok.setTop hI h.type h.rootArgs hst h1 h2 hty hc
          rw [g2]
          exact ⟨h.type, h.rootArgs, .inr (by simp only [hs]; rw [g2] at g1; exact g1)⟩

theorem Ok.beginCompoundElement (hI : I.Regular) (hd : TypedDefaults I) {c c' : Creator} (h : Ok I root args c)
    (hc : Creator.beginCompoundElement I c = (.ok (), c')) : Ok I root args c' := by
  unfold Creator.beginCompoundElement at hc
  split at hc
  · cases hc
  · rename_i hs
    rw [not_not] at hs
    have hst := h.stackOf hs (by simp)
    split at hc
    · cases hc
    · rename_i m ms hms
      split at hc
      · rename_i id hty
        split at hc
        · split at hc
          · cases hc
          · split at hc <;> cases hc
            rename_i o ho
            refine ⟨h.type, h.rootArgs, .inr ?_⟩
            simp only
            rw [hms] at hst ⊢
            refine .element hst ?_ hty (typed_create hI hd ho)
            generalize c.valueStack = vs at hst
            cases hst
            assumption
        · cases hc
      · cases hc

theorem Ok.endCompoundElement {c c' : Creator} (h : Ok I root args c) (hc : Creator.endCompoundElement c = (.ok (), c')) :
    Ok I root args c' := by
  unfold Creator.endCompoundElement at hc
  split at hc
  · cases hc
  · rename_i m ms hms
    split at hc
    · cases hc
    · rename_i hs
      rw [not_not] at hs
      split at hc
      · cases hc
      · rename_i ha
        have hst := h.stackOf hs (by simp)
        rw [hms] at hst
        generalize hvs : c.valueStack = vs at hst hc
        cases hst with
        | compound _ _ _ h4 _ _ => rw [h4] at ha; simp at ha
        | element h1 _ h3 h4 =>
          simp only at hc
          cases h1 with
          | array g1 g2 g3 g4 g5 =>
            simp only [appendTop, Prod.mk.injEq, true_and] at hc
            subst hc
            refine ⟨h.type, h.rootArgs, .inr ?_⟩
            simp only [hms]
            refine .array g1 g2 g3 g4 fun x hx => ?_
            rw [List.mem_append, List.mem_singleton] at hx
            rcases hx with hx | rfl
            · exact g5 x hx
            · rw [h3]; exact .compound h4

theorem Ok.addValueElement {c c' : Creator} {v : Val} (h : Ok I root args c)
    (hv : ∀ m ms, c.memberStack = m :: ms → checkValue m v = true → Typed I (.item m.type) v) (hc : Creator.addValueElement v c = (.ok (), c')) :
    Ok I root args c' := by
  unfold Creator.addValueElement at hc
  split at hc
  · cases hc
  · rename_i hs
    rw [not_not] at hs
    have hst := h.stackOf hs (by simp)
    split at hc
    · cases hc
    · rename_i m ms hms
      split at hc
      · cases hc
      · rename_i hck
        have hv := hv m ms hms (by simpa using hck)
        rw [hms] at hst
        generalize hvs : c.valueStack = vs at hst hc
        cases hst with
        | array g1 g2 g3 g4 g5 =>
          simp only [appendTop, hvs, Prod.mk.injEq, true_and] at hc
          subst hc
          refine ⟨h.type, h.rootArgs, .inr ?_⟩
          simp only [hms, hs]
          refine .array g1 g2 g3 g4 fun x hx => ?_
          rw [List.mem_append, List.mem_singleton] at hx
          rcases hx with hx | rfl
          · exact g5 x hx
          · exact hv

end Creator

namespace Json
open Creator
variable {I : TypeInfos} {root : Nat} {args : List Int}

/-- neither an array nor an object -/
def PlainVal (v : Val) : Prop :=
  v = .none ∨ (∃ b, v = .bool b) ∨ (∃ n, v = .int n) ∨ (∃ x, v = .float x) ∨ (∃ k, v = .str k) ∨ (∃ b, v = .bytes b) ∨ ∃ b, v = .bitBuffer b

theorem mem_of_parseEnum {text : PyStr} {items : List EnumItem} {x : Int} (h : parseEnumString text items = some x) :
    ∃ item ∈ items, item.value = x := by
  induction items with
  | nil => cases h
  | cons i items ih =>
    unfold parseEnumString at h
    split at h
    · cases h; exact ⟨i, by simp, rfl⟩
    · obtain ⟨j, hj, rfl⟩ := ih h
      exact ⟨j, by simp [hj], rfl⟩

theorem typed_enum {e : EnumClass} {x : Int} (h : ∃ item ∈ e.items, item.value = x) : Typed I (.item (.enum e)) (.int x) := by
  obtain ⟨i, hi, rfl⟩ := h
  exact .simple (.enum hi)

theorem typed_enumString {e : EnumClass} {s : PyStr} {w : Val} (h : (enumFromString e s).map Val.int = .ok w) : Typed I (.item (.enum e)) w := by
  cases h1 : enumFromString e s with
  | error _ => rw [h1] at h; cases h
  | ok x =>
    rw [h1] at h
    cases h
    unfold enumFromString at h1
    split at h1
    · cases h1
    · split at h1
      · split at h1
        · rename_i hp
          cases h1
          exact typed_enum (mem_of_parseEnum hp)
        · cases h1
      · cases h1

theorem typed_enumCall {e : EnumClass} {x : Int} {w : Val}
    (h : (EnumClass.call e x).map (fun r => Val.int (EnumClass.value r.1)) = .ok w) : Typed I (.item (.enum e)) w := by
  cases h1 : EnumClass.call e x with
  | error _ => rw [h1] at h; cases h
  | ok r =>
    rw [h1] at h
    cases h
    exact typed_enum ⟨e.items[r.1], List.getElem_mem _, rfl⟩

theorem typed_fromValue {d : BitmaskDef} {x : Int} {w : Val}
    (h : (Bitmask.fromValue (d := d) x).map (fun b => Val.int b.value) = .ok w) : Typed I (.item (.bitmask d)) w := by
  unfold Bitmask.fromValue at h
  split at h
  · cases h
  · rename_i hb
    cases h
    rw [not_or] at hb
    exact .simple (.bitmask (Int.not_lt.mp hb.1) (Int.not_lt.mp hb.2))

theorem typed_bitmaskString {d : BitmaskDef} {s : PyStr} {w : Val} (h : (bitmaskFromString d s).map Val.int = .ok w) :
    Typed I (.item (.bitmask d)) w := by
  have key : ∀ x : Int, Except.map Val.int ((Bitmask.fromValue (d := d) x).map Bitmask.value) = .ok w → Typed I (.item (.bitmask d)) w := by
    intro x hx
    apply typed_fromValue (x := x)
    rw [← hx]
    cases Bitmask.fromValue (d := d) x <;> rfl
  unfold bitmaskFromString at h
  split at h
  · cases h
  · split at h
    · split at h
      · exact key _ h
      · cases h
    · split at h
      · split at h
        · exact key _ h
        · cases h
      · cases h

/-- A converted value which the creator accepts has the expected type. -/
theorem typed_converted {v w : Val} {m : MemberInfo} (hp : PlainVal v) (h : convertValue v m.type = .ok w)
    (hc : checkValue m w = true) : Typed I (.item m.type) w := by
  generalize hty : m.type = ty at *
  cases ty with
  | enum e =>
    unfold convertValue at h
    simp only at h
    split at h
    · cases h; exact .none
    · exact typed_enumString h
    · split at h
      · exact typed_enumCall h
      · cases h
  | bitmask d =>
    unfold convertValue at h
    simp only at h
    split at h
    · cases h; exact .none
    · exact typed_bitmaskString h
    · split at h
      · exact typed_fromValue h
      · cases h
  | builtin t =>
    cases h
    simp only [checkValue, hty, Bool.or_eq_true] at hc
    rcases hp with rfl | ⟨b, rfl⟩ | ⟨n, rfl⟩ | ⟨x, rfl⟩ | ⟨k, rfl⟩ | ⟨b, rfl⟩ | ⟨b, rfl⟩
    · exact .none
    all_goals
      cases t <;> simp [Val.isNone, isInstance] at hc
      all_goals first
        | exact .simple (.int _)
        | exact .simple (.boolInt _)
        | exact .simple (.bool _)
        | exact .simple (.float _)
        | exact .simple (.str _)
        | exact .simple (.bytes _)
        | exact .simple (.bitBuffer _)
  | compound id =>
    cases h
    simp only [checkValue, hty, Bool.or_eq_true] at hc
    rcases hp with rfl | ⟨b, rfl⟩ | ⟨n, rfl⟩ | ⟨x, rfl⟩ | ⟨k, rfl⟩ | ⟨b, rfl⟩ | ⟨b, rfl⟩
    · exact .none
    all_goals simp [Val.isNone, isInstance] at hc

/-- what is true of the adapter between events -/
structure Sane (I : TypeInfos) (root : Nat) (args : List Int) (s : CreatorAdapter) : Prop where
  creator : ∀ c, s.creator = some c → Ok I root args c
  object : ∀ o, s.object = some o → Typed I (.object root) o ∧ ∃ k tag fs, o = .obj args k tag fs

namespace CreatorAdapter

theorem create_inv {α : Type} {x : M Creator α} {a : α} {s s' : CreatorAdapter} (h : create x s = (.ok a, s')) :
    ∃ c c', s.creator = some c ∧ x c = (.ok a, c') ∧ s' = { s with creator := some c' } := by
  unfold create at h
  split at h
  · cases h
  · rename_i c hc
    generalize hx : x c = y at h
    obtain ⟨r, c'⟩ := y
    simp only [Prod.mk.injEq] at h
    obtain ⟨rfl, rfl⟩ := h
    exact ⟨c, c', hc, hx, rfl⟩

theorem sane_create {α : Type} {x : M Creator α} {a : α} {s s' : CreatorAdapter} (hs : Sane I root args s)
    (h : create x s = (.ok a, s')) (hx : ∀ c c', Ok I root args c → x c = (.ok a, c') → Ok I root args c') : Sane I root args s' := by
  obtain ⟨c, c', h1, h2, rfl⟩ := create_inv h
  refine ⟨fun d hd => ?_, hs.object⟩
  cases hd
  exact hx c c' (hs.creator c h1) h2

theorem sane_pop {s s' : CreatorAdapter} (hs : Sane I root args s) (h : pop s = (.ok (), s')) : Sane I root args s' := by
  unfold pop at h
  split at h <;> cases h
  exact ⟨hs.creator, hs.object⟩

theorem sane_push {s s' : CreatorAdapter} {key : PyStr} (hs : Sane I root args s) (h : push key s = (.ok (), s')) : Sane I root args s' := by
  cases h
  exact ⟨hs.creator, hs.object⟩

theorem sane_delegate {f : ValueAdapter → Except Err ValueAdapter} {x : M CreatorAdapter Unit} {s s' : CreatorAdapter}
    (hs : Sane I root args s) (h : delegate f x s = (.ok (), s')) (hx : x s = (.ok (), s') → Sane I root args s') : Sane I root args s' := by
  unfold delegate at h
  split at h
  · exact hx h
  · split at h <;> cases h
    exact ⟨hs.creator, hs.object⟩

/-- what `expected_type` finds, without changing anything -/
theorem expectedType_inv {key : PyStr} {s s' : CreatorAdapter} {ty : TypeInfo} (h : expectedType I key s = (.ok ty, s')) :
    s' = s ∧ ∃ c, s.creator = some c ∧
      (key ≠ [] → ∀ id m, c.member I key = .ok (id, m) → m.type = ty) ∧ (key = [] → ∀ m ms, c.memberStack = m :: ms → m.type = ty) := by
  unfold expectedType at h
  split at h
  · rename_i hk
    obtain ⟨c, c', h1, h2, rfl⟩ := create_inv h
    unfold Creator.getFieldType at h2
    split at h2
    · cases h2
    · split at h2 <;> cases h2
      rename_i hm
      refine ⟨by rw [← h1], c, h1, fun _ id' m' hm' => ?_, fun h => absurd h hk⟩
      rw [hm] at hm'
      cases hm'
      rfl
  · rename_i hk
    obtain ⟨c, c', h1, h2, rfl⟩ := create_inv h
    unfold Creator.getElementType at h2
    split at h2
    · cases h2
    · split at h2 <;> cases h2
      rename_i hm
      refine ⟨by rw [← h1], c, h1, fun h => absurd h hk, fun _ m' ms' hm' => ?_⟩
      rw [hm] at hm'
      cases hm'
      rfl

theorem sane_putValue (hI : I.Regular) {key : PyStr} {v w : Val} {ty : TypeInfo} {s s₁ s' : CreatorAdapter} (hs : Sane I root args s)
    (hp : PlainVal v) (ht : expectedType I key s = (.ok ty, s₁)) (hv : convertValue v ty = .ok w) (h : putValue I key w s = (.ok (), s')) :
    Sane I root args s' := by
  obtain ⟨_, c, hc, h1, h2⟩ := expectedType_inv ht
  unfold putValue at h
  split at h
  · rename_i hk
    obtain ⟨u, s₂, g1, g2⟩ := M.bind_inv h
    obtain ⟨c₁, c', e1, e2, rfl⟩ := create_inv g1
    rw [hc] at e1
    cases e1
    refine sane_pop (s := { s with creator := some c' }) ⟨fun d hd => ?_, hs.object⟩ g2
    cases hd
    refine Ok.setValue hI (hs.creator c hc) (fun id m hm hck => ?_) e2
    exact typed_converted hp (by rw [h1 hk id m hm]; exact hv) hck
  · rename_i hk
    rw [not_not] at hk
    obtain ⟨c₁, c', e1, e2, rfl⟩ := create_inv h
    rw [hc] at e1
    cases e1
    refine ⟨fun d hd => ?_, hs.object⟩
    cases hd
    refine Ok.addValueElement (hs.creator c hc) (fun m ms hm hck => ?_) e2
    exact typed_converted hp (by rw [h2 hk m ms hm]; exact hv) hck

theorem sane_visitValue (hI : I.Regular) {v : Val} {s s' : CreatorAdapter} (hs : Sane I root args s) (hp : PlainVal v)
    (h : visitValue I v s = (.ok (), s')) : Sane I root args s' := by
  unfold visitValue at h
  refine sane_delegate hs h fun h => ?_
  split at h
  · cases h
  · obtain ⟨ty, s₁, g1, g2⟩ := M.bind_inv h
    obtain ⟨w, s₂, g3, g4⟩ := M.bind_inv g2
    obtain ⟨rfl, _⟩ := expectedType_inv g1
    rw [M.lift_apply] at g3
    cases hw : convertValue v ty with
    | error e => rw [hw] at g3; cases g3
    | ok w' =>
      rw [hw] at g3
      cases g3
      exact sane_putValue hI hs hp g1 hw g4

theorem plain_get {a : ValueAdapter} {v : Val} (h : a.get = .ok v) : PlainVal v := by
  unfold ValueAdapter.get at h
  split at h
  · split at h
    · cases h
    · rename_i buffer n _ data _
      cases hm : BitBuffer.make data (some n) with
      | error e => rw [hm] at h; cases h
      | ok b => rw [hm] at h; cases h; exact .inr (.inr (.inr (.inr (.inr (.inr ⟨_, rfl⟩)))))
  · cases h
    exact .inr (.inr (.inr (.inr (.inr (.inl ⟨_, rfl⟩)))))
  · cases h

theorem sane_tell (hI : I.Regular) (hd : TypedDefaults I) {e : JsonEvent} {s s' : CreatorAdapter} (hs : Sane I root args s)
    (hp : ∀ v, e = .value v → PlainVal v) (h : (observer I).tell e s = (.ok (), s')) : Sane I root args s' := by
  cases e with
  | beginObject =>
    change beginObject I s = _ at h
    unfold beginObject at h
    refine sane_delegate hs h fun h => ?_
    split at h
    · exact sane_create hs h fun c c' hc hx => hc.beginRoot hI hd hx
    · obtain ⟨ty, s₁, g1, g2⟩ := M.bind_inv h
      obtain ⟨rfl, _⟩ := expectedType_inv g1
      unfold beginTyped at g2
      split at g2
      · cases g2; exact ⟨hs.creator, hs.object⟩
      · cases g2; exact ⟨hs.creator, hs.object⟩
      · split at g2
        · exact sane_create hs g2 fun c c' hc hx => hc.beginCompound hI hd hx
        · exact sane_create hs g2 fun c c' hc hx => hc.beginCompoundElement hI hd hx
  | endObject =>
    change endObject I s = _ at h
    unfold endObject at h
    split at h
    · split at h
      · cases h
      · rename_i v hg
        exact sane_visitValue (s := { s with valueAdapter := none }) hI ⟨hs.creator, hs.object⟩ (plain_get hg) h
    · split at h
      · unfold endRoot at h
        split at h <;> cases h
        rename_i o s₁ hc
        obtain ⟨c, c', h1, h2, rfl⟩ := create_inv hc
        refine ⟨by simp, fun o' ho' => ?_⟩
        cases ho'
        exact (hs.creator c h1).endRoot h2
      · split at h
        · obtain ⟨u, s₁, g1, g2⟩ := M.bind_inv h
          exact sane_pop (sane_create hs g1 fun c c' hc hx => hc.endCompound hI hx) g2
        · exact sane_create hs h fun c c' hc hx => hc.endCompoundElement hx
  | beginArray =>
    change beginArray I s = _ at h
    unfold beginArray at h
    refine sane_delegate hs h fun h => ?_
    split at h
    · cases h
    · obtain ⟨u, s₁, g1, g2⟩ := M.bind_inv h
      exact sane_push (sane_create hs g1 fun c c' hc hx => hc.beginArray hx) g2
  | endArray =>
    change endArray I s = _ at h
    unfold endArray at h
    refine sane_delegate hs h fun h => ?_
    obtain ⟨u, s₁, g1, g2⟩ := M.bind_inv h
    obtain ⟨u, s₂, g3, g4⟩ := M.bind_inv g2
    exact sane_pop (sane_pop (sane_create hs g1 fun c c' hc hx => hc.endArray hI hx) g3) g4
  | key k =>
    change visitKey k s = _ at h
    unfold visitKey at h
    refine sane_delegate hs h fun h => ?_
    obtain ⟨u, s₁, g1, g2⟩ := M.bind_inv h
    exact sane_push (sane_create hs g1 fun c c' hc hx => by cases hx; exact hc) g2
  | value v => exact sane_visitValue hI hs (hp v rfl) h

theorem sane_tellAll (hI : I.Regular) (hd : TypedDefaults I) {es : List JsonEvent} {s s' : CreatorAdapter} (hs : Sane I root args s)
    (hp : ∀ v, JsonEvent.value v ∈ es → PlainVal v) (h : (observer I).tellAll es s = (.ok (), s')) : Sane I root args s' := by
  induction es generalizing s with
  | nil => cases h; exact hs
  | cons e es ih =>
    obtain ⟨u, s₁, g1, g2⟩ := M.bind_inv h
    exact ih (sane_tell hI hd hs (fun v hv => hp v (by simp [hv])) g1) (fun v hv => hp v (by simp [hv])) g2

end CreatorAdapter
end Json
end Zserio
