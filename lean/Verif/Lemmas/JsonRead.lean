import Verif.Lemmas.JsonNames
import Verif.Lemmas.JsonParse
import Verif.Lemmas.Rebuild
/-
The JSON reader builds what the events of a walk say.
-/
set_option linter.unusedSimpArgs false
namespace Zserio.Json
open Creator Rebuild CreatorAdapter
variable {I : TypeInfos} {sf : Bool}

/-- The reader accepts the value for a member of this type. -/
def ReadsBack (m : MemberInfo) (v : Val) : Prop := v = .none ∨ Proper m.type v ∧ NamesOf m.type

theorem tellAll_append {σ : Type} (ob : Observer σ) (es es' : List JsonEvent) {s s₁ : σ} (h : ob.tellAll es s = (.ok (), s₁)) :
    ob.tellAll (es ++ es') s = ob.tellAll es' s₁ := by
  induction es generalizing s with
  | nil => simp [Observer.tellAll] at h; rw [h]; rfl
  | cons e es ih =>
    simp only [Observer.tellAll, List.cons_append] at h ⊢
    rcases hx : ob.tell e s with ⟨r, s'⟩
    cases r with
    | error e => rw [M.bind_error hx] at h; simp at h
    | ok u =>
      rw [M.bind_ok hx] at h ⊢
      exact ih h

theorem tellAll_cons {σ : Type} (ob : Observer σ) (e : JsonEvent) (es : List JsonEvent) {s s₁ : σ} (h : ob.tell e s = (.ok (), s₁)) :
    ob.tellAll (e :: es) s = ob.tellAll es s₁ := by
  simp only [Observer.tellAll]
  rw [M.bind_ok h]

/-! ### Values -/

theorem toBytes_bytes (bytes : List UInt8) : toBytes (bytes.map fun b => (b.toNat : Int)) = .ok bytes := by
  induction bytes with
  | nil => rfl
  | cons b bs ih =>
    have := b.toNat_lt
    simp only [List.map_cons, toBytes]
    rw [if_pos (by omega), ih]
    simp [Except.map]

/-- a value which is not written as an object -/
theorem convert_image {m : MemberInfo} {v : Val} (h : ReadsBack m v) (hb : ∀ b, v ≠ .bitBuffer b) (hy : ∀ b, v ≠ .bytes b) :
    ∃ x, image sf m v = .value x ∧ convertValue x m.type = .ok v := by
  rcases h with rfl | ⟨h, hn⟩
  · refine ⟨.none, ?_, ?_⟩
    · unfold image; cases m.type with
      | builtin b => cases b <;> rfl
      | _ => rfl
    · cases m.type <;> rfl
  · cases ht : m.type with
    | compound id => rw [ht] at h; simp [Proper] at h
    | enum e =>
      rw [ht] at h hn
      cases v with
      | int x =>
        simp only [Proper] at h
        refine ⟨_, by simp only [image, ht]; rfl, ?_⟩
        cases sf with
        | true => simp only [if_true, convertValue, enumFromString_text hn h, Except.map]
        | false =>
          obtain ⟨r, h1, h2⟩ := call_item h
          simp only [Bool.false_eq_true, if_false, convertValue, asInt, h1, Except.map, h2]
      | _ => simp [Proper] at h
    | bitmask d =>
      rw [ht] at h hn
      cases v with
      | int x =>
        simp only [Proper] at h
        refine ⟨_, by simp only [image, ht]; rfl, ?_⟩
        cases sf with
        | true => simp only [if_true, convertValue, bitmaskFromString_text hn h.1 h.2.1 h.2.2, Except.map]
        | false =>
          simp only [Bool.false_eq_true, if_false, convertValue, asInt, Bitmask.fromValue]
          rw [if_neg (by omega)]
          rfl
      | _ => simp [Proper] at h
    | builtin b =>
      rw [ht] at h
      have key : canonical v = v ∧ image sf m v = .value (canonical v) := by
        cases b <;> cases v <;> simp [Proper] at h <;> simp [image, ht, canonical] at hb hy ⊢ <;> simpa [canonical] using h
      exact ⟨canonical v, key.2, by rw [key.1]; rfl⟩

/-- the bytes of a bit buffer -/
theorem tell_bytes_bitBuffer (bytes : List UInt8) (b : List Int) (n : Option Int) (s : CreatorAdapter) :
    (observer I).tellAll (Doc.elementEvents (byteDocs bytes)) { s with valueAdapter := some (.bitBuffer .visitValueBuffer (some b) n) } =
      (.ok (), { s with valueAdapter := some (.bitBuffer .visitValueBuffer (some (b ++ bytes.map fun b => (b.toNat : Int))) n) }) := by
  induction bytes generalizing b with
  | nil => simp [byteDocs, Doc.elementEvents, Observer.tellAll]
  | cons x xs ih =>
    simp only [byteDocs, List.map_cons, Doc.elementEvents, Doc.events, List.cons_append, List.nil_append]
    rw [tellAll_cons (s₁ := { s with valueAdapter := some (.bitBuffer .visitValueBuffer (some (b ++ [(x.toNat : Int)])) n) })]
    · rw [← byteDocs, ih]
      simp
    · rfl

/-- the bytes of a byte array -/
theorem tell_bytes_bytes (bytes : List UInt8) (b : List UInt8) (s : CreatorAdapter) :
    (observer I).tellAll (Doc.elementEvents (byteDocs bytes)) { s with valueAdapter := some (.bytes .visitValueBuffer (some b)) } =
      (.ok (), { s with valueAdapter := some (.bytes .visitValueBuffer (some (b ++ bytes))) }) := by
  induction bytes generalizing b with
  | nil => simp [byteDocs, Doc.elementEvents, Observer.tellAll]
  | cons x xs ih =>
    simp only [byteDocs, List.map_cons, Doc.elementEvents, Doc.events, List.cons_append, List.nil_append]
    rw [tellAll_cons (s₁ := { s with valueAdapter := some (.bytes .visitValueBuffer (some (b ++ [x]))) })]
    · rw [← byteDocs, ih]
      simp
    · have := x.toNat_lt
      simp only [Observer.tell, observer, visitValue, delegate, ValueAdapter.visitValue, asInt]
      rw [if_pos (by omega)]
      simp

/-- `visit_value` for a value which is converted to `v` -/
theorem visitValue_put {m : MemberInfo} {x v : Val} {s : CreatorAdapter} {key : PyStr} {K : List PyStr} (hk : s.keyStack = key :: K)
    (ha : s.valueAdapter = none) (ht : expectedType I key s = (.ok m.type, s)) (hc : convertValue x m.type = .ok v) :
    visitValue I x s = putValue I key v s := by
  simp only [visitValue, delegate, ha, hk]
  rw [M.bind_ok ht]
  simp only [hc]
  rfl

theorem tell_image {m : MemberInfo} {v : Val} (h : ReadsBack m v) {s s' : CreatorAdapter} {key : PyStr} {K : List PyStr}
    (hk : s.keyStack = key :: K) (ha : s.valueAdapter = none) (ht : expectedType I key s = (.ok m.type, s))
    (hp : putValue I key v s = (.ok (), s')) : (observer I).tellAll (image sf m v).events s = (.ok (), s') := by
  have hs : ∀ a, { s with valueAdapter := a } = (⟨s.creator, key :: K, s.object, a⟩ : CreatorAdapter) := by
    intro a; rw [← hk]
  have hs0 : ({ s with valueAdapter := none } : CreatorAdapter) = s := by rw [← ha]
  by_cases hb : ∃ b, v = .bitBuffer b
  · obtain ⟨b, rfl⟩ := hb
    have hty : m.type = .builtin .bitBuffer ∧ b.bitsize ≤ 8 * b.buffer.length := by
      rcases h with h | ⟨h, _⟩
      · cases h
      · cases hm : m.type with
        | builtin t => rw [hm] at h; cases t <;> simp [Proper] at h ⊢; exact h
        | _ => rw [hm] at h; simp [Proper] at h
    obtain ⟨hty, hbits⟩ := hty
    simp only [image, hty, Doc.events, Doc.memberEvents, List.nil_append, List.append_nil, List.cons_append, List.append_assoc]
    rw [tellAll_cons (s₁ := { s with valueAdapter := some (.bitBuffer .visitKey none none) })]
    · rw [tellAll_cons (s₁ := { s with valueAdapter := some (.bitBuffer .beginArrayBuffer none none) }) (h := rfl)]
      rw [tellAll_cons (s₁ := { s with valueAdapter := some (.bitBuffer .visitValueBuffer (some []) none) }) (h := rfl)]
      rw [tellAll_append _ _ _ (tell_bytes_bitBuffer b.buffer [] none s)]
      rw [List.nil_append]
      rw [tellAll_cons (s₁ := { s with valueAdapter := some (.bitBuffer .visitKey (some (b.buffer.map fun b => (b.toNat : Int))) none) }) (h := rfl)]
      rw [tellAll_cons (s₁ := { s with valueAdapter := some (.bitBuffer .visitValueBitsize (some (b.buffer.map fun b => (b.toNat : Int))) none) }) (h := rfl)]
      rw [tellAll_cons (s₁ := { s with valueAdapter := some (.bitBuffer .visitKey (some (b.buffer.map fun b => (b.toNat : Int))) (some b.bitsize)) }) (h := rfl)]
      rw [tellAll_cons (s₁ := s')]
      · rfl
      · have hget : ValueAdapter.get (.bitBuffer .visitKey (some (b.buffer.map fun b => (b.toNat : Int))) (some b.bitsize)) = .ok (.bitBuffer b) := by
          simp only [ValueAdapter.get, toBytes_bytes, BitBuffer.make]
          rw [if_neg (by omega)]
          rfl
        simp only [Observer.tell, observer, endObject, hget]
        rw [hs0, visitValue_put hk ha ht (v := .bitBuffer b) (by rw [hty]; rfl), hp]
    · simp only [Observer.tell, observer, beginObject, delegate, ha, hk]
      rw [M.bind_ok ht, hty]
      simp only [beginTyped, setAdapter, hk]
  · by_cases hy : ∃ b, v = .bytes b
    · obtain ⟨b, rfl⟩ := hy
      have hty : m.type = .builtin .bytearray := by
        rcases h with h | ⟨h, _⟩
        · cases h
        · cases hm : m.type with
          | builtin t => rw [hm] at h; cases t <;> simp [Proper] at h ⊢
          | _ => rw [hm] at h; simp [Proper] at h
      simp only [image, hty, Doc.events, Doc.memberEvents, List.nil_append, List.append_nil, List.cons_append, List.append_assoc]
      rw [tellAll_cons (s₁ := { s with valueAdapter := some (.bytes .visitKey none) })]
      · rw [tellAll_cons (s₁ := { s with valueAdapter := some (.bytes .beginArrayBuffer none) }) (h := rfl)]
        rw [tellAll_cons (s₁ := { s with valueAdapter := some (.bytes .visitValueBuffer (some [])) }) (h := rfl)]
        rw [tellAll_append _ _ _ (tell_bytes_bytes b [] s)]
        rw [List.nil_append]
        rw [tellAll_cons (s₁ := { s with valueAdapter := some (.bytes .visitKey (some b)) }) (h := rfl)]
        rw [tellAll_cons (s₁ := s')]
        · rfl
        · have hget : ValueAdapter.get (.bytes .visitKey (some b)) = .ok (.bytes b) := rfl
          simp only [Observer.tell, observer, endObject, hget]
          rw [hs0, visitValue_put hk ha ht (v := .bytes b) (by rw [hty]; rfl), hp]
      · simp only [Observer.tell, observer, beginObject, delegate, ha, hk]
        rw [M.bind_ok ht, hty]
        simp only [beginTyped, setAdapter, hk]
    · obtain ⟨x, h1, h2⟩ := convert_image (sf := sf) h (by simpa using hb) (by simpa using hy)
      rw [h1]
      simp only [Doc.events, Observer.tellAll_one, Observer.tell, observer]
      rw [visitValue_put hk ha ht h2, hp]

/-! ### Events -/

/-- the reader while the creator builds the frame `f` -/
def reading (id : Nat) (args : List Int) (ms : List MemberInfo) (vs : List Val) (K : List PyStr) (ob : Option Val) (f : Frame) :
    CreatorAdapter := ⟨some (frameState id args ms vs f), K, ob, none⟩

theorem create_ok {α : Type} {x : M Creator α} {a : α} {c c' : Creator} {K : List PyStr} {ob : Option Val} {va : Option ValueAdapter}
    (h : x c = (.ok a, c')) : create x ⟨some c, K, ob, va⟩ = (.ok a, ⟨some c', K, ob, va⟩) := by
  simp only [create, h]

/-- the key stack in an array -/
def KeysOk (K : List PyStr) : Frame → Prop
  | .compound _ _ => True
  | .array _ _ _ _ => ∃ K', K = [] :: K'

theorem tell_key (key : PyStr) {id : Nat} {args : List Int} {ms : List MemberInfo} {vs : List Val} {K : List PyStr} {ob : Option Val}
    {f : Frame} : (observer I).tell (.key key) (reading id args ms vs K ob f) = (.ok (), reading id args ms vs (key :: K) ob f) := rfl

theorem Feeds.frameOk {f f' : Frame} {es : List Event} (h : Feeds I f es f') {id : Nat} {ms : List MemberInfo} (hf : FrameOk id ms f) :
    FrameOk id ms f' := (h.builds.run (args := []) hf []).1

theorem expected_field {id t : Nat} {args : List Int} {ms : List MemberInfo} {vs : List Val} {K : List PyStr} {ob : Option Val} {o : Val}
    {m : MemberInfo} (hf : FrameOk id ms (.compound t o)) (hm : FieldNamed (I t).fields m.schemaName m) (hne : m.schemaName ≠ []) :
    expectedType I m.schemaName (reading id args ms vs K ob (.compound t o)) = (.ok m.type, reading id args ms vs K ob (.compound t o)) := by
  rw [expectedType, if_pos hne]
  refine create_ok ?_
  simp only [getFieldType, frameState, member_ok (s := ⟨id, args, ms, o :: vs, .inCompound⟩) hf hm]
  simp

theorem expected_element {id pid : Nat} {args : List Int} {ms : List MemberInfo} {vs : List Val} {K : List PyStr} {ob : Option Val} {p : Val}
    {m : MemberInfo} {xs : List Val} :
    expectedType I [] (reading id args ms vs K ob (.array m pid p xs)) = (.ok m.type, reading id args ms vs K ob (.array m pid p xs)) := by
  rw [expectedType, if_neg (by simp)]
  refine create_ok ?_
  simp [getElementType, frameState]

theorem told {f f' : Frame} {es : List Event} (h : Feeds I f es f') (hn : ∀ (id : Nat) (m : MemberInfo), m ∈ (I id).fields → m.schemaName ≠ [])
    (hv : ∀ v m idx, Event.visitValue v m idx ∈ es → ReadsBack m v) {id : Nat} {args : List Int} {ms : List MemberInfo}
    (hf : FrameOk id ms f) (vs : List Val) {K : List PyStr} (hK : KeysOk K f) (ob : Option Val) :
    (observer I).tellAll (es.flatMap (jsonEvents sf)) (reading id args ms vs K ob f) = (.ok (), reading id args ms vs K ob f') := by
  have named : ∀ {t : Nat} {m : MemberInfo}, FieldNamed (I t).fields m.schemaName m → m.schemaName ≠ [] := by
    rintro t m ⟨l, r, h, _⟩
    exact hn t m (by rw [h]; simp)
  induction h generalizing ms vs K with
  | nil => rfl
  | @value t o o₁ v m es f hm hx hs _ ih =>
    have hne := named hm
    simp only [List.flatMap_cons, jsonEvents, keyOf, Option.isNone_none, if_true, List.cons_append, List.nil_append, List.append_assoc]
    rw [tellAll_cons _ _ _ (tell_key m.schemaName)]
    rw [tellAll_append (s₁ := reading id args ms vs K ob (.compound t o₁))]
    · exact ih (fun v' m' idx' h => hv v' m' idx' (by simp [h])) hf vs trivial
    · refine tell_image (hv v m none (by simp)) (key := m.schemaName) (K := K) rfl rfl (expected_field hf hm hne) ?_
      rw [putValue, if_pos hne]
      have : Creator.setValue I m.schemaName v (frameState id args ms vs (.compound t o)) =
          (.ok (), frameState id args ms vs (.compound t o₁)) := by
        simp only [setValue, frameState, member_ok (s := ⟨id, args, ms, o :: vs, .inCompound⟩) hf hm]
        rcases hx with rfl | ⟨ha, _, hi⟩
        · simp [Val.isNone, checkValue, setTop, hs]
        · simp [ha, hi, checkValue, setTop, hs]
      rw [reading, M.bind_ok (create_ok this)]
      rfl
  | @compound t cid o o₁ c c' v m es₁ es f hm ha ht hc hb hs _ ih₁ ih =>
    have hne := named hm
    simp only [List.cons_append, List.flatMap_cons, List.flatMap_append, jsonEvents, keyOf, Option.isNone_none, if_true, List.nil_append,
      List.append_assoc]
    have hf' : FrameOk id (m :: ms) (.compound cid c) := by simp [FrameOk, topType, ht]
    rw [tellAll_cons _ _ _ (tell_key m.schemaName)]
    rw [tellAll_cons (s₁ := reading id args (m :: ms) (o :: vs) (m.schemaName :: K) ob (.compound cid c))]
    · rw [tellAll_append _ _ _ (ih₁ (fun v' m' idx' h => hv v' m' idx' (by simp [h])) hf' (o :: vs) trivial)]
      rw [tellAll_cons (s₁ := reading id args ms vs K ob (.compound t o₁))]
      · exact ih (fun v' m' idx' h => hv v' m' idx' (by simp [h])) hf vs trivial
      · have : Creator.endCompound I (frameState id args (m :: ms) (o :: vs) (.compound cid c')) =
            (.ok (), frameState id args ms vs (.compound t o₁)) := by
          simp only [endCompound, frameState, popAndSet, typeId]
          simp only [FrameOk] at hf
          simp [ha, hf, setTop, hs]
        simp only [Observer.tell, observer, endObject, reading, ne_eq, hne, not_false_eq_true, if_true]
        rw [M.bind_ok (create_ok this)]
        rfl
    · have : Creator.beginCompound I m.schemaName (frameState id args ms vs (.compound t o)) =
          (.ok (), frameState id args (m :: ms) (o :: vs) (.compound cid c)) := by
        simp only [beginCompound, frameState, member_ok (s := ⟨id, args, ms, o :: vs, .inCompound⟩) hf hm]
        simp [ha, ht, hc]
      have he := expected_field (args := args) (vs := vs) (K := m.schemaName :: K) (ob := ob) hf hm hne
      simp only [Observer.tell, observer, beginObject, delegate]
      change (expectedType I m.schemaName >>= beginTyped I m.schemaName) _ = _
      rw [M.bind_ok he, ht]
      simp only [beginTyped, ne_eq, hne, not_false_eq_true, if_true]
      exact create_ok this
  | @array t o o₁ m xs ys es₁ es f hm ha hb hs _ ih₁ ih =>
    have hne := named hm
    simp only [List.cons_append, List.flatMap_cons, List.flatMap_append, jsonEvents, keyOf, Option.isNone_none, if_true, List.nil_append,
      List.append_assoc]
    rw [tellAll_cons _ _ _ (tell_key m.schemaName)]
    rw [tellAll_cons (s₁ := reading id args ms vs ([] :: m.schemaName :: K) ob (.array m t o []))]
    · rw [tellAll_append _ _ _ (ih₁ (fun v' m' idx' h => hv v' m' idx' (by simp [h])) ⟨hf, ha⟩ vs ⟨_, rfl⟩)]
      rw [tellAll_cons (s₁ := reading id args ms vs K ob (.compound t o₁))]
      · exact ih (fun v' m' idx' h => hv v' m' idx' (by simp [h])) hf vs trivial
      · have : Creator.endArray I (frameState id args ms vs (.array m t o xs)) =
            (.ok (), frameState id args ms vs (.compound t o₁)) := by
          simp only [Creator.endArray, frameState, popAndSet, typeId]
          simp only [FrameOk] at hf
          simp [hf, setTop, hs]
        simp only [Observer.tell, observer, CreatorAdapter.endArray, reading, delegate]
        rw [M.bind_ok (create_ok this)]
        rfl
    · have : Creator.beginArray I m.schemaName (frameState id args ms vs (.compound t o)) =
          (.ok (), frameState id args ms vs (.array m t o [])) := by
        simp only [Creator.beginArray, frameState, member_ok (s := ⟨id, args, ms, o :: vs, .inCompound⟩) hf hm]
        simp [ha]
      simp only [Observer.tell, observer, CreatorAdapter.beginArray, delegate, reading]
      rw [M.bind_ok (create_ok this)]
      rfl
  | @valueElement m pid i p v xs es f hx _ ih =>
    obtain ⟨K', rfl⟩ := hK
    simp only [List.flatMap_cons, jsonEvents, keyOf, Option.isNone_some, Bool.false_eq_true, if_false, List.nil_append]
    rw [tellAll_append (s₁ := reading id args ms vs ([] :: K') ob (.array m pid p (xs ++ [v])))]
    · exact ih (fun v' m' idx' h => hv v' m' idx' (by simp [h])) hf vs ⟨_, rfl⟩
    · refine tell_image (hv v m (some i) (by simp)) (key := []) (K := K') rfl rfl expected_element ?_
      rw [putValue, if_neg (by simp)]
      refine create_ok ?_
      simp only [addValueElement, frameState]
      rcases hx with rfl | ⟨_, hi⟩
      · simp [Val.isNone, checkValue, appendTop]
      · simp [hi, checkValue, appendTop]
  | @compoundElement m pid cid i p c c' v xs es₁ es f ht hc hb _ ih₁ ih =>
    obtain ⟨K', rfl⟩ := hK
    simp only [List.cons_append, List.flatMap_cons, List.flatMap_append, jsonEvents, keyOf, Option.isNone_some, Bool.false_eq_true, if_false,
      List.nil_append, List.append_assoc]
    have hf' : FrameOk id (m :: ms) (.compound cid c) := by simp [FrameOk, topType, ht]
    rw [tellAll_cons (s₁ := reading id args (m :: ms) (.arr xs :: p :: vs) ([] :: K') ob (.compound cid c))]
    · rw [tellAll_append _ _ _ (ih₁ (fun v' m' idx' h => hv v' m' idx' (by simp [h])) hf' (.arr xs :: p :: vs) trivial)]
      rw [tellAll_cons (s₁ := reading id args ms vs ([] :: K') ob (.array m pid p (xs ++ [c'])))]
      · exact ih (fun v' m' idx' h => hv v' m' idx' (by simp [h])) hf vs ⟨_, rfl⟩
      · simp only [Observer.tell, observer, endObject, reading, ne_eq, not_true_eq_false, if_false]
        refine create_ok ?_
        simp only [endCompoundElement, frameState]
        simp [hf.2, appendTop]
    · have : Creator.beginCompoundElement I (frameState id args ms vs (.array m pid p xs)) =
          (.ok (), frameState id args (m :: ms) (.arr xs :: p :: vs) (.compound cid c)) := by
        simp only [beginCompoundElement, frameState]
        simp only [FrameOk] at hf
        simp [ht, hf.1, hc]
      simp only [Observer.tell, observer, beginObject, delegate]
      change (expectedType I [] >>= beginTyped I []) _ = _
      rw [M.bind_ok expected_element, ht]
      simp only [beginTyped, ne_eq, not_true_eq_false, if_false]
      exact create_ok this

/-- what is known about the values of the events -/
theorem fed {f f' : Frame} {es : List Event} (h : Feeds I f es f') (hn : ∀ (id : Nat) (m : MemberInfo), m ∈ (I id).fields → NamesOf m.type)
    (hf : ∀ m pid p xs, f = .array m pid p xs → NamesOf m.type) :
    ∀ v m idx, Event.visitValue v m idx ∈ es → NamesOf m.type ∧ (v = .none ∨ (∀ cid, m.type ≠ .compound cid) ∧ isInstance m.type v = true) := by
  have named : ∀ {t : Nat} {m : MemberInfo}, FieldNamed (I t).fields m.schemaName m → NamesOf m.type := by
    rintro t m ⟨l, r, h, _⟩
    exact hn t m (by rw [h]; simp)
  induction h with
  | nil => simp
  | value hm hx _ _ ih =>
    intro v m idx hmem
    rw [List.mem_cons] at hmem
    rcases hmem with he | hmem
    · cases he
      exact ⟨named hm, hx.imp id And.right⟩
    · exact ih (by simp) v m idx hmem
  | compound hm _ _ _ _ _ _ ih₁ ih =>
    intro v m idx hmem
    simp only [List.cons_append, List.mem_cons, List.mem_append, reduceCtorEq, false_or] at hmem
    rcases hmem with hmem | hmem
    · exact ih₁ (by simp) v m idx hmem
    · exact ih (by simp) v m idx hmem
  | array hm _ _ _ _ ih₁ ih =>
    intro v m idx hmem
    simp only [List.cons_append, List.mem_cons, List.mem_append, reduceCtorEq, false_or] at hmem
    rcases hmem with hmem | hmem
    · exact ih₁ (by rintro m' pid p xs he; cases he; exact named hm) v m idx hmem
    · exact ih (by simp) v m idx hmem
  | valueElement hx _ ih =>
    intro v m idx hmem
    rw [List.mem_cons] at hmem
    rcases hmem with he | hmem
    · cases he
      exact ⟨hf _ _ _ _ rfl, hx⟩
    · exact ih (by rintro m' pid p xs he; cases he; exact hf _ _ _ _ rfl) v m idx hmem
  | compoundElement _ _ _ _ ih₁ ih =>
    intro v m idx hmem
    simp only [List.cons_append, List.mem_cons, List.mem_append, reduceCtorEq, false_or] at hmem
    rcases hmem with hmem | hmem
    · exact ih₁ (by simp) v m idx hmem
    · exact ih (by rintro m' pid p xs he; cases he; exact hf _ _ _ _ rfl) v m idx hmem

/-- a visited value is a node -/
theorem nested_value {p : Path} {a : Bool} {es : List Event} {L : List (Path × Node)} (h : Nested p a es L) :
    ∀ v m idx, Event.visitValue v m idx ∈ es → ∃ q, (q, .item m v) ∈ L := by
  induction h with
  | nil => simp
  | value _ ih =>
    intro v m idx hmem
    rw [List.mem_cons] at hmem
    rcases hmem with he | hmem
    · cases he
      exact ⟨_, List.mem_cons_self⟩
    · exact (ih v m idx hmem).imp fun q hq => List.mem_cons_of_mem _ hq
  | compound _ _ ih₁ ih | array _ _ ih₁ ih =>
    intro v m idx hmem
    simp only [List.cons_append, List.mem_cons, List.mem_append, reduceCtorEq, false_or] at hmem
    rcases hmem with hmem | hmem
    · exact (ih₁ v m idx hmem).imp fun q hq => by simp [hq]
    · exact (ih v m idx hmem).imp fun q hq => by simp [hq]

theorem writable_instance {m : MemberInfo} {v : Val} (h : v = .none ∨ (∀ cid, m.type ≠ .compound cid) ∧ isInstance m.type v = true) :
    Writable m v := by
  rcases h with h | ⟨hc, h⟩
  · exact .inl h
  · right
    cases hm : m.type with
    | compound id => exact absurd hm (hc id)
    | builtin b => rw [hm] at h; cases b <;> cases v <;> simp_all [isInstance]
    | enum e => rw [hm] at h; cases v <;> simp_all [isInstance]
    | bitmask d => rw [hm] at h; cases v <;> simp_all [isInstance]

/-- the whole object: the reader returns it -/
theorem told_root {id : Nat} {args : List Int} {o₀ o' o : Val} (hnew : (I id).new args = .ok o₀) {es : List Event}
    (h : Feeds I (.compound id o₀) es (.compound id o')) (hn : ∀ (id : Nat) (m : MemberInfo), m ∈ (I id).fields → m.schemaName ≠ [])
    (hv : ∀ v m idx, Event.visitValue v m idx ∈ es → ReadsBack m v) :
    (observer I).tellAll ((Event.beginRoot o :: es ++ [Event.endRoot o]).flatMap (jsonEvents sf)) ⟨some (Creator.new id args), [], none, none⟩ =
      (.ok (), ⟨none, [], some o', none⟩) := by
  simp only [List.cons_append, List.flatMap_cons, List.flatMap_append, jsonEvents, List.nil_append, List.flatMap_nil, List.append_nil]
  rw [tellAll_cons (s₁ := reading id args [] [] [] none (.compound id o₀))]
  · rw [tellAll_append _ _ _ (told h hn hv (by simp [FrameOk, topType]) [] trivial none)]
    simp [Observer.tellAll, Observer.tell, observer, endObject, reading, CreatorAdapter.endRoot, create, Creator.endRoot, frameState, M.bind_apply]
  · simp [Observer.tell, observer, beginObject, delegate, create, Creator.beginRoot, Creator.new, hnew, reading, frameState]

end Zserio.Json
