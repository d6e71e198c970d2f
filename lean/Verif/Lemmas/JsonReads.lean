import Verif.Spec.JsonReads
import Verif.Lemmas.JsonRead
import Verif.Lemmas.CreatorStep
import Verif.Lemmas.CompoundSafe
/-
The reader does with a document what its meaning says, and raises an exception if it has none.
-/
set_option linter.unusedSimpArgs false
namespace Zserio.Json
open Creator CreatorAdapter
variable {I : TypeInfos}

theorem number_eq (v : Val) : number v = asInt v := by
  rcases v with _ | _ | _ | b | _ | _ | _ | _ | _ | _ <;> first | rfl | (cases b <;> rfl)

/-- success with the state, or an exception -/
def Turns {σ : Type} (x : Except Err Unit × σ) : Option σ → Prop
  | some s => x = (.ok (), s)
  | none => ∃ e s, x = (.error e, s)

theorem Turns.error {σ : Type} {x : Except Err Unit × σ} {e : Err} (h : x.1 = .error e) : Turns x none := ⟨e, x.2, by rw [← h]⟩

theorem tellAll_fail {σ : Type} (ob : Observer σ) (es es' : List JsonEvent) {s s₁ : σ} {e : Err} (h : ob.tellAll es s = (.error e, s₁)) :
    ob.tellAll (es ++ es') s = (.error e, s₁) := by
  induction es generalizing s with
  | nil => cases h
  | cons a es ih =>
    simp only [Observer.tellAll, List.cons_append] at h ⊢
    rcases hx : ob.tell a s with ⟨r, s'⟩
    cases r with
    | error e' => rw [M.bind_error hx] at h ⊢; exact h
    | ok u =>
      rw [M.bind_ok hx] at h ⊢
      exact ih h

theorem Turns.append {σ : Type} {ob : Observer σ} {es es' : List JsonEvent} {s : σ} {r r' : Option σ} (h : Turns (ob.tellAll es s) r)
    (h1 : ∀ s₁, r = some s₁ → Turns (ob.tellAll es' s₁) r') (h0 : r = none → r' = none) : Turns (ob.tellAll (es ++ es') s) r' := by
  cases r with
  | none =>
    rw [h0 rfl]
    obtain ⟨e, s₁, h⟩ := h
    exact ⟨e, s₁, tellAll_fail ob es es' h⟩
  | some s₁ => rw [tellAll_append ob es es' h]; exact h1 s₁ rfl

theorem Turns.one {σ : Type} {ob : Observer σ} {e : JsonEvent} {s : σ} {r : Option σ} (h : Turns (ob.tell e s) r) :
    Turns (ob.tellAll [e] s) r := by
  rw [Observer.tellAll_one]; exact h

theorem Turns.cons {σ : Type} {ob : Observer σ} {e : JsonEvent} {es : List JsonEvent} {s : σ} {r r' : Option σ} (h : Turns (ob.tell e s) r)
    (h1 : ∀ s₁, r = some s₁ → Turns (ob.tellAll es s₁) r') (h0 : r = none → r' = none) : Turns (ob.tellAll (e :: es) s) r' :=
  Turns.append (es := [e]) h.one h1 h0

theorem Turns.cons_ok {σ : Type} {ob : Observer σ} {e : JsonEvent} {es : List JsonEvent} {s s₁ : σ} {r' : Option σ}
    (h : ob.tell e s = (.ok (), s₁)) (h1 : Turns (ob.tellAll es s₁) r') : Turns (ob.tellAll (e :: es) s) r' :=
  Turns.cons (r := some s₁) h (fun _ he => by cases he; exact h1) (by simp)

theorem Turns.cons_error {σ : Type} {ob : Observer σ} {e : JsonEvent} {es : List JsonEvent} {s : σ}
    (h : Turns (ob.tell e s) none) : Turns (ob.tellAll (e :: es) s) none :=
  Turns.cons h (by simp) fun _ => rfl

theorem create_error {α : Type} {x : M Creator α} {e : Err} {c c' : Creator} {K : List PyStr} {ob : Option Val} {va : Option ValueAdapter}
    (h : x c = (.error e, c')) : create x ⟨some c, K, ob, va⟩ = (.error e, ⟨some c', K, ob, va⟩) := by
  simp only [create, h]

/-! ### Buffers -/

theorem yields_ints (ds : List Doc) (b : List Int) (n : Option Int) (s : CreatorAdapter) :
    Turns ((observer I).tellAll (Doc.elementEvents ds) { s with valueAdapter := some (.bitBuffer .visitValueBuffer (some b) n) })
      ((readInts ds).map fun xs => { s with valueAdapter := some (.bitBuffer .visitValueBuffer (some (b ++ xs)) n) }) := by
  induction ds generalizing b with
  | nil => simp [Doc.elementEvents, Observer.tellAll, readInts, Turns]
  | cons d ds ih =>
    cases d with
    | value v =>
      simp only [Doc.elementEvents, Doc.events, List.cons_append, List.nil_append, readInts, number_eq]
      cases hv : asInt v with
      | none =>
        refine Turns.cons_error (Turns.error (e := .json) ?_)
        simp [Observer.tell, observer, visitValue, delegate, ValueAdapter.visitValue, hv]
      | some x =>
        refine Turns.cons_ok (s₁ := { s with valueAdapter := some (.bitBuffer .visitValueBuffer (some (b ++ [x])) n) }) ?_ ?_
        · simp [Observer.tell, observer, visitValue, delegate, ValueAdapter.visitValue, hv]
        · have := ih (b ++ [x])
          cases hr : readInts ds with
          | none => rw [hr] at this; simpa using this
          | some xs => rw [hr] at this; simpa using this
    | array ds' =>
      simp only [Doc.elementEvents, Doc.events, List.cons_append, readInts]
      exact Turns.cons_error (Turns.error (e := .json) rfl)
    | object ms =>
      simp only [Doc.elementEvents, Doc.events, List.cons_append, readInts]
      exact Turns.cons_error (Turns.error (e := .json) rfl)

theorem yields_bytes (ds : List Doc) (b : List UInt8) (s : CreatorAdapter) :
    Turns ((observer I).tellAll (Doc.elementEvents ds) { s with valueAdapter := some (.bytes .visitValueBuffer (some b)) })
      (((readInts ds).bind fun xs => okay (toBytes xs)).map fun xs =>
        { s with valueAdapter := some (.bytes .visitValueBuffer (some (b ++ xs))) }) := by
  induction ds generalizing b with
  | nil => simp [Doc.elementEvents, Observer.tellAll, readInts, Turns, toBytes, okay]
  | cons d ds ih =>
    cases d with
    | value v =>
      simp only [Doc.elementEvents, Doc.events, List.cons_append, List.nil_append, readInts, number_eq]
      cases hv : asInt v with
      | none =>
        refine Turns.cons_error (Turns.error (e := .json) ?_)
        simp [Observer.tell, observer, visitValue, delegate, ValueAdapter.visitValue, hv]
      | some x =>
        by_cases hx : 0 ≤ x ∧ x < 256
        · refine Turns.cons_ok (s₁ := { s with valueAdapter := some (.bytes .visitValueBuffer (some (b ++ [UInt8.ofNat x.toNat]))) }) ?_ ?_
          · simp [Observer.tell, observer, visitValue, delegate, ValueAdapter.visitValue, hv, hx]
          · have := ih (b ++ [UInt8.ofNat x.toNat])
            cases hr : readInts ds with
            | none => rw [hr] at this; simpa using this
            | some xs =>
              rw [hr] at this
              simp only [Option.bind_some, Option.bind_eq_bind, toBytes, if_pos hx] at this ⊢
              cases hb : toBytes xs with
              | error e => rw [hb] at this; simpa [okay, Except.map] using this
              | ok bs => rw [hb] at this; simpa [okay, Except.map] using this
        · have : ((do
              let x ← some x
              let xs ← readInts ds
              some (x :: xs)).bind fun xs => okay (toBytes xs)) = none := by
            cases hr : readInts ds with
            | none => rfl
            | some xs => simp [toBytes, hx, okay]
          rw [this]
          refine Turns.cons_error (Turns.error (e := .range) ?_)
          simp [Observer.tell, observer, visitValue, delegate, ValueAdapter.visitValue, hv, hx]
    | array ds' =>
      simp only [Doc.elementEvents, Doc.events, List.cons_append, readInts]
      exact Turns.cons_error (Turns.error (e := .json) rfl)
    | object ms =>
      simp only [Doc.elementEvents, Doc.events, List.cons_append, readInts]
      exact Turns.cons_error (Turns.error (e := .json) rfl)

/-- a key which the adapter does not want -/
theorem key_error {a : ValueAdapter} {k : PyStr} {s : CreatorAdapter} (h : a.visitKey k = .error .json) :
    Turns ((observer I).tell (.key k) { s with valueAdapter := some a }) none := by
  refine Turns.error (e := .json) ?_
  simp only [Observer.tell, observer, visitKey, delegate, h]

theorem key_ok {a a' : ValueAdapter} {k : PyStr} {s : CreatorAdapter} (h : a.visitKey k = .ok a') :
    (observer I).tell (.key k) { s with valueAdapter := some a } = (.ok (), { s with valueAdapter := some a' }) := by
  simp only [Observer.tell, observer, visitKey, delegate, h]

theorem yields_bitBuffer (ms : List (PyStr × Doc)) (b : Option (List Int)) (n : Option Int) (s : CreatorAdapter) (r : Val → Option CreatorAdapter)
    (hr : ∀ v, Turns (visitValue I v { s with valueAdapter := none }) (r v)) :
    Turns ((observer I).tellAll (Doc.memberEvents ms ++ [.endObject]) { s with valueAdapter := some (.bitBuffer .visitKey b n) })
      ((readBitBuffer b n ms).bind r) := by
  induction ms generalizing b n with
  | nil =>
    simp only [Doc.memberEvents, List.nil_append]
    refine Turns.one ?_
    simp only [Observer.tell, observer, endObject]
    cases b with
    | none => exact Turns.error (e := .json) rfl
    | some xs =>
      cases n with
      | none =>
        have : readBitBuffer (some xs) none [] = none := by
          simp only [readBitBuffer]
          cases hb : okay (toBytes xs) <;> simp [hb]
        rw [this]
        exact Turns.error (e := .json) rfl
      | some n =>
        have hrd : readBitBuffer (some xs) (some n) [] =
            (okay (toBytes xs)).bind fun bytes => (okay (BitBuffer.make bytes (some n))).map .bitBuffer := by
          simp only [readBitBuffer]
          cases hb : toBytes xs with
          | error e => simp [hb, okay]
          | ok bytes => cases hm : BitBuffer.make bytes (some n) <;> simp [hb, hm, okay]
        rw [hrd]
        simp only [ValueAdapter.get]
        cases hb : toBytes xs with
        | error e => exact ⟨e, _, rfl⟩
        | ok bytes =>
          cases hm : BitBuffer.make bytes (some n) with
          | error e => simp only [hm, okay, Option.bind_some, Except.map]; exact ⟨e, _, rfl⟩
          | ok buf => simp only [hm, okay, Option.bind_some, Except.map]; exact hr _
  | cons kd ms ih =>
    obtain ⟨k, d⟩ := kd
    simp only [Doc.memberEvents, List.cons_append, List.append_assoc]
    by_cases hk1 : k = py! "buffer"
    · have hkey : ValueAdapter.visitKey k (.bitBuffer .visitKey b n) = .ok (.bitBuffer .beginArrayBuffer b n) := by
        simp [ValueAdapter.visitKey, hk1]
      refine Turns.cons_ok (key_ok hkey) ?_
      cases d with
      | value v =>
        have : readBitBuffer b n ((k, .value v) :: ms) = none := by
          rw [hk1]
          simp only [readBitBuffer]
          rw [if_neg (by decide)]
        rw [this]
        simp only [Doc.events, List.cons_append, Option.bind_none]
        refine Turns.cons_error (Turns.error (e := .json) ?_)
        simp only [Observer.tell, observer, visitValue, delegate, ValueAdapter.visitValue]
        cases asInt v <;> rfl
      | object ms' =>
        simp only [Doc.events, List.cons_append, readBitBuffer, Option.bind_none]
        exact Turns.cons_error (Turns.error (e := .json) rfl)
      | array ds =>
        simp only [Doc.events, List.cons_append, readBitBuffer, if_pos hk1, List.append_assoc]
        refine Turns.cons_ok (s₁ := { s with valueAdapter := some (.bitBuffer .visitValueBuffer (some []) n) }) rfl ?_
        refine Turns.append (yields_ints ds [] n s) (fun s₁ hs₁ => ?_) fun h => ?_
        · cases hx : readInts ds with
          | none => rw [hx] at hs₁; cases hs₁
          | some xs =>
            rw [hx] at hs₁
            cases hs₁
            refine Turns.cons_ok (s₁ := { s with valueAdapter := some (.bitBuffer .visitKey (some xs) n) }) (by
              simp [Observer.tell, observer, CreatorAdapter.endArray, delegate, ValueAdapter.endArray]) ?_
            exact ih (some xs) n
        · cases hx : readInts ds with
          | none => rfl
          | some xs => rw [hx] at h; cases h
    · by_cases hk2 : k = py! "bitSize"
      · have hkey : ValueAdapter.visitKey k (.bitBuffer .visitKey b n) = .ok (.bitBuffer .visitValueBitsize b n) := by
          simp only [ValueAdapter.visitKey, if_neg hk1, if_pos hk2]
        refine Turns.cons_ok (key_ok hkey) ?_
        cases d with
        | array ds =>
          simp only [Doc.events, List.cons_append, readBitBuffer, if_neg hk1, Option.bind_none]
          exact Turns.cons_error (Turns.error (e := .json) rfl)
        | object ms' =>
          simp only [Doc.events, List.cons_append, readBitBuffer, Option.bind_none]
          exact Turns.cons_error (Turns.error (e := .json) rfl)
        | value v =>
          simp only [Doc.events, List.cons_append, List.nil_append, readBitBuffer, if_pos hk2, number_eq]
          cases hv : asInt v with
          | none =>
            refine Turns.cons_error (Turns.error (e := .json) ?_)
            simp [Observer.tell, observer, visitValue, delegate, ValueAdapter.visitValue, hv]
          | some x =>
            refine Turns.cons_ok (s₁ := { s with valueAdapter := some (.bitBuffer .visitKey b (some x)) }) ?_ (ih b (some x))
            simp [Observer.tell, observer, visitValue, delegate, ValueAdapter.visitValue, hv]
      · have hkey : ValueAdapter.visitKey k (.bitBuffer .visitKey b n) = .error .json := by
          simp only [ValueAdapter.visitKey, if_neg hk1, if_neg hk2]
        have : readBitBuffer b n ((k, d) :: ms) = none := by
          cases d <;> simp only [readBitBuffer, if_neg hk1, if_neg hk2]
        rw [this]
        exact Turns.cons_error (key_error hkey)

theorem yields_bytesObject (ms : List (PyStr × Doc)) (b : Option (List UInt8)) (s : CreatorAdapter) (r : Val → Option CreatorAdapter)
    (hr : ∀ v, Turns (visitValue I v { s with valueAdapter := none }) (r v)) :
    Turns ((observer I).tellAll (Doc.memberEvents ms ++ [.endObject]) { s with valueAdapter := some (.bytes .visitKey b) })
      ((readBytes b ms).bind r) := by
  induction ms generalizing b with
  | nil =>
    simp only [Doc.memberEvents, List.nil_append]
    refine Turns.one ?_
    simp only [Observer.tell, observer, endObject]
    cases b with
    | none => exact Turns.error (e := .json) rfl
    | some xs => simp only [readBytes, ValueAdapter.get]; exact hr _
  | cons kd ms ih =>
    obtain ⟨k, d⟩ := kd
    simp only [Doc.memberEvents, List.cons_append, List.append_assoc]
    by_cases hk1 : k = py! "buffer"
    · have hkey : ValueAdapter.visitKey k (.bytes .visitKey b) = .ok (.bytes .beginArrayBuffer b) := by
        simp [ValueAdapter.visitKey, hk1]
      refine Turns.cons_ok (key_ok hkey) ?_
      cases d with
      | value v =>
        simp only [Doc.events, List.cons_append, readBytes, Option.bind_none]
        refine Turns.cons_error (Turns.error (e := .json) ?_)
        simp only [Observer.tell, observer, visitValue, delegate, ValueAdapter.visitValue]
        cases asInt v <;> rfl
      | object ms' =>
        simp only [Doc.events, List.cons_append, readBytes, Option.bind_none]
        exact Turns.cons_error (Turns.error (e := .json) rfl)
      | array ds =>
        simp only [Doc.events, List.cons_append, readBytes, if_pos hk1, List.append_assoc]
        refine Turns.cons_ok (s₁ := { s with valueAdapter := some (.bytes .visitValueBuffer (some [])) }) rfl ?_
        refine Turns.append (yields_bytes ds [] s) (fun s₁ hs₁ => ?_) fun h => ?_
        · cases hx : readInts ds with
          | none => rw [hx] at hs₁; cases hs₁
          | some xs =>
            cases hb : toBytes xs with
            | error e => simp [hx, hb, okay] at hs₁
            | ok bs =>
              simp only [hx, hb, okay, Option.bind_some, Option.map_some, Option.some.injEq] at hs₁
              subst hs₁
              refine Turns.cons_ok (s₁ := { s with valueAdapter := some (.bytes .visitKey (some bs)) }) (by
                simp [Observer.tell, observer, CreatorAdapter.endArray, delegate, ValueAdapter.endArray]) ?_
              simpa [hb, okay] using ih (some bs)
        · cases hx : readInts ds with
          | none => rfl
          | some xs =>
            cases hb : toBytes xs with
            | error e => simp [hb, okay]
            | ok bs => simp [hx, hb, okay] at h
    · have hkey : ValueAdapter.visitKey k (.bytes .visitKey b) = .error .json := by
        simp only [ValueAdapter.visitKey, if_neg hk1]
      have : readBytes b ((k, d) :: ms) = none := by
        cases d <;> simp only [readBytes, if_neg hk1]
      rw [this]
      exact Turns.cons_error (key_error hkey)

theorem readBitBuffer_val {b : Option (List Int)} {n : Option Int} {ms : List (PyStr × Doc)} {v : Val} (h : readBitBuffer b n ms = some v) :
    ∃ b, v = .bitBuffer b := by
  induction ms generalizing b n with
  | nil =>
    simp only [readBitBuffer, Option.bind_eq_bind, Option.bind_eq_some_iff, Option.some.injEq] at h
    obtain ⟨_, _, _, _, _, _, b, _, rfl⟩ := h
    exact ⟨b, rfl⟩
  | cons kd ms ih =>
    obtain ⟨k, d⟩ := kd
    cases d with
    | object _ => simp [readBitBuffer] at h
    | array ds =>
      simp only [readBitBuffer] at h
      split at h
      · simp only [Option.bind_eq_bind, Option.bind_eq_some_iff] at h
        obtain ⟨_, _, h⟩ := h
        exact ih h
      · cases h
    | value x =>
      simp only [readBitBuffer] at h
      split at h
      · simp only [Option.bind_eq_bind, Option.bind_eq_some_iff] at h
        obtain ⟨_, _, h⟩ := h
        exact ih h
      · cases h

theorem readBytes_val {b : Option (List UInt8)} {ms : List (PyStr × Doc)} {v : Val} (h : readBytes b ms = some v) : ∃ b, v = .bytes b := by
  induction ms generalizing b with
  | nil =>
    simp only [readBytes, Option.map_eq_some_iff] at h
    obtain ⟨b, _, rfl⟩ := h
    exact ⟨b, rfl⟩
  | cons kd ms ih =>
    obtain ⟨k, d⟩ := kd
    cases d with
    | object _ => simp [readBytes] at h
    | value _ => simp [readBytes] at h
    | array ds =>
      simp only [readBytes] at h
      split at h
      · simp only [Option.bind_eq_bind, Option.bind_eq_some_iff] at h
        obtain ⟨_, _, _, _, h⟩ := h
        exact ih h
      · cases h

/-! ### Fields and elements -/

variable {root : Nat} {args : List Int} {MS : List MemberInfo} {VS : List Val} {K : List PyStr} {ob : Option Val}

theorem find_iff {fields : List MemberInfo} {key : PyStr} {m : MemberInfo} :
    (fields.find? fun m => decide (m.schemaName = key)) = some m ↔ FieldNamed fields key m := by
  rw [List.find?_eq_some_iff_append]
  constructor
  · rintro ⟨h1, l, r, rfl, h2⟩
    exact ⟨l, r, rfl, by simpa using h1, fun m' hm' => by simpa using h2 m' hm'⟩
  · rintro ⟨l, r, rfl, h1, h2⟩
    exact ⟨by simpa using h1, l, r, rfl, fun m' hm' => by simpa using h2 m' hm'⟩

/-- a value for a field -/
theorem value_field {t : Nat} {o v : Val} {m : MemberInfo} (hf : FrameOk root MS (.compound t o))
    (hm : FieldNamed (I t).fields m.schemaName m) (hne : m.schemaName ≠ []) :
    Turns (visitValue I v (reading root args MS VS (m.schemaName :: K) ob (.compound t o)))
      (((readField I t o m (.value v)).bind fun w => okay ((I t).setAttr o m w)).map fun o' =>
        reading root args MS VS K ob (.compound t o')) := by
  have he := expected_field (args := args) (vs := VS) (K := m.schemaName :: K) (ob := ob) hf hm hne
  simp only [readField, readValue]
  cases hc : convertValue v m.type with
  | error e =>
    refine Turns.error (e := e) ?_
    simp only [visitValue, delegate]
    change ((expectedType I m.schemaName >>= fun ty => M.lift (convertValue v ty) >>= fun v => putValue I m.schemaName v) _).1 = _
    rw [M.bind_ok he, hc]
    rfl
  | ok w =>
    rw [visitValue_put (m := m) (key := m.schemaName) (K := K) rfl rfl he hc, putValue, if_pos hne]
    have hset : Creator.setValue I m.schemaName w (frameState root args MS VS (.compound t o)) =
        (if !w.isNone && m.isArray then (.error .creator, frameState root args MS VS (.compound t o))
          else if !checkValue m w then (.error .creator, frameState root args MS VS (.compound t o))
          else setTop I t m w (frameState root args MS VS (.compound t o))) := by
      simp only [setValue, frameState, member_ok (s := ⟨root, args, MS, o :: VS, .inCompound⟩) hf hm]
      rfl
    by_cases h1 : checkValue m w = true
    · by_cases h2 : (!w.isNone && m.isArray) = true
      · have h2' : (m.isArray && !w.isNone) = true := by rw [Bool.and_comm]; exact h2
        simp only [okay, Option.bind_eq_bind, Option.bind_some, show (w.isNone || isInstance m.type w) = true from h1, if_true, h2']
        rw [reading, M.bind_error (create_error (by rw [hset, if_pos h2]))]
        exact ⟨_, _, rfl⟩
      · have h2' : (m.isArray && !w.isNone) = false := by rw [Bool.and_comm]; simpa using h2
        simp only [okay, Option.bind_eq_bind, Option.bind_some, show (w.isNone || isInstance m.type w) = true from h1, if_true, h2',
          Bool.false_eq_true, if_false]
        cases hs : (I t).setAttr o m w with
        | error e =>
          rw [reading, M.bind_error (create_error (e := e) (c' := frameState root args MS VS (.compound t o)) (by
            rw [hset, if_neg h2, if_neg (by simp [h1])]
            simp [setTop, frameState, hs]))]
          exact ⟨_, _, rfl⟩
        | ok o' =>
          rw [reading, M.bind_ok (create_ok (a := ()) (c' := frameState root args MS VS (.compound t o')) (by
            rw [hset, if_neg h2, if_neg (by simp [h1])]
            simp [setTop, frameState, hs]))]
          rfl
    · have h1' : (w.isNone || isInstance m.type w) = false := by simpa [checkValue] using h1
      simp only [okay, Option.bind_eq_bind, Option.bind_some, h1', Bool.false_eq_true, if_false, Option.bind_none, Option.map_none]
      rw [reading, M.bind_error (create_error (e := .creator) (c' := frameState root args MS VS (.compound t o)) (by
        rw [hset]
        split
        · rfl
        · rw [if_pos (by simpa using h1)]))]
      exact ⟨_, _, rfl⟩

/-- a value for an element -/
theorem value_element {pid : Nat} {p v : Val} {xs : List Val} {m : MemberInfo} :
    Turns (visitValue I v (reading root args MS VS ([] :: K) ob (.array m pid p xs)))
      ((readValue m v).map fun w => reading root args MS VS ([] :: K) ob (.array m pid p (xs ++ [w]))) := by
  have he := expected_element (I := I) (id := root) (args := args) (ms := MS) (vs := VS) (K := [] :: K) (ob := ob) (pid := pid) (p := p)
    (m := m) (xs := xs)
  simp only [readValue]
  cases hc : convertValue v m.type with
  | error e =>
    refine Turns.error (e := e) ?_
    simp only [visitValue, delegate]
    change ((expectedType I [] >>= fun ty => M.lift (convertValue v ty) >>= fun v => putValue I [] v) _).1 = _
    rw [M.bind_ok he, hc]
    rfl
  | ok w =>
    rw [visitValue_put (m := m) (key := []) (K := K) rfl rfl he hc, putValue, if_neg (by simp)]
    by_cases h1 : checkValue m w = true
    · simp only [okay, Option.bind_eq_bind, Option.bind_some, show (w.isNone || isInstance m.type w) = true from h1, if_true]
      refine create_ok ?_
      simp [addValueElement, frameState, h1, appendTop]
    · have h1' : (w.isNone || isInstance m.type w) = false := by simpa [checkValue] using h1
      simp only [okay, Option.bind_eq_bind, Option.bind_some, h1', Bool.false_eq_true, if_false, Option.map_none]
      refine ⟨_, _, create_error (e := .creator) (c' := frameState root args MS VS (.array m pid p xs)) ?_⟩
      simp [addValueElement, frameState, h1]

/-- what is added to the key stack, the member stack and the value stack does not matter -/
def Fills (I : TypeInfos) (root : Nat) (args : List Int) (ob : Option Val) (ms : List (PyStr × Doc)) : Prop :=
  ∀ (t : Nat) (o : Val) (MS : List MemberInfo) (VS : List Val) (K : List PyStr), FrameOk root MS (.compound t o) →
    Turns ((observer I).tellAll (Doc.memberEvents ms) (reading root args MS VS K ob (.compound t o)))
      ((readMembers I t o ms).map fun o' => reading root args MS VS K ob (.compound t o'))

/-- an object for a field -/
theorem object_field {t : Nat} {o : Val} {m : MemberInfo} {ms : List (PyStr × Doc)} (hf : FrameOk root MS (.compound t o))
    (hm : FieldNamed (I t).fields m.schemaName m) (hne : m.schemaName ≠ []) (hfill : Fills I root args ob ms) :
    Turns ((observer I).tellAll (Doc.object ms).events (reading root args MS VS (m.schemaName :: K) ob (.compound t o)))
      (((readField I t o m (.object ms)).bind fun w => okay ((I t).setAttr o m w)).map fun o' =>
        reading root args MS VS K ob (.compound t o')) := by
  have he := expected_field (args := args) (vs := VS) (K := m.schemaName :: K) (ob := ob) hf hm hne
  have hbegin : (observer I).tell .beginObject (reading root args MS VS (m.schemaName :: K) ob (.compound t o)) =
      beginTyped I m.schemaName m.type (reading root args MS VS (m.schemaName :: K) ob (.compound t o)) := by
    change (expectedType I m.schemaName >>= beginTyped I m.schemaName) _ = _
    rw [M.bind_ok he]
  have hcomp : Creator.beginCompound I m.schemaName (frameState root args MS VS (.compound t o)) =
      (if m.isArray then (.error .creator, frameState root args MS VS (.compound t o))
        else match m.type with
          | .compound cid => match createObject I (I t) m cid o none with
            | .error e => (.error e, frameState root args MS VS (.compound t o))
            | .ok c => (.ok (), frameState root args (m :: MS) (o :: VS) (.compound cid c))
          | _ => (.error .creator, frameState root args MS VS (.compound t o))) := by
    simp only [Creator.beginCompound, frameState, member_ok (s := ⟨root, args, MS, o :: VS, .inCompound⟩) hf hm]
    rfl
  -- types which are neither compounds nor buffers
  have hother : (∀ cid, m.type ≠ .compound cid) → beginTyped I m.schemaName m.type (reading root args MS VS (m.schemaName :: K) ob (.compound t o)) =
        create (Creator.beginCompound I m.schemaName) (reading root args MS VS (m.schemaName :: K) ob (.compound t o)) →
      Turns ((observer I).tell .beginObject (reading root args MS VS (m.schemaName :: K) ob (.compound t o))) none := by
    intro hnc hb
    rw [hbegin, hb]
    refine ⟨.creator, _, create_error (c' := frameState root args MS VS (.compound t o)) ?_⟩
    rw [hcomp]
    split
    · rfl
    · split
      · rename_i cid hcid; exact absurd hcid (hnc cid)
      · rfl
  -- buffers
  have hval : ∀ v, m.type = .builtin .bitBuffer ∨ m.type = .builtin .bytearray → v.isNone = false → isInstance m.type v = true →
      ((readField I t o m (.value v)).bind fun w => okay ((I t).setAttr o m w)) =
        if m.isArray then none else okay ((I t).setAttr o m v) := by
    intro v hty hn hi
    have hc : convertValue v m.type = .ok v := by rcases hty with h | h <;> rw [h] <;> rfl
    simp only [readField, readValue, hc, okay, Option.bind_eq_bind, Option.bind_some, hn, hi, Bool.or_true, if_true]
    cases m.isArray <;> simp
  simp only [Doc.events]
  by_cases hbb : m.type = .builtin .bitBuffer
  · rw [hbb] at hbegin
    refine Turns.cons_ok hbegin ?_
    have := yields_bitBuffer (I := I) ms none none (reading root args MS VS (m.schemaName :: K) ob (.compound t o)) _
      (fun v => value_field (ob := ob) hf hm hne)
    change Turns ((observer I).tellAll _ { reading root args MS VS (m.schemaName :: K) ob (.compound t o) with valueAdapter := _ }) _
    simp only [readField, readObject, hbb]
    have hres : ∀ v, readBitBuffer none none ms = some v → v.isNone = false ∧ isInstance m.type v = true := by
      intro v hv
      obtain ⟨b, rfl⟩ := readBitBuffer_val hv
      rw [hbb]
      exact ⟨rfl, rfl⟩
    cases hr : readBitBuffer none none ms with
    | none =>
      rw [hr] at this
      cases m.isArray <;> simpa using this
    | some v =>
      rw [hr] at this
      obtain ⟨h1, h2⟩ := hres v hr
      simp only [Option.bind_some] at this
      rw [hval v (.inl hbb) h1 h2] at this
      cases ha : m.isArray <;> rw [ha] at this <;> simpa using this
  · by_cases hby : m.type = .builtin .bytearray
    · rw [hby] at hbegin
      refine Turns.cons_ok hbegin ?_
      have := yields_bytesObject (I := I) ms none (reading root args MS VS (m.schemaName :: K) ob (.compound t o)) _
        (fun v => value_field (ob := ob) hf hm hne)
      change Turns ((observer I).tellAll _ { reading root args MS VS (m.schemaName :: K) ob (.compound t o) with valueAdapter := _ }) _
      simp only [readField, readObject, hby]
      have hres : ∀ v, readBytes none ms = some v → v.isNone = false ∧ isInstance m.type v = true := by
        intro v hv
        obtain ⟨b, rfl⟩ := readBytes_val hv
        rw [hby]
        exact ⟨rfl, rfl⟩
      cases hr : readBytes none ms with
      | none =>
        rw [hr] at this
        cases m.isArray <;> simpa using this
      | some v =>
        rw [hr] at this
        obtain ⟨h1, h2⟩ := hres v hr
        simp only [Option.bind_some] at this
        rw [hval v (.inr hby) h1 h2] at this
        cases ha : m.isArray <;> rw [ha] at this <;> simpa using this
    · cases hty : m.type with
      | enum e =>
        simp only [readField, readObject, hty, ite_self, Option.bind_none, Option.map_none]
        refine Turns.cons_error (hother (by simp [hty]) ?_)
        simp only [hty, beginTyped, if_pos hne]
      | bitmask d =>
        simp only [readField, readObject, hty, ite_self, Option.bind_none, Option.map_none]
        refine Turns.cons_error (hother (by simp [hty]) ?_)
        simp only [hty, beginTyped, if_pos hne]
      | builtin b =>
        have : readField I t o m (.object ms) = none := by
          simp only [readField, readObject, hty]
          cases b <;> simp_all
        rw [this]
        refine Turns.cons_error (hother (by simp [hty]) ?_)
        cases b <;> simp_all [beginTyped]
      | compound cid =>
        have hb : beginTyped I m.schemaName m.type (reading root args MS VS (m.schemaName :: K) ob (.compound t o)) =
            create (Creator.beginCompound I m.schemaName) (reading root args MS VS (m.schemaName :: K) ob (.compound t o)) := by
          rw [hty]
          simp only [beginTyped, ne_eq, hne, not_false_eq_true, if_true]
        cases ha : m.isArray with
        | true =>
          simp only [readField, ha, if_true, Option.bind_none, Option.map_none]
          refine Turns.cons_error ?_
          rw [hbegin, hb]
          exact ⟨.creator, _, create_error (c' := frameState root args MS VS (.compound t o)) (by rw [hcomp, ha]; rfl)⟩
        | false =>
          simp only [readField, ha, Bool.false_eq_true, if_false, readObject, hty]
          cases hc : createObject I (I t) m cid o none with
          | error e =>
            refine Turns.cons_error ?_
            rw [hbegin, hb]
            exact ⟨e, _, create_error (c' := frameState root args MS VS (.compound t o)) (by rw [hcomp, ha]; simp [hty, hc])⟩
          | ok c =>
            refine Turns.cons_ok (s₁ := reading root args (m :: MS) (o :: VS) (m.schemaName :: K) ob (.compound cid c)) ?_ ?_
            · rw [hbegin, hb]
              exact create_ok (by rw [hcomp, ha]; simp [hty, hc])
            · have hf' : FrameOk root (m :: MS) (.compound cid c) := by simp [FrameOk, topType, hty]
              refine Turns.append (hfill cid c (m :: MS) (o :: VS) (m.schemaName :: K) hf') (fun s₁ hs₁ => ?_) fun h => ?_
              · cases hr : readMembers I cid c ms with
                | none => rw [hr] at hs₁; cases hs₁
                | some c' =>
                  rw [hr] at hs₁
                  cases hs₁
                  simp only [okay, Option.bind_eq_bind, Option.bind_some, hr]
                  refine Turns.one ?_
                  simp only [Observer.tell, observer, endObject, reading, ne_eq, hne, not_false_eq_true, if_true]
                  have hend : Creator.endCompound I (frameState root args (m :: MS) (o :: VS) (.compound cid c')) =
                      setTop I t m c' (frameState root args MS VS (.compound t o)) := by
                    simp only [endCompound, frameState, popAndSet, typeId]
                    simp only [FrameOk] at hf
                    simp [ha, hf]
                  cases hs : (I t).setAttr o m c' with
                  | error e =>
                    simp only [Option.map_none]
                    rw [M.bind_error (create_error (e := e) (c' := frameState root args MS VS (.compound t o)) (by
                      rw [hend]; simp [setTop, frameState, hs]))]
                    exact ⟨_, _, rfl⟩
                  | ok o' =>
                    rw [M.bind_ok (create_ok (a := ()) (c' := frameState root args MS VS (.compound t o')) (by
                      rw [hend]; simp [setTop, frameState, hs]))]
                    rfl
              · cases hr : readMembers I cid c ms with
                | none => simp [okay, hr]
                | some c' => rw [hr] at h; cases h

/-- an object for an element -/
theorem object_element {pid : Nat} {p : Val} {xs : List Val} {m : MemberInfo} {ms : List (PyStr × Doc)} (hf : FrameOk root MS (.array m pid p xs))
    (hfill : Fills I root args ob ms) :
    Turns ((observer I).tellAll (Doc.object ms).events (reading root args MS VS ([] :: K) ob (.array m pid p xs)))
      ((readElement I pid p m xs.length (.object ms)).map fun w => reading root args MS VS ([] :: K) ob (.array m pid p (xs ++ [w]))) := by
  have he := expected_element (I := I) (id := root) (args := args) (ms := MS) (vs := VS) (K := [] :: K) (ob := ob) (pid := pid) (p := p)
    (m := m) (xs := xs)
  have hbegin : (observer I).tell .beginObject (reading root args MS VS ([] :: K) ob (.array m pid p xs)) =
      beginTyped I [] m.type (reading root args MS VS ([] :: K) ob (.array m pid p xs)) := by
    change (expectedType I [] >>= beginTyped I []) _ = _
    rw [M.bind_ok he]
  have hcomp : Creator.beginCompoundElement I (frameState root args MS VS (.array m pid p xs)) =
      (match m.type with
        | .compound cid => match createObject I (I pid) m cid p (some xs.length) with
          | .error e => (.error e, frameState root args MS VS (.array m pid p xs))
          | .ok c => (.ok (), frameState root args (m :: MS) (.arr xs :: p :: VS) (.compound cid c))
        | _ => (.error .creator, frameState root args MS VS (.array m pid p xs))) := by
    simp only [FrameOk] at hf
    simp only [Creator.beginCompoundElement, frameState, hf.1]
    rfl
  have hother : (∀ cid, m.type ≠ .compound cid) → beginTyped I [] m.type (reading root args MS VS ([] :: K) ob (.array m pid p xs)) =
        create (Creator.beginCompoundElement I) (reading root args MS VS ([] :: K) ob (.array m pid p xs)) →
      Turns ((observer I).tell .beginObject (reading root args MS VS ([] :: K) ob (.array m pid p xs))) none := by
    intro hnc hb
    rw [hbegin, hb]
    refine ⟨.creator, _, create_error (c' := frameState root args MS VS (.array m pid p xs)) ?_⟩
    rw [hcomp]
    split
    · rename_i cid hcid; exact absurd hcid (hnc cid)
    · rfl
  have hval : ∀ v, m.type = .builtin .bitBuffer ∨ m.type = .builtin .bytearray → isInstance m.type v = true →
      readValue m v = some v := by
    intro v hty hi
    have hc : convertValue v m.type = .ok v := by rcases hty with h | h <;> rw [h] <;> rfl
    simp only [readValue, hc, okay, Option.bind_eq_bind, Option.bind_some, hi, Bool.or_true, if_true]
  simp only [Doc.events]
  by_cases hbb : m.type = .builtin .bitBuffer
  · rw [hbb] at hbegin
    refine Turns.cons_ok hbegin ?_
    have := yields_bitBuffer (I := I) ms none none (reading root args MS VS ([] :: K) ob (.array m pid p xs)) _
      (fun v => value_element (ob := ob))
    change Turns ((observer I).tellAll _ { reading root args MS VS ([] :: K) ob (.array m pid p xs) with valueAdapter := _ }) _
    simp only [readElement, readObject, hbb]
    cases hr : readBitBuffer none none ms with
    | none => rw [hr] at this; simpa using this
    | some v =>
      rw [hr] at this
      obtain ⟨b, rfl⟩ := readBitBuffer_val hr
      simp only [Option.bind_some] at this
      rw [hval _ (.inl hbb) (by rw [hbb]; rfl)] at this
      simpa using this
  · by_cases hby : m.type = .builtin .bytearray
    · rw [hby] at hbegin
      refine Turns.cons_ok hbegin ?_
      have := yields_bytesObject (I := I) ms none (reading root args MS VS ([] :: K) ob (.array m pid p xs)) _
        (fun v => value_element (ob := ob))
      change Turns ((observer I).tellAll _ { reading root args MS VS ([] :: K) ob (.array m pid p xs) with valueAdapter := _ }) _
      simp only [readElement, readObject, hby]
      cases hr : readBytes none ms with
      | none => rw [hr] at this; simpa using this
      | some v =>
        rw [hr] at this
        obtain ⟨b, rfl⟩ := readBytes_val hr
        simp only [Option.bind_some] at this
        rw [hval _ (.inr hby) (by rw [hby]; rfl)] at this
        simpa using this
    · cases hty : m.type with
      | enum e =>
        simp only [readElement, readObject, hty, Option.map_none]
        refine Turns.cons_error (hother (by simp [hty]) ?_)
        simp [hty, beginTyped]
      | bitmask d =>
        simp only [readElement, readObject, hty, Option.map_none]
        refine Turns.cons_error (hother (by simp [hty]) ?_)
        simp [hty, beginTyped]
      | builtin b =>
        have : readElement I pid p m xs.length (.object ms) = none := by
          simp only [readElement, readObject, hty]
          cases b <;> simp_all
        rw [this]
        refine Turns.cons_error (hother (by simp [hty]) ?_)
        cases b <;> simp_all [beginTyped]
      | compound cid =>
        have hb : beginTyped I [] m.type (reading root args MS VS ([] :: K) ob (.array m pid p xs)) =
            create (Creator.beginCompoundElement I) (reading root args MS VS ([] :: K) ob (.array m pid p xs)) := by
          rw [hty]
          simp [beginTyped]
        simp only [readElement, readObject, hty]
        cases hc : createObject I (I pid) m cid p (some xs.length) with
        | error e =>
          refine Turns.cons_error ?_
          rw [hbegin, hb]
          exact ⟨e, _, create_error (c' := frameState root args MS VS (.array m pid p xs)) (by rw [hcomp]; simp [hty, hc])⟩
        | ok c =>
          refine Turns.cons_ok (s₁ := reading root args (m :: MS) (.arr xs :: p :: VS) ([] :: K) ob (.compound cid c)) ?_ ?_
          · rw [hbegin, hb]
            exact create_ok (by rw [hcomp]; simp [hty, hc])
          · have hf' : FrameOk root (m :: MS) (.compound cid c) := by simp [FrameOk, topType, hty]
            refine Turns.append (hfill cid c (m :: MS) (.arr xs :: p :: VS) ([] :: K) hf') (fun s₁ hs₁ => ?_) fun h => ?_
            · cases hr : readMembers I cid c ms with
              | none => rw [hr] at hs₁; cases hs₁
              | some c' =>
                rw [hr] at hs₁
                cases hs₁
                simp only [okay, Option.bind_eq_bind, Option.bind_some, hr]
                refine Turns.one ?_
                simp only [Observer.tell, observer, endObject, reading, ne_eq, not_true_eq_false, if_false]
                refine create_ok ?_
                simp only [endCompoundElement, frameState]
                simp [hf.2, appendTop]
            · cases hr : readMembers I cid c ms with
              | none => simp [okay, hr]
              | some c' => rw [hr] at h; cases h

/-- an array for a field -/
theorem array_field {t : Nat} {o : Val} {m : MemberInfo} {ds : List Doc} (hf : FrameOk root MS (.compound t o))
    (hm : FieldNamed (I t).fields m.schemaName m)
    (hel : m.isArray = true → Turns ((observer I).tellAll (Doc.elementEvents ds)
        (reading root args MS VS ([] :: m.schemaName :: K) ob (.array m t o [])))
      ((readElements I t o m 0 ds).map fun xs => reading root args MS VS ([] :: m.schemaName :: K) ob (.array m t o xs))) :
    Turns ((observer I).tellAll (Doc.array ds).events (reading root args MS VS (m.schemaName :: K) ob (.compound t o)))
      (((readField I t o m (.array ds)).bind fun w => okay ((I t).setAttr o m w)).map fun o' =>
        reading root args MS VS K ob (.compound t o')) := by
  have hbegin : Creator.beginArray I m.schemaName (frameState root args MS VS (.compound t o)) =
      (if !m.isArray then (.error .creator, frameState root args MS VS (.compound t o))
        else (.ok (), frameState root args MS VS (.array m t o []))) := by
    simp only [Creator.beginArray, frameState, member_ok (s := ⟨root, args, MS, o :: VS, .inCompound⟩) hf hm]
    rfl
  simp only [Doc.events]
  cases ha : m.isArray with
  | false =>
    simp only [readField, ha, Bool.false_eq_true, if_false, Option.bind_none, Option.map_none]
    refine Turns.cons_error ?_
    simp only [Observer.tell, observer, CreatorAdapter.beginArray, delegate, reading]
    rw [M.bind_error (create_error (e := .creator) (c' := frameState root args MS VS (.compound t o)) (by rw [hbegin, ha]; rfl))]
    exact ⟨_, _, rfl⟩
  | true =>
    simp only [readField, ha, if_true]
    refine Turns.cons_ok (s₁ := reading root args MS VS ([] :: m.schemaName :: K) ob (.array m t o [])) ?_ ?_
    · simp only [Observer.tell, observer, CreatorAdapter.beginArray, delegate, reading]
      rw [M.bind_ok (create_ok (a := ()) (c' := frameState root args MS VS (.array m t o [])) (by rw [hbegin, ha]; rfl))]
      rfl
    · refine Turns.append (hel ha) (fun s₁ hs₁ => ?_) fun h => ?_
      · cases hr : readElements I t o m 0 ds with
        | none => rw [hr] at hs₁; cases hs₁
        | some xs =>
          rw [hr] at hs₁
          cases hs₁
          simp only [Option.map_some, Option.bind_some]
          refine Turns.one ?_
          simp only [Observer.tell, observer, CreatorAdapter.endArray, reading, delegate]
          have hend : popAndSet I (frameState root args MS VS (.array m t o xs)) =
              setTop I t m (.arr xs) { frameState root args MS VS (.compound t o) with state := .inArray } := by
            simp only [frameState, popAndSet, typeId]
            simp only [FrameOk] at hf
            simp [hf]
          cases hs : (I t).setAttr o m (.arr xs) with
          | error e =>
            simp only [okay, Option.map_none]
            rw [M.bind_error (create_error (e := e) (c' := { frameState root args MS VS (.compound t o) with state := .inArray }) (by
              simp only [Creator.endArray]
              rw [hend]
              simp [setTop, frameState, hs]))]
            exact ⟨_, _, rfl⟩
          | ok o' =>
            rw [M.bind_ok (create_ok (a := ()) (c' := frameState root args MS VS (.compound t o')) (by
              simp only [Creator.endArray]
              rw [hend]
              simp [setTop, frameState, hs]))]
            rfl
      · cases hr : readElements I t o m 0 ds with
        | none => rfl
        | some xs => rw [hr] at h; cases h

/-- a field which does not exist -/
theorem no_field {t : Nat} {o : Val} {key : PyStr} {d : Doc} (hf : FrameOk root MS (.compound t o))
    (hno : ∀ m, ¬ FieldNamed (I t).fields key m) :
    Turns ((observer I).tellAll d.events (reading root args MS VS (key :: K) ob (.compound t o))) none := by
  obtain ⟨e, hme⟩ : ∃ e, Creator.member I key (frameState root args MS VS (.compound t o)) = .error e := by
    rcases member_cases (I := I) (s := frameState root args MS VS (.compound t o)) hf key with h | ⟨m, hm, _⟩
    · exact h
    · exact absurd hm (hno m)
  have hexp : ∃ e, expectedType I key (reading root args MS VS (key :: K) ob (.compound t o)) =
      (.error e, reading root args MS VS (key :: K) ob (.compound t o)) := by
    by_cases hne : key = []
    · refine ⟨.creator, ?_⟩
      rw [expectedType, if_neg (by simpa using hne)]
      refine create_error ?_
      simp [getElementType, frameState]
    · refine ⟨e, ?_⟩
      rw [expectedType, if_pos hne]
      refine create_error ?_
      simp only [getFieldType, hme]
      simp [frameState]
  obtain ⟨e', hexp⟩ := hexp
  cases d with
  | value v =>
    simp only [Doc.events]
    refine Turns.one ?_
    change Turns ((expectedType I key >>= fun ty => M.lift (convertValue v ty) >>= fun v => putValue I key v) _) none
    rw [M.bind_error hexp]
    exact ⟨_, _, rfl⟩
  | object ms =>
    simp only [Doc.events]
    refine Turns.cons_error ?_
    change Turns ((expectedType I key >>= beginTyped I key) _) none
    rw [M.bind_error hexp]
    exact ⟨_, _, rfl⟩
  | array ds =>
    simp only [Doc.events]
    refine Turns.cons_error ?_
    simp only [Observer.tell, observer, CreatorAdapter.beginArray, delegate, reading]
    rw [M.bind_error (create_error (e := e) (c' := frameState root args MS VS (.compound t o)) (by
      simp only [Creator.beginArray, hme]
      simp [frameState]))]
    exact ⟨_, _, rfl⟩

mutual

theorem fills (hn : ∀ (id : Nat) (m : MemberInfo), m ∈ (I id).fields → m.schemaName ≠ []) (ob : Option Val) (ms : List (PyStr × Doc)) :
    Fills I root args ob ms :=
  match ms with
  | [] => fun t o MS VS K hf => by simp [Doc.memberEvents, readMembers, Observer.tellAll, Turns, M.pure_apply]
  | (key, d) :: ms => fun t o MS VS K hf => by
    simp only [Doc.memberEvents, readMembers]
    refine Turns.cons_ok (tell_key key) ?_
    cases hm : (I t).fields.find? fun m => decide (m.schemaName = key) with
    | none =>
      refine Turns.append (no_field hf fun m hm' => ?_) (by simp) fun _ => rfl
      rw [← find_iff, hm] at hm'
      cases hm'
    | some m =>
      have hm' := find_iff.mp hm
      have hk : m.schemaName = key := hm'.choose_spec.choose_spec.2.1
      subst hk
      have hfield := fills_field hn ob d t o MS VS K m hf hm'
      refine Turns.append hfield (fun s₁ hs₁ => ?_) fun h => ?_
      · cases hr : readField I t o m d with
        | none => rw [hr] at hs₁; cases hs₁
        | some w =>
          cases hs : (I t).setAttr o m w with
          | error e => rw [hr] at hs₁; simp [hs, okay] at hs₁
          | ok o' =>
            rw [hr] at hs₁
            simp only [Option.bind_some, hs, okay, Option.map_some, Option.some.injEq] at hs₁
            subst hs₁
            simp only [Option.bind_eq_bind, Option.bind_some, hr, hs, okay]
            exact fills hn ob ms t o' MS VS K hf
      · cases hr : readField I t o m d with
        | none => simp [hr]
        | some w =>
          cases hs : (I t).setAttr o m w with
          | error e => simp [hr, hs, okay]
          | ok o' => rw [hr] at h; simp [hs, okay] at h

theorem fills_field (hn : ∀ (id : Nat) (m : MemberInfo), m ∈ (I id).fields → m.schemaName ≠ []) (ob : Option Val) (d : Doc) (t : Nat) (o : Val)
    (MS : List MemberInfo) (VS : List Val) (K : List PyStr) (m : MemberInfo) (hf : FrameOk root MS (.compound t o))
    (hm : FieldNamed (I t).fields m.schemaName m) :
    Turns ((observer I).tellAll d.events (reading root args MS VS (m.schemaName :: K) ob (.compound t o)))
      (((readField I t o m d).bind fun w => okay ((I t).setAttr o m w)).map fun o' => reading root args MS VS K ob (.compound t o')) :=
  have hne : m.schemaName ≠ [] := by
    obtain ⟨l, r, h, _⟩ := hm
    exact hn t m (by rw [h]; simp)
  match d with
  | .value v => by
    simp only [Doc.events]
    exact Turns.one (value_field hf hm hne)
  | .array ds => array_field hf hm fun ha => by
    have := fills_elements hn ob ds MS VS (m.schemaName :: K) m t o [] ⟨hf, ha⟩
    simpa using this
  | .object ms => object_field hf hm hne (fills hn ob ms)

theorem fills_elements (hn : ∀ (id : Nat) (m : MemberInfo), m ∈ (I id).fields → m.schemaName ≠ []) (ob : Option Val) (ds : List Doc)
    (MS : List MemberInfo) (VS : List Val) (K : List PyStr) (m : MemberInfo) (pid : Nat) (p : Val) (xs : List Val)
    (hf : FrameOk root MS (.array m pid p xs)) :
    Turns ((observer I).tellAll (Doc.elementEvents ds) (reading root args MS VS ([] :: K) ob (.array m pid p xs)))
      ((readElements I pid p m xs.length ds).map fun ys => reading root args MS VS ([] :: K) ob (.array m pid p (xs ++ ys))) :=
  match ds with
  | [] => by simp [Doc.elementEvents, readElements, Observer.tellAll, Turns, M.pure_apply]
  | d :: ds => by
    simp only [Doc.elementEvents, readElements]
    have hel : Turns ((observer I).tellAll d.events (reading root args MS VS ([] :: K) ob (.array m pid p xs)))
        ((readElement I pid p m xs.length d).map fun w => reading root args MS VS ([] :: K) ob (.array m pid p (xs ++ [w]))) :=
      match d with
      | .value v => by
        simp only [Doc.events, readElement]
        exact Turns.one value_element
      | .array ds' => by
        simp only [Doc.events, readElement]
        refine Turns.cons_error ?_
        simp only [Observer.tell, observer, CreatorAdapter.beginArray, delegate, reading]
        rw [M.bind_error (create_error (e := .creator) (c' := frameState root args MS VS (.array m pid p xs)) (by
          simp [Creator.beginArray, frameState]))]
        exact ⟨_, _, rfl⟩
      | .object ms => object_element hf (fills hn ob ms)
    refine Turns.append hel (fun s₁ hs₁ => ?_) fun h => ?_
    · cases hr : readElement I pid p m xs.length d with
      | none => rw [hr] at hs₁; cases hs₁
      | some w =>
        rw [hr] at hs₁
        cases hs₁
        have := fills_elements hn ob ds MS VS K m pid p (xs ++ [w]) hf
        rw [List.length_append, List.length_singleton] at this
        cases hrs : readElements I pid p m (xs.length + 1) ds with
        | none => rw [hrs] at this; simpa [hr, hrs] using this
        | some ys => rw [hrs] at this; simpa [hr, hrs] using this
    · cases hr : readElement I pid p m xs.length d with
      | none => simp [hr]
      | some w => rw [hr] at h; cases h

end

/-- the whole document -/
theorem tell_root (hn : ∀ (id : Nat) (m : MemberInfo), m ∈ (I id).fields → m.schemaName ≠ []) (id : Nat) (args : List Int)
    (ms : List (PyStr × Doc)) :
    Turns ((observer I).tellAll (Doc.object ms).events ⟨some (Creator.new id args), [], none, none⟩)
      ((readRoot I id args ms).map fun o => ⟨none, [], some o, none⟩) := by
  simp only [Doc.events, readRoot]
  cases hnew : (I id).new args with
  | error e =>
    refine Turns.cons_error (Turns.error (e := e) ?_)
    simp [Observer.tell, observer, beginObject, delegate, create, Creator.beginRoot, Creator.new, hnew]
  | ok o₀ =>
    refine Turns.cons_ok (s₁ := reading id args [] [] [] none (.compound id o₀)) ?_ ?_
    · simp [Observer.tell, observer, beginObject, delegate, create, Creator.beginRoot, Creator.new, hnew, reading, frameState]
    · refine Turns.append (fills hn none ms id o₀ [] [] [] (by simp [FrameOk, topType])) (fun s₁ hs₁ => ?_) fun h => ?_
      · cases hr : readMembers I id o₀ ms with
        | none => rw [hr] at hs₁; cases hs₁
        | some o =>
          rw [hr] at hs₁
          cases hs₁
          simp [okay, hr, Turns, Observer.tellAll, Observer.tell, observer, endObject, reading, CreatorAdapter.endRoot, create, Creator.endRoot,
            frameState, M.bind_apply, M.pure_apply]
      · cases hr : readMembers I id o₀ ms with
        | none => simp [okay, hr]
        | some o => rw [hr] at h; cases h

end Zserio.Json
