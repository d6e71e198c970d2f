import Verif.Spec.Service
import Verif.Props.Compound
import Verif.Model.JsonText
import Mathlib.Data.List.Nodup
/-
C50: service data. C53: calls of service methods. C54: Pub/Sub messages.
-/
set_option linter.unusedSimpArgs false
namespace Zserio

/-! ### C50 -/

/-- **C50**: while no access has succeeded, an access returns the serialization of the object as it is now, or raises what the
serialization raises. -/
theorem C50_first_access (k : Codec) (x : Val) (history : List ServiceAction)
    (h : ∀ bytes, .ok bytes ∉ (ServiceAction.run k history (ObjectServiceData.new x)).1) :
    ((ServiceAction.run k history (ObjectServiceData.new x)).2.getByteArray k).1 = bytesOf k (ServiceAction.last history x) := by
  suffices hs : ∀ (history : List ServiceAction) (d : ObjectServiceData), d.isByteArrayInitialized = false →
      (∀ bytes, .ok bytes ∉ (ServiceAction.run k history d).1) →
      ((ServiceAction.run k history d).2.getByteArray k).1 = bytesOf k (ServiceAction.last history d.object) from
    hs history _ rfl h
  intro history
  induction history with
  | nil =>
    intro d hd _
    simp only [ServiceAction.run, ServiceAction.last, ObjectServiceData.getByteArray, hd]
    cases bytesOf k d.object <;> rfl
  | cons a as ih =>
    intro d hd hn
    cases a with
    | change y => exact ih { d with object := y } hd hn
    | access =>
      cases hb : bytesOf k d.object with
      | ok bytes =>
        exact absurd (by simp [ServiceAction.run, ObjectServiceData.getByteArray, hd, hb]) (hn bytes)
      | error e =>
        simp only [ServiceAction.run, ObjectServiceData.getByteArray, hd, hb, Bool.false_eq_true, if_false, ServiceAction.last] at hn ⊢
        exact ih d hd fun bytes hm => hn bytes (by simp [hm])

/-- **C50**: once an access has succeeded, all later accesses return the same bytes, whatever happens to the object. -/
theorem C50_stable (k : Codec) (x : Val) (history later : List ServiceAction) (bytes : List UInt8)
    (h : .ok bytes ∈ (ServiceAction.run k history (ObjectServiceData.new x)).1) :
    ∀ r ∈ (ServiceAction.run k later (ServiceAction.run k history (ObjectServiceData.new x)).2).1, r = .ok bytes := by
  have stable : ∀ (as : List ServiceAction) (d : ObjectServiceData), d.isByteArrayInitialized = true →
      (∀ r ∈ (ServiceAction.run k as d).1, r = .ok d.byteArray) ∧ (ServiceAction.run k as d).2.isByteArrayInitialized = true ∧
        (ServiceAction.run k as d).2.byteArray = d.byteArray := by
    intro as
    induction as with
    | nil => intro d hd; simp [ServiceAction.run, hd]
    | cons a as ih =>
      intro d hd
      cases a with
      | change y => exact ih { d with object := y } hd
      | access =>
        obtain ⟨h1, h2, h3⟩ := ih d hd
        simp only [ServiceAction.run, ObjectServiceData.getByteArray, hd, if_true, List.mem_cons]
        exact ⟨fun r hr => hr.elim id (h1 r), h2, h3⟩
  have found : ∀ (as : List ServiceAction) (d : ObjectServiceData), d.isByteArrayInitialized = false →
      .ok bytes ∈ (ServiceAction.run k as d).1 →
      (ServiceAction.run k as d).2.isByteArrayInitialized = true ∧ (ServiceAction.run k as d).2.byteArray = bytes := by
    intro as
    induction as with
    | nil => intro d _ hm; simp [ServiceAction.run] at hm
    | cons a as ih =>
      intro d hd hm
      cases a with
      | change y => exact ih { d with object := y } hd hm
      | access =>
        cases hb : bytesOf k d.object with
        | error e =>
          simp only [ServiceAction.run, ObjectServiceData.getByteArray, hd, hb, Bool.false_eq_true, if_false, List.mem_cons,
            reduceCtorEq, false_or] at hm ⊢
          exact ih d hd hm
        | ok b =>
          simp only [ServiceAction.run, ObjectServiceData.getByteArray, hd, hb, Bool.false_eq_true, if_false, List.mem_cons,
            Except.ok.injEq] at hm ⊢
          obtain ⟨h1, h2, h3⟩ := stable as { d with byteArray := b, isByteArrayInitialized := true } rfl
          refine ⟨h2, h3.trans ?_⟩
          rcases hm with rfl | hm
          · rfl
          · exact (Except.ok.inj (h1 _ hm)).symm
  obtain ⟨h1, rfl⟩ := found history _ rfl h
  exact (stable later _ h1).1

/-- **C50**: the bytes are those of `serialize_to_bytes`, for an object whose offsets it has set. -/
theorem C50_serialization (k : Codec) (x x1 : Val) (bytes : List UInt8) (h : serializeToBytes k x = .ok (bytes, x1)) :
    ((ObjectServiceData.new x1).getByteArray k).1 = .ok bytes := by
  unfold serializeToBytes at h
  obtain ⟨⟨w, y⟩, h1, h⟩ := except_bind_ok h
  obtain ⟨-, hwr⟩ := serializeToWriter_inv h1
  simp only [Except.ok.injEq, Prod.mk.injEq] at h
  obtain ⟨rfl, rfl⟩ := h
  simp [ObjectServiceData.new, ObjectServiceData.getByteArray, bytesOf, Writer.init_eq, hwr]

/-- **C50**: `RawServiceData` returns its bytes and has no object. -/
theorem C50_raw (bytes : List UInt8) :
    (ServiceData.raw bytes).getByteArray = (.ok bytes, .raw bytes) ∧ (ServiceData.raw bytes).zserioObject = none := ⟨rfl, rfl⟩

/-- Offsets are not initialized: an object which `serialize_to_bytes` accepts cannot be used as service data as it is. -/
theorem C50_offsets_not_initialized :
    (∃ bytes x1, serializeToBytes (Demo.schema.codec 3 3) (Demo.mainObj 0) = .ok (bytes, x1)) ∧
      ((ObjectServiceData.new (Demo.mainObj 0)).getByteArray (Demo.schema.codec 3 3)).1 = .error .offset :=
  ⟨⟨[3, 0, 0, 0, 21, 0, 130, 178, 101, 180, 31, 251, 18, 137, 192, 255, 255, 127, 255, 0, 5, 2, 128, 2, 127, 128, 0, 0, 23,
    87, 192], Demo.mainObj 21, by decide +kernel⟩, by decide +kernel⟩

/-- a history with a failing access, a successful one, a change of the object and another access -/
example : (ServiceAction.run (Demo.schema.codec 2 0)
    [.access, .change (Demo.itemObj 5 100 (.int 3)), .access, .change (Demo.itemObj 5 200 (.int 3)), .access]
    (ObjectServiceData.new .none)).1.map Except.toOption =
    [none, (bytesOf (Demo.schema.codec 2 0) (Demo.itemObj 5 100 (.int 3))).toOption,
      (bytesOf (Demo.schema.codec 2 0) (Demo.itemObj 5 100 (.int 3))).toOption] ∧
    (bytesOf (Demo.schema.codec 2 0) (Demo.itemObj 5 100 (.int 3))).toOption ≠ none ∧
    (bytesOf (Demo.schema.codec 2 0) (Demo.itemObj 5 200 (.int 3))).toOption ≠
      (bytesOf (Demo.schema.codec 2 0) (Demo.itemObj 5 100 (.int 3))).toOption := by decide +kernel

/-! ### C53 -/

/-- The bytes which are sent are received as the value stored. -/
theorem Payload.Carries.received {p : Payload} {x x' : Val} (h : p.Carries x x') :
    ∃ d bytes, p.serviceData x = .ok d ∧ d.getByteArray.1 = .ok bytes ∧ p.receive bytes = .ok x' := by
  cases h with
  | bytes b => exact ⟨.raw b, b, rfl, rfl, rfl⟩
  | @object defs closed n id _ _ w hl hc hw hp hx =>
    refine ⟨.object (defs.codec n id) (ObjectServiceData.new x), w.bytes, rfl, ?_, ?_⟩
    · simp [ServiceData.getByteArray, ObjectServiceData.new, ObjectServiceData.getByteArray, bytesOf, hw]
    · rw [Writer.init_eq] at hw
      obtain ⟨bs, rfl, -, h3⟩ := (defs.lawful closed hl n id).plain hw
      have hpar := h3 [] x' hx hp (zeros (padLen bs.length)) (.inl hc)
      simp only [List.nil_append, List.length_nil] at hpar ⊢
      have hlen := congrArg List.length (bytesBits_packBits bs)
      rw [bytesBits_length] at hlen
      unfold Payload.receive
      have h4 : Reader.make (packBits bs) = .ok ⟨packBits bs, (packBits bs).length * 8, 0⟩ := rfl
      simp only [Writer.ofBits]
      rw [h4, ok_bind]
      refine Reader.Parses.run hpar ?_ ?_ rfl
      · simp only [← bytesBits_packBits]
        simp
      · simp only
        rw [← hlen]; push_cast; omega

variable {σ γ : Type}

/-- the entry of the method in the dictionary -/
theorem Service.lookup_method (methods : List MethodDef) (hn : (Service.methodNames methods).Nodup) (i : Nat) (m : MethodDef)
    (hm : methods[i]? = some m) : (Service.methodMap methods).lookup m.name = some i := by
  cases h : (Service.methodMap methods).lookup m.name with
  | none =>
    rw [List.lookup_eq_none_iff] at h
    have := h (m.name, i) (by simp only [Service.methodMap, List.mem_reverse, List.mem_mapIdx]; exact ⟨i, (List.getElem?_eq_some_iff.mp hm).1, by simp [(List.getElem?_eq_some_iff.mp hm).2]⟩)
    simp at this
  | some j =>
    rw [List.lookup_eq_some_iff] at h
    obtain ⟨l₁, l₂, h, _⟩ := h
    have hmem : (m.name, j) ∈ Service.methodMap methods := by rw [h]; simp
    simp only [Service.methodMap, List.mem_reverse, List.mem_mapIdx, Prod.mk.injEq] at hmem
    obtain ⟨j', hj, hname, rfl⟩ := hmem
    obtain ⟨hi, rfl⟩ := List.getElem?_eq_some_iff.mp hm
    have := (List.Nodup.getElem_inj_iff hn (i := j') (j := i) (hi := by simpa [Service.methodNames] using hj)
      (hj := by simpa [Service.methodNames] using hi)).mp (by simpa [Service.methodNames] using hname)
    rw [this]

/-- **C53**: over a backend which transports the bytes unchanged, a method of the client returns what the implementation of the method
with this name returns for the request, with the context and with the effects on the server. -/
theorem C53_call (methods : List MethodDef) (hn : (Service.methodNames methods).Nodup) (impl : Nat → Val → γ → M σ Val) (i : Nat)
    (m : MethodDef) (hm : methods[i]? = some m) (x x' y y' : Val) (hx : m.request.Carries x x') (context : γ) (s s' : σ)
    (hi : impl i x' context s = (.ok y, s')) (hy : m.response.Carries y y') :
    Service.clientMethod m (Service.direct methods impl) x context s = (.ok y', s') := by
  obtain ⟨d, bytes, h1, h2, h3⟩ := hx.received
  obtain ⟨d', bytes', h4, h5, h6⟩ := hy.received
  simp only [Service.clientMethod, Service.direct, Service.callMethod, Service.lookup_method methods hn i m hm, hm, Service.method, h1,
    M.bind_apply, M.lift_apply, h2, h3, hi, h4, h5, h6]

/-- **C53**: an exception of the implementation reaches the caller. -/
theorem C53_raise (methods : List MethodDef) (hn : (Service.methodNames methods).Nodup) (impl : Nat → Val → γ → M σ Val) (i : Nat)
    (m : MethodDef) (hm : methods[i]? = some m) (x x' : Val) (hx : m.request.Carries x x') (context : γ) (s s' : σ) (e : Err)
    (hi : impl i x' context s = (.error e, s')) :
    Service.clientMethod m (Service.direct methods impl) x context s = (.error e, s') := by
  obtain ⟨d, bytes, h1, h2, h3⟩ := hx.received
  simp only [Service.clientMethod, Service.direct, Service.callMethod, Service.lookup_method methods hn i m hm, hm, Service.method, h1,
    M.bind_apply, M.lift_apply, h2, h3, hi]

/-- **C53**: a method name is accepted if and only if it is one of `method_names`; otherwise a `ServiceException` is raised and nothing
is called. -/
theorem C53_unknown (methods : List MethodDef) (impl : Nat → Val → γ → M σ Val) (name : PyStr) (data : List UInt8) (context : γ) (s : σ)
    (h : name ∉ Service.methodNames methods) : Service.callMethod methods impl name data context s = (.error .service, s) := by
  have hl : (Service.methodMap methods).lookup name = none := by
    rw [List.lookup_eq_none_iff]
    intro p hp
    simp only [Service.methodMap, List.mem_reverse, List.mem_mapIdx] at hp
    obtain ⟨j, hj, rfl⟩ := hp
    simp only [bne_iff_ne, ne_eq]
    rintro rfl
    exact h (by simp only [Service.methodNames, List.mem_map]; exact ⟨_, List.getElem_mem hj, rfl⟩)
  simp [Service.callMethod, hl]

/-- **C53**: a request which cannot be read is not passed to the implementation. -/
theorem C53_bad_request (methods : List MethodDef) (hn : (Service.methodNames methods).Nodup) (impl : Nat → Val → γ → M σ Val) (i : Nat)
    (m : MethodDef) (hm : methods[i]? = some m) (data : List UInt8) (e : Err) (hd : m.request.receive data = .error e) (context : γ)
    (s : σ) : Service.callMethod methods impl m.name data context s = (.error e, s) := by
  simp only [Service.callMethod, Service.lookup_method methods hn i m hm, hm, Service.method, M.bind_apply, M.lift_apply, hd]

/-- **C53**: a response which cannot be written raises at the caller, after the effects on the server. -/
theorem C53_bad_response (methods : List MethodDef) (hn : (Service.methodNames methods).Nodup) (impl : Nat → Val → γ → M σ Val) (i : Nat)
    (m : MethodDef) (hm : methods[i]? = some m) (k : Codec) (hk : m.response = .object k) (x x' y : Val) (hx : m.request.Carries x x')
    (context : γ) (s s' : σ) (hi : impl i x' context s = (.ok y, s')) (e : Err) (hy : bytesOf k y = .error e) :
    Service.clientMethod m (Service.direct methods impl) x context s = (.error e, s') := by
  obtain ⟨d, bytes, h1, h2, h3⟩ := hx.received
  have h4 : m.response.serviceData y = .ok (.object k (ObjectServiceData.new y)) := by rw [hk]; rfl
  have h5 : (ServiceData.object k (ObjectServiceData.new y)).getByteArray.1 = .error e := by
    simp [ServiceData.getByteArray, ObjectServiceData.new, ObjectServiceData.getByteArray, hy]
  simp only [Service.clientMethod, Service.direct, Service.callMethod, Service.lookup_method methods hn i m hm, hm, Service.method, h1,
    M.bind_apply, M.lift_apply, h2, h3, hi, h4, h5]

namespace ServiceDemo

/-- service Demo { bytes echo(bytes); Any store(Any); }; -/
def methods : List MethodDef := [⟨py! "echo", .bytes, .bytes⟩, ⟨py! "store", .object (Demo.schema.codec 2 1), .object (Demo.schema.codec 2 1)⟩]

/-- a server which keeps the requests; `store` fails for the second one -/
def impl : Nat → Val → Unit → M (List Val) Val
  | 0, x, _ => fun s => (.ok x, x :: s)
  | _, x, _ => fun s => (if s.length < 3 then .ok x else .error .service, x :: s)

/-- an object of the union `Any` -/
def any : Val := .obj [] 0 2 [Demo.itemObj 5 64 (.int 1)]

theorem carries : (Payload.object (Demo.schema.codec 2 1)).Carries any any :=
  .object demo_layout (closed := Demo.closed) rfl (succeeds (by decide +kernel)) rfl demo_any_canonical.isStored

end ServiceDemo

example : Service.clientMethod ⟨py! "store", .object (Demo.schema.codec 2 1), .object (Demo.schema.codec 2 1)⟩
    (Service.direct ServiceDemo.methods ServiceDemo.impl) ServiceDemo.any () [.int 1] = (.ok ServiceDemo.any, [ServiceDemo.any, .int 1]) :=
  C53_call ServiceDemo.methods (by decide) ServiceDemo.impl 1 _ rfl _ _ _ _ ServiceDemo.carries () _ _ rfl ServiceDemo.carries

example : Service.clientMethod ⟨py! "store", .object (Demo.schema.codec 2 1), .object (Demo.schema.codec 2 1)⟩
    (Service.direct ServiceDemo.methods ServiceDemo.impl) ServiceDemo.any () [.int 1, .int 2, .int 3] =
      (.error .service, [ServiceDemo.any, .int 1, .int 2, .int 3]) :=
  C53_raise ServiceDemo.methods (by decide) ServiceDemo.impl 1 _ rfl _ _ ServiceDemo.carries () _ _ _ rfl

/-- a union tag out of range, and a response in which nothing has been selected -/
example : (Payload.object (Demo.schema.codec 2 1)).receive [7] = .error .noMatch ∧
    bytesOf (Demo.schema.codec 2 1) (.obj [] 0 (-1) [.none]) = .error .varRange ∧ py! "other" ∉ Service.methodNames ServiceDemo.methods := by
  decide +kernel

/-! ### C54 -/

/-- **C54**: publishing a message gives the backend its topic and some bytes; subscribing registers a function for this topic which, called
by the backend with these bytes, passes the message to the callback of the user; for every backend, every callback and every topic the
backend calls the function with. -/
theorem C54_deliver (p : Payload) (topic : PyStr) (x x' : Val) (hx : p.Carries x x') :
    ∃ bytes, (∀ (publish : PyStr → List UInt8 → γ → M σ Unit) (context : γ),
        Pubsub.publishMessage p topic publish x context = publish topic bytes context) ∧
      ∀ (callback : PyStr → Val → M σ Unit), ∃ registered : PyStr → List UInt8 → M σ Unit,
        (∀ (subscribe : PyStr → (PyStr → List UInt8 → M σ Unit) → γ → M σ Int) (context : γ),
          Pubsub.subscribeMessage p topic subscribe callback context = subscribe topic registered context) ∧
        ∀ received, registered received bytes = callback received x' := by
  obtain ⟨d, bytes, h1, h2, h3⟩ := hx.received
  refine ⟨bytes, fun publish context => ?_, fun callback => ⟨Pubsub.onRaw p callback, fun _ _ => rfl, fun received => ?_⟩⟩
  · cases p with
    | bytes =>
      cases hx
      simp only [Payload.serviceData, Except.ok.injEq] at h1
      subst h1
      simp only [ServiceData.getByteArray, Except.ok.injEq] at h2
      subst h2
      rfl
    | object k =>
      simp only [Payload.serviceData, Except.ok.injEq] at h1
      subst h1
      funext s
      cases hb : bytesOf k x with
      | error e => simp [ServiceData.getByteArray, ObjectServiceData.new, ObjectServiceData.getByteArray, hb] at h2
      | ok b =>
        simp [ServiceData.getByteArray, ObjectServiceData.new, ObjectServiceData.getByteArray, hb] at h2
        subst h2
        simp [Pubsub.publishMessage, M.bind_apply, hb]
  · funext s
    simp [Pubsub.onRaw, M.bind_apply, h3]

/-- **C54**: a message which cannot be written is not published; data which cannot be read are not passed to the callback. -/
theorem C54_failure (k : Codec) (topic : PyStr) (publish : PyStr → List UInt8 → γ → M σ Unit) (callback : PyStr → Val → M σ Unit) (x : Val)
    (context : γ) (data : List UInt8) (s : σ) :
    (∀ e, bytesOf k x = .error e → Pubsub.publishMessage (.object k) topic publish x context s = (.error e, s)) ∧
    ∀ e, (Payload.object k).receive data = .error e → Pubsub.onRaw (.object k) callback topic data s = (.error e, s) := by
  constructor
  · intro e h
    simp [Pubsub.publishMessage, M.bind_apply, h]
  · intro e h
    simp [Pubsub.onRaw, M.bind_apply, h]

example : (Payload.object (Demo.schema.codec 2 1)).Carries ServiceDemo.any ServiceDemo.any ∧ Payload.bytes.Carries (.bytes [1]) (.bytes [1]) :=
  ⟨ServiceDemo.carries, .bytes _⟩

end Zserio
