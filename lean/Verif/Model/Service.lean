import Verif.Model.Serialization
/-
service.py, pubsub.py and the classes generated for services and Pub/Sub (Service.py.ftl, Pubsub.py.ftl).
-/
namespace Zserio

/-! ### Service data -/

/-- `writer = BitStreamWriter(); obj.write(writer); writer.byte_array`: service.py:71-74, Pubsub.py.ftl:142-144.
`k` stands for the class of the object. -/
def bytesOf (k : Codec) (x : Val) : Except Err (List UInt8) :=
  match k.writeTo x Writer.init with
  | (.ok (), w) => .ok w.bytes
  | (.error e, _) => .error e

/-- service.py:37-77 `ObjectServiceData`: the attributes.  `object` is the object referred to, which its owner can change. -/
structure ObjectServiceData where
  isByteArrayInitialized : Bool
  byteArray : List UInt8
  object : Val

namespace ObjectServiceData

/-- service.py:42-51 `__init__` -/
def new (x : Val) : ObjectServiceData := ⟨false, [], x⟩

/-- service.py:63-77 `byte_array` -/
def getByteArray (k : Codec) : M ObjectServiceData (List UInt8) := fun s =>
  if s.isByteArrayInitialized then (.ok s.byteArray, s)
  else
    match bytesOf k s.object with
    | .error e => (.error e, s)
    | .ok bytes => (.ok bytes, { s with byteArray := bytes, isByteArrayInitialized := true })

end ObjectServiceData

/-- service.py:11-34 `ServiceData`: service.py:37-77 `ObjectServiceData` of an object of the class `k`, service.py:80-100
`RawServiceData` -/
inductive ServiceData where
  | object (k : Codec) (data : ObjectServiceData)
  | raw (bytes : List UInt8)

namespace ServiceData

/-- service.py:53-61, 94-96 `zserio_object` -/
def zserioObject : ServiceData → Option Val
  | .object _ d => some d.object
  | .raw _ => none

/-- service.py:63-77, 98-100 `byte_array` -/
def getByteArray : M ServiceData (List UInt8) := fun s =>
  match s with
  | .object k d =>
    match d.getByteArray k with
    | (r, d) => (r, .object k d)
  | .raw bytes => (.ok bytes, .raw bytes)

end ServiceData

/-! ### Generated services -/

/-- the type of a request, a response or a message: `bytes`, or a generated class (which has no parameters) -/
inductive Payload where
  | bytes
  | object (k : Codec)

namespace Payload

/-- Service.py.ftl:21-27 `service_data_type_name`: the service data made from a request or a response.  A value of another type than
the declared one is not represented. -/
def serviceData : Payload → Val → Except Err ServiceData
  | .bytes, .bytes b => .ok (.raw b)
  | .bytes, _ => .error .type
  | .object k, x => .ok (.object k (ObjectServiceData.new x))

/-- Service.py.ftl:135-140, 192-199, Pubsub.py.ftl:125-126: the request, the response or the message made from the data received -/
def receive : Payload → List UInt8 → Except Err Val
  | .bytes, data => .ok (.bytes data)
  | .object k, data => do
    let r ← Reader.make data
    (k.fromReader [] r).1

end Payload

/-- a method of a service -/
structure MethodDef where
  name : PyStr
  request : Payload
  response : Payload

namespace Service

/-- the dictionary `_method_map`, Service.py.ftl:76-80: a later entry with the same key replaces an earlier one -/
def methodMap (methods : List MethodDef) : List (PyStr × Nat) := (methods.mapIdx fun i m => (m.name, i)).reverse

variable {σ γ : Type}

/-- Service.py.ftl:134-142 `_..._method`; `impl` is the method `_..._impl` written by the user, `σ` the state of the server -/
def method (m : MethodDef) (impl : Val → γ → M σ Val) (requestData : List UInt8) (context : γ) : M σ ServiceData := do
  let request ← M.lift (m.request.receive requestData)
  let response ← impl request context
  M.lift (m.response.serviceData response)

/-- Service.py.ftl:82-101 `call_method` -/
def callMethod (methods : List MethodDef) (impl : Nat → Val → γ → M σ Val) (name : PyStr) (requestData : List UInt8) (context : γ) :
    M σ ServiceData :=
  match (methodMap methods).lookup name with
  | none => M.throw .service
  | some i =>
    match methods[i]? with
    | none => M.throw .service
    | some m => method m (impl i) requestData context

/-- Service.py.ftl:115-125, 145-149 `method_names` -/
def methodNames (methods : List MethodDef) : List PyStr := methods.map MethodDef.name

/-- Service.py.ftl:176-200: a method of the class `Client`; `call` is `call_method` of the service client backend -/
def clientMethod (m : MethodDef) (call : PyStr → ServiceData → γ → M σ (List UInt8)) (request : Val) (context : γ) : M σ Val := do
  let data ← M.lift (m.request.serviceData request)
  let responseData ← call m.name data context
  M.lift (m.response.receive responseData)

end Service

/-! ### Generated Pub/Sub -/

namespace Pubsub

variable {σ γ : Type}

/-- Pubsub.py.ftl:61-80, 141-144 `publish_...`; `publish` is the method of the backend -/
def publishMessage (p : Payload) (topic : PyStr) (publish : PyStr → List UInt8 → γ → M σ Unit) (message : Val) (context : γ) : M σ Unit :=
  match p, message with
  | .bytes, .bytes b => publish topic b context
  | .bytes, _ => M.throw .type
  | .object k, x => do
    let data ← M.lift (bytesOf k x)
    publish topic data context

/-- Pubsub.py.ftl:101-106, 124-127 `on_raw`, `_on_raw_...` -/
def onRaw (p : Payload) (callback : PyStr → Val → M σ Unit) (topic : PyStr) (data : List UInt8) : M σ Unit := do
  let message ← M.lift (p.receive data)
  callback topic message

/-- Pubsub.py.ftl:84-107 `subscribe_...`; `subscribe` is the method of the backend -/
def subscribeMessage (p : Payload) (topic : PyStr) (subscribe : PyStr → (PyStr → List UInt8 → M σ Unit) → γ → M σ Int)
    (callback : PyStr → Val → M σ Unit) (context : γ) : M σ Int :=
  subscribe topic (onRaw p callback) context

end Pubsub
end Zserio
