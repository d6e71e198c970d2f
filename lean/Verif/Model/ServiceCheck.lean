import Verif.Model.Service
import Verif.Model.ClashCheckers
/-
The checks of services and Pub/Sub types, and the classes which are generated for them: ServiceMethod.java, PubsubMessage.java, PubsubType.java,
PythonScopeSymbolClashChecker.java, PubsubEmitterTemplateData.java, Pubsub.py.ftl, Service.py.ftl.
-/
namespace Zserio.ServiceCheck

/-! ### The checks of the compiler -/

/-- the base type of a request, a response or a message, behind the names of subtypes -/
inductive BaseType where
  | bytes
  /-- a structure, a choice or a union -/
  | compound (params : Nat)
  | sqlTable (params : Nat)
  | other
  deriving DecidableEq, Repr

/-- the value of the expression of a topic, if it is constant -/
inductive Topic where
  | string (s : PyStr)
  | int (n : Int)
  | bool (b : Bool)
  | notConstant
  deriving DecidableEq, Repr

/-- the errors -/
inductive Error where
  | noCompound | parameterized | table | topic
  | clash (e : Names.ClashError)
  deriving DecidableEq, Repr

/-- ServiceMethod.java:79-107 `checkUsedType` -/
def checkUsedType : BaseType → Except Error Unit
  | .bytes => .ok ()
  | .other => .error .noCompound
  | .compound params => if params > 0 then .error .parameterized else .ok ()
  | .sqlTable params => if params > 0 then .error .parameterized else .error .table

/-- a method of a service -/
structure Method where
  name : PyStr
  response : BaseType
  request : BaseType
  deriving DecidableEq, Repr

/-- ServiceMethod.java:73-77 `check` -/
def checkMethod (m : Method) : Except Error Unit :=
  match checkUsedType m.response with
  | .error e => .error e
  | .ok _ => checkUsedType m.request

/-- `Expression.getStringValue() == null` -/
def Topic.isString : Topic → Bool
  | .string _ => true
  | _ => false

/-- a message of a Pub/Sub type -/
structure Message where
  name : PyStr
  type : BaseType
  topic : Topic
  isPublished : Bool
  isSubscribed : Bool
  deriving DecidableEq, Repr

/-- PubsubMessage.java:98-129 `check` -/
def checkMessage (m : Message) : Except Error Unit :=
  match m.type with
  | .bytes => .ok ()
  | .other => .error .noCompound
  | .compound params => if params > 0 then .error .parameterized else if m.topic.isString then .ok () else .error .topic
  | .sqlTable params => if params > 0 then .error .parameterized else .error .table

/-- the first error of a list of checks -/
def checkEach {α : Type} (check : α → Except Error Unit) : List α → Except Error Unit
  | [] => .ok ()
  | a :: rest =>
    match check a with
    | .error e => .error e
    | .ok _ => checkEach check rest

/-- the names of methods and messages: ServiceType.java and PubsubType.java:79-84 `check`, PythonScopeSymbolClashChecker.java:95-109 `beginService`,
`beginPubsub` -/
def checkNames (names : List PyStr) : Except Error Unit :=
  match Names.addSymbols Names.normalizeFirst .firstLetter [] names with
  | .error e => .error (.clash e)
  | .ok _ =>
    match Names.addSymbols Names.toLowerSnakeCase .symbolClash [] names with
    | .error e => .error (.clash e)
    | .ok _ => .ok ()

/-- PythonGeneratedSymbolsClashChecker.java:79-89, 118-129: names of methods which begin with an underscore -/
def checkUnderscore (name : PyStr) : Except Error Unit :=
  match Names.toLowerSnakeCase name with
  | 95 :: _ => .error (.clash (.leadingUnderscore name))
  | _ => .ok ()

/-- a service: the checks of the core, then those of the Python extension -/
def checkService (methods : List Method) : Except Error Unit :=
  match checkEach checkMethod methods with
  | .error e => .error e
  | .ok _ =>
    match checkNames (methods.map Method.name) with
    | .error e => .error e
    | .ok _ => checkEach (checkUnderscore ∘ Method.name) methods

/-- a Pub/Sub type -/
def checkPubsub (messages : List Message) : Except Error Unit :=
  match checkEach checkMessage messages with
  | .error e => .error e
  | .ok _ => checkNames (messages.map Message.name)

/-! ### The generated Pub/Sub class -/

/-- a message with the class of its type; `topic` is the value of the generated expression -/
structure Entry where
  name : PyStr
  payload : Payload
  topic : PyStr
  isPublished : Bool
  isSubscribed : Bool

/-- `typeInfo.isBytes` -/
def Entry.isBytes (e : Entry) : Bool :=
  match e.payload with
  | .bytes => true
  | .object _ => false

/-- the bodies of the methods of the class -/
inductive Body where
  /-- `self._pubsub.publish(topic, message, context)` -/
  | publishRaw (topic : PyStr)
  /-- `self._publish(topic, message, context)` -/
  | publishObject (topic : PyStr)
  /-- `on_raw` calls the callback -/
  | subscribeRaw (topic : PyStr)
  /-- `on_raw` calls `self.handler` -/
  | subscribeObject (topic handler : PyStr)
  | unsubscribe
  /-- the message is read by the class of its type -/
  | onRaw (payload : Payload)
  /-- `_publish` -/
  | publish

/-- `publish_${message.snakeCaseName}` -/
def publishName (name : PyStr) : PyStr := py! "publish_" ++ Names.toLowerSnakeCase name
/-- `subscribe_${message.snakeCaseName}` -/
def subscribeName (name : PyStr) : PyStr := py! "subscribe_" ++ Names.toLowerSnakeCase name
/-- `_on_raw_${message.snakeCaseName}` -/
def onRawName (name : PyStr) : PyStr := py! "_on_raw_" ++ Names.toLowerSnakeCase name

/-- Pubsub.py.ftl:58-110: the methods of a message -/
def messageMethods (e : Entry) : List (PyStr × Body) :=
  (if e.isPublished then [(publishName e.name, if e.isBytes then .publishRaw e.topic else .publishObject e.topic)] else []) ++
  (if e.isSubscribed then [(subscribeName e.name, if e.isBytes then .subscribeRaw e.topic else .subscribeObject e.topic (onRawName e.name))] else [])

/-- Pubsub.py.ftl:121-130 -/
def onRawMethods (e : Entry) : List (PyStr × Body) :=
  if e.isSubscribed && !e.isBytes then [(onRawName e.name, .onRaw e.payload)] else []

/-- PubsubEmitterTemplateData.java:27-36 `hasPublishing` -/
def hasPublishing (es : List Entry) : Bool := es.any Entry.isPublished
/-- PubsubEmitterTemplateData.java:28-36 `hasSubscribing` -/
def hasSubscribing (es : List Entry) : Bool := es.any Entry.isSubscribed
/-- Pubsub.py.ftl:132-139 `has_published_object` -/
def hasPublishedObject (es : List Entry) : Bool := es.any fun e => e.isPublished && !e.isBytes

/-- Pubsub.py.ftl:58-146: the methods of the class, in their order; without `__init__` and `type_info` -/
def pubsubMethods (es : List Entry) : List (PyStr × Body) :=
  es.flatMap messageMethods ++
  (if hasSubscribing es then (py! "unsubscribe", .unsubscribe) :: es.flatMap onRawMethods else []) ++
  (if hasPublishing es && hasPublishedObject es then [(py! "_publish", .publish)] else [])

/-- `getattr` of a class: the last definition of the name; none for an AttributeError -/
def getAttr {α : Type} (cls : List (PyStr × α)) (name : PyStr) : Option α := cls.reverse.lookup name

variable {σ γ : Type}

/-- a call of a method of an object of the class with a message; none if it, or a method which it calls, does not exist.
`k`: the class of the message, `publish`: the backend. -/
def callPublish (cls : List (PyStr × Body)) (name : PyStr) (publish : PyStr → List UInt8 → γ → M σ Unit) (k : Codec) (message : Val) (context : γ) :
    Option (M σ Unit) :=
  match getAttr cls name with
  | some (.publishRaw topic) =>
    match message with
    | .bytes b => some (publish topic b context)
    | _ => some (M.throw .type)
  | some (.publishObject topic) =>
    match getAttr cls (py! "_publish") with
    | some .publish => some do
        let data ← M.lift (bytesOf k message)
        publish topic data context
    | _ => none
  | _ => none

/-- a call of a method of an object of the class with a callback; none if the method does not exist, or if a method which `on_raw` calls does not
exist -/
def callSubscribe (cls : List (PyStr × Body)) (name : PyStr) (subscribe : PyStr → (PyStr → List UInt8 → M σ Unit) → γ → M σ Int)
    (callback : PyStr → Val → M σ Unit) (context : γ) : Option (M σ Int) :=
  match getAttr cls name with
  | some (.subscribeRaw topic) => some (subscribe topic (fun topic data => callback topic (.bytes data)) context)
  | some (.subscribeObject topic handler) =>
    match getAttr cls handler with
    | some (.onRaw p) => some (subscribe topic (fun topic data => do
        let message ← M.lift (p.receive data)
        callback topic message) context)
    | _ => none
  | _ => none

/-- `unsubscribe`: whether it exists -/
def canUnsubscribe (cls : List (PyStr × Body)) : Bool :=
  match getAttr cls (py! "unsubscribe") with
  | some .unsubscribe => true
  | _ => false

/-! ### The generated service -/

/-- the attributes of the class `Service` which depend on the methods: the default implementation and the method which is called -/
inductive ServiceBody where
  | impl (i : Nat)
  | method (i : Nat) (impl : PyStr)
  deriving DecidableEq

/-- `_${method.snakeCaseName}_impl` -/
def implName (name : PyStr) : PyStr := py! "_" ++ Names.toLowerSnakeCase name ++ py! "_impl"
/-- `_${method.snakeCaseName}_method` -/
def methodName (name : PyStr) : PyStr := py! "_" ++ Names.toLowerSnakeCase name ++ py! "_method"

/-- Service.py.ftl:126-143: the methods of the class `Service`, in their order.  An implementation of the user overrides `_..._impl`: `impl i` stands
for the one written for the name of method `i`. -/
def serviceMethods (names : List PyStr) : List (PyStr × ServiceBody) :=
  (names.mapIdx fun i n => (implName n, .impl i)) ++ names.mapIdx fun i n => (methodName n, .method i (implName n))

/-- Service.py.ftl:76-80, 98-101: the method in `_method_map` for a name: `self._METHOD_NAMES[i]: self._..._method`; what is called: the index of
the method whose request and response are used, and the index of the implementation -/
def dispatch (names : List PyStr) (name : PyStr) : Option (Nat × Nat) :=
  match getAttr (names.map fun n => (n, methodName n)) name with
  | none => none
  | some attr =>
    match getAttr (serviceMethods names) attr with
    | some (.method i impl) =>
      match getAttr (serviceMethods names) impl with
      | some (.impl j) => some (i, j)
      | _ => none
    | _ => none

end Zserio.ServiceCheck
