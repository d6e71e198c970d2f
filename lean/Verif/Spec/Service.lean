import Verif.Model.Service
import Verif.Spec.Compound
/-
Vocabulary for the statements about services and Pub/Sub.
-/
namespace Zserio

/-- What the owner of a service data does with it: assign the members of the object, ask for the bytes. -/
inductive ServiceAction where
  | change (x : Val)
  | access

namespace ServiceAction

/-- A history: the results of all accesses, and the service data at the end. -/
def run (k : Codec) : List ServiceAction → ObjectServiceData → List (Except Err (List UInt8)) × ObjectServiceData
  | [], d => ([], d)
  | .change x :: as, d => run k as { d with object := x }
  | .access :: as, d =>
    match d.getByteArray k with
    | (r, d) =>
      match run k as d with
      | (rs, d) => (r :: rs, d)

/-- the object after the history -/
def last : List ServiceAction → Val → Val
  | [], x => x
  | .change y :: as, _ => last as y
  | .access :: as, x => last as x

end ServiceAction

/-- `p.Carries x x'`: the value `x` can be sent as `p`, and the format stores it as `x'`: bytes, or an object of a class without
parameters whose end does not depend on the end of the stream. -/
inductive Payload.Carries : Payload → Val → Val → Prop where
  | bytes (b : List UInt8) : Carries .bytes (.bytes b) (.bytes b)
  | object {defs : Schema} {closed : Nat → Bool} {n id : Nat} {x x' : Val} {w : Writer} : defs.Layout closed → closed id = true →
    (defs.codec n id).writeTo x Writer.init = (.ok (), w) → x.params = .ok [] → defs.StoredAs n id x x' →
    Carries (.object (defs.codec n id)) x x'

/-- A service client backend which hands the bytes of the request to the service and the bytes of the response back. -/
def Service.direct {σ γ : Type} (methods : List MethodDef) (impl : Nat → Val → γ → M σ Val) (name : PyStr) (request : ServiceData)
    (context : γ) : M σ (List UInt8) := do
  let requestData ← M.lift request.getByteArray.1
  let response ← Service.callMethod methods impl name requestData context
  M.lift response.getByteArray.1

end Zserio
