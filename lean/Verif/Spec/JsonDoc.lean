import Verif.Model.JsonParser
/-
JSON documents: nested keys and values, what an observer of a parser is told about them, and their texts.
-/
namespace Zserio.Json

/-- A JSON element. -/
inductive Doc where
  | value (v : Val)
  | array (items : List Doc)
  | object (members : List (PyStr × Doc))

/-- What an observer is told. -/
inductive JsonEvent where
  | beginObject
  | endObject
  | beginArray
  | endArray
  | key (k : PyStr)
  | value (v : Val)

mutual
/-- An element in the order of its text. -/
def Doc.events : Doc → List JsonEvent
  | .value v => [.value v]
  | .array items => .beginArray :: (Doc.elementEvents items ++ [.endArray])
  | .object members => .beginObject :: (Doc.memberEvents members ++ [.endObject])
/-- the elements of an array, one after the other -/
def Doc.elementEvents : List Doc → List JsonEvent
  | [] => []
  | d :: ds => d.events ++ Doc.elementEvents ds
/-- the members of an object: each key, then its element -/
def Doc.memberEvents : List (PyStr × Doc) → List JsonEvent
  | [] => []
  | (k, d) :: ms => .key k :: (d.events ++ Doc.memberEvents ms)
end

/-- Tell an observer one event. -/
def Observer.tell {σ : Type} (ob : Observer σ) : JsonEvent → M σ Unit
  | .beginObject => ob.beginObject
  | .endObject => ob.endObject
  | .beginArray => ob.beginArray
  | .endArray => ob.endArray
  | .key k => ob.visitKey k
  | .value v => ob.visitValue v

/-- Tell an observer events until it raises an exception. -/
def Observer.tellAll {σ : Type} (ob : Observer σ) : List JsonEvent → M σ Unit
  | [] => pure ()
  | e :: es => do
    ob.tell e
    ob.tellAll es

/-- White space. -/
def Blank (ws : PyStr) : Prop := ∀ c ∈ ws, c ∈ py! " \t\n\r"

/-- What may follow a value: nothing, a separator, a closing bracket or white space. -/
def Ends (tail : PyStr) : Prop := ∀ c, tail.head? = some c → c ∈ py! ",:]} \t\n\r"

/-- The text `s` is decoded to the value `v`, whatever comes after it. -/
def ValueText (t : PyText) (v : Val) (s : PyStr) : Prop :=
  s ≠ [] ∧ ∀ tail, Ends tail → decodeValue t (s ++ tail) = success v s.length

/-- The parts of a document: an element, the elements of an array (at least one), the members of an object (at least one). -/
inductive Part where
  | element (d : Doc)
  | elements (ds : List Doc)
  | members (ms : List (PyStr × Doc))

/-- The grammar of JSON texts (without the white space before and after them). -/
inductive JsonText (t : PyText) : Part → PyStr → Prop
  | value {v s} : ValueText t v s → JsonText t (.element (.value v)) s
  | emptyArray {ws} : Blank ws → JsonText t (.element (.array [])) (ch! '[' :: (ws ++ [ch! ']']))
  | array {ds ws s ws'} : Blank ws → JsonText t (.elements ds) s → Blank ws' →
      JsonText t (.element (.array ds)) (ch! '[' :: (ws ++ s ++ ws' ++ [ch! ']']))
  | emptyObject {ws} : Blank ws → JsonText t (.element (.object [])) (ch! '{' :: (ws ++ [ch! '}']))
  | object {ms ws s ws'} : Blank ws → JsonText t (.members ms) s → Blank ws' →
      JsonText t (.element (.object ms)) (ch! '{' :: (ws ++ s ++ ws' ++ [ch! '}']))
  | lastElement {d s} : JsonText t (.element d) s → JsonText t (.elements [d]) s
  | moreElements {d s ws ws' ds s'} : JsonText t (.element d) s → Blank ws → Blank ws' → JsonText t (.elements ds) s' →
      JsonText t (.elements (d :: ds)) (s ++ ws ++ ch! ',' :: (ws' ++ s'))
  | lastMember {k s ws ws' d s'} : ValueText t (.str k) s → Blank ws → Blank ws' → JsonText t (.element d) s' →
      JsonText t (.members [(k, d)]) (s ++ ws ++ ch! ':' :: (ws' ++ s'))
  | moreMembers {k s ws ws' d s' ws₁ ws₂ ms s₂} : ValueText t (.str k) s → Blank ws → Blank ws' → JsonText t (.element d) s' →
      Blank ws₁ → Blank ws₂ → JsonText t (.members ms) s₂ →
      JsonText t (.members ((k, d) :: ms)) (s ++ ws ++ ch! ':' :: (ws' ++ s' ++ ws₁ ++ ch! ',' :: (ws₂ ++ s₂)))

end Zserio.Json
