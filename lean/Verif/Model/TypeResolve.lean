import Verif.Model.Base
/-
Resolving references to types: names of subtypes and of template instantiations (`instantiate`), and the check for cycles.

Sources: compiler/core/src/zserio/ast/ZserioAstTypeResolver.java, TypeReference.java, Subtype.java, InstantiateType.java.

Which symbol a name stands for is decided by `Package.getVisibleSymbol` (modelled in Model/Visibility.lean); a reference has the result here.
Symbols are numbered in the order in which they are visited: Root.java:38-42, Package.java:55-70, the order in the files.
Java methods which call themselves are given the number of calls which fit on the stack; `none` is a StackOverflowError.
The checks of `TypeInstantiation.resolve` (numbers of arguments of parameterized types) and the instantiation of templates (Model/Templates.lean)
are not part of this model.
-/
namespace Zserio.TypeResolve

/-- TypeReference.java: a built-in type, or the symbol which is visible under the name, the name, and the template arguments -/
inductive Ref where
  | builtin (name : Nat)
  | named (symbol : Option Nat) (name : Nat) (args : List Ref)

/-- The symbols of packages.  Structures, choices, unions and tables have template parameters (none, if they are no templates) and the
references in them, in the order in which they are visited; enumerations, bitmasks, services and pubsubs are types without template
parameters; constants and rule groups are no types. -/
inductive Decl where
  | subtype (target : Ref)
  | instantiate (target : Ref)
  | templatable (params : List Nat) (refs : List Ref)
  | type (refs : List Ref)
  | database (refs : List Ref)
  | noType (refs : List Ref)

/-- all symbols -/
abbrev Schema := List Decl

/-- the messages of the exceptions -/
inductive Refusal where
  | unresolved
  | notAType
  | database
  | missingArguments
  | notATemplate
  | cycle
  deriving DecidableEq, Repr

/-- What has been resolved: `baseTypeReference` of the subtypes (Subtype.java:105), and the symbols for which `isResolved` is true
(Subtype.java:106, InstantiateType.java:97); how many subtypes have been visited.  The references of a subtype are resolved (`isResolved` of
TypeReference.java:231) when the subtype is: an exception ends the compiler. -/
structure State where
  base : Nat → Option Ref := fun _ => none
  done : List Nat := []
  visits : Nat := 0

/-- a Java method: none for a StackOverflowError -/
abbrev Result := Option (Except Refusal State)

/-- TypeReference.java:125-168 `resolve` of a reference which is not resolved -/
def resolveRef (s : Schema) (params : List Nat) (symbol : Option Nat) (name : Nat) (args : List Ref) : Except Refusal Unit :=
  match symbol with
  | none => if params.contains name then .ok () else .error .unresolved
  | some j =>
    match s[j]? with
    | none => .error .unresolved
    | some (.noType _) => .error .notAType
    | some (.database _) => .error .database
    | some (.templatable ps _) => if !ps.isEmpty && args.isEmpty then .error .missingArguments else .ok ()
    | some _ => .ok ()

/-- Subtype.java:80-99 `resolve` -/
def resolveSubtype (s : Schema) (j : Nat) (target : Ref) (st : State) : State :=
  if st.done.contains j then st
  else
    let b : Option Ref := match target with
      | .builtin _ => some target
      | .named symbol _ _ =>
        match symbol.bind (s[·]?) with
        | some (.subtype _) => symbol.bind st.base
        | some (.instantiate t) => some t
        | _ => some target
    { st with base := fun k => if k = j then b else st.base k, done := j :: st.done }

/-- InstantiateType.java:68-84 `resolve` -/
def resolveInstantiate (s : Schema) (j : Nat) (target : Ref) (st : State) : Except Refusal State :=
  if st.done.contains j then .ok st
  else
    match target with
    | .named (some k) _ _ =>
      match s[k]? with
      | some (.templatable ps _) => if ps.isEmpty then .error .notATemplate else .ok { st with done := j :: st.done }
      | _ => .error .notATemplate
    | _ => .error .notATemplate

/-- ZserioAstTypeResolver.java:90-104 `checkCycle`: only the first type on the stack is compared -/
def checkCycle (stack : List Nat) (j : Nat) : Bool := stack.head? = some j

mutual
/-- ZserioAstTypeResolver.java:49-60 `visitTypeReference`; `resolved`: whether the reference is resolved already; `params`: the member
`templateParameters`; `subs`, `insts`: the members `subtypesOnStack` and `instantiateTypesOnStack` -/
def visitRef (s : Schema) (params : List Nat) : Nat → Bool → List Nat → List Nat → Ref → State → Result
  | 0, _, _, _, _, _ => none
  | _ + 1, _, _, _, .builtin _, st => some (.ok st)
  | n + 1, resolved, subs, insts, .named symbol name args, st =>
    match visitRefs s params n resolved subs insts args st with
    | some (.ok st) =>
      match (if resolved then .ok () else resolveRef s params symbol name args) with
      | .error e => some (.error e)
      | .ok () =>
        match symbol with
        | none => some (.ok st)
        | some j => visitNamed s params n subs insts j st
    | r => r

/-- TypeReference.java:51-58 `visitChildren`: the template arguments -/
def visitRefs (s : Schema) (params : List Nat) : Nat → Bool → List Nat → List Nat → List Ref → State → Result
  | 0, _, _, _, _, _ => none
  | _ + 1, _, _, _, [], st => some (.ok st)
  | n + 1, resolved, subs, insts, r :: rs, st =>
    match visitRef s params n resolved subs insts r st with
    | some (.ok st) => visitRefs s params n resolved subs insts rs st
    | r => r

/-- ZserioAstTypeResolver.java:11-22 `visitSubtype`, 69-81 `visitInstantiateType`; other symbols are not visited when they are referred to -/
def visitNamed (s : Schema) (params : List Nat) : Nat → List Nat → List Nat → Nat → State → Result
  | 0, _, _, _, _ => none
  | n + 1, subs, insts, j, st =>
    match s[j]? with
    | some (.subtype t) =>
      if checkCycle subs j then some (.error .cycle)
      else
        match visitRef s params n (st.done.contains j) (subs ++ [j]) insts t { st with visits := st.visits + 1 } with
        | some (.ok st) => some (.ok (resolveSubtype s j t st))
        | r => r
    | some (.instantiate t) =>
      if checkCycle insts j then some (.error .cycle)
      else
        match visitRef s params n (st.done.contains j) subs (insts ++ [j]) t st with
        | some (.ok st) => some (resolveInstantiate s j t st)
        | r => r
    | _ => some (.ok st)
end

/-- a symbol of a package: ZserioAstTypeResolver.java:11-47, 83-90 (`visitType` sets the template parameters), ZserioAstWalker.java -/
def visitDecl (s : Schema) (n : Nat) (j : Nat) (st : State) : Result :=
  match s[j]? with
  | some (.subtype _) => visitNamed s [] n [] [] j st
  | some (.instantiate _) => visitNamed s [] n [] [] j st
  | some (.templatable ps refs) => visitRefs s ps n false [] [] refs st
  | some (.type refs) => visitRefs s [] n false [] [] refs st
  | some (.database refs) => visitRefs s [] n false [] [] refs st
  | some (.noType refs) => visitRefs s [] n false [] [] refs st
  | none => some (.ok st)

/-- some symbols, one after the other -/
def visitDecls (s : Schema) (n : Nat) : List Nat → State → Result
  | [], st => some (.ok st)
  | j :: js, st =>
    match visitDecl s n j st with
    | some (.ok st) => visitDecls s n js st
    | r => r

/-- the phase: ZserioTool.java:178-179 -/
def resolve (s : Schema) (n : Nat) : Result := visitDecls s n (List.range s.length) {}

end Zserio.TypeResolve
