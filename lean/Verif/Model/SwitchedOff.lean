import Verif.Model.Imports
import Verif.Model.Emitters

/-!
Which modules are written if some code is switched off by options (`-withoutSqlCode`, `-withoutServiceCode`, `-withoutPubsubCode`).

Paths are relative to compiler/extensions/python/src/zserio/extension/python.
-/

namespace Zserio.Imports

open Zserio

/-- whether the emitters write a module for a declaration: the conditions at the beginning of `beginSqlTable` (SqlTableEmitter.java:20-23),
`beginSqlDatabase` (SqlDatabaseEmitter.java:20-23), `beginService` (ServiceEmitter.java:20-23) and `beginPubsub` (PubsubEmitter.java:20-23);
the other emitters have none (ConstEmitter.java, SubtypeEmitter.java, EnumerationEmitter.java, BitmaskEmitter.java, StructureEmitter.java,
ChoiceEmitter.java, UnionEmitter.java) -/
def Decl.emitted (o : Emitters.Options) : Decl → Bool
  | .sqlTable .. => o.withSqlCode
  | .sqlDatabase _ => o.withSqlCode
  | .service _ => o.withServiceCode
  | .pubsub _ => o.withPubsubCode
  | _ => true

/-- whether `ApiEmitter` adds a symbol to its package: the same conditions in its methods `begin…` (ApiEmitter.java:33-115) -/
def Schema.inApi (o : Emitters.Options) (s : Schema) (n : Name) : Bool :=
  s.decls.any fun d => d.1 = n && d.2.emitted o

/-- what the generator writes of a schema: the same modules as without the options, except for those which are switched off -/
def Schema.emitted (o : Emitters.Options) (s : Schema) : Schema where
  decls := s.decls.filter fun d => d.2.emitted o
  apis := s.apis.map fun a => { a with symbols := a.symbols.filter (s.inApi o) }

end Zserio.Imports
