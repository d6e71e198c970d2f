import Verif.Axioms
import Verif.Lemmas.Array
import Verif.Lemmas.ArrayOffsets
import Verif.Lemmas.Bits
import Verif.Lemmas.BlockRead
import Verif.Lemmas.BlockWrite
import Verif.Lemmas.BuiltinTraits
import Verif.Lemmas.Calls
import Verif.Lemmas.ClashCheckers
import Verif.Lemmas.CodecMono
import Verif.Lemmas.Compound
import Verif.Lemmas.CompoundArray
import Verif.Lemmas.CompoundCanonical
import Verif.Lemmas.CompoundDemo
import Verif.Lemmas.CompoundElem
import Verif.Lemmas.CompoundEq
import Verif.Lemmas.CompoundEquiv
import Verif.Lemmas.CompoundField
import Verif.Lemmas.CompoundIdentity
import Verif.Lemmas.CompoundInner
import Verif.Lemmas.CompoundPlain
import Verif.Lemmas.CompoundSafe
import Verif.Lemmas.ConstEval
import Verif.Lemmas.ConstEvalSem
import Verif.Lemmas.Creator
import Verif.Lemmas.CreatorStep
import Verif.Lemmas.Depth
import Verif.Lemmas.DepthEq
import Verif.Lemmas.DocAttach
import Verif.Lemmas.DocComment
import Verif.Lemmas.Ends
import Verif.Lemmas.ExprBounds
import Verif.Lemmas.ExprParse
import Verif.Lemmas.Expression
import Verif.Lemmas.ExpressionEval
import Verif.Lemmas.ExpressionMain
import Verif.Lemmas.Extended
import Verif.Lemmas.FieldCheck
import Verif.Lemmas.Files
import Verif.Lemmas.Float
import Verif.Lemmas.FloatValue
import Verif.Lemmas.GeneratedNames
import Verif.Lemmas.Imports
import Verif.Lemmas.ImportsSound
import Verif.Lemmas.InitArray
import Verif.Lemmas.InitElem
import Verif.Lemmas.InitField
import Verif.Lemmas.InitFixed
import Verif.Lemmas.InitStruct
import Verif.Lemmas.JsonAccept
import Verif.Lemmas.JsonFuel
import Verif.Lemmas.JsonNames
import Verif.Lemmas.JsonParse
import Verif.Lemmas.JsonParser
import Verif.Lemmas.JsonPrefix
import Verif.Lemmas.JsonRead
import Verif.Lemmas.JsonReads
import Verif.Lemmas.JsonSound
import Verif.Lemmas.JsonText
import Verif.Lemmas.JsonTokenizer
import Verif.Lemmas.JsonTyped
import Verif.Lemmas.JsonValue
import Verif.Lemmas.JsonWrite
import Verif.Lemmas.JsonWriter
import Verif.Lemmas.Lexer
import Verif.Lemmas.LexerTokens
import Verif.Lemmas.Loading
import Verif.Lemmas.ObjectFields
import Verif.Lemmas.Objects
import Verif.Lemmas.OffsetCheck
import Verif.Lemmas.OffsetDemo
import Verif.Lemmas.OffsetWrite
import Verif.Lemmas.OptionalRefs
import Verif.Lemmas.Packages
import Verif.Lemmas.Packed
import Verif.Lemmas.PackedLoop
import Verif.Lemmas.Params
import Verif.Lemmas.PyClass
import Verif.Lemmas.PyGrammar
import Verif.Lemmas.PyModules
import Verif.Lemmas.RangeCheck
import Verif.Lemmas.Reader
import Verif.Lemmas.ReaderAny
import Verif.Lemmas.Rebuild
import Verif.Lemmas.Regenerate
import Verif.Lemmas.RemoteOffsets
import Verif.Lemmas.RemoteRun
import Verif.Lemmas.Reread
import Verif.Lemmas.Rewrite
import Verif.Lemmas.RewriteBuiltin
import Verif.Lemmas.RewriteField
import Verif.Lemmas.RewriteStruct
import Verif.Lemmas.SchemaCheck
import Verif.Lemmas.SchemaInfo
import Verif.Lemmas.Scopes
import Verif.Lemmas.ScopesBodies
import Verif.Lemmas.ScopesEval
import Verif.Lemmas.ScopesSlots
import Verif.Lemmas.SnakeCase
import Verif.Lemmas.SqlCheck
import Verif.Lemmas.SqlCreate
import Verif.Lemmas.SqlDatabase
import Verif.Lemmas.SqlEffects
import Verif.Lemmas.SqlRows
import Verif.Lemmas.SqlTable
import Verif.Lemmas.SqlText
import Verif.Lemmas.Templates
import Verif.Lemmas.TypeCheck
import Verif.Lemmas.TypeResolve
import Verif.Lemmas.Utf8
import Verif.Lemmas.ValEq
import Verif.Lemmas.ValidInit
import Verif.Lemmas.ValidInv
import Verif.Lemmas.ValidStruct
import Verif.Lemmas.ValidWrite
import Verif.Lemmas.VarRead
import Verif.Lemmas.VarSize
import Verif.Lemmas.VarWrite
import Verif.Lemmas.Walker
import Verif.Lemmas.WalkerFilter
import Verif.Lemmas.WalkerInstances
import Verif.Lemmas.WalkerPath
import Verif.Lemmas.WalkerReadable
import Verif.Lemmas.WalkerRegex
import Verif.Lemmas.Writer
import Verif.Lemmas.Written
import Verif.Model.Array
import Verif.Model.Base
import Verif.Model.BitBuffer
import Verif.Model.BitReader
import Verif.Model.BitSizeOf
import Verif.Model.BitWriter
import Verif.Model.Bitmask
import Verif.Model.Builtin
import Verif.Model.Calls
import Verif.Model.ChoiceCheck
import Verif.Model.ClashCheckers
import Verif.Model.Compound
import Verif.Model.CompoundEq
import Verif.Model.ConstEval
import Verif.Model.CppBind
import Verif.Model.Creator
import Verif.Model.DocAttach
import Verif.Model.DocClassic
import Verif.Model.DocComment
import Verif.Model.DocLinks
import Verif.Model.DocMarkdown
import Verif.Model.Emitters
import Verif.Model.EnumWarnings
import Verif.Model.Enumeration
import Verif.Model.ExprBounds
import Verif.Model.ExprBuild
import Verif.Model.ExprCompare
import Verif.Model.ExprParse
import Verif.Model.Expression
import Verif.Model.Extensions
import Verif.Model.FieldCheck
import Verif.Model.Files
import Verif.Model.Float
import Verif.Model.GeneratedNames
import Verif.Model.HashCode
import Verif.Model.Imports
import Verif.Model.JsonParser
import Verif.Model.JsonReader
import Verif.Model.JsonText
import Verif.Model.JsonTokenizer
import Verif.Model.JsonWriter
import Verif.Model.Lexer
import Verif.Model.Literal
import Verif.Model.Loading
import Verif.Model.Objects
import Verif.Model.OffsetCheck
import Verif.Model.OptionalRefs
import Verif.Model.Options
import Verif.Model.Packable
import Verif.Model.Packages
import Verif.Model.PackedArray
import Verif.Model.Params
import Verif.Model.ParseCheck
import Verif.Model.PathNames
import Verif.Model.PyExpr
import Verif.Model.PyInt
import Verif.Model.Regenerate
import Verif.Model.RemoteOffsets
import Verif.Model.Rules
import Verif.Model.RuntimeCalls
import Verif.Model.Schema
import Verif.Model.SchemaCheck
import Verif.Model.SchemaInfo
import Verif.Model.Scopes
import Verif.Model.Serialization
import Verif.Model.Service
import Verif.Model.ServiceCheck
import Verif.Model.Sql
import Verif.Model.SqlCheck
import Verif.Model.SqlColumns
import Verif.Model.SqlDatabase
import Verif.Model.SqlTable
import Verif.Model.SwitchedOff
import Verif.Model.SymbolConverter
import Verif.Model.Templates
import Verif.Model.TypeCheck
import Verif.Model.TypeInfo
import Verif.Model.TypeResolve
import Verif.Model.Utf8
import Verif.Model.VarDispatch
import Verif.Model.Version
import Verif.Model.Visibility
import Verif.Model.Walker
import Verif.Model.Warnings
import Verif.Props.Array
import Verif.Props.BitBuffer
import Verif.Props.Bitmask
import Verif.Props.Characters
import Verif.Props.ChoiceCheck
import Verif.Props.Compound
import Verif.Props.CompoundEq
import Verif.Props.CompoundInput
import Verif.Props.ConstEval
import Verif.Props.CppBind
import Verif.Props.Creator
import Verif.Props.Depth
import Verif.Props.DocAttach
import Verif.Props.DocClassic
import Verif.Props.DocComment
import Verif.Props.DocLinks
import Verif.Props.DocMarkdown
import Verif.Props.Emitters
import Verif.Props.EnumWarnings
import Verif.Props.Enumeration
import Verif.Props.ExprBounds
import Verif.Props.ExprCompare
import Verif.Props.ExprParse
import Verif.Props.Expression
import Verif.Props.Extended
import Verif.Props.Extensions
import Verif.Props.FieldCheck
import Verif.Props.Files
import Verif.Props.Float
import Verif.Props.Imports
import Verif.Props.InitFixed
import Verif.Props.JsonAccept
import Verif.Props.JsonDoc
import Verif.Props.JsonPositions
import Verif.Props.JsonReader
import Verif.Props.JsonReads
import Verif.Props.JsonText
import Verif.Props.JsonTokenizer
import Verif.Props.JsonTyped
import Verif.Props.JsonValue
import Verif.Props.Keywords
import Verif.Props.Lexer
import Verif.Props.Literal
import Verif.Props.Loading
import Verif.Props.Names
import Verif.Props.Objects
import Verif.Props.OffsetCheck
import Verif.Props.Offsets
import Verif.Props.OptionalRefs
import Verif.Props.Options
import Verif.Props.Packable
import Verif.Props.Packages
import Verif.Props.PackedArray
import Verif.Props.Params
import Verif.Props.ParseCheck
import Verif.Props.PathNames
import Verif.Props.Position
import Verif.Props.RangeCheck
import Verif.Props.Reader
import Verif.Props.Regenerate
import Verif.Props.RemoteOffsets
import Verif.Props.Reread
import Verif.Props.Rewrite
import Verif.Props.RoundTrip
import Verif.Props.Rules
import Verif.Props.RuntimeCalls
import Verif.Props.SchemaCheck
import Verif.Props.SchemaInfo
import Verif.Props.Scopes
import Verif.Props.Service
import Verif.Props.ServiceCheck
import Verif.Props.Sizes
import Verif.Props.SqlCheck
import Verif.Props.SqlChecked
import Verif.Props.SqlColumns
import Verif.Props.SqlDatabase
import Verif.Props.SqlTable
import Verif.Props.SwitchedOff
import Verif.Props.Templates
import Verif.Props.TypeCheck
import Verif.Props.TypeResolve
import Verif.Props.Valid
import Verif.Props.Version
import Verif.Props.Visibility
import Verif.Props.Walker
import Verif.Props.Warnings
import Verif.Props.Writer
import Verif.Spec.Array
import Verif.Spec.Bitmask
import Verif.Spec.Bits
import Verif.Spec.Calls
import Verif.Spec.ChoiceCheck
import Verif.Spec.Compound
import Verif.Spec.CompoundDemo
import Verif.Spec.CompoundEq
import Verif.Spec.ConstEval
import Verif.Spec.CppBind
import Verif.Spec.Creator
import Verif.Spec.Depth
import Verif.Spec.DocAttach
import Verif.Spec.DocClassic
import Verif.Spec.DocComment
import Verif.Spec.DocLinks
import Verif.Spec.DocMarkdown
import Verif.Spec.Emitters
import Verif.Spec.EnumWarnings
import Verif.Spec.Enumeration
import Verif.Spec.ExprBounds
import Verif.Spec.ExprCompare
import Verif.Spec.ExprParse
import Verif.Spec.Expression
import Verif.Spec.Extensions
import Verif.Spec.FieldCheck
import Verif.Spec.Ieee
import Verif.Spec.Imports
import Verif.Spec.JsonDoc
import Verif.Spec.JsonImage
import Verif.Spec.JsonPositions
import Verif.Spec.JsonReader
import Verif.Spec.JsonReads
import Verif.Spec.JsonText
import Verif.Spec.JsonTokenizer
import Verif.Spec.JsonValue
import Verif.Spec.Lexer
import Verif.Spec.Literal
import Verif.Spec.Loading
import Verif.Spec.Names
import Verif.Spec.Objects
import Verif.Spec.OffsetCheck
import Verif.Spec.Offsets
import Verif.Spec.OptionalRefs
import Verif.Spec.Options
import Verif.Spec.Packable
import Verif.Spec.Packages
import Verif.Spec.Packed
import Verif.Spec.Params
import Verif.Spec.ParseCheck
import Verif.Spec.PathNames
import Verif.Spec.PyClass
import Verif.Spec.PyExpression
import Verif.Spec.PyImport
import Verif.Spec.PyModules
import Verif.Spec.Rebuild
import Verif.Spec.Regenerate
import Verif.Spec.RemoteOffsets
import Verif.Spec.Rewrite
import Verif.Spec.RewriteDemo
import Verif.Spec.Rules
import Verif.Spec.RuntimeCalls
import Verif.Spec.SchemaCheck
import Verif.Spec.SchemaInfo
import Verif.Spec.SchemaInfoDemo
import Verif.Spec.Scopes
import Verif.Spec.Service
import Verif.Spec.ServiceCheck
import Verif.Spec.Sql
import Verif.Spec.SqlCheck
import Verif.Spec.SqlColumns
import Verif.Spec.SqlDatabase
import Verif.Spec.SwitchedOff
import Verif.Spec.Templates
import Verif.Spec.TypeCheck
import Verif.Spec.TypeResolve
import Verif.Spec.Typed
import Verif.Spec.Valid
import Verif.Spec.Version
import Verif.Spec.Visibility
import Verif.Spec.Walker
import Verif.Spec.Warnings
import Verif.Spec.Wire
import Verif.Spec.Written
