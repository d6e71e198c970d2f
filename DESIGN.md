# Formal model of the zserio Python runtime and generated code (Lean 4)

## 1. Scope

The subject is the Python side of ndsev/zserio: the runtime package
`compiler/extensions/python/runtime/src/zserio` and the code generated by the FreeMarker templates in
`compiler/extensions/python/freemarker`.  Everything was read as text; nothing was run.

* `lean/Verif/Spec/*`   small, self-contained specifications (bit lists, numeric limits, IEEE 754 meaning, what a
  format stores, the JSON grammar, what a document stands for, ...),
* `lean/Verif/Model/*`  the models, function by function, each definition citing file and lines,
* `lean/Verif/Lemmas/*` helper lemmas,
* `lean/Verif/Props/*`  the property theorems (one block per property id) with non-vacuity examples,
* `lean/Verif/Axioms.lean` prints the axioms of the property theorems.

### What is modelled

| source | model |
|--------|-------|
| `bitwriter.py`, `bitreader.py`, `bitsizeof.py`, `bitposition.py`, `bitbuffer.py`, `bitfield.py`, `builtin.py`, `limits.py`, `float.py`, `hashcode.py` | `BitWriter`, `BitReader`, `BitSizeOf`, `VarDispatch`, `Calls`, `BitBuffer`, `PyInt`, `Builtin`, `Float`, `HashCode`, `Utf8` |
| `array.py` (arrays, packed arrays, `DeltaContext`, all array traits) | `Array`, `PackedArray`, `Builtin` |
| `Structure/Union/Choice.py.ftl`, `CompoundField.inc.ftl`, `CompoundParameter.inc.ftl`, `ArrayTraits.inc.ftl` | `Schema` (values and schemas), `Compound` (methods), `CompoundEq` (`__eq__`, `__hash__`) |
| `Enumeration.py.ftl`, `enum.py`, `Bitmask.py.ftl` | `Enumeration`, `Bitmask` |
| `serialization.py` | `Serialization` |
| `typeinfo.py`, `TypeInfo.inc.ftl`, `walker.py`, `creator.py` | `TypeInfo`, `Walker`, `Creator` |
| `json.py`, `debugstring.py` | `JsonText`, `JsonTokenizer`, `JsonParser`, `JsonWriter`, `JsonReader` |
| `service.py`, `pubsub.py`, `Service.py.ftl`, `Pubsub.py.ftl` | `Service` |
| `SqlTable.py.ftl`, `SqlDatabase.py.ftl` | `SqlTable`, `SqlDatabase`, over `Sql` (the used part of SQLite and apsw, trusted) |
| `ExpressionFormatter.java`, `PythonExpressionFormattingPolicy.java` | `Model/Expression.lean` (token lists); the Python subset: `Model/PyExpr.lean` |
| `PythonSymbolConverter.java`, `AccessorNameFormatter.java` | `Model/SymbolConverter.lean`, `Model/GeneratedNames.lean` |
| `PythonScopeSymbolClashChecker.java`, `PythonGeneratedSymbolsClashChecker.java`, `ReservedKeywordsClashChecker.java` | `Model/ClashCheckers.lean`; class definitions of Python: `Spec/PyClass.lean` |
| `Package.java` (names), `PackageSymbolValidator` checks, `PythonModuleClashChecker.java`, `PythonPackageWithModuleClashChecker.java`, `PythonApiClashChecker.java`, `PythonTopLevelPackageClashChecker.java`, `InitPyEmitter.java`, `ApiEmitter.java`, `api.py.ftl` | `Model/Packages.lean`; imports of Python: `Spec/PyImport.lean` |
| `PythonTemplateData.java`, the imports collected by `*EmitterTemplateData.java`, `CompoundFieldTemplateData.java`; `FileHeader.inc.ftl`, `Constant.py.ftl`, `Subtype.py.ftl`, what the other templates evaluate while being imported | `Model/Imports.lean`; execution of imports by Python: `Spec/PyModules.lean` |
| serialization.py `serialize_to_file`, `deserialize_from_file`, bitwriter.py `to_file`, bitreader.py `from_file`, debugstring.py `to_json_file`, `from_json_file` | Model/Files.lean: files as a map from names to bytes, changed by operations of one byte; the operations reach the disk in order, opening a file for writing succeeds |
| literals: `Expression.java` (strip functions), `PythonExpressionFormattingPolicy.java` (literals) | Model/Literal.lean, with the lexical rules of Python for numbers and for strings in double quotes (underscores in numbers and `\N{...}` are not modelled) |
| constructors, properties, `is_present`, `is_set`, `reset`, `choice_tag`: `Structure.py.ftl`, `Union.py.ftl`, `Choice.py.ftl`, `CompoundField.inc.ftl` | Model/Objects.lean, with references: objects live in a heap, default values of arguments are evaluated once, with the class. Parameters of compound types in objects which are read are not modelled |
| instantiation of templates: `ZserioAstTemplator.java`, `TemplateArgument.java`, `TypeReference.instantiate`, `Package.getVisibleInstantiateType` | Model/Templates.lean. Warnings, and hash codes of the keys of Java maps are not modelled; parameters of templates are referred to by index |
| evaluation of constants, enumerations and bitmasks in the compiler: `ZserioAstEvaluator.java`, `Expression.evaluate`, `ExpressionIntegerValue.java` (known values), `EnumType.java`, `BitmaskType.java`, `Constant.java` | Model/ConstEval.lean. Names are resolved already; bounds of values which are not known are not modelled; declarations are marked as evaluated as a whole |
| structural checks of the compiler: `CompoundType.java` (recursion, extended fields, branches), `StructureType.java`, `UnionType.java`, `ChoiceType.java`, `ArrayInstantiation.java`, `ZserioParseTreeChecker.java` (implicit and packed arrays) | Model/SchemaCheck.lean. Works on the schemas of Model/Schema.lean; the lower bound of an array length is any function; bit fields `bit<n>` with a constant length are not distinguished from `bit:n` |
| checks of choices and the generated selection: `ChoiceType.java` (default, types of cases, duplicated cases), `Choice.py.ftl` (`choice_if`) | Model/ChoiceCheck.lean. Case expressions are given by their type, their known integer, the text which is compared and their value in generated code |
| range checks (`-withRangeCheckCode`): `CompoundField.inc.ftl` (`compound_check_range_field`), bounds of `StdIntegerType`, `FixedBitFieldType`, `VarIntegerType`, `bitfield.py` | Model/Compound.lean (`rangeBounds`, `checkRange`); a field has a flag which says whether its range is checked |
| bounds of integer expressions: `ExpressionIntegerValue.java`, `Expression.java` (`evaluate*`), `DynamicBitFieldInstantiation.java` | Model/ExprBounds.lean; names are resolved, `needsBigInteger` is left out |
| type infos of generated classes: `TypeInfo.inc.ftl`, `type_info` and the constructors in `Structure.py.ftl`, `Union.py.ftl`, `Choice.py.ftl` | Model/SchemaInfo.lean; names, enumeration and bitmask classes are given by `Labels` |
| names and imports: `Package.java`, `Import.java`, `TypeReference.resolve`, identifiers and dots in `Expression.java` | Model/Visibility.lean; without warnings and template parameters |
| scopes: `ZserioAstScopeSetter.java`, `Scope.java`, identifiers and function calls of `Expression.java`, `ZserioAstEvaluator.java` | Model/Scopes.lean; only names, without types and values |
| parameters which are objects: `CompoundField.inc.ftl` (read, check of parameters), `Bitmask.py.ftl` operators | Model/Params.lean; objects have addresses; what a field reads is arbitrary |
| documentation comments: `DocComment.inc.ftl`, `DocCommentsTemplateData.java` | Model/DocComment.lean, with the lexical rules of Python for string literals in triple quotes; how comments are parsed into paragraphs is not modelled, all results are considered |
| checks of the compiler for offsets: `ExpressionUtil.checkOffsetFields`, `Field.evaluate`, `checkOffsetExpression`, `StructureType.checkDuplicatedOffsets`, `Function.check`, `ZserioParseTreeChecker` (offset expressions) | Model/OffsetCheck.lean; schemas with expressions as trees, compiled to Model/Schema.lean; operators on values which are no objects are arbitrary |
| offsets in other objects: `initialize_offsets`, `write` of structures with a heap of objects, `ExpressionFormatter.formatSetter/formatGetter` for offset expressions, `Field.checkOffsetExpression` | Model/RemoteOffsets.lean; structures without extended fields and packing; conditions and checks are arbitrary functions of all objects |
| runs of the compiler: `ZserioTool.parsePackage`, `InputFileManager.registerFile`, `OutputFileManager.checkTimestamps/registerOutputFile`, `PythonDefaultEmitter.processTemplate/checkGeneratorDescription`, `FreeMarkerUtil.processTemplate`, `TemplateDataContext.generatorDescription` | Model/Regenerate.lean; a machine with files, time stamps, a clock and single steps; the generated texts are a parameter; one run at a time; output files are decoded without errors |
| checks of SQL tables and databases: `SqlTableType.check` with all its parts, `SqlConstraint` (the regular expressions and their matcher), `SqlDatabaseType.check`, `CompoundType.checkSqlSymbolNames/checkSqlTableFields/checkNonSqlTableFields` | Model/SqlCheck.lean; constraints are evaluated texts, names are ASCII |
| type checking of expressions: `Expression.evaluate` and all functions `evaluate…` it calls | Model/TypeCheck.lean; names are resolved, without templates, extern types and ranges of integers |
| warnings about references to optional fields: `Expression.getReferencedOptionalFields`, `Field.checkOptionalReferences`, `ExpressionComparator`, `Function`, `ChoiceType` | Model/OptionalRefs.lean; names are resolved, texts of expressions are compared as expressions, hash codes of syntax tree objects are taken to be different |
| checks of fields: `Field.check`, `ExpressionUtil`, `ArrayInstantiation`, `ParameterizedTypeInstantiation`, `DynamicBitFieldInstantiation`, `@index` in `ZserioParseTreeChecker` | Model/FieldCheck.lean; types are resolved, extended and optional keywords and offsets (C93) are left out |
| options: `WarningsConfig`, `CommandLineArguments.readOptions`, `validateOptions`, `IdentifierValidator.validateTopLevelPackageId`, `ZserioToolPrinter.printWarning` | Model/Options.lean; the command line is taken after the library Commons CLI has split it |
| versions: `ZserioVersion`, `ExtensionVersionMatcher`, `CompatibilityVersion`, `CompatibilityChecker` | Model/Version.lean; digits of other scripts, which `Integer.parseInt` accepts but the pattern does not, are refused also for pre-releases |
| packable types: `ArrayInstantiation`, `CompoundType`, `UnionType`, `Field` (`isPackable`), `PackedTypesCollector`, the conditions in the templates under which methods for packed arrays are generated and called | Model/Packable.lean; templates resolved |
| resolution of references to types: `ZserioAstTypeResolver`, `TypeReference.resolve`, `Subtype.resolve`, `InstantiateType.resolve` | Model/TypeResolve.lean; the visible symbol of a name is given (C88), the checks of `TypeInstantiation.resolve` are left out |
| identifiers of rules: `Rule`, `RuleIdValidator`, `RuleIdUniqueChecker` | Model/Rules.lean; values of constant expressions are given (C81) |
| warnings about unhandled items of enumerations and about unused types: `ChoiceType.checkEnumerationCases`, `ZserioAstChecker` | Model/Warnings.lean; conditions of conditional operators are given by their values; the collected references of definitions are given |
| grammar of expressions: the rule `expression` of `ZserioParser.g4`, as the parser which ANTLR generates from it, `ZserioAstBuilder.visitShiftExpression` | Model/ExprParse.lean; works on tokens; the prediction of ANTLR is replaced by two tokens of lookahead, so the end of an expression before `>` (in `bit<n>`) is not covered; Model/ExprBuild.lean: the expressions built from the trees |
| lexer: all rules of `ZserioLexer.g4` as regular expressions, and the choice of the rule by the lexer which ANTLR generates | Model/Lexer.lean; positions of tokens are not part of the model; the error recovery of ANTLR is not, since the first error ends the compiler |
| services and Pub/Sub types: `ServiceMethod.check`, `PubsubMessage.check`, the checks of names, and the methods of the classes generated by `Pubsub.py.ftl` and `Service.py.ftl` | Model/ServiceCheck.lean; attributes of classes as lists of names and bodies; what the bodies do is Model/Service.lean |
| documentation comments in schemas: `DocCommentManager`, `DocCommentsDataCreator` | Model/DocAttach.lean; on the tokens of Model/Lexer.lean; `getHiddenTokensToLeft` of the library ANTLR and the regular expressions of Java are modelled by hand; which comments can be parsed is a parameter |
| loading of schemas: `ZserioTool.parse`, `InputFileManager`, `ZserioAstImporter`, packages and imports of `ZserioAstBuilder`, warnings of `Package.resolveImports` | Model/Loading.lean; normalisation of paths by java.io.File is not modelled |
| checks on parse trees: `ZserioParseTreeChecker` | Model/ParseCheck.lean; on the trees of Model/ExprParse.lean; the visitor with its flags; warnings about the encoding of files are not modelled |
| columns of SQL tables: `SqlNativeTypeMapper`, `SqlTableEmitterTemplateData`, `checkExplicitParameters` of `PythonScopeSymbolClashChecker`, conditions of SqlTable.py.ftl | Model/SqlColumns.lean; the rules of SQLite for the affinity of columns are in Spec/SqlColumns.lean and are trusted |
| choice of the implementation: cppbind.py and its calls in exception.py, bitbuffer.py, bitreader.py, bitwriter.py | Model/CppBind.lean; the C++ classes themselves are not modelled |
| calls of the runtime in generated code: RuntimeFunctionDataCreator.java (createData), PythonNativeMapper.java (built-in types), BitSize of CompoundFieldTemplateData.java, CompoundField.inc.ftl, ArrayTraits.inc.ftl | Model/RuntimeCalls.lean |
| see tags: SymbolReference.java, DocTagSee.java, ZserioAstSymbolResolver.java, DocTagSeeData of DocCommentsTemplateData.java, getPythonSymbol of PythonNativeMapper.java | Model/DocLinks.lean; visibility of symbols is that of Model/Visibility.lean |
| calls of extensions: ExtensionManager.java (constructor, callExtensions, check, process), ZserioTool.java process | Model/Extensions.lean; extensions are the outcomes of their methods |
| emitters: ZserioAstTreeWalker.java, PythonExtension.java process, PythonDefaultEmitter.processSourceTemplate, the conditions of all emitters, ApiEmitter.java | Model/Emitters.lean; on the result of the templator of Model/Templates.lean |
| options which switch off code: the conditions in SqlTableEmitter.java, SqlDatabaseEmitter.java, ServiceEmitter.java, PubsubEmitter.java, ApiEmitter.java | Model/SwitchedOff.lean; on the modules of Model/Imports.lean |
| markdown documentation comments: DocCommentMarkdown.java, the parts of PackageName.java and StringJoinUtil.java it uses | Model/DocMarkdown.lean; locations are left out |
| warnings of enumerations: enum.py, Enumeration.py.ftl, ItemInfo of typeinfo.py | Model/EnumWarnings.lean; items named name or value, which enum.Enum treats in a special way, are left out |
| paragraphs of classic documentation comments: DocCommentAstBuilder.java, DocMultiline.java, DocParagraph.java | Model/DocClassic.lean, with references to nodes in a heap; the grammar DocComment.g4 and locations are left out |
| comparison of expressions: ExpressionComparator.java, ExpressionFormatter.java, DefaultExpressionFormattingPolicy.java | Model/ExprCompare.lean; on the trees of Model/ExprParse.lean; texts are lists of pieces |
| names in expressions: PythonExpressionFormattingPolicy.java (identifiers and dots), PythonStructExpressionFormattingPolicy.java, PythonChoiceExpressionFormattingPolicy.java | Model/PathNames.lean; without calls, indices, setters and SQL columns |

### What is not modelled

* The optional C++ re-implementation selected by `cppbind.import_cpp_class`: the theorems are about the pure
  Python classes.
* The Java code of the compiler and of the generator, except for the parts in the table above; in particular the grammar of classic documentation comments (DocComment.g4) and FreeMarker itself.
* Texts of exceptions, `__repr__`.
* `SqlDatabase` parameters other than the ones named in `Model/SqlDatabase.lean`.
* Interpreter limits: the recursion limit (except for its effect on nested objects, C91), memory, and the limit of 4300 digits of `int(str)`.

## 2. Modelling conventions

* Python `int` is `Int` (or `Nat` where the code guarantees non-negativity); unbounded as in Python.
* `bytes`/`bytearray` is `List UInt8`; `list` is `List`; `str` is the list of its code points.
* A method of a mutable object is a state-passing function `σ → Except Err α × σ`.  The state is returned in
  the exception case too, so partial effects before a `raise` are visible and theorems about "leaves the
  object unchanged" mean something.
* A `raise` of any exception class is a value of `Err`; messages are not modelled, but different raise sites
  use different constructors where a property distinguishes them.
* A loop is structural recursion over the list / the range it iterates over.
* A schema is a table of compound definitions (`Schema.lean`).  Expressions of the schema are arbitrary functions
  of the parameters, of the earlier fields and of the index, which may raise; theorems hold for all of them.
  Rules of the zserio compiler which a theorem needs are explicit hypotheses (`Layout`, `Sound`, ...), and the
  examples beside the theorems show schemas which satisfy them.
* Recursive types are unfolded up to a depth `n` (`Schema.codec n id`); theorems hold for every `n`, and running
  out of depth is an exception, so "succeeds" in a hypothesis implies the depth was enough.

### Simplifications which limit what a theorem says

* Compound parameters are integers, booleans and enumerations (as integers); parameters of compound or string
  type are not modelled.
* Offset fields are earlier fields of the same structure, except in Model/RemoteOffsets.lean (C94), where they are in any object.
* A generated object used where another class is expected is not distinguished by its class (`Creator.lean`).
* `ZserioPackingContext` objects are created on demand instead of in the constructor.
* An observer of the walker cannot change the walk; the model returns the list of events.
* Floats are IEEE 754 bit patterns.  Conversions are exact on the modelled operations; a conversion between
  widths makes a signalling NaN quiet.
* Regular expressions are arbitrary predicates (C41).
* `float(str)`, `repr(float)`, `str.isprintable`-like functions of the standard library are the parameters
  `PyText` of the JSON model; the laws assumed of them are the fields of `PyText.Lawful` and appear as a
  hypothesis of each theorem that needs them.
* SQL: a text of a statement is parsed and executed by `Model/Sql.lean`; conditions, constraints and the order of
  rows are arbitrary (`Engine`); column affinity, row ids, several connections and changes during a query are not
  represented.  Attaching the main file again or `:memory:` is not represented.

## 3. Trusted base

* Lean 4.33.0's kernel; the axioms `propext`, `Classical.choice`, `Quot.sound` (at most; see section 6).
  No axiom is added, no proof is left open, no external evaluation is used.
* The faithfulness of the hand-written model with respect to the cited source lines.
* The model of the Python primitives used by the code: integer arithmetic (`//`, `%`, `<<`, `>>`, `&`, `|`,
  `int.to_bytes`, `int.from_bytes`, `int.bit_length`), slices, `str.encode("utf-8")`, `bytes.decode("utf-8")`,
  `struct.pack/unpack(">f"/">d")` at the level of bit patterns.  Each is defined in the model and documented there.
* `Model/Sql.lean` as a description of SQLite and apsw.

## 4. Property by property

See `properties.jsonl` for the full English statements and `MANIFEST.json` for the theorems.

| id | model | proof |
|----|-------|-------|
| C01 | `BitStreamWriter` (bytes + bit position), all write methods | refinement: abstraction to the list of bits written; one lemma per method, induction over the call list |
| C02 | same | corollary of C01: bits of the later state extend those of the earlier one |
| C03 C04 | writer + reader `read_bits*` | write appends `natBits n v`; read returns the value of the next n bits; `natBits`/value are inverse |
| C05 | same | case split on the guards |
| C06 | `_write_varnum`, nine read methods | recursion on the byte index relates the writer's shifts to the reader's accumulation |
| C07 C08 C09 | `bitsizeof_*`, limits | table lookup lemma: first index whose bound is not exceeded |
| C10 C11 C12 C13 | reader over arbitrary buffers | invariant by induction over calls; relational induction for C12 |
| C14 | bytes / string / bit buffer methods, both paths | both paths append the same bits; UTF-8 encoder/decoder modelled explicitly |
| C15 | typed operations | induction over the operation list using C01/C03/C04/C06/C14 |
| C16 C19 | `alignto` x3 and position helpers | integer arithmetic |
| C17 C18 | `BitBuffer` | equality of byte prefixes and masked last byte iff equality of bit lists |
| C20 C21 | `numbits`, bit field bounds | arithmetic |
| C22 | `hashcode.py` | modular arithmetic, fold lemmas |
| C23 C24 | `float.py` at bit-pattern level | arithmetic on the fields of the pattern; both false in part (section 5) |
| C25 C26 C27 | `Array` with abstract element traits | induction over the element list, instantiated for all built-in traits |
| C28 C29 C30 C31 | `DeltaContext` | invariant linking the context after `init` of all elements with the write and read passes; C31 is false (section 5) |
| C32 C33 C34 C35 C36 C48 C49 | schema language + interpreters that mirror the templates macro by macro | induction over the depth and over fields/elements; one specification of each method relative to the bits it writes |
| C37 C51 | `__eq__`/`__hash__` templates | induction over depth and values; false in part |
| C38 C39 | Bitmask / Enumeration templates | bit lemmas; list lookup lemmas |
| C40 C41 | `Walker` and filters | induction over object trees, events as a list |
| C42 | `ZserioTreeCreator` | state machine, induction over call sequences / trees |
| C43 C44 C56 | JSON encoder and decoder | encoder/decoder inverse by induction over strings; exact grammars |
| C45 | `JsonTokenizer` | simulation between a tokenizer on chunks and one on the whole text; counterexample + partial |
| C46 C55 | `JsonWriter`, `JsonParser` | grammar of documents; soundness and completeness of the parser by induction over documents / texts |
| C47 C52 C57 C58 | `JsonReader` with creator | relation "the document stands for the object" and simulation of the reader's calls of the creator |
| C50 C53 C54 | `service.py`, `pubsub.py`, generated services | state machine over histories of accesses; composition with C33 |
| C59 C60 C61 C62 C63 | generated SQL tables over the model of SQLite | the generated texts parse to the intended statements; effects on tables by induction over rows and columns |
| C64 C65 C66 | generated SQL databases | invariants of the attach loop, loops over tables, transactions as saved content |
| C67 | generated expressions | uniqueness of Python's grammar by mutual induction over derivations; structural induction over expressions; type soundness |
| C68 | members of generated classes | the class body as groups of statements; names of different sources are different; execution of the body by induction |
| C70 | snake case | induction over names, both passes of the regular expressions against a one-pass specification |
| C69 | generated modules and packages | invariant of the emitters over the list of packages; different paths of different symbols; lookup in the file tree |
| C72 | imports of generated modules | big-step semantics of Python's imports; invariant: what is started is complete or being executed; what is evaluated is not reached back; induction over the modules not yet started |
| C73 | files | the operations on the file system of every call; induction over the bytes; every character of a JSON text can be encoded and is not a carriage return, by induction over the events of the walk |
| C74 | reading, then writing | every read method by inversion: the value is in range, hence the write method succeeds (induction over the schema and the depth), and it is canonical, hence it is read back (C33) |
| C75 | writing valid and invalid objects | success of every write method on the values of its type, and of packing and size methods (induction over the schema and the depth; with offsets the result is success or a wrong offset, and C34 excludes the latter); inversion of every write method |
| C76 | literals | the documented grammar and meaning of literals as specification, the functions of the compiler followed by the lexical rules of Python as model; induction over the characters of the literal |
| C77 | sharing of objects | a heap of mutable objects, programs as sequences of statements over variables; a set of addresses closed under references that grows only by new objects is kept by every statement, and statements change only objects in it |
| C78 | accessors | the same heap; case analysis over kinds of fields and induction over the lists of fields |
| C79 | instantiation of templates | the templator as a state machine over the map of instantiations; an invariant relates calls and instantiations, names are determined by types; induction on the depth of visits |
| C80 | names of instantiations | the same; an invariant tells what the map of clashes contains |
| C81 | evaluation of constants, enumerations and bitmasks | the recursion of the evaluator with its state; what it computes is the bottom-up evaluation of an acyclic graph (`Built`), which is compared with the meaning of the declarations given as equations; induction on the table and on expressions |
| C82 | structural checks of the compiler | the recursive checks with the depth of the stack as a parameter; the number of types nested in a type is the measure that bounds the depth; soundness by induction on paths |
| C83 | the same, with the codec of generated code | the checks imply `Schema.Layout`, from which the round trip follows (C33); counterexamples are evaluated for implicit arrays |
| C84 | checks of choices and the generated `if` statement | clauses with the grammar of Python `if` statements; the branch executed is the first case that lists the value, which is the only one; the selection of the codec model is proved to be that branch (`C84_codec`) |
| C85 | generated `write` with all its checks, packed and unpacked | inversion of every write (packed contexts need not be in step): what holds of a written object (`Schema.Held`); the parts of an object to any depth as an inductive relation (`Schema.Part`); validity for schemas whose packed arrays are safe |
| C86 | compile-time values and bounds of expressions | induction over the expression; bounds of products and truncated quotients by their corners; deviations by concrete expressions for all values of the other fields |
| C87 | type infos against reading | induction over the depth of the schema: what each reading method returns fits the member info (`Fits`); then C52 and C74 |
| C88 | names and imports | invariant of the fold over the imports (both lists as sets, without duplicates), then case analysis; the rules of the language guide in Spec/Visibility.lean |
| C89 | scopes and functions | closed form of the scopes by induction over the members; an invariant of evaluation (results of functions, evaluated functions, references); termination of calls by the number of functions; Spec/Scopes.lean |
| C90 | parameters which are objects | results of expressions do not change when objects are added and further fields are set (induction over expressions); induction over the fields; Spec/Params.lean |
| C91 | the limit of the recursion of generated methods | relation (same result, or RecursionError) between the methods for two limits, kept by every combinator (Lemmas/CodecMono.lean), and equality for objects of smaller depth (Lemmas/Depth.lean); Spec/Depth.lean |
| C92 | documentation comments in generated code | every output of a macro consists of texts of the comment with text of the template between them (composition lemmas); induction over the text for the lexer; Spec/DocComment.lean |
| C93 | offsets in accepted schemas | values of expressions on objects which differ only in offsets are equal, by induction over the expression and the depth of calls, with a relation by static type; then the hypothesis of C34 follows; Spec/OffsetCheck.lean |
| C94 | offsets in other objects | a run of `initialize_offsets` leaves all objects similar and stores offsets in listed places; if these are distinct, writing any similar objects with the same offsets ends at the computed position; sequencing lemma and induction over elements, fields and depth; Spec/RemoteOffsets.lean |
| C95 | incremental code generation | invariant of a run by steps, which gives its exact effect; invariant of histories: each generated file is that of some compiler and view of the schema, and this is still the view unless a file is newer; induction over the history; Spec/Regenerate.lean |
| C96 | checks of SQL tables | each check is equivalent to its rule, by induction over columns and names; the matchers are shown sound and complete for a grammar of clauses; Spec/SqlCheck.lean |
| C97 | type checking of expressions | soundness and completeness against the typing rules of C67 by induction over expressions, progress by induction with the values of C67; Spec/TypeCheck.lean |
| C98 | warnings about optional fields | induction over expressions: what the scan collects is true wherever the evaluation gets to; Spec/OptionalRefs.lean |
| C99 | checks of fields | the checks are characterised by rules, which are combined with C97 (values exist and have their types), C86 (numbers the compiler knows) and C16 (alignment); Spec/FieldCheck.lean |
| C100 | options of the compiler | induction over the lists of options; a finite table of warnings; Spec/Options.lean |
| C101 | versions and compatibility checks | case analysis; the pattern is matched by a deterministic scan; Spec/Version.lean |
| C102 | packable types and methods for packed arrays | induction on the number of calls with a rank of types, least fixed point; Spec/Packable.lean |
| C103 | resolution of references to types, cycles | induction on the number of calls, accessibility of symbols, finite graphs; Spec/TypeResolve.lean |
| C104 | identifiers of rules | induction on lists; Spec/Rules.lean |
| C105 | warnings about unhandled items and unused types | induction on lists, with the generated choice of C84; Spec/Warnings.lean |
| C106 | grammar of expressions | soundness and completeness of the parser with respect to trees grouped by the table of the guide; inductions on the number of steps and on trees; Spec/ExprParse.lean |
| C108 | lexer | regular expressions by derivatives, proved equal to plain descriptions of the forms of tokens; induction on the text and on layouts; Spec/Lexer.lean |
| C107 | services and Pub/Sub types: checks and generated classes | induction on the lists of methods; the attributes of the class are characterised exactly, and names with different prefixes differ; refinement to the service of C53 and the Pub/Sub class of C54; Spec/ServiceCheck.lean |
| C109 | documentation comments in schemas | induction on the tokens before a declaration and on the lines of a comment; lines are counted from the text; Spec/DocAttach.lean |
| C110 | loading of the files of a schema | invariants of the recursion over imports, nested induction on depth and list of imports; the specification is reachability in Spec/Loading.lean |
| C111 | checks on parse trees | induction on expressions for each setting of the flags, then on the list of declarations: the flags are the same behind each declaration; Spec/ParseCheck.lean has no flags |
| C112 | columns of SQL tables | the documented table as a relation; the affinity of the declared type by the rules of SQLite keeps all values of the type; induction on the fields for the sorted set of explicit parameters |
| C113 | choice of the implementation of the runtime | cases on the variable and on the attributes of the C++ module; Spec/CppBind.lean |
| C114 | calls of the runtime by name | cases on the documented types; with the laws of the array traits of C25 for C114_field; Spec/RuntimeCalls.lean |
| C115 | links of see tags | inversion of the resolution for soundness, cases on kinds of members for the links; Spec/DocLinks.lean has the objects of the generated code |
| C116 | calls of extensions | an invariant of sequences of calls (stop at the first failure, check before process) closed under sequential composition; Spec/Extensions.lean says which calls succeed |
| C117 | walk and emitters | permutations of lists of symbols; that instantiations are where they are asked for follows from the invariant of the templator (C79); Spec/Emitters.lean has what a schema consists of |
| C118 | modules without what is switched off | the schema without what is switched off still meets the conditions of C72 if nothing which is left names it; otherwise no state after the import exists (invariant: what is started has a module); Spec/SwitchedOff.lean |
| C119 | positions of tokens and exceptions | one step of the tokenizer on the joined text (from C45) gives the position of the next token from the text before it, by induction on the white space; the parser only moves the tokenizer forward and never after the end or an exception; Spec/JsonPositions.lean |
| C120 | text, paragraphs and links of markdown comments | the groups of the regular expression determine the line and are determined by it; induction on the length of the line; paths against an inductive relation of steps; Spec/DocMarkdown.lean |
| C121 | warnings of enumerations | computations with the list of items for which they warn; case analysis and induction on the list of items; Spec/EnumWarnings.lean |
| C122 | paragraphs of classic comments | invariant of the visitor with its heap, by induction on the elements from the right; the properties are shown to determine the result; Spec/DocClassic.lean |
| C123 | comparison of expressions | the text is the text of a grouped tree with parentheses around conditions; uniqueness of the grouping (C106); Spec/ExprCompare.lean |
| C124 | formatting of paths, attributes of generated objects, reading of dotted names by Python | induction on paths; Spec/PathNames.lean |
## 5. Disagreements between code and property (findings)

Proved as theorems or examples in Lean:

1. `BitStreamReader` accepts a negative bit size, with which the position is not inside the stream
   (`C10_negative_size_counterexample`).
2. A half-precision signalling NaN does not survive a read/write cycle (`C23_counterexample`).
3. `float_to_uint16` flushes values in (2^-25, 2^-24) to zero and keeps the significand when the exponent overflows, so
   that finite values such as 98304.0 become NaN instead of infinity (`C24_flush`, `C24_overflow_counterexamples`).
4. A corrupted packed array can produce values outside the element type (`C31_counterexample`); deltas of values outside
   the type can be written (`packed_write_unchecked`); bitmask values in packed arrays are not checked
   (`C38_packed_unchecked`).
5. Equal objects with `0.0` and `-0.0` have different hash codes (`C37_zero_signs`); objects with an optional field that
   is set but not used compare equal with different hash codes (`C37_unused_field`); equality is not symmetric for
   choices with an empty case and for objects with NaN not reflexive (`C51_empty_case`, `C51_nan`).
6. `RegexWalkFilter` ignores a match of a compound array element itself (`C41_regex_element_ignored`).
7. `ZserioTreeCreator` makes extended fields present (`C42_extended_present`).
8. The JSON decoder rejects `\/` and does not combine surrogate escapes (`C43_slash_rejected`,
   `C43_surrogates_not_combined`), and accepts numbers with leading zeros and `.e` shapes (examples of C56).
9. `JsonTokenizer`: a chunk ending in white space followed by a final chunk that is exactly one value loses
   that value (`C45_counterexample`).
10. A string of digits for a bitmask raises `IndexError` in `JsonReader` (`C47_digits_only`).
11. `ObjectServiceData.byte_array` does not initialise offsets (`C50_offsets_not_initialized`).
12. The order of members of a JSON object matters to `JsonReader` (`C57_order`).
13. For an SQL table with one column `COLUMN_NAMES` is a `str`, so that any substring is accepted as a column name
    (`C61_single_column`).
14. After a failed `write` the transaction stays open (`C63_open_after_failure`).
15. A table which is missing in its own file resolves to a table of an attached file (`C64_shadow`); `from_file` leaves
    its connection open when it raises (`C66_leak`).
16. Expressions (C67): `a == b == c` and `a < b == c` become chained comparisons of Python with another value
    (`C67_chained_comparison`, `C67_chained_less`); `a == !b` becomes a syntax error (`C67_syntax_error`); `valueof(c ? E.x : E.y)`
    becomes the item instead of its number (`C67_valueof_conditional`); `/` and `%` of negative integers round downwards
    instead of towards zero (`C67_negative_division`).
17. Names (C68): the check of keywords is made before the conversion, so a field `Class` becomes `def class` (`C68_keyword`); a field
    `property` makes the class definition fail (`C68_property`); a function or field `reset_a` replaces the resetter of the optional
    field `a` or is replaced by it (`C68_resetter`); the attribute of a field `offset_checker_a` hides the method which checks the
    offsets of an array `a_` (`C68_offset_checker`).
18. Modules (C69): a type `Class` is written to the module `a.class`, which no import statement can name, so that `a.api` is a syntax
    error (`C69_keyword`); a symbol `Typing` in the default package shadows the module `typing` of Python (`C69_typing`); the
    packages `enum` and `apsw` are not refused although generated code imports these modules (`C69_apsw`).
19. Imports (C72): a structure with a field whose type is another name of the structure, `struct Node { optional Link next; }; subtype
    Node Link;`, cannot be imported, because the module of the subtype evaluates `Node` while it is being defined (`C72_recursive`);
    the module of `subtype extern Blob;` evaluates `zserio.bitbuffer.BitBuffer` without importing `zserio` (`C72_blob`).
20. Files (C73): `to_json_file` opens the file for writing before the object is visited, so that the previous contents are lost even if
    the object cannot be written (`C73_json_lost`), whereas a failing `serialize_to_file` leaves the file as it is.
21. Writing what has been read (C74): an object with a removed enumeration item is read but cannot be written (`C74_removed_item`); an
    array whose length expression is negative is read as an empty array, which cannot be written (`C74_negative_length`); trailing data
    after the last extended field known makes an extended field without bits present, and it is not present any more after writing
    (`C74_empty_extension`); packed arrays can be read with elements outside the range of their type (`C74_packed`, see C31).
22. Objects that can be written (C75): packed arrays write elements outside the range of their type without an error when they are stored
    as differences (`C75_packed`: `packed uint8` with 250, ..., 259); everything else that does not satisfy the schema is rejected, except that the arguments of objects in arrays are not compared.
23. Escapes in string literals (C76): `\0coo`, documented as one 8-bit character, e.g. `\0101` for `A`, is copied into Python code, where
    an octal escape has at most three digits: `A` becomes a backspace followed by `1` (`C76_octal`).
24. Shared default value (C77): the default value of the constructor argument for a field of type `bytes` is `bytearray()`, evaluated once
    when the class is defined. After `a = T(); b = T(); a.data.extend(b"x")` also `b.data`, and the data of every object created
    later without an argument for the field, is `x` (`C77_shared`, `C77_counterexample`).
25. Templates (C79): instantiations are compared by names only. Two templates of the same name in packages `p` and `r`, instantiated by
    `instantiate p.Inner<uint8> In1; instantiate r.Inner<uint8> In2;` in one package: `Outer<r.Inner<uint8>>` silently becomes
    `Outer<p.Inner<uint8>>` (`C79_counterexample_instantiate`). Two templates with names longer than 64 characters whose 32-bit hash codes
    coincide are confused as well (`C79_counterexample_hash`). A subtype of an instantiation as an argument gives a second class for the
    same instantiation (`C79_counterexample_subtype`), and subtypes of two instantiations of one template are refused
    (`C79_refused_subtype`).
26. Constant folding of the compiler (C81): `numbits(0)` is 1 (generated code and language guide: 0), a bitmask value without initializer
    after the value 0 gets 2 although bit 0 is unused, `~` of a bitmask value is negative, shift distances are reduced to 32 bits and
    negative ones shift the other way, `lengthof` of a text counts escape sequences as written, and an item whose initializer is a
    conditional expression makes the compiler fail with a NullPointerException. A constant is generated as the expression of the schema,
    while enumerations contain computed numbers: with `const int32 C = -7 / 2; enum int32 E { A = C };` the generated constant is -4 and the
    item -3 (`C81_division_deviates`).
27. Two types that contain each other make the compiler end with a stack overflow (`Internal error`) if a type that uses them is declared
    first, since `checkIndirectRecursion` remembers only the type it started with (`C82_overflow`).
28. With `-allowImplicitArrays` the compiler accepts schemas whose data cannot be read back: `uint8 n; implicit uint8 rest[] if n != 0;
    uint8 x;`, `uint8 n; implicit uint8 rest[]; uint8 x if n != 0;` and arrays of structures that end with an implicit array
    (`C83_*_deviates`).
29. Choices on `bool` with two values in one case (`case true: case false: uint8 a;`) are accepted; the generated Python code contains an
    `else:` without `if` and cannot be imported (`C84_bothTruths_deviates`). Cases that are not literals are compared as text, so
    `case true: … case !false: …` is accepted and the second branch is taken for `false` (`C84_sameTruth_deviates`); the same value of an
    enumeration can be listed twice by way of a constant (`C84_sameItem_deviates`).
30. Range checks (`-withRangeCheckCode`) do not cover the elements of arrays, and packed arrays do not check the range of what they
    store as a difference: `packed uint8 a[]` with the value 256 is written without an error although range checks are on
    (`C85_elements_deviates`).
31. Bounds of integer expressions (`ExpressionIntegerValue.java`): `negate` keeps the order of the bounds (`-x` of an `int8` gets the
    bounds 128 and -127), `shiftRight` combines the upper bound with the biggest shift, `shiftLeft` the negative lower bound with the
    smallest shift, `numbits` takes 1 for 0 (0 at run time), `~` of a bitmask item is computed without its width. One consequence:
    `struct Tree { int8 x; Tree children[-x]; };` is refused as a recursion (`C86_*_deviates`). `bit<4294967297>` is accepted as one bit
    (`C86_dynamic_deviates`).
32. Bitmask values in packed arrays are not checked when they are read: `packed Rights masks[3]` reads 256 for a `uint8` bitmask; the
    object is converted to a JSON text which cannot be read (`C87_packed_deviates`).
33. The example in the language guide for imports by name does not work: after `import common.geometry.*;` an import of
    `common.geometry.Geometry` is left out as redundant, and `Geometry` stays ambiguous (`C88_single_deviates`).
34. A symbol imported by name from another package makes the symbol with the same name in the package itself ambiguous
    (`C88_local_deviates`); if a package imports its own symbol by name, the symbol cannot even be used by its qualified name
    (`C88_qualified_deviates`).
35. A qualified name in an expression is taken for a member of a field, if a field has the name of the first part of the package
    (`C88_expression_deviates`).
36. The result of a function is resolved again for each call, in the scope of the call, and the last call decides. With a constant
    `Size` and a field `Size` a condition before the field is accepted (there the function means the constant), but the generated
    function reads the field, which has not been read yet (`C89_order_deviates`); whether the function means the constant or the
    field depends on other calls (`C89_meaning_deviates`).
37. `isset(mask, VALUE)` in a function is refused as soon as the function is called in its compound type, because the values of the
    bitmask are added to the scope of the function and not to the scope of the call (`C89_isset_deviates`).
38. Parameters which are bitmasks are compared by identity (`is not`), but the operators of bitmasks make new objects. A field
    with an argument such as `a | Perm.READ` can never be written, not even directly after the object was read (`C90_operator`,
    `C90_operator_deviates`); a child which was made with an equal bitmask is refused (`C90_equal_deviates`).
39. Parameters of float types are compared with `!=`: an object which was read with a NaN as argument cannot be written
    (`C90_nan_deviates`).
40. With `-withCodeComments` the texts of documentation comments are copied into string literals in triple quotes without escaping.
    A comment such as `Installed in C:\Users.` makes the generated module a SyntaxError (`C92_backslash_deviates`), escape sequences
    change the documentation (`C92_escape_deviates`), and after three double quotes in a row the rest of the comment is executed as
    code (`C92_quotes`).
41. The compiler accepts optional fields as offsets. Serializing an object in which such a field is not set raises the exception
    for a wrong offset, because `initialize_offsets` sets the field and so changes the layout it has computed; serializing the
    same object again succeeds (`C93_optional_deviates`).
42. An object which occurs twice in the data and stores its own offset cannot be serialized, while two equal objects can: the
    exception for a wrong offset is raised (`C94_shared_object_deviates`). The same happens to every array with two elements whose
    offsets are stored in a parameter they share; the compiler accepts this, because it looks for duplicated offsets only within
    one structure (`C94_shared_header_deviates`).
43. The compiler refuses a parameter as an offset, but accepts the parameter of a field (`sized.size: uint8 value;`). The setter of
    such an offset is formatted without an assignment, so the offset is never set (`C94_parameter`, `C94_parameter_deviates`).
44. A generated file is written in place, and a run which is killed or fails (full disk) in the middle of it leaves a file with a
    complete header. Later runs take it for a good one, until the schema changes or `-ignoreTimestamps` is given (`C95_crash_deviates`).
45. The time stamp of a schema file is read after the file has been parsed. A file which is changed in between, or later during the run,
    is taken for older than the files generated from its former contents (`C95_edit_deviates`). A file which is replaced by an
    older one is not noticed (`C95_copy_deviates`).
46. Two schemas which are compiled into the same directory and have a parent package in common share its `api.py`; the second run
    does not write it (`C95_two_deviates`). Files of types which have been removed are never deleted (`C95_stale_deviates`).
47. Only the first `UNIQUE(...)` of the constraint of a table is checked (`C96_unique_deviates`). Two columns with `PRIMARY KEY` give only
    a warning, although SQLite refuses such a table (`C96_two_keys_deviates`).
48. `PRIMARY KEY (id ASC)` and a column named in another case, both right in SQL, are refused (`C96_refused_deviates`). A column whose
    name is a key word of SQL is accepted (`C96_keyword_deviates`), and the words PRIMARY KEY count even within a quoted text
    (`C96_text_deviates`).
49. `SqlTableType.instantiateImpl` does not instantiate the constraint of the table: template arguments in it are not replaced, unlike in
    the constraints of columns (read in the source, not modelled).
50. The compiler accepts `<` between items of enumerations (and values of bitmasks, compounds, bytes); the generated code raises TypeError
    (`C97_order_deviates`). It accepts `&`, `|`, `^` of values of different bitmasks, with the same effect (`C97_mixed_deviates`).
51. A dot behind an expression without a type, as in `(1).LIMIT`, is taken as a reference to the constant `LIMIT`; the generated text
    `(1)api.LIMIT` is not a Python expression (`C97_dot_deviates`). `%` is accepted for floats (`C97_remainder_deviates`).
52. Warnings about references to optional fields (C98): none is printed for expressions with the conditional operator, and if a field is
    mentioned several times only the last place counts: `opt > 0 && (has && opt > 0)` (`C98_twice_deviates`), `C98_two_paths_deviates`.
53. The operands of `&&` below another operator stay in the list of left operands, so that `!(has && flag) && opt > 0` leads to no warning
    although `opt` is asked for exactly if it may be absent (`C98_nested_deviates`). In conditions the path in front of a field is ignored
    (`C98_other_object_deviates`); for elements of arrays the array is forgotten (`C98_array_deviates`).
54. The right operand of a comparison forgets the left operands of `&&`: `has && 0 < opt` leads to a warning, `has && opt > 0` does not
    (`C98_spurious_deviates`).
55. `align(0)` is accepted (C99); the size is computed as if it were not there, but writing and reading raise ZeroDivisionError
    (`C99_alignment_zero_deviates`). `align(Color.RED)` is accepted, although the generated code passes the item to `alignto`
    (`C99_alignment_item_deviates`); for `align(4 + -7 / 2)` 1 is checked but 0 is used (`C99_alignment_division_deviates`).
56. Default values which cannot be written are accepted: `uint8 x = true ? 256 : 1` (`C99_default_choice_deviates`), `uint8 x = 3 + -7 / 2`
    (`C99_default_division_deviates`), `bit<n> x = 200` (`C99_default_bits_deviates`).
57. `uint8 x[-1]` is accepted (`C99_length_deviates`), and so is every integer as the argument for an integer parameter, whatever the range
    of its type (`C99_argument_deviates`).
58. Of each part of `-setTopLevelPackage` only the first token is checked: `my-company.x y` is accepted (`C100_package_deviates`); dots at
    the end are ignored, `.` means no package (`C100_dot_deviates`).
59. The compatibility version of a package which is not the root package is not enforced: with `zserio_compatibility_version(2.4.2)` there and
    packed arrays, code is generated and there is only a warning (`C101_packed_deviates`). Versions such as `02.005.0` and `2.5.0-pre-1` are
    accepted (`C101_text_deviates`).
60. A type with a packed array of itself, as in `struct Node { Point point; packed Node children[]; }`, which is in no packed array of another
    type: `PackedTypesCollector` does not visit its fields as fields of elements of a packed array, so that `Point` gets no methods for packed
    arrays, but those of `Node` call them (`C102_recursion_deviates`); nodes with children can be neither written nor read (AttributeError).
61. `checkCycle` compares only with the first subtype on the stack: `subtype B A; subtype C B; subtype B C;` ends in a StackOverflowError (an
    internal error), while `subtype B C;` before `subtype B A;` gives the message (`C103_cycle_deviates`, `C103_overflow_deviates`).
62. Subtypes are resolved with the template parameters of the template in which they are used first: `struct Holder<T> { Item item; };
    subtype T Item;` passes the phase although there is no type `T` (`C103_parameter_deviates`).
63. Subtypes which are resolved are visited again: n subtypes of the form `subtype Pair<S1, S1> S2;` take 2^n visits
    (`C103_time_deviates`).
64. The language guide says that identifiers of rules must be unique in all packages; this is checked only with -withGlobalRuleIdCheck, which is
    off by default (`C104_packages_deviates`).
65. Both branches of a conditional operator in a case of a choice count as handled, so an item which no case lists can lead to no warning and
    to the exception at run time (`C105_conditional_deviates`); an item listed by means of a constant gets a warning (`C105_constant_deviates`).
66. Enumerations, bitmasks and other types which are used in expressions only are reported as not used; unused recursive types are not reported
    (`C105_expression_deviates`, `C105_recursive_deviates`).
67. The check that >> contains no spaces compares columns only: both characters may be on different lines (`C106_lines_deviates`). The table of
    precedences of the guide lists lengthof, valueof and numbits as operators below the dot, but they are written like functions
    (`C106_lengthof_deviates`).
68. `/**/` is not always a comment by itself: the rule for documentation comments needs `/**` and then `*/`, and the longest match wins, so that
    everything up to the end of the next comment is silently ignored (`C108_comment_deviates`). The keywords with `@` are recognised at the
    beginning of a longer word: `@removeditem` is read as `@removed item` (`C108_at_deviates`).
69. The topic of a Pub/Sub message is only checked if its type is a compound type: a message of type `bytes` is accepted with a topic which is a
    number (`C107_topic_deviates`).
70. A documentation comment which is separated from its declaration only by white space, but by an empty line, is not written to generated code, and
    there is no warning that it is not used (`C109_blank_deviates`).
71. In files with Windows line breaks an indented Markdown comment with an empty line keeps its indentation: the line consists of a carriage return
    and is taken for one which is not indented (`C109_crlf_deviates`).
72. `@index` is refused in the arguments of arrays in choices and unions: only `visitStructureFieldDefinition` of ZserioParseTreeChecker.java knows
    that a field is an array. The same field is accepted in a structure, and the guide knows no such difference (`C111_branch_deviates`).
73. A field of type `bytes` or `extern` in an SQL table passes all checks of the compiler, but `SqlNativeTypeMapper.java` has no visitor for these
    types and the generator ends with the exception Unexpected element (`C112_bytes_deviates`).
74. Explicit parameters of one name whose types are a type and its subtype are allowed (SqlTableType.java compares base types), but the set of
    `SqlTableEmitterTemplateData.java` compares the names of the types, so the parameter provider gets two methods of one name
    (`C112_once_deviates`).
75. The documentation of `import_cpp_class` says that the C++ implementation is not loaded if ZSERIO_PYTHON_IMPLEMENTATION is set to anything else
    than cpp; in fact any value but python, cpp and c++ (the empty text, for example) makes `import zserio` fail (`C113_other_deviates`). If the
    variable is not set and the C++ module has only some of the classes, both implementations are mixed silently
    (`C113_one_implementation_deviates`).
76. ZserioAstSymbolResolver has no method for bitmasks: a see tag in a comment of a bitmask cannot refer to its values by their names, as comments
    of other types can (`C115_bitmask_deviates`).
77. A see tag in a comment of a template which refers to a member of the template is resolved once, for the template; the docstrings of the
    instantiations have links to the class of the template, which is not generated (`C115_template_deviates`).
78. A see tag which refers to a message of a Pub/Sub type that is only subscribed to becomes a link to a publish method which does not exist
    (`C115_message_deviates`).
79. A see tag which refers to a rule group is resolved, but getPythonSymbol raises an exception for rule groups, with or without
    -withCodeComments, so that no Python code is generated (`C115_rule_group_deviates`).
80. Package.getVisibleInstantiateType looks up declarations in a HashMap whose keys change: the hash code of a template argument changes when the
    argument is resolved to an instantiation in another package than its template. `instantiate p.Inner<uint8> InnerU8;` and
    `instantiate p.Outer<p.Inner<uint8>> OuterX;` in a package q: nothing is generated for OuterX, the class becomes p.Outer_Inner_uint8, which is
    walked twice, and ApiEmitter fails with the exception Package not yet mapped if q is walked before p (`C117_nested_deviates`).
81. `subtype Table Other;` (also of services and Pub/Sub types) is accepted. With -withoutSqlCode the module of
    Other is written and imported by api, but it imports the module of Table, which is not written: import of api fails with ModuleNotFoundError
    (`C118_renamed_deviates`).
82. A JSON string with a raw line break is accepted (JSON does not allow it) and the line is not counted: all later tokens are
    reported in the wrong line (`C119_raw_deviates`). Also, an exception which an observer raises in end_object or end_array is reported at the
    token after the bracket, because this was read before.
83. A bracket which belongs to no link, as in `values[i] of [the list](list.zs#List)`, hides all links in the rest of a line of a markdown
    comment (`C120_bracket_deviates`). A link to the file list.zs in the comment of a type with a field list leads to the field
    (`C120_field_deviates`).
84. `type_info()` of an enumeration accesses all items as attributes of the class, so each call fires a DeprecationWarning for each
    deprecated item, also if the application uses none of them (`C121_type_info_deviates`); with warnings turned into errors, type_info
    cannot be called.
85. In expressions of choices and unions the name of a field reads the value of whatever field is chosen: with `b` chosen, a function which
    returns `a` returns the value of `b` (`C124_choice_deviates`).
Seen while reading, not stated as theorems:

* `from_json` ignores a valid token after the document; `None` is accepted for any field.
* `read_varint16/32/64` accept a negative zero; `read_varint` reads it as INT64_MIN.
* `read_bytes`, `read_string`, `read_bitbuffer` leave the position behind the size when they fail.
* `JsonReader` does not reset its stack of keys after an exception.
* `Array.bitsizeof` aligns if there is a method to set offsets, `write` if there is a method to check them.
* `obj.read` does not reset the number of extended fields; constructor and setter disagree about it.
* `writer.alignto(0)` raises `ZeroDivisionError`; a negative alignment moves a reader backwards.
* Indirect recursion makes the creation of `ZserioPackingContext` objects recurse infinitely.
* The setter of a choice field does not check the selector; parameters of array elements are not checked on write.
* Array traits of dynamic bit fields are created when the field is set, not when it is used.
* SQL: rows read for a subset of the columns differ in shape with and without row conversion; `bool` is read back as
  `int`; offsets inside blobs are not initialised on write; removed enumeration items are not rejected.

## 6. Axioms

`#print axioms` is recorded for the property theorems by `lean/Verif/Axioms.lean`: each depends on a subset of
`propext`, `Classical.choice`, `Quot.sound`.

## 7. Testing the theorems

`seeded/LOG.jsonl` lists wrong programs: edits of the model as a realistic bug would make them, with the theorems that no
longer proved, and the theorems that were tightened because an edit survived.
