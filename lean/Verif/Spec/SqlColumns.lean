import Verif.Model.SqlColumns
/-
What the documentation says about the types of columns (doc/ZserioLanguageOverview.md:2057-2077) and what SQLite says about the types
of columns (https://www.sqlite.org/datatype3.html, section 3, part of the trusted base).
-/
namespace Zserio.SqlColumns

open Sql (SqlValue)

/-- doc/ZserioLanguageOverview.md:2059-2074, row by row -/
inductive Documented : BaseType → PyStr → Prop
  | standard : Documented .stdInteger (py! "INTEGER")
  | bitField : Documented .fixedBitField (py! "INTEGER")
  | dynamicBitField : Documented .dynamicBitField (py! "INTEGER")
  | float : Documented .float (py! "REAL")
  | variable : Documented .varInteger (py! "INTEGER")
  | boolean : Documented .boolean (py! "INTEGER")
  | string : Documented .string (py! "TEXT")
  | enum : Documented .enum (py! "INTEGER")
  | bitmask : Documented .bitmask (py! "INTEGER")
  | struct : Documented .struct (py! "BLOB")
  | choice : Documented .choice (py! "BLOB")
  | union : Documented .union (py! "BLOB")

/-- the affinities of SQLite -/
inductive Affinity where
  | integer
  | text
  | blob
  | real
  | numeric
  deriving DecidableEq

/-- whether a text contains a word -/
def contains (s word : PyStr) : Bool := s.tails.any (word.isPrefixOf ·)

/-- The affinity of a column with a declared type in capital letters, datatype3.html 3.1: the first rule which applies. -/
def affinity (declared : PyStr) : Affinity :=
  if contains declared (py! "INT") then .integer
  else if contains declared (py! "CHAR") || contains declared (py! "CLOB") || contains declared (py! "TEXT") then .text
  else if contains declared (py! "BLOB") || declared.isEmpty then .blob
  else if contains declared (py! "REAL") || contains declared (py! "FLOA") || contains declared (py! "DOUB") then .real
  else .numeric

/-- The details of conversions which are left open: the number a text looks like, the integer a floating point number is equal to, the
floating point number of an integer, the text of a number. -/
structure Conversions where
  number : PyStr → Option SqlValue
  exact : PyFloat → Option Int
  toReal : Int → PyFloat
  text : SqlValue → PyStr

/-- What is stored in a column for a value, datatype3.html 3: a column of affinity TEXT turns numbers into texts; INTEGER and NUMERIC turn
texts which look like numbers into numbers, and floating point numbers which are integers into integers; REAL turns texts which look like
numbers, and integers, into floating point numbers. -/
def stored (C : Conversions) : Affinity → SqlValue → SqlValue
  | .text, .int x => .text (C.text (.int x))
  | .text, .real x => .text (C.text (.real x))
  | .integer, .text s => (C.number s).getD (.text s)
  | .numeric, .text s => (C.number s).getD (.text s)
  | .real, .text s => (C.number s).getD (.text s)
  | .integer, .real x => match C.exact x with
    | some n => .int n
    | none => .real x
  | .numeric, .real x => match C.exact x with
    | some n => .int n
    | none => .real x
  | .real, .int x => .real (C.toReal x)
  | _, v => v

/-- the values which stand in the database for the values of a type: numbers for integers, booleans, enumeration items and bitmasks, and
the bytes of objects; NULL for a missing value -/
inductive ValueOf : BaseType → SqlValue → Prop
  | null {b} : ValueOf b .null
  | int {b x} (h : b = .stdInteger ∨ b = .varInteger ∨ b = .fixedBitField ∨ b = .dynamicBitField ∨ b = .boolean ∨ b = .enum ∨ b = .bitmask) :
      ValueOf b (.int x)
  | real {x} : ValueOf .float (.real x)
  | text {s} : ValueOf .string (.text s)
  | blob {b s} (h : b = .struct ∨ b = .choice ∨ b = .union) : ValueOf b (.blob s)

/-- how the values of a type have to be converted: objects are read from and written to bytes, items and bitmasks are made of and turned into
numbers, and everything else is as it is -/
def Needed (t : TypeRef) : Conversion → Prop
  | .blob cls => cls = t.fullName ∧ (t.baseType = .struct ∨ t.baseType = .choice ∨ t.baseType = .union)
  | .enum cls => cls = t.fullName ∧ t.baseType = .enum
  | .bitmask cls => cls = t.fullName ∧ t.baseType = .bitmask
  | .plain => t.baseType ∉ [.struct, .choice, .union, .enum, .bitmask]

/-- only types which are parameterized have arguments: structures, choices and unions (ParameterizedTypeInstantiation.java) -/
def Parameterized (f : FieldDecl) : Prop :=
  f.arguments ≠ [] → f.type.baseType = .struct ∨ f.type.baseType = .choice ∨ f.type.baseType = .union

/-- `n` is an explicit argument of a field, for a parameter of type `t` -/
def Explicit (fs : List FieldDecl) (n : PyStr) (t : TypeRef) : Prop := ∃ f ∈ fs, ⟨some n, t⟩ ∈ f.arguments

end Zserio.SqlColumns
