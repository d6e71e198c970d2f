import Verif.Model.JsonText
/-
Model of PythonSymbolConverter.java: how names of the schema become names of the generated Python code. Names are lists of
code points; the lexer of zserio only accepts ASCII identifiers (core/antlr/ZserioLexer.g4:154), so the character classes
and the case conversions are those of ASCII.
-/
namespace Zserio.Names

/-- `[a-z]` -/
def isLower (c : Nat) : Bool := 97 ≤ c && c ≤ 122

/-- `[A-Z]` -/
def isUpper (c : Nat) : Bool := 65 ≤ c && c ≤ 90

/-- `[0-9]` -/
def isDigit (c : Nat) : Bool := 48 ≤ c && c ≤ 57

/-- One character of `String.toLowerCase(Locale.ENGLISH)`, restricted to ASCII. -/
def lowerChar (c : Nat) : Nat := if isUpper c then c + 32 else c

/-- One character of `String.toUpperCase(Locale.ENGLISH)`, restricted to ASCII. -/
def upperChar (c : Nat) : Nat := if isLower c then c - 32 else c

/-- `String.toLowerCase(Locale.ENGLISH)` -/
def toLower (s : PyStr) : PyStr := s.map lowerChar

/-- `String.toUpperCase(Locale.ENGLISH)` -/
def toUpper (s : PyStr) : PyStr := s.map upperChar

/-- `CAMEL_CASE_PATTERN_1.matcher(s).replaceAll("$1_$2")` for the pattern `([a-z])([A-Z])`
(PythonSymbolConverter.java:56-57, 64): matches are searched from left to right and do not overlap. -/
def camelCase1 : PyStr → PyStr
  | a :: b :: rest =>
    if isLower a && isUpper b then a :: ch! '_' :: b :: camelCase1 rest else a :: camelCase1 (b :: rest)
  | s => s

/-- `CAMEL_CASE_PATTERN_2.matcher(s).replaceAll("$1_$2")` for the pattern `([0-9A-Z])([A-Z][a-z])`
(PythonSymbolConverter.java:58-59, 65). -/
def camelCase2 : PyStr → PyStr
  | a :: b :: c :: rest =>
    if (isDigit a || isUpper a) && isUpper b && isLower c then a :: ch! '_' :: b :: c :: camelCase2 rest
    else a :: camelCase2 (b :: c :: rest)
  | s => s

/-- `PythonSymbolConverter.insertUnderscoresToCamelCase` (PythonSymbolConverter.java:54-62) -/
def insertUnderscores (s : PyStr) : PyStr := camelCase2 (camelCase1 s)

/-- `PythonSymbolConverter.toLowerSnakeCase` (PythonSymbolConverter.java:35-42) -/
def toLowerSnakeCase (s : PyStr) : PyStr :=
  if s = toLower s then s else toLower (insertUnderscores s)

/-- `PythonSymbolConverter.toUpperSnakeCase` (PythonSymbolConverter.java:44-52) -/
def toUpperSnakeCase (s : PyStr) : PyStr :=
  if s = toUpper s then s else toUpper (insertUnderscores s)

/-- `PythonSymbolConverter.symbolToModule` (PythonSymbolConverter.java:13-16) -/
def symbolToModule (s : PyStr) : PyStr := toLowerSnakeCase s

/-- `PythonSymbolConverter.enumItemToSymbol` (PythonSymbolConverter.java:18-22) -/
def enumItemToSymbol (s : PyStr) (isRemoved : Bool) : PyStr :=
  if isRemoved then py! "ZSERIO_REMOVED_" ++ toUpperSnakeCase s else toUpperSnakeCase s

/-- `PythonSymbolConverter.bitmaskValueToSymbol` (PythonSymbolConverter.java:24-27) -/
def bitmaskValueToSymbol (s : PyStr) : PyStr := toUpperSnakeCase s

/-- `PythonSymbolConverter.constantToSymbol` (PythonSymbolConverter.java:29-32) -/
def constantToSymbol (s : PyStr) : PyStr := toUpperSnakeCase s

end Zserio.Names
