import Verif.Model.JsonText
/-
How the text of a schema is divided into tokens.

Source: compiler/core/antlr/ZserioLexer.g4; every rule of the file is modelled.  The lexer which ANTLR 4 generates takes, at each position, the rule
which matches the most characters, and the first of these rules in the file.  After `.*?` a rule ends at its first possible end, but the other rules
go on (LexerATNSimulator.closure drops only configurations of the same rule).
Characters are Unicode code points.
-/
namespace Zserio.Lexer

/-! ### Regular expressions -/

/-- the notation of the rules -/
inductive Re where
  | never
  | eps
  | set (p : Nat → Bool)
  | seq (a b : Re)
  | alt (a b : Re)
  | star (a : Re)

namespace Re

/-- whether the empty text is matched -/
def nullable : Re → Bool
  | never => false
  | eps => true
  | set _ => false
  | seq a b => a.nullable && b.nullable
  | alt a b => a.nullable || b.nullable
  | star _ => true

/-- what has to follow the character `c` -/
def deriv (c : Nat) : Re → Re
  | never => never
  | eps => never
  | set p => if p c then eps else never
  | seq a b => if a.nullable then alt (seq (a.deriv c) b) (b.deriv c) else seq (a.deriv c) b
  | alt a b => alt (a.deriv c) (b.deriv c)
  | star a => seq (a.deriv c) (star a)

/-- the length of the longest match at the beginning of a text -/
def longest : Re → List Nat → Option Nat
  | r, [] => if r.nullable then some 0 else none
  | r, c :: cs =>
    match longest (r.deriv c) cs with
    | some n => some (n + 1)
    | none => if r.nullable then some 0 else none

/-- a character -/
def chr (c : Nat) : Re := set (· == c)

/-- a text in quotes -/
def text : List Nat → Re
  | [] => eps
  | c :: cs => seq (chr c) (text cs)

/-- `r+` -/
def plus (r : Re) : Re := seq r (star r)

/-- `r?` -/
def opt (r : Re) : Re := alt r eps

end Re

open Re

/-! ### Sets of characters -/

/-- `[0-9]` -/
def isDigit (c : Nat) : Bool := 48 ≤ c && c ≤ 57
/-- `[a-zA-Z_]` -/
def isLetter (c : Nat) : Bool := (97 ≤ c && c ≤ 122) || (65 ≤ c && c ≤ 90) || c == 95
/-- `[a-zA-Z_0-9]` -/
def isWordChar (c : Nat) : Bool := isLetter c || isDigit c
/-- ZserioLexer.g4:132 OCTAL_DIGIT -/
def isOctalDigit (c : Nat) : Bool := 48 ≤ c && c ≤ 55
/-- ZserioLexer.g4:136 HEX_DIGIT -/
def isHexDigit (c : Nat) : Bool := isDigit c || (97 ≤ c && c ≤ 102) || (65 ≤ c && c ≤ 70)
/-- ZserioLexer.g4:110 `[\r\n\f\t ]` -/
def isSpace (c : Nat) : Bool := c == 13 || c == 10 || c == 12 || c == 9 || c == 32
/-- `[\r\n\f]` -/
def isLineEnd (c : Nat) : Bool := c == 13 || c == 10 || c == 12

/-! ### The rules -/

/-- the types of tokens; operators and keywords are given by their text -/
inductive Kind where
  | operator (s : List Nat)
  | keyword (s : List Nat)
  | space | docComment | markdownComment | blockComment | lineComment
  | bool | string | binary | octal | hexadecimal | double | float | decimal | id | invalidString | invalid
  deriving DecidableEq, Repr

/-- a rule: a regular expression, or a comment, `start .*? '*/'` -/
inductive Rule where
  | re (r : Re)
  | comment (start : List Nat)

/-- the length of the text up to the end of the first `*/` -/
def commentEnd : List Nat → Option Nat
  | [] => none
  | [_] => none
  | c :: d :: cs => if c = 42 ∧ d = 47 then some 2 else (commentEnd (d :: cs)).map (· + 1)

/-- the length of the text matched by a rule -/
def Rule.longest : Rule → List Nat → Option Nat
  | .re r, cs => r.longest cs
  | .comment start, cs => if start.isPrefixOf cs then (commentEnd (cs.drop start.length)).map (· + start.length) else none

/-- ZserioLexer.g4:6-36 -/
def operators : List (List Nat) :=
  [py! "&", py! "=", py! "!", py! ":", py! ",", py! "/", py! ".", py! "==", py! ">=", py! ">", py! "{", py! "[", py! "<=", py! "&&", py! "||",
   py! "(", py! "<<", py! "<", py! "-", py! "%", py! "*", py! "!=", py! "|", py! "+", py! "?", py! "}", py! "]", py! ")", py! ";", py! "~", py! "^"]

/-- ZserioLexer.g4:39-107 -/
def keywords : List (List Nat) :=
  [py! "align", py! "bit", py! "bool", py! "bitmask", py! "bytes", py! "case", py! "choice", py! "const", py! "default", py! "@deprecated",
   py! "enum", py! "explicit", py! "extend", py! "extern", py! "float16", py! "float32", py! "float64", py! "function", py! "if", py! "implicit",
   py! "import", py! "@index", py! "instantiate", py! "int", py! "int16", py! "int32", py! "int64", py! "int8", py! "isset", py! "lengthof",
   py! "numbits", py! "on", py! "optional", py! "package", py! "packed", py! "pubsub", py! "publish", py! "@removed", py! "return", py! "rule",
   py! "rule_group", py! "service", py! "sql", py! "sql_database", py! "sql_table", py! "sql_virtual", py! "sql_without_rowid", py! "string",
   py! "struct", py! "subscribe", py! "subtype", py! "topic", py! "uint16", py! "uint32", py! "uint64", py! "uint8", py! "union", py! "using",
   py! "valueof", py! "varint", py! "varint16", py! "varint32", py! "varint64", py! "varsize", py! "varuint", py! "varuint16", py! "varuint32",
   py! "varuint64", py! "zserio_compatibility_version"]

/-- ZserioLexer.g4:121-127 STRING_CHARACTER -/
def stringCharacter : Re :=
  alt (set fun c => !(c == 34 || c == 92 || isLineEnd c))
    (alt (seq (chr 92) (set fun c => c == 34 || c == 92 || c == ch! 'r' || c == ch! 'n' || c == ch! 'f' || c == ch! 't'))
      (alt (seq (text (py! "\\u")) (seq (set isHexDigit) (seq (set isHexDigit) (seq (set isHexDigit) (set isHexDigit)))))
        (alt (seq (text (py! "\\x")) (seq (set isHexDigit) (set isHexDigit)))
          (seq (text (py! "\\0")) (seq (opt (set fun c => 48 ≤ c && c ≤ 51)) (seq (set isOctalDigit) (opt (set isOctalDigit))))))))

/-- ZserioLexer.g4:128 STRING_LITERAL -/
def stringLiteral : Re := seq (chr 34) (seq (star stringCharacter) (chr 34))

/-- ZserioLexer.g4:130 BINARY_LITERAL -/
def binaryLiteral : Re := seq (plus (set fun c => c == 48 || c == 49)) (set fun c => c == ch! 'b' || c == ch! 'B')

/-- ZserioLexer.g4:133 OCTAL_LITERAL -/
def octalLiteral : Re := seq (chr 48) (plus (set isOctalDigit))

/-- ZserioLexer.g4:135, 137 HEXADECIMAL_LITERAL -/
def hexadecimalLiteral : Re := seq (seq (chr 48) (set fun c => c == ch! 'x' || c == ch! 'X')) (plus (set isHexDigit))

/-- ZserioLexer.g4:139 FLOAT_EXPONENT -/
def floatExponent : Re :=
  seq (set fun c => c == ch! 'e' || c == ch! 'E') (seq (opt (set fun c => c == ch! '+' || c == ch! '-')) (plus (set isDigit)))

/-- ZserioLexer.g4:141-145 DOUBLE_LITERAL -/
def doubleLiteral : Re :=
  alt (seq (plus (set isDigit)) floatExponent)
    (alt (seq (plus (set isDigit)) (seq (chr 46) (seq (star (set isDigit)) (opt floatExponent))))
      (seq (chr 46) (seq (plus (set isDigit)) (opt floatExponent))))

/-- ZserioLexer.g4:140, 146 FLOAT_LITERAL -/
def floatLiteral : Re := seq doubleLiteral (set fun c => c == ch! 'f' || c == ch! 'F')

/-- ZserioLexer.g4:148-151 DECIMAL_LITERAL -/
def decimalLiteral : Re := alt (seq (set fun c => 49 ≤ c && c ≤ 57) (star (set isDigit))) (chr 48)

/-- ZserioLexer.g4:154 ID -/
def identifier : Re := seq (set isLetter) (star (set isWordChar))

/-- ZserioLexer.g4:157 INVALID_STRING_LITERAL -/
def invalidStringLiteral : Re := seq (chr 34) (seq (star (set fun c => !(c == 34))) (opt (chr 34)))

/-- ZserioLexer.g4:109-160: the rules behind the keywords, in their order.  MARKDOWN_COMMENT, `'/*!' .*? '!'? '*/'`, ends at the first `*/`, too. -/
def otherRules : List (Kind × Rule) :=
  [(.space, .re (set isSpace)),
   (.docComment, .comment (py! "/**")),
   (.markdownComment, .comment (py! "/*!")),
   (.blockComment, .comment (py! "/*")),
   (.lineComment, .re (seq (text (py! "//")) (star (set fun c => !isLineEnd c)))),
   (.bool, .re (alt (text (py! "true")) (text (py! "false")))),
   (.string, .re stringLiteral),
   (.binary, .re binaryLiteral),
   (.octal, .re octalLiteral),
   (.hexadecimal, .re hexadecimalLiteral),
   (.double, .re doubleLiteral),
   (.float, .re floatLiteral),
   (.decimal, .re decimalLiteral),
   (.id, .re identifier),
   (.invalidString, .re invalidStringLiteral),
   (.invalid, .re (plus (set isWordChar)))]

/-- ZserioLexer.g4: all rules -/
def rules : List (Kind × Rule) :=
  operators.map (fun s => (.operator s, .re (text s))) ++ keywords.map (fun s => (.keyword s, .re (text s))) ++ otherRules

/-! ### The lexer -/

/-- the rule which matches the most characters, the first one if there are several -/
def select : List (Kind × Rule) → List Nat → Option (Kind × Nat)
  | [], _ => none
  | (k, r) :: rs, cs =>
    match r.longest cs, select rs cs with
    | none, best => best
    | some n, none => some (k, n)
    | some n, some (k', n') => if n < n' then some (k', n') else some (k, n)

/-- the token at the beginning of a text: its type and its length -/
def token (cs : List Nat) : Option (Kind × Nat) := select rules cs

/-- The tokens of a text with their characters; none for an error (`token recognition error`).  `f` bounds the number of tokens. -/
def lexLoop : Nat → List Nat → Option (List (Kind × List Nat))
  | _, [] => some []
  | 0, _ :: _ => none
  | f + 1, c :: cs =>
    match token (c :: cs) with
    | none => none
    | some (k, n) => (lexLoop f ((c :: cs).drop n)).map ((k, (c :: cs).take n) :: ·)

/-- all tokens of a text; there is no empty token, so that there are no more tokens than characters -/
def lex (cs : List Nat) : Option (List (Kind × List Nat)) := lexLoop cs.length cs

/-- ZserioLexer.g4:110-116 `skip`, `channel(DOC)`, `channel(HIDDEN)`: what the parser does not see -/
def isHidden : Kind → Bool
  | .space => true
  | .docComment => true
  | .markdownComment => true
  | .blockComment => true
  | .lineComment => true
  | _ => false

/-- the tokens which the parser gets -/
def tokens (cs : List Nat) : Option (List (Kind × List Nat)) := (lex cs).map (·.filter fun t => !isHidden t.1)

end Zserio.Lexer
