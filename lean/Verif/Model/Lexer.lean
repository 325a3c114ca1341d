import Verif.Model.Domain

/-
Model of /repo/internal/relation_expression_parser/lexer.go.
Positions (`StartPos`, `EndPos`) and error texts are dropped: the parser does not look at them.
A Go string is read rune by rune; inputs are valid UTF-8, so runes are Lean characters.
-/

namespace Zanzi

/-- `unicode.IsSpace` (Go standard library), used in lexer.go:142,182: Latin-1 list plus the
White_Space code points above Latin-1. -/
def isSpace (c : Char) : Bool :=
  let v := c.val.toNat
  v == 0x09 || v == 0x0A || v == 0x0B || v == 0x0C || v == 0x0D || v == 0x20 || v == 0x85 || v == 0xA0 ||
  v == 0x1680 || (0x2000 ≤ v && v ≤ 0x200A) || v == 0x2028 || v == 0x2029 || v == 0x202F || v == 0x205F ||
  v == 0x3000

/-- Latin-1 part of `unicode.IsLetter || unicode.IsDigit` (lexer.go:23). -/
def isLatin1Alnum (c : Char) : Bool :=
  let v := c.val.toNat
  (0x30 ≤ v && v ≤ 0x39) || (0x41 ≤ v && v ≤ 0x5A) || (0x61 ≤ v && v ≤ 0x7A) || v == 0xAA || v == 0xB5 || v == 0xBA ||
  (0xC0 ≤ v && v ≤ 0xD6) || (0xD8 ≤ v && v ≤ 0xF6) || (0xF8 ≤ v && v ≤ 0xFF)

/-- The Unicode letter/digit tables above Latin-1.  They are a parameter: every theorem holds for
any such table.  The only fact used is that no letter or digit is white space. -/
structure Unicode where
  hi : Char → Bool
  hi_not_space : ∀ c, isSpace c = true → hi c = false

/-- `isIdentifierRune` — lexer.go:21-24. -/
def Unicode.isIdent (U : Unicode) (c : Char) : Bool :=
  if c.val.toNat ≤ 0xFF then isLatin1Alnum c || c == '_' else U.hi c

/-- `tokenType` — lexer.go:26-39. -/
inductive TokenType where
  | eof | identifier | union | difference | intersection | groupBegin | groupEnd | arrow | this | error
  deriving DecidableEq, Repr

/-- `token` — lexer.go:12-17 (without positions). -/
structure Token where
  type : TokenType
  lexeme : String
  deriving DecidableEq, Repr

/-- `consumeString` — lexer.go:120-138: `some rest` if the input starts with the string, otherwise
the position is restored. -/
def consumeString : List Char → List Char → Option (List Char)
  | [], cs => some cs
  | p :: ps, c :: cs => if c = p then consumeString ps cs else none
  | _ :: _, [] => none

/-- Lexemes — /repo/pkg/domain/relation_expression_tree.go:133-141, in the order tried by
`scan` (lexer.go:174-180). -/
def terminals : List (TokenType × String) :=
  [(.groupBegin, "("), (.groupEnd, ")"), (.arrow, "->"), (.union, "+"), (.difference, "-"),
   (.intersection, "&"), (.this, "_this")]

/-- The chain of `lexTerminal` calls — lexer.go:146-153,174-180. -/
def lexTerminals (cs : List Char) : List (TokenType × String) → Option (Token × List Char)
  | [] => none
  | (ty, s) :: ts =>
    match consumeString s.toList cs with
    | some rest => some (⟨ty, s⟩, rest)
    | none => lexTerminals cs ts

/-- One iteration of the `scan` loop. -/
inductive LexStep where
  | emit (t : Token) (rest : List Char)
  | skip (rest : List Char)
  | eof
  | error
  deriving DecidableEq, Repr

/-- Body of the `scan` loop — lexer.go:173-191, with `lexIdentifier` (160-168) and
`skipSpaces` (140-144). -/
def lexStep (U : Unicode) (cs : List Char) : LexStep :=
  match lexTerminals cs terminals with
  | some (t, rest) => .emit t rest
  | none =>
    let name := cs.takeWhile U.isIdent
    if 0 < name.length then .emit ⟨.identifier, String.ofList name⟩ (cs.dropWhile U.isIdent)
    else
      match cs with
      | [] => .eof
      | c :: _ => if isSpace c then .skip (cs.dropWhile isSpace) else .error

/-- `scan` — lexer.go:170-192.  Every non-final iteration consumes a rune, so `cs.length + 1`
iterations suffice (`Verif.Lemmas.Lexer`); `none` = bound too small. -/
def scanN (U : Unicode) : Nat → List Char → Option (List Token)
  | 0, _ => none
  | n + 1, cs =>
    match lexStep U cs with
    | .emit t rest => (scanN U n rest).map (t :: ·)
    | .skip rest => scanN U n rest
    | .eof => some [⟨.eof, ""⟩]
    | .error => some [⟨.error, ""⟩]

/-- Tokens sent on the channel by `Lex` — lexer.go:219-222.  The bound is the input length + 1. -/
def lex (U : Unicode) (cs : List Char) : Option (List Token) := scanN U (cs.length + 1) cs

end Zanzi
