import Verif.Model.Domain

/-
Independent specification of the relation expression mini language, written from
/repo/docs/relation-expression.md ("Language overview" and "Language Reference"): which texts are
expressions and which tree each denotes.  It does not mention the lexer or the parser.
-/

namespace Zanzi.Spec

/-- Lexical symbols of the language. -/
inductive Sym where
  | lp | rp | arrow | plus | minus | amp | this
  | ident (name : List Char)
  deriving DecidableEq, Repr

/-- Spelling of a symbol. -/
def Sym.spell : Sym → List Char
  | lp => ['('] | rp => [')'] | arrow => ['-', '>'] | plus => ['+'] | minus => ['-'] | amp => ['&']
  | this => ['_', 't', 'h', 'i', 's']
  | ident n => n

/-- Operator denoted by a symbol. -/
inductive OpSym : Sym → Operator → Prop
  | plus : OpSym .plus .union
  | amp : OpSym .amp .intersection
  | minus : OpSym .minus .difference

/-- Nonterminals. -/
inductive NT where
  | expr | term

/-- Grammar with denoted trees.  All operators have one precedence level and group to the left:
an expression is a term, or an expression followed by an operator and a term. -/
inductive Derives : NT → List Sym → ExprTree → Prop
  | this : Derives .term [.this] (.rule .this)
  | cu (n : List Char) : Derives .term [.ident n] (.rule (.cu (String.ofList n)))
  | ttu (a b : List Char) :
      Derives .term [.ident a, .arrow, .ident b] (.rule (.ttu (String.ofList a) (String.ofList b)))
  | group {ss : List Sym} {e : ExprTree} : Derives .expr ss e → Derives .term ([.lp] ++ ss ++ [.rp]) e
  | single {ss : List Sym} {e : ExprTree} : Derives .term ss e → Derives .expr ss e
  | binary {l r : List Sym} {s : Sym} {o : Operator} {el er : ExprTree} :
      Derives .expr l el → OpSym s o → Derives .term r er → Derives .expr (l ++ [s] ++ r) (.op el o er)

/-- ASCII characters names are made of: letters, digits and underscore. -/
def nameChar (c : Char) : Bool :=
  ('a' ≤ c && c ≤ 'z') || ('A' ≤ c && c ≤ 'Z') || ('0' ≤ c && c ≤ '9') || c == '_'

/-- Latin-1 characters names are made of: those of ASCII, the ordinal indicators, the micro sign, and the accented and other letters from À to ÿ, without the signs × and ÷
among them. -/
def nameCharLatin1 (c : Char) : Bool := nameChar c || c ∈ ['ª', 'µ', 'º'] || ('À' ≤ c && c ≤ 'ÿ' && c != '×' && c != '÷')

/-- ASCII white space. -/
def layoutChar (c : Char) : Bool := c ∈ ['\t', '\n', '\x0b', '\x0c', '\r', ' ']

/-- White space: the characters with the Unicode property White_Space. -/
def whiteSpace (c : Char) : Bool :=
  c ∈ ['\t', '\n', '\x0b', '\x0c', '\r', ' ', '\u0085', '\u00a0', '\u1680', '\u2000', '\u2001', '\u2002', '\u2003', '\u2004', '\u2005', '\u2006', '\u2007',
    '\u2008', '\u2009', '\u200a', '\u2028', '\u2029', '\u202f', '\u205f', '\u3000']

/-- A legal identifier: nonempty, identifier characters only, and not beginning with the keyword
`_this` (the keyword is recognised without a word boundary). -/
def IdentOK (isIdent : Char → Bool) (n : List Char) : Prop :=
  n ≠ [] ∧ (∀ c ∈ n, isIdent c = true) ∧ ¬ ['_', 't', 'h', 'i', 's'] <+: n

/-- What may directly follow a symbol so that the symbol is read as itself (longest match):
an identifier is not followed by another identifier character, `-` not by `>`. -/
def Follows (isIdent : Char → Bool) : Sym → List Char → Prop
  | .ident _, rest => ∀ c, rest.head? = some c → isIdent c = false
  | .minus, rest => rest.head? ≠ some '>'
  | _, _ => True

/-- `Renders text syms`: the text is the spelling of the symbols, with any white space before,
between and after them, adjacent symbols being separable by the longest-match rule. -/
inductive Renders (isIdent isSpace : Char → Bool) : List Char → List Sym → Prop
  | nil {ws : List Char} : (∀ c ∈ ws, isSpace c = true) → Renders isIdent isSpace ws []
  | cons {ws rest : List Char} {s : Sym} {ss : List Sym} :
      (∀ c ∈ ws, isSpace c = true) →
      (∀ n, s = .ident n → IdentOK isIdent n) →
      Follows isIdent s rest →
      Renders isIdent isSpace rest ss →
      Renders isIdent isSpace (ws ++ s.spell ++ rest) (s :: ss)

/-- Trees the mini language can write down: every leaf is a rule with legal names, every operator is
one of the three. -/
def Printable (isIdent : Char → Bool) : ExprTree → Prop
  | .nil => False
  | .unset => False
  | .rule .unset => False
  | .rule .this => True
  | .rule (.cu n) => IdentOK isIdent n.toList
  | .rule (.ttu a b) => IdentOK isIdent a.toList ∧ IdentOK isIdent b.toList
  | .op l o r => o ≠ .unknown ∧ Printable isIdent l ∧ Printable isIdent r

/-- leaves of a tree, left to right (specification) -/
def leaves : ExprTree → List Rule
  | .nil => []
  | .unset => []
  | .rule r => [r]
  | .op l _ r => leaves l ++ leaves r

/-- no nil subtree -/
def NoNil : ExprTree → Prop
  | .nil => False
  | .unset => True
  | .rule _ => True
  | .op l _ r => NoNil l ∧ NoNil r

end Zanzi.Spec
