import Verif.Model.Lexer

/-
Model of /repo/internal/relation_expression_parser/primitives.go and parser.go, and of the printer in
/repo/pkg/domain/relation_expression_tree.go.
-/

namespace Zanzi

/-- `parserFn` — primitives.go:9: tokens to value and remaining tokens, or an error (the third
component is ignored by callers on error). -/
abbrev P (α : Type) := List Token → Res (α × List Token)

/-- `unit` — primitives.go:13-19. -/
def unitP : P Token
  | [] => .err .parse
  | t :: ts => .ok (t, ts)

/-- `parseIf` — primitives.go:68-79. -/
def parseIf (p : Token → Bool) : P Token := fun tokens =>
  match unitP tokens with
  | .ok (t, rest) => if p t then .ok (t, rest) else .err .parse
  | .err e => .err e
  | .panic => .panic
  | .fuel => .fuel

/-- `parseIfType` — primitives.go:82-85. -/
def parseIfType (ty : TokenType) : P Token := parseIf (fun t => t.type == ty)

/-- `parseIfAnyType` — primitives.go:88-98. -/
def parseIfAnyType (tys : List TokenType) : P Token := parseIf (fun t => tys.any (fun ty => t.type == ty))

/-- The `for` loop of `many` — primitives.go:36-46.  An error of the inner parser ends the loop
successfully.  The first argument bounds the number of iterations. -/
def manyN {α : Type} (p : P α) : Nat → P (List α)
  | 0, _ => .fuel
  | n + 1, tail =>
    match p tail with
    | .ok (a, tail') =>
      match manyN p n tail' with
      | .ok (as, tail'') => .ok (a :: as, tail'')
      | .err e => .err e
      | .panic => .panic
      | .fuel => .fuel
    | .err _ => .ok ([], tail)
    | .panic => .panic
    | .fuel => .fuel

/-- `many` — primitives.go:30-47.  The parsers it is used with consume a token on success, so
`tokens.length + 1` iterations suffice (`Verif.Lemmas.Parser`). -/
def many {α : Type} (p : P α) : P (List α) := fun tokens =>
  match tokens with
  | [] => .ok ([], [])
  | _ => manyN p (tokens.length + 1) tokens

/-- The loop of `first` over its parsers — primitives.go:57-62. -/
def firstLoop {α : Type} : List (P α) → P α
  | [], _ => .err .parse
  | p :: ps, tokens =>
    match p tokens with
    | .ok r => .ok r
    | .err _ => firstLoop ps tokens
    | .panic => .panic
    | .fuel => .fuel

/-- `first` — primitives.go:50-66. -/
def first {α : Type} (ps : List (P α)) : P α := fun tokens =>
  match tokens with
  | [] => .err .parse
  | _ => firstLoop ps tokens

/-- `computedUsersetParser` — parser.go:51-58. -/
def computedUsersetParser : P ExprTree := fun tokens => do
  let (id, tail) ← parseIfType .identifier tokens
  return (.rule (.cu id.lexeme), tail)

/-- `thisParser` — parser.go:61-68. -/
def thisParser : P ExprTree := fun tokens => do
  let (_, tail) ← parseIfType .this tokens
  return (.rule .this, tail)

/-- `tupleToUsersetParser` — parser.go:71-88. -/
def tupleToUsersetParser : P ExprTree := fun tokens => do
  let (fst, tail) ← parseIfType .identifier tokens
  let (_, tail) ← parseIfType .arrow tail
  let (snd, tail) ← parseIfType .identifier tail
  return (.rule (.ttu fst.lexeme snd.lexeme), tail)

/-- `ruleParser` — parser.go:45. -/
def ruleParser : P ExprTree := first [thisParser, tupleToUsersetParser, computedUsersetParser]

/-- `setOpParser` — parser.go:91-110, with its explicit `panic`. -/
def setOpParser : P Operator := fun tokens => do
  let (t, tail) ← parseIfAnyType [.union, .difference, .intersection] tokens
  match t.type with
  | .union => return (.union, tail)
  | .intersection => return (.intersection, tail)
  | .difference => return (.difference, tail)
  | _ => .panic

/-- `opTermParser` — parser.go:113-126, over the current `termParser`. -/
def opTermParser (term : P ExprTree) : P (Operator × ExprTree) := fun tokens => do
  let (op, tail) ← setOpParser tokens
  let (t, tail) ← term tail
  return ((op, t), tail)

/-- `expressionParser` — parser.go:131-149, with `opTermsParser` (128). -/
def expressionParser (term : P ExprTree) : P ExprTree := fun tokens => do
  let (head, tail) ← term tokens
  let (pairs, tail) ← many (opTermParser term) tail
  return (pairs.foldl (fun acc p => .op acc p.1 p.2) head, tail)

/-- `subexprParser` — parser.go:152-169. -/
def subexprParser (term : P ExprTree) : P ExprTree := fun tokens => do
  let (_, tail) ← parseIfType .groupBegin tokens
  let (e, tail) ← expressionParser term tail
  let (_, tail) ← parseIfType .groupEnd tail
  return (e, tail)

/-- `termParser` — parser.go:171-174.  The Go recursion term → subexpr → expression → term is not
structural; the first argument bounds the nesting depth. -/
def termParser : Nat → P ExprTree
  | 0 => fun _ => .fuel
  | n + 1 => first [ruleParser, subexprParser (termParser n)]

/-- `Parse` after the tokens were received — parser.go:18-33.  `tokens[len(tokens)-1]` panics on
an empty slice. -/
def parseTokens (tokens : List Token) : Res ExprTree :=
  match tokens.getLast? with
  | none => .panic
  | some last =>
    if last.type = .error then .err .parse
    else do
      let (e, tail) ← expressionParser (termParser (tokens.length + 1)) tokens
      let (_, tail) ← many (parseIfType .eof) tail
      if tail.length ≠ 0 then .err .parse else return e

/-- `Parse` — parser.go:13-34.  The lexer goroutine and the channel are modelled in
`Verif.Model.Channel`; here the received token list is the emitted one. -/
def parse (U : Unicode) (text : String) : Res ExprTree :=
  match lex U text.toList with
  | none => .fuel
  | some tokens => parseTokens tokens

/-- `Operator.RelationExpression` — relation_expression_tree.go:121-131. -/
def Operator.print : Operator → String
  | .union => "+"
  | .intersection => "&"
  | .difference => "-"
  | .unknown => ""

/-- `Rule.RelationExpression` — relation_expression_tree.go:106-117. -/
def Rule.print : Rule → String
  | .this => "_this"
  | .cu t => t
  | .ttu a b => a ++ "->" ++ b
  | .unset => ""

/-- `RelationExpressionTree.RelationExpression` — relation_expression_tree.go:91-102. -/
def ExprTree.print : ExprTree → Res String
  | .nil => .panic
  | .unset => .ok ""
  | .rule r => .ok r.print
  | .op l o r => do
    let ls ← l.print
    let rs ← r.print
    return "(" ++ ls ++ " " ++ o.print ++ " " ++ rs ++ ")"

end Zanzi
