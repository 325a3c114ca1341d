import Verif.Model.Lexer

/-
The lexer goroutine, the bounded token channel and the draining loop of the parser as a transition
system: /repo/internal/relation_expression_parser/lexer.go:49-59,170-222,
/repo/internal/relation_expression_parser/parser.go:14-16, /repo/internal/utils/utils.go:28-38.
-/

namespace Zanzi

/-- Program counter of the lexer goroutine: in `scan` with remaining input, blocked in the channel send of
`emit`/`emitError` (lexer.go:202,214), about to `close` (lexer.go:221), finished. -/
inductive LexPC where
  | scan (cs : List Char)
  | send (t : Token) (next : Option (List Char))
  | closing
  | closed
  deriving DecidableEq, Repr

/-- Joint state: lexer goroutine, channel buffer, values received by `ConsumeChan`, and whether
`ConsumeChan` has returned. -/
structure ChState where
  pc : LexPC
  buf : List Token
  got : List Token
  returned : Bool
  deriving DecidableEq, Repr

/-- State after `go lexer.Lex()` — parser.go:14-15. -/
def ChState.init (cs : List Char) : ChState := ⟨.scan cs, [], [], false⟩

/-- One scheduler step; `cap` is the channel capacity (10 in lexer.go:50). -/
inductive ChStep (U : Unicode) (cap : Nat) : ChState → ChState → Prop
  /-- lexer computes its next token (lexer.go:173-191) -/
  | emit {cs t rest buf got r} : lexStep U cs = .emit t rest →
      ChStep U cap ⟨.scan cs, buf, got, r⟩ ⟨.send t (some rest), buf, got, r⟩
  | skip {cs rest buf got r} : lexStep U cs = .skip rest →
      ChStep U cap ⟨.scan cs, buf, got, r⟩ ⟨.scan rest, buf, got, r⟩
  | eof {cs buf got r} : lexStep U cs = .eof →
      ChStep U cap ⟨.scan cs, buf, got, r⟩ ⟨.send ⟨.eof, ""⟩ none, buf, got, r⟩
  | error {cs buf got r} : lexStep U cs = .error →
      ChStep U cap ⟨.scan cs, buf, got, r⟩ ⟨.send ⟨.error, ""⟩ none, buf, got, r⟩
  /-- channel send succeeds only while the buffer has room -/
  | send {t next buf got r} : buf.length < cap →
      ChStep U cap ⟨.send t next, buf, got, r⟩
        ⟨(match next with | some cs => .scan cs | none => .closing), buf ++ [t], got, r⟩
  /-- `close(l.q)` — lexer.go:221 -/
  | close {buf got r} : ChStep U cap ⟨.closing, buf, got, r⟩ ⟨.closed, buf, got, r⟩
  /-- consumer receives the oldest value (utils.go:31-35) -/
  | recv {pc t buf got} : ChStep U cap ⟨pc, t :: buf, got, false⟩ ⟨pc, buf, got ++ [t], false⟩
  /-- receive on a closed empty channel ends the loop (utils.go:32-33) -/
  | ret {got} : ChStep U cap ⟨.closed, [], got, false⟩ ⟨.closed, [], got, true⟩

/-- Any number of steps, any schedule. -/
inductive ChSteps (U : Unicode) (cap : Nat) : ChState → ChState → Prop
  | refl {s} : ChSteps U cap s s
  | step {a b c} : ChSteps U cap a b → ChStep U cap b c → ChSteps U cap a c

end Zanzi
