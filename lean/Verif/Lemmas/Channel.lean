import Verif.Lemmas.Lexer
import Verif.Model.Channel

/- Invariant and measure of the lexer/consumer transition system. -/

namespace Zanzi

/-- tokens still to be produced by the lexer goroutine -/
def LexPC.pending (U : Unicode) : LexPC → Option (List Token)
  | .scan cs => lex U cs
  | .send t (some cs) => (lex U cs).map (t :: ·)
  | .send t none => some [t]
  | .closing => some []
  | .closed => some []

theorem chstep_inv (U : Unicode) (cap : Nat) {a b : ChState} (h : ChStep U cap a b) :
    (a.pc.pending U).map (fun p => a.got ++ a.buf ++ p) = (b.pc.pending U).map (fun p => b.got ++ b.buf ++ p) := by
  cases h with
  | emit h => simp only [LexPC.pending]; rw [lex_unfold, h]
  | skip h => simp only [LexPC.pending]; rw [lex_unfold, h]
  | eof h => simp only [LexPC.pending]; rw [lex_unfold, h]
  | error h => simp only [LexPC.pending]; rw [lex_unfold, h]
  | @send t next buf got r h =>
    cases next with
    | none => simp [LexPC.pending]
    | some cs => cases hl : lex U cs <;> simp [LexPC.pending, hl]
  | close => simp [LexPC.pending]
  | recv => simp
  | ret => simp

theorem chsteps_inv (U : Unicode) (cap : Nat) {a b : ChState} (h : ChSteps U cap a b) :
    (a.pc.pending U).map (fun p => a.got ++ a.buf ++ p) = (b.pc.pending U).map (fun p => b.got ++ b.buf ++ p) := by
  induction h with
  | refl => rfl
  | step _ h2 ih => rw [ih, chstep_inv U cap h2]

/-- remaining work; every scheduler step decreases it -/
def ChState.measure (s : ChState) : Nat :=
  (match s.pc with
   | .scan cs => 3 * cs.length + 5
   | .send _ (some cs) => 3 * cs.length + 7
   | .send _ none => 3
   | .closing => 1
   | .closed => 0) + s.buf.length + (if s.returned then 0 else 1)

/-- returned implies the lexer goroutine is finished and the channel is empty -/
theorem chsteps_returned (U : Unicode) (cap : Nat) {cs : List Char} {s : ChState} (h : ChSteps U cap (.init cs) s) :
    s.returned = true → s.pc = .closed ∧ s.buf = [] := by
  induction h with
  | refl => simp [ChState.init]
  | step _ h2 ih =>
    cases h2 with
    | emit h => intro hr; have := (ih hr).1; simp at this
    | skip h => intro hr; have := (ih hr).1; simp at this
    | eof h => intro hr; have := (ih hr).1; simp at this
    | error h => intro hr; have := (ih hr).1; simp at this
    | send h => intro hr; have := (ih hr).1; simp at this
    | close => intro hr; have := (ih hr).1; simp at this
    | recv => simp
    | ret => simp

end Zanzi
