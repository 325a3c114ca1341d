import Verif.Spec.Sched

/-
Vocabulary for policies that do not interfere: the requests concerning one policy, and the answers they get.
-/

namespace Zanzi.Spec

/-- The request concerns policy `pid` and does not read the time and data of relationship records. -/
def Concerns (env : Env) (pid : String) (c : Call) : Prop :=
  c.target env = some pid ∧ (∀ q r, c ≠ .getRelationship q r) ∧ ∀ q sel, c ≠ .findRelationshipRecords q sel

/-- The answers that the requests concerning `pid` get when the list is served one by one. -/
inductive AnswersOf (env : Env) (pid : String) : List Call → Store → List (Call × Res Answer) → Prop
  | nil {s : Store} : AnswersOf env pid [] s []
  | own {c : Call} {cs : List Call} {s : Store} {l : List (Call × Res Answer)} :
      Concerns env pid c → AnswersOf env pid cs ((c.prog env).run s).2 l → AnswersOf env pid (c :: cs) s ((c, ((c.prog env).run s).1) :: l)
  | other {c : Call} {cs : List Call} {s : Store} {l : List (Call × Res Answer)} :
      ¬ Concerns env pid c → AnswersOf env pid cs ((c.prog env).run s).2 l → AnswersOf env pid (c :: cs) s l

/-- `own` is what remains of `all` when the requests not concerning `pid` are left out. -/
inductive Purged (env : Env) (pid : String) : List Call → List Call → Prop
  | nil : Purged env pid [] []
  | own {c : Call} {cs ds : List Call} : Concerns env pid c → Purged env pid cs ds → Purged env pid (c :: cs) (c :: ds)
  | other {c : Call} {cs ds : List Call} : ¬ Concerns env pid c → Purged env pid cs ds → Purged env pid (c :: cs) ds

end Zanzi.Spec
