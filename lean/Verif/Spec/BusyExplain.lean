import Verif.Spec.Explain
import Verif.Spec.Sched

/-
Expansions read while other requests change the store.
-/

namespace Zanzi.Spec

/-- The tree has the shape of the expression, and what it shows for each rule is what the rule prescribed at some moment of the history. -/
def PrescribedDuring (hist : List Store) (pid : String) (y : USet) : ExprTree → GoalTree → Prop
  | .rule r, t => ∃ s ∈ hist, Prescribed (Present s pid) y (.rule r) t
  | .op l .union r, .or _ [a, b] => PrescribedDuring hist pid y l a ∧ PrescribedDuring hist pid y r b
  | .op l .intersection r, .and _ [a, b] => PrescribedDuring hist pid y l a ∧ PrescribedDuring hist pid y r b
  | .op l .difference r, .diff _ a b => PrescribedDuring hist pid y l a ∧ PrescribedDuring hist pid y r b
  | _, _ => False

/-- The tree is an expansion of userset `y` by its definition in policy `p`, each rule read at some moment. -/
def ExpansionDuring (U : Unicode) (p : Policy) (hist : List Store) (pid : String) (y : USet) (t : GoalTree) : Prop :=
  ∃ e, DefinedBy U p y e ∧ PrescribedDuring hist pid y e t

end Zanzi.Spec
