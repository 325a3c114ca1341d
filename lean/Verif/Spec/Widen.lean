import Verif.Spec.Graph

/-
When the expressions of a policy grant at least what those of another one grant.
-/

namespace Zanzi.Spec

/-- Whoever is in the first expression is in the second. -/
def Within (R : Relationship → Prop) (x : USet) (e e' : ExprTree) : Prop := ∀ u V, ExprIn R u V x e → ExprIn R u V x e'

/-- Policy `p'` has every relation of policy `p`, with an expression that grants at least as much. -/
def Widens (U : Unicode) (R : Relationship → Prop) (p p' : Policy) : Prop := ∀ y e, DefinedBy U p y e → ∃ e', DefinedBy U p' y e' ∧ Within R y e e'

end Zanzi.Spec
