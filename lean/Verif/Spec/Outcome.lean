import Verif.Spec.Explain

/-
Which usersets a request can be answered through (C14, C49).
-/

namespace Zanzi.Spec

/-- Relation of `y` is declared by an expression without missing parts. -/
def Readable (U : Unicode) (p : Policy) (y : USet) : Prop := ∃ e, DefinedBy U p y e ∧ Whole e

/-- An arrow among the rules `pick` takes from the expression of `y` looks for objects where a wildcard is stored. -/
def MeetsWildcard (U : Unicode) (p : Policy) (R : Relationship → Prop) (pick : ExprTree → List Rule) (y : USet) : Prop :=
  ∃ e a b n, DefinedBy U p y e ∧ .ttu a b ∈ pick e ∧ R ⟨some y.object, a, some (.resourceSet n)⟩

/-- The root can be expanded: every userset shown is declared by an expression without missing parts, and none of the rules in `pick` of these meets a
wildcard in a tupleset. -/
def Expandable (U : Unicode) (p : Policy) (R : Relationship → Prop) (pick : ExprTree → List Rule) (x : USet) : Prop :=
  ∀ y : USet, Shown U p R x y.node → Readable U p y ∧ ¬ MeetsWildcard U p R pick y

/-- Every userset within reach is declared by an expression without missing parts and meets no wildcard in a tupleset. -/
def Approachable (U : Unicode) (p : Policy) (R : Relationship → Prop) (x : USet) : Prop :=
  ∀ y : USet, Reaches U p R x y.node → Readable U p y ∧ ¬ MeetsWildcard U p R leaves y

end Zanzi.Spec
