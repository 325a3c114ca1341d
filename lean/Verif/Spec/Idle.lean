import Verif.Spec.Flatten

/-
What users expect of relationships that add nothing: a relationship all of whose users have the relation anyway can be stored or left out (C114).
-/

namespace Zanzi.Spec

/-- For user `u`, giving userset `x` to `sub` adds nothing: if `u` is among `sub`, then `u` is in `x` anyway. -/
def Idle (U : Unicode) (p : Policy) (R : Relationship → Prop) (x : USet) (sub : Subject) (u : Entity) : Prop :=
  SubjectIn (Granted U p R u) u sub → Granted U p R u x

/-- `R'` is `R` and the relationship that gives `x` to `sub`. -/
def Adds (x : USet) (sub : Subject) (R R' : Relationship → Prop) : Prop :=
  ∀ r, R' r ↔ R r ∨ r = ⟨some x.object, x.relation, some sub⟩

end Zanzi.Spec
