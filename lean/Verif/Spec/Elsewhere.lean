import Verif.Spec.Graph

/-
What a request comes across, when storage keys may collide (C113).
-/

namespace Zanzi.Spec

/-- The relationships `R` as storage shows them: those of a userset are all that are stored under its key. -/
def Looked (H : String → Nat) (R : Relationship → Prop) (r : Relationship) : Prop :=
  ∃ q o o', R q ∧ q.object = some o ∧ r.object = some o' ∧ q.subject = r.subject ∧ H (o.resource ++ o.id ++ q.relation) = H (o'.resource ++ o'.id ++ r.relation)

/-- Both policies define every userset that a request starting at `x` comes across alike, or not at all. -/
def AlikeFrom (U : Unicode) (H : String → Nat) (p p' : Policy) (R : Relationship → Prop) (x : USet) : Prop :=
  ∀ y t, Reaches U p (Looked H R) x y.node → (DefinedBy U p y t ↔ DefinedBy U p' y t)

end Zanzi.Spec
