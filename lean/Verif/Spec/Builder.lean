import Verif.Model.Builder
import Verif.Spec.Policy

/-
What a built selector means (C68).
-/

namespace Zanzi.Spec

/-- `a` was chosen by a call that no later call changed: after it, neither another choice for the same part nor a Reset. -/
def Chosen {α : Type} (part : SelectorOp → Option α) (h : List SelectorOp) (a : α) : Prop :=
  ∃ before op after, h = before ++ op :: after ∧ part op = some a ∧ ∀ x ∈ after, part x = none ∧ x ≠ .reset

/-- Choices for the object, as a condition on relationships. -/
def objectPart : SelectorOp → Option (Relationship → Prop)
  | .anyObject => some (fun _ => True)
  | .withObject e => some (fun r => r.object = some e)
  | _ => none

/-- Choices for the relation. -/
def relationPart : SelectorOp → Option (Relationship → Prop)
  | .anyRelation => some (fun _ => True)
  | .withRelation n => some (fun r => r.relation = n)
  | _ => none

/-- Choices for the subject. -/
def subjectPart : SelectorOp → Option (Relationship → Prop)
  | .anySubject => some (fun _ => True)
  | .withSubject s => some (fun r => r.subject = some s)
  | _ => none

end Zanzi.Spec
