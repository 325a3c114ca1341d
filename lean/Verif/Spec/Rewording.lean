import Verif.Spec.Sched

/-
When two policies say the same, however they are written.
-/

namespace Zanzi.Spec

/-- Two relations allow the same subjects: the same kind of restriction and, if it lists entries, the same entries in whatever order. -/
def SameSubjects : Option SubjectRestriction → Option SubjectRestriction → Prop
  | some (.restrictionSet rs), some (.restrictionSet rs') => ∀ x, x ∈ rs ↔ x ∈ rs'
  | x, y => x = y

/-- Two relations mean the same: their expressions, given as text or as a tree, stand for the same tree, and they allow the same subjects. -/
def SameMeaning (U : Unicode) (d d' : Relation) : Prop :=
  (∀ t, Denotes U.isIdent whiteSpace d t ↔ Denotes U.isIdent whiteSpace d' t) ∧ SameSubjects d.subjectRestriction d'.subjectRestriction

/-- Two policies of the same id declare the same resources and, in each, relations of the same meaning.  Names and descriptions of the policy, descriptions of its
parts, attributes, the order of declarations and the spelling of expressions may differ. -/
structure SaysSame (U : Unicode) (p p' : Policy) : Prop where
  id : p'.id = p.id
  resources : ∀ n, HasResource p n ↔ HasResource p' n
  kept : ∀ a b d, Declares p a b d → ∃ d', Declares p' a b d' ∧ SameMeaning U d d'
  nothingNew : ∀ a b d', Declares p' a b d' → ∃ d, Declares p a b d ∧ SameMeaning U d d'

end Zanzi.Spec
