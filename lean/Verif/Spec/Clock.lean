import Verif.Spec.Repeat

/-
Vocabulary for what depends on the clock.
-/

namespace Zanzi.Spec

/-- Policy records that differ at most in when they were created. -/
def SamePolicyRecord (x y : PolicyRecord) : Prop := x.policy = y.policy ∧ x.appData = y.appData

/-- Relationship records that differ at most in when they were created. -/
def SameRelationshipRecord (x y : RelationshipRecord) : Prop := x.policyId = y.policyId ∧ x.relationship = y.relationship ∧ x.appData = y.appData

/-- Both absent, or both there and alike. -/
def BothOrNone {α : Type} (R : α → α → Prop) : Option α → Option α → Prop
  | none, none => True
  | some x, some y => R x y
  | _, _ => False

/-- Lists of the same length, alike at every place. -/
def PlaceByPlace {α : Type} (R : α → α → Prop) : List α → List α → Prop
  | [], [] => True
  | x :: l, y :: l' => R x y ∧ PlaceByPlace R l l'
  | _, _ => False

/-- Answers that differ at most in the creation times of the records in them. -/
def SameAnswer : Answer → Answer → Prop
  | .created x, .created y => SamePolicyRecord x y
  | .policy x, .policy y => BothOrNone SamePolicyRecord x y
  | .relationship x, .relationship y => BothOrNone SameRelationshipRecord x y
  | .records l, .records l' => PlaceByPlace (BothOrNone SameRelationshipRecord) l l'
  | a, b => a = b

/-- Outcomes that differ at most in the creation times of the records in them. -/
def SameOutcome : Res Answer → Res Answer → Prop
  | .ok a, .ok b => SameAnswer a b
  | r, r' => r = r'

/-- The same request, served at another time. -/
def SameRequest (c c' : Call) : Prop := ∃ now, c' = servedAt now c

/-- Stores that differ at most in creation times. -/
structure SameButTimes (s s' : Store) : Prop where
  ids : s.policies.map (·.1) = s'.policies.map (·.1)
  policies : ∀ id, BothOrNone SamePolicyRecord (kvGet s.policies id) (kvGet s'.policies id)
  edges : s.edges = s'.edges
  data : ∀ k, BothOrNone (fun d d' => d.relationshipId = d'.relationshipId ∧ d.appData = d'.appData) (kvGet s.data k) (kvGet s'.data k)

end Zanzi.Spec
