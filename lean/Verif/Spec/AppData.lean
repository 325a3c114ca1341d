import Verif.Spec.Clock

/-
Vocabulary for what becomes of application data.
-/

namespace Zanzi.Spec

/-- Policy records equal but for their application data, which `R` relates. -/
def PolicyRecordOver (R : Bytes → Bytes → Prop) (x y : PolicyRecord) : Prop := x.policy = y.policy ∧ x.createdAt = y.createdAt ∧ R x.appData y.appData

/-- Relationship records equal but for their application data, which `R` relates. -/
def RelationshipRecordOver (R : Bytes → Bytes → Prop) (x y : RelationshipRecord) : Prop :=
  x.policyId = y.policyId ∧ x.relationship = y.relationship ∧ x.createdAt = y.createdAt ∧ R x.appData y.appData

/-- Answers equal but for the application data in the records in them, which `R` relates. -/
def AnswerOver (R : Bytes → Bytes → Prop) : Answer → Answer → Prop
  | .created x, .created y => PolicyRecordOver R x y
  | .policy x, .policy y => BothOrNone (PolicyRecordOver R) x y
  | .relationship x, .relationship y => BothOrNone (RelationshipRecordOver R) x y
  | .records l, .records l' => PlaceByPlace (BothOrNone (RelationshipRecordOver R)) l l'
  | .created _, _ | .policy _, _ | .relationship _, _ | .records _, _ => False
  | a, b => a = b

/-- Outcomes equal but for the application data in the records in them, which `R` relates. -/
def OutcomeOver (R : Bytes → Bytes → Prop) : Res Answer → Res Answer → Prop
  | .ok a, .ok b => AnswerOver R a b
  | r, r' => r = r'

/-- The same request, with application data that `R` relates. -/
inductive RequestOver (R : Bytes → Bytes → Prop) : Call → Call → Prop
  | create {a b : Bytes} (now : Timestamp) (d : Option PolicyDefinition) : R a b → RequestOver R (.createPolicy now d a) (.createPolicy now d b)
  | update {a b : Bytes} (d : Option PolicyDefinition) : R a b → RequestOver R (.updatePolicy d a) (.updatePolicy d b)
  | set {a b : Bytes} (now : Timestamp) (pid : String) (r : Option Relationship) : R a b → RequestOver R (.setRelationship now pid r a) (.setRelationship now pid r b)
  | other {c : Call} : (∀ now d a, c ≠ .createPolicy now d a) → (∀ d a, c ≠ .updatePolicy d a) → (∀ now pid r a, c ≠ .setRelationship now pid r a) → RequestOver R c c

/-- Stores equal but for application data, which `R` relates wherever it is stored. -/
structure StoreOver (R : Bytes → Bytes → Prop) (s s' : Store) : Prop where
  ids : s.policies.map (·.1) = s'.policies.map (·.1)
  policies : ∀ id, BothOrNone (PolicyRecordOver R) (kvGet s.policies id) (kvGet s'.policies id)
  edges : s.edges = s'.edges
  data : ∀ k, BothOrNone (fun d d' => d.relationshipId = d'.relationshipId ∧ d.createdAt = d'.createdAt ∧ R d.appData d'.appData) (kvGet s.data k) (kvGet s'.data k)

/-- The application data a request brings. -/
def sentIn : Call → List Bytes
  | .createPolicy _ _ a | .updatePolicy _ a | .setRelationship _ _ _ a => [a]
  | _ => []

/-- The application data in an answer. -/
def appDataIn : Res Answer → List Bytes
  | .ok (.created x) => [x.appData]
  | .ok (.policy (some x)) => [x.appData]
  | .ok (.relationship (some x)) => [x.appData]
  | .ok (.records l) => l.flatMap (fun x => match x with | some x => [x.appData] | none => [])
  | _ => []

/-- The application data a store holds. -/
def heldIn (s : Store) : List Bytes := s.policies.map (·.2.appData) ++ s.data.map (·.2.appData)

end Zanzi.Spec
