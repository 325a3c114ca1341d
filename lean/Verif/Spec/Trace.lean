import Verif.Spec.Sched
import Verif.Spec.Store

/-
Where stored data comes from: the requests `A` that arrived at the server.
-/

namespace Zanzi.Spec

/-- Definition `d` was given, with data `a`, to a request creating or updating a policy. -/
def Given (A : Call → Prop) (d : Option PolicyDefinition) (a : Bytes) : Prop := (∃ now, A (.createPolicy now d a)) ∨ A (.updatePolicy d a)

/-- Policy `pid` was created at time `now`. -/
def CreatedAt (env : Env) (A : Call → Prop) (pid : String) (now : Timestamp) : Prop :=
  ∃ d p a, A (.createPolicy now d a) ∧ Defines env d p ∧ p.id = pid

/-- The policy and data of a record were given together by one request, and its time is that of a request that created a policy with this id. -/
def PolicyAsked (env : Env) (A : Call → Prop) (pid : String) (rec : PolicyRecord) : Prop :=
  rec.policy.id = pid ∧ ValidPolicy env.U rec.policy ∧ (∃ d, Given A d rec.appData ∧ Defines env d rec.policy) ∧ CreatedAt env A pid rec.createdAt

/-- Relationship `r` was asked for, and some policy asked for under the id `pid` admits it. -/
def RelationshipAsked (env : Env) (A : Call → Prop) (pid : String) (r : Relationship) : Prop :=
  (∃ now a, A (.setRelationship now pid (some r) a)) ∧ ∃ rec, PolicyAsked env A pid rec ∧ Admissible rec.policy r

end Zanzi.Spec
