import Verif.Lemmas.Serve
import Verif.Spec.Clock

/-
Vocabulary for copying what a service holds to another one through the API.
-/

namespace Zanzi.Spec

/-- The selector that every relationship matches. -/
def everything : Selector := ⟨some .wildcard, some .wildcard, some .wildcard⟩

/-- What a caller fetches from a service: the policy ids, the policies, and the relationship records of each, none of them nil. -/
structure Fetched (env : Env) (s : Store) (ids : List String) (pol : String → PolicyRecord) (recs : String → List RelationshipRecord) : Prop where
  listed : (serve env .listPolicyIds s).1 = .ok (.ids ids)
  policies : ∀ id ∈ ids, (serve env (.getPolicy id) s).1 = .ok (.policy (some (pol id)))
  records : ∀ id ∈ ids, (serve env (.findRelationshipRecords id (some everything)) s).1 = .ok (.records ((recs id).map some))

/-- A request that copies something fetched. -/
inductive CopyOf (ids : List String) (pol : String → PolicyRecord) (recs : String → List RelationshipRecord) : Call → Prop
  | policy (now : Timestamp) {id : String} : id ∈ ids → CopyOf ids pol recs (.createPolicy now (some (.policy (pol id).policy)) (pol id).appData)
  | relationship (now : Timestamp) {id : String} {x : RelationshipRecord} : id ∈ ids → x ∈ recs id → CopyOf ids pol recs (.setRelationship now id (some x.relationship) x.appData)

/-- The requests, answered `rs`, copy what was fetched and nothing else, in any order and with any repetitions, and each thing fetched was copied successfully at least once. -/
structure Copies (ids : List String) (pol : String → PolicyRecord) (recs : String → List RelationshipRecord) (cs : List Call) (rs : List (Res Answer)) : Prop where
  only : ∀ c ∈ cs, CopyOf ids pol recs c
  policies : ∀ id ∈ ids, ∃ now a, (.createPolicy now (some (.policy (pol id).policy)) (pol id).appData, .ok a) ∈ cs.zip rs
  relationships : ∀ id ∈ ids, ∀ x ∈ recs id, ∃ now a, (.setRelationship now id (some x.relationship) x.appData, .ok a) ∈ cs.zip rs

/-- First the policies, then the relationships of each. -/
def inOrder (now : Timestamp) (ids : List String) (pol : String → PolicyRecord) (recs : String → List RelationshipRecord) : List Call :=
  ids.map (fun id => .createPolicy now (some (.policy (pol id).policy)) (pol id).appData) ++
  ids.flatMap (fun id => (recs id).map (fun x => .setRelationship now id (some x.relationship) x.appData))

/-- Every policy admits the relationships fetched for it. -/
def AllAdmissible (ids : List String) (pol : String → PolicyRecord) (recs : String → List RelationshipRecord) : Prop :=
  ∀ id ∈ ids, ∀ x ∈ recs id, Admissible (pol id).policy x.relationship

end Zanzi.Spec
