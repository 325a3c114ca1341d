import Verif.Spec.Policy
import Verif.Model.Exec

/-
Independent specification of the store: what a user means by "relationship r is stored in policy pid", and an
abstract store (two maps) against which the service is compared.
-/

namespace Zanzi.Spec

/-- The policy stored under an id. -/
def policyAt (s : Store) (id : String) : Option PolicyRecord := (s.policies.find? (fun p => p.1 == id)).map (·.2)

/-- The relationships stored in a policy, in storage order. -/
def relationships (s : Store) (pid : String) : List Relationship := (s.edges pid).map (fun p => fromInternal p.2)

/-- Relationship `r` is stored in policy `pid`. -/
def Present (s : Store) (pid : String) (r : Relationship) : Prop := r ∈ relationships s pid

/-- A valid policy. -/
def ValidPolicy (U : Unicode) (p : Policy) : Prop :=
  NamesUnique p ∧ RestrictionsOK p ∧ ExpressionsOK U.isIdent whiteSpace p

/-- The abstract store: policies by id, and for each policy the relationships with their data. -/
structure AState where
  pols : String → Option PolicyRecord
  rels : String → Relationship → Option (Bytes × Timestamp)

/-- The empty abstract store. -/
def AState.empty : AState := ⟨fun _ => none, fun _ _ => none⟩

/-- Change one entry of a function. -/
def upd {α β : Type} [DecidableEq α] (f : α → β) (a : α) (b : β) : α → β := fun x => if x = a then b else f x

/-- The policy a definition stands for. -/
def Defines (env : Env) (d : Option PolicyDefinition) (p : Policy) : Prop :=
  d = some (.policy p) ∨ ∃ text, d = some (.yaml text) ∧ env.yaml text = .ok p

/-- What each policy-service call does to the abstract store, and what it may answer.  Order of find results is
left open. -/
inductive AStep (env : Env) : Call → AState → Res Answer → AState → Prop
  | create {now d a A p} : Defines env d p → A.pols p.id = none → ValidPolicy env.U p →
      AStep env (.createPolicy now d a) A (.ok (.created ⟨p, a, now⟩)) { A with pols := upd A.pols p.id (some ⟨p, a, now⟩) }
  | createExists {now d a A p rec} : Defines env d p → A.pols p.id = some rec →
      AStep env (.createPolicy now d a) A (.err .policyExists) A
  | createInvalid {now d a A p e} : Defines env d p → A.pols p.id = none → ¬ ValidPolicy env.U p →
      AStep env (.createPolicy now d a) A (.err e) A
  | update {d a A p rec} : Defines env d p → A.pols p.id = some rec → ValidPolicy env.U p →
      AStep env (.updatePolicy d a) A (.ok .updated) { A with pols := upd A.pols p.id (some ⟨p, a, rec.createdAt⟩) }
  | updateMissing {d a A p} : Defines env d p → A.pols p.id = none →
      AStep env (.updatePolicy d a) A (.err .policyNotFound) A
  | updateInvalid {d a A p rec e} : Defines env d p → A.pols p.id = some rec → ¬ ValidPolicy env.U p →
      AStep env (.updatePolicy d a) A (.err e) A
  | deletePolicy {id A rec n} {l : List Relationship} : A.pols id = some rec →
      l.Nodup → (∀ r, r ∈ l ↔ (A.rels id r).isSome) → n = l.length →
      AStep env (.deletePolicy id) A (.ok (.deletedPolicy true n)) ⟨upd A.pols id none, upd A.rels id (fun _ => none)⟩
  | deletePolicyMissing {id A} : A.pols id = none →
      AStep env (.deletePolicy id) A (.ok (.deletedPolicy false 0)) A
  | getPolicy {id A} : AStep env (.getPolicy id) A (.ok (.policy (A.pols id))) A
  | listPolicyIds {A} {l : List String} : l.Pairwise (· < ·) → (∀ id, id ∈ l ↔ (A.pols id).isSome) →
      AStep env .listPolicyIds A (.ok (.ids l)) A
  | set {now pid r a A rec} : A.pols pid = some rec → Admissible rec.policy r →
      AStep env (.setRelationship now pid (some r) a) A (.ok (.overwritten (A.rels pid r).isSome))
        { A with rels := upd A.rels pid (upd (A.rels pid) r (some (a, now))) }
  | setMissing {now pid r a A} : A.pols pid = none →
      AStep env (.setRelationship now pid (some r) a) A (.err .policyNotFound) A
  | setRejected {now pid r a A rec e} : A.pols pid = some rec → ¬ Admissible rec.policy r →
      AStep env (.setRelationship now pid (some r) a) A (.err e) A
  | delete {pid r A} : AStep env (.deleteRelationship pid (some r)) A (.ok (.found (A.rels pid r).isSome))
      { A with rels := upd A.rels pid (upd (A.rels pid) r none) }
  | get {pid r A} : AStep env (.getRelationship pid (some r)) A
      (.ok (.relationship ((A.rels pid r).map (fun d => ⟨pid, r, d.2, d.1⟩)))) A
  | find {pid sel A rec} {l : List RelationshipRecord} : A.pols pid = some rec →
      SelectorKnown rec.policy sel → l.Nodup →
      (∀ x, x ∈ l ↔ ∃ r d, A.rels pid r = some d ∧ Matches sel r ∧ x = ⟨pid, r, d.2, d.1⟩) →
      AStep env (.findRelationshipRecords pid (some sel)) A (.ok (.records (l.map some))) A
  | findMissing {pid sel A} : A.pols pid = none →
      AStep env (.findRelationshipRecords pid (some sel)) A (.err .policyNotFound) A
  | findRejected {pid sel A rec e} : A.pols pid = some rec → ¬ SelectorKnown rec.policy sel →
      AStep env (.findRelationshipRecords pid (some sel)) A (.err e) A
  | deleteMatching {pid sel A n} {l : List Relationship} : l.Nodup →
      (∀ r, r ∈ l ↔ (A.rels pid r).isSome ∧ Matches sel r) → n = l.length →
      open Classical in
      AStep env (.deleteRelationships pid (some sel)) A (.ok (.affected n))
        { A with rels := upd A.rels pid (fun r => if Matches sel r then none else A.rels pid r) }

/-- A sequence of calls against the abstract store. -/
inductive ATrace (env : Env) : List Call → AState → List (Res Answer) → AState → Prop
  | nil {A} : ATrace env [] A [] A
  | cons {c cs A r A' rs A''} : AStep env c A r A' → ATrace env cs A' rs A'' → ATrace env (c :: cs) A (r :: rs) A''

end Zanzi.Spec
