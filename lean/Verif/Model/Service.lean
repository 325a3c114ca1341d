import Verif.Model.Definition
import Verif.Model.Store

/-
Model of /repo/internal/policy/service.go: the PolicyService methods.
A request message is non-nil; its message fields may be nil (`Option`).
The clock reading (`timestamppb.Now()`) is an argument.
-/

namespace Zanzi

/-- What the code takes from outside: Unicode tables, SHA-256 (as a number), the YAML decoder with known fields only
(unmarshaler.go:12-22) and the orders in which Go iterates maps (`C51_order_independent`: they do not matter). -/
structure Env where
  U : Unicode
  H : String → Nat
  decode : String → Res PolicyDef
  top : RangeOrder
  order : String → RangeOrder

/-- `PolicyFromYaml` — /repo/pkg/policy_definition/mapper.go:14-23. -/
def Env.yaml (env : Env) (text : String) : Res Policy := do
  let d ← env.decode text
  policyFromDef env.top env.order d

/-- policy_service.proto:52-59 `PolicyDefinition`. -/
inductive PolicyDefinition where
  | unset
  | policy (p : Policy)
  | yaml (text : String)

/-- `GetPolicyFromDefinition` — helpers.go:39-57. -/
def getPolicyFromDefinition (env : Env) (d : Option PolicyDefinition) : Res Policy := do
  let d ← Res.deref d
  match d with
  | .policy p => .ok p
  | .yaml text => env.yaml text
  | .unset => .err .invalidVariant

namespace Service

/-- `CreatePolicy` — service.go:30-64. -/
def createPolicy (env : Env) (now : Timestamp) (d : Option PolicyDefinition) (appData : Bytes) : Prog PolicyRecord := do
  let policy ← Prog.lift (getPolicyFromDefinition env d)
  let fetched ← Repo.getPolicy policy.id
  match fetched with
  | some _ => Prog.lift (.err .policyExists)
  | none => do
    Prog.lift (verifyPolicy env.U policy)
    let rec' : PolicyRecord := { policy := policy, appData := appData, createdAt := now }
    let _ ← Repo.setPolicy rec'
    return rec'

/-- `UpdatePolicy` — service.go:66-99. -/
def updatePolicy (env : Env) (d : Option PolicyDefinition) (appData : Bytes) : Prog Unit := do
  let policy ← Prog.lift (getPolicyFromDefinition env d)
  let record ← Repo.getPolicy policy.id
  match record with
  | none => Prog.lift (.err .policyNotFound)
  | some record => do
    Prog.lift (verifyPolicy env.U policy)
    let _ ← Repo.setPolicy { record with policy := policy, appData := appData }
    return ()

/-- `DeletePolicy` — service.go:101-128; answers (Found, RelationshipsRemoved). -/
def deletePolicy (env : Env) (id : String) : Prog (Bool × Nat) := do
  let found ← Repo.deletePolicy id
  if found then do
    let count ← Repo.deleteRelationships env.H id (some allSelector)
    return (true, count)
  else return (false, 0)

/-- `GetPolicy` — service.go:130-143. -/
def getPolicy (id : String) : Prog (Option PolicyRecord) := Repo.getPolicy id

/-- `ListPolicyIds` — service.go:145-164. -/
def listPolicyIds : Prog (List String) := Repo.listPolicyIds

/-- `SetRelationship` — service.go:166-195; answers RecordOverwritten. -/
def setRelationship (env : Env) (now : Timestamp) (pid : String) (r : Option Relationship) (appData : Bytes) : Prog Bool := do
  let record ← Repo.getPolicy pid
  match record with
  | none => Prog.lift (.err .policyNotFound)
  | some record => do
    Prog.lift (allowedRelationship r (newLut record.policy))
    let r ← Prog.lift (Res.deref r)
    Repo.setRelationship env.H { policyId := pid, relationship := r, appData := appData, createdAt := now }

/-- `DeleteRelationship` — service.go:197-210; answers Found. -/
def deleteRelationship (env : Env) (pid : String) (r : Option Relationship) : Prog Bool :=
  Repo.deleteRelationship env.H pid r

/-- `GetRelationship` — service.go:212-225. -/
def getRelationship (env : Env) (pid : String) (r : Option Relationship) : Prog (Option RelationshipRecord) :=
  Repo.getRelationship env.H pid r

/-- `FindRelationshipRecords` — service.go:227-256. -/
def findRelationshipRecords (env : Env) (pid : String) (sel : Option Selector) : Prog (List (Option RelationshipRecord)) := do
  let policy ← Repo.getPolicy pid
  match policy with
  | none => Prog.lift (.err .policyNotFound)
  | some policy => do
    Prog.lift (validSelector sel policy.policy)
    Repo.findRelationshipRecords env.H pid sel

/-- `DeleteRelationships` — service.go:258-271; answers RecordsAffected (a uint64 in Go; lengths of in-memory
slices fit). -/
def deleteRelationships (env : Env) (pid : String) (sel : Option Selector) : Prog Nat :=
  Repo.deleteRelationships env.H pid sel

end Service

end Zanzi
