import Verif.Model.GraphService

/-
How requests execute: API calls as values, storage faults, process crashes and concurrent requests.
The gRPC server of /repo/pkg/server serves each request in its own goroutine against one shared KV store
without locks (/repo/internal/store/kv_store/kv_store.go:14-65), so requests interleave at storage calls.
-/

namespace Zanzi

/-- The API: PolicyService (policy_service.proto) and RelationGraph (relation_graph.proto).  `now` is the clock
reading taken by the call. -/
inductive Call where
  | createPolicy (now : Timestamp) (d : Option PolicyDefinition) (appData : Bytes)
  | updatePolicy (d : Option PolicyDefinition) (appData : Bytes)
  | deletePolicy (id : String)
  | getPolicy (id : String)
  | listPolicyIds
  | setRelationship (now : Timestamp) (pid : String) (r : Option Relationship) (appData : Bytes)
  | deleteRelationship (pid : String) (r : Option Relationship)
  | getRelationship (pid : String) (r : Option Relationship)
  | findRelationshipRecords (pid : String) (sel : Option Selector)
  | deleteRelationships (pid : String) (sel : Option Selector)
  | check (fuel : Nat) (pid : String) (req : Option AccessRequest)
  | explainCheck (fuel : Nat) (pid : String) (req : Option AccessRequest) (format : ExplainFormat)
  | expand (fuel : Nat) (pid : String) (root : Option RelationNode) (format : ExplainFormat)
  | dumpRelationships (fuel : Nat) (order : List Nat → List Nat) (pid : String) (format : GraphService.DumpFormat)

/-- Responses. -/
inductive Answer where
  | created (rec : PolicyRecord)
  | updated
  | deletedPolicy (found : Bool) (removed : Nat)
  | policy (rec : Option PolicyRecord)
  | ids (l : List String)
  | overwritten (b : Bool)
  | found (b : Bool)
  | relationship (r : Option RelationshipRecord)
  | records (l : List (Option RelationshipRecord))
  | affected (n : Nat)
  | authorized (b : Bool)
  | explained (t : Serialized) (b : Bool) (f : ExplainFormat)
  | expanded (t : Serialized) (f : ExplainFormat)
  | dumped (cs : List DotCall)

/-- Dispatch of a request to its service method (/repo/internal/policy/service.go,
/repo/internal/relation_graph/service.go). -/
def Call.prog (env : Env) : Call → Prog Answer
  | .createPolicy now d a => do let x ← Service.createPolicy env now d a; return .created x
  | .updatePolicy d a => do Service.updatePolicy env d a; return .updated
  | .deletePolicy id => do let x ← Service.deletePolicy env id; return .deletedPolicy x.1 x.2
  | .getPolicy id => do let x ← Service.getPolicy id; return .policy x
  | .listPolicyIds => do let x ← Service.listPolicyIds; return .ids x
  | .setRelationship now pid r a => do let x ← Service.setRelationship env now pid r a; return .overwritten x
  | .deleteRelationship pid r => do let x ← Service.deleteRelationship env pid r; return .found x
  | .getRelationship pid r => do let x ← Service.getRelationship env pid r; return .relationship x
  | .findRelationshipRecords pid sel => do let x ← Service.findRelationshipRecords env pid sel; return .records x
  | .deleteRelationships pid sel => do let x ← Service.deleteRelationships env pid sel; return .affected x
  | .check fuel pid req => do let x ← GraphService.check env fuel pid req; return .authorized x
  | .explainCheck fuel pid req f => do
    let x ← GraphService.explainCheck env fuel pid req f; return .explained x.1 x.2.1 x.2.2
  | .expand fuel pid root f => do let x ← GraphService.expand env fuel pid root f; return .expanded x.1 x.2
  | .dumpRelationships fuel order pid f => do
    let x ← GraphService.dumpRelationships env fuel order pid f; return .dumped x

/-- One storage call: it succeeds, or it fails before or after taking effect.  The `Bool` tells whether it
failed. -/
inductive OpStep : (op : Op) → Store → Option op.Resp → Bool → Store → Prop
  | ok (op : Op) (s : Store) : OpStep op s (some (op.exec s).1) false (op.exec s).2
  | failBefore (op : Op) (s : Store) : OpStep op s none true s
  | failAfter (op : Op) (s : Store) : OpStep op s none true (op.exec s).2

/-- A request served alone under arbitrary storage faults; the `Bool` tells whether some call failed. -/
inductive RunF {α : Type} : Prog α → Store → Bool → Res α → Store → Prop
  | done (r : Res α) (s : Store) : RunF (.done r) s false r s
  | call {op : Op} {k : Option op.Resp → Prog α} {s s' s'' : Store} {resp : Option op.Resp} {b b' : Bool} {r : Res α} :
      OpStep op s resp b s' → RunF (k resp) s' b' r s'' → RunF (.call op k) s (b || b') r s''

/-- The process stops after `n` storage calls of a request. -/
def Prog.crash {α : Type} : Nat → Prog α → Store → Store
  | 0, _, s => s
  | _ + 1, .done _, s => s
  | n + 1, .call op k, s => (k (some (op.exec s).1)).crash n (op.exec s).2

/-- A running server: requests in flight, the answers given so far, and the store. -/
structure Sys where
  threads : List (Prog Answer)
  store : Store

/-- A step of the server: a request arrives, some request makes its next storage call (with or
without a fault), a finished request leaves, or the process crashes and restarts. -/
inductive Sys.Step (env : Env) : Sys → Sys → Prop
  | arrive (c : Call) (ts : List (Prog Answer)) (s : Store) : Step env ⟨ts, s⟩ ⟨ts ++ [c.prog env], s⟩
  | op {op : Op} {k : Option op.Resp → Prog Answer} {ts₁ ts₂ : List (Prog Answer)} {s s' : Store}
      {resp : Option op.Resp} {b : Bool} :
      OpStep op s resp b s' → Step env ⟨ts₁ ++ .call op k :: ts₂, s⟩ ⟨ts₁ ++ k resp :: ts₂, s'⟩
  | leave (r : Res Answer) (ts₁ ts₂ : List (Prog Answer)) (s : Store) :
      Step env ⟨ts₁ ++ .done r :: ts₂, s⟩ ⟨ts₁ ++ ts₂, s⟩
  | crash (ts : List (Prog Answer)) (s : Store) : Step env ⟨ts, s⟩ ⟨[], s⟩

/-- States a server can reach from a fresh store. -/
inductive Sys.Reachable (env : Env) : Sys → Prop
  | init : Reachable env ⟨[], Store.empty⟩
  | step {a b : Sys} : Reachable env a → Step env a b → Reachable env b

/-- Serve a sequence of requests one after the other, without faults. -/
def runCalls (env : Env) : List Call → Store → List (Res Answer) × Store
  | [], s => ([], s)
  | c :: cs, s =>
    let (r, s') := (c.prog env).run s
    let (rs, s'') := runCalls env cs s'
    (r :: rs, s'')

end Zanzi
