import Verif.Model.Serialize

/-
Model of /repo/internal/relation_graph/service.go.
-/

namespace Zanzi

/-- relationship.proto `AccessRequest`. -/
structure AccessRequest where
  object : Option Entity
  relation : String
  subject : Option Entity
  deriving DecidableEq, Repr

namespace GraphService

/-- Policy lookup at the start of every method — service.go:33-39, 88-94, 147-153, 181-187. -/
def getPolicy (pid : String) : Prog PolicyRecord := do
  let pol ← Repo.getPolicy pid
  match pol with
  | none => Prog.lift (.err .policyNotFound)
  | some rec => return rec

/-- Search of a check request — service.go:41-62 and 96-117. -/
def checkTree (env : Env) (fuel : Nat) (pol : Policy) (req : Option AccessRequest) : Prog GoalTree := do
  let req ← Prog.lift (Res.deref req)
  searchGoal env fuel pol (some (.entitySet req.object req.relation)) (some (.entity req.subject))

/-- `Check` — service.go:30-78. -/
def check (env : Env) (fuel : Nat) (pid : String) (req : Option AccessRequest) : Prog Bool := do
  let pol ← getPolicy pid
  let tree ← checkTree env fuel pol.policy req
  return decide (tree.result = .success)

/-- `ExplainCheck` — service.go:80-137; answers (GoalTree, Authorized, Format).  The
response's Format field is left at its zero value, SPEW (relation_graph.proto:73-77). -/
def explainCheck (env : Env) (fuel : Nat) (pid : String) (req : Option AccessRequest) (format : ExplainFormat) :
    Prog (Serialized × Bool × ExplainFormat) := do
  Prog.lift (serializerFactory format)
  let pol ← getPolicy pid
  let tree ← checkTree env fuel pol.policy req
  let serialized ← Prog.lift (serialize format tree)
  return (serialized, decide (tree.result = .success), .spew)

/-- `Expand` — service.go:139-176; answers (GoalTree, Format). -/
def expand (env : Env) (fuel : Nat) (pid : String) (root : Option RelationNode) (format : ExplainFormat) :
    Prog (Serialized × ExplainFormat) := do
  Prog.lift (serializerFactory format)
  let pol ← getPolicy pid
  let tree ← searchGoal env fuel pol.policy root none
  let serialized ← Prog.lift (serialize format tree)
  return (serialized, format)

/-- `DumpRelationshipsRequest.Format`: DOT is the only defined value. -/
inductive DumpFormat where
  | dot
  | unknown
  deriving DecidableEq, Repr

/-- `DumpRelationships` — service.go:178-211.  `order` chooses the iteration order of the orphan map. -/
def dumpRelationships (env : Env) (fuel : Nat) (order : List Nat → List Nat) (pid : String) (format : DumpFormat) :
    Prog (List DotCall) := do
  let rec' ← getPolicy pid
  let edges ← Repo.listEdges rec'.policy.id
  let forest ← Prog.lift (walk env.H edges)
  match format with
  | .dot => Prog.lift (dumpSerialize forest fuel (order forest.orphans))
  | .unknown => Prog.lift (.err .invalidVariant)

end GraphService

end Zanzi
