import Verif.Model.Exec

/-
Error values of the graph service (/repo/internal/relation_graph/service.go) as `errors.Is` sees them, as far as /repo/pkg/api/errors.go goes: which of
`ErrInvalidRequest` and `ErrInternal` an error wraps.  The other models keep only the innermost cause.
-/

namespace Zanzi

/-- /repo/pkg/api/errors.go:5-6. -/
inductive Blame where
  | invalidRequest
  | internal
  deriving DecidableEq, Repr

/-- An error value: its innermost cause, and the errors of /repo/pkg/api/errors.go it wraps.  None of the causes wraps one of these. -/
structure GoErr where
  cause : Err
  blame : List Blame
  deriving DecidableEq, Repr

/-- `if err != nil { return nil, fmt.Errorf("...%w...", blame..., err) }` after a call `p`. -/
def Prog.wrap {α : Type} (blame : List Blame) : Prog α → Prog (Except GoErr α)
  | .done (.ok a) => .done (.ok (.ok a))
  | .done (.err e) => .done (.ok (.error ⟨e, blame⟩))
  | .done .panic => .done .panic
  | .done .fuel => .done .fuel
  | .call op k => .call op (fun r => (k r).wrap blame)

/-- The request goes on with the value, or has returned the error. -/
def Prog.andThen {α β : Type} (p : Prog (Except GoErr α)) (k : α → Prog (Except GoErr β)) : Prog (Except GoErr β) := do
  match ← p with
  | .ok a => k a
  | .error e => return .error e

namespace GraphService

/-- Policy lookup — service.go:33-39, 88-94, 147-153, 181-187. -/
def getPolicyE (pid : String) : Prog (Except GoErr PolicyRecord) :=
  ((Repo.getPolicy pid).wrap [.internal]).andThen fun pol =>
    match pol with
    | none => return .error ⟨.policyNotFound, [.invalidRequest]⟩
    | some rec => return .ok rec

/-- `Check` — service.go:30-78; the error of the search is returned as it is (lines 64-66). -/
def checkE (env : Env) (fuel : Nat) (pid : String) (req : Option AccessRequest) : Prog (Except GoErr Bool) :=
  (getPolicyE pid).andThen fun pol =>
  ((checkTree env fuel pol.policy req).wrap []).andThen fun tree =>
  return .ok (decide (tree.result = .success))

/-- `ExplainCheck` — service.go:80-137. -/
def explainCheckE (env : Env) (fuel : Nat) (pid : String) (req : Option AccessRequest) (format : ExplainFormat) :
    Prog (Except GoErr (Serialized × Bool × ExplainFormat)) :=
  ((Prog.lift (serializerFactory format)).wrap [.invalidRequest]).andThen fun _ =>
  (getPolicyE pid).andThen fun pol =>
  ((checkTree env fuel pol.policy req).wrap []).andThen fun tree =>
  ((Prog.lift (serialize format tree)).wrap [.internal]).andThen fun serialized =>
  return .ok (serialized, decide (tree.result = .success), .spew)

/-- `Expand` — service.go:139-176. -/
def expandE (env : Env) (fuel : Nat) (pid : String) (root : Option RelationNode) (format : ExplainFormat) :
    Prog (Except GoErr (Serialized × ExplainFormat)) :=
  ((Prog.lift (serializerFactory format)).wrap [.invalidRequest]).andThen fun _ =>
  (getPolicyE pid).andThen fun pol =>
  ((searchGoal env fuel pol.policy root none).wrap []).andThen fun tree =>
  ((Prog.lift (serialize format tree)).wrap [.internal]).andThen fun serialized =>
  return .ok (serialized, format)

/-- `DumpRelationships` — service.go:178-211. -/
def dumpRelationshipsE (env : Env) (fuel : Nat) (order : List Nat → List Nat) (pid : String) (format : DumpFormat) :
    Prog (Except GoErr (List DotCall)) :=
  (getPolicyE pid).andThen fun rec' =>
  ((do
    let edges ← Repo.listEdges rec'.policy.id
    Prog.lift (walk env.H edges)).wrap []).andThen fun forest =>
  match format with
  | .dot => (Prog.lift (dumpSerialize forest fuel (order forest.orphans))).wrap []
  | .unknown => (Prog.lift (.err .invalidVariant)).wrap []

end GraphService

/-- A request with the error value it returns.  The policy service (/repo/internal/policy/service.go) wraps errors of its own package and of pkg/domain only. -/
def Call.progE (env : Env) : Call → Prog (Except GoErr Answer)
  | .check fuel pid req => (GraphService.checkE env fuel pid req).andThen fun x => return .ok (.authorized x)
  | .explainCheck fuel pid req f => (GraphService.explainCheckE env fuel pid req f).andThen fun x => return .ok (.explained x.1 x.2.1 x.2.2)
  | .expand fuel pid root f => (GraphService.expandE env fuel pid root f).andThen fun x => return .ok (.expanded x.1 x.2)
  | .dumpRelationships fuel order pid f => (GraphService.dumpRelationshipsE env fuel order pid f).andThen fun x => return .ok (.dumped x)
  | c => (c.prog env).wrap []

end Zanzi
