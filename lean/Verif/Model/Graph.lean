import Verif.Model.Service

/-
Model of /repo/internal/relation_graph/{types,rule_evaluator,goal_tree,searcher}.go.
Logging is dropped.  Parent pointers of goal trees are dropped here; their only observer is the JSON
serializer (Model/Serialize.lean).
-/

namespace Zanzi

/-- `SearchResult` — types.go:61-74. -/
inductive SearchResult where
  | unknown
  | success
  | failure
  deriving DecidableEq, Repr

/-- Goal trees — types.go:19-56, 93-104.  `leaf` is a `PathNode` whose `Path` is nil, `path` one whose
`Path` is set. -/
inductive GoalTree where
  | or (result : SearchResult) (paths : List GoalTree)
  | and (result : SearchResult) (paths : List GoalTree)
  | diff (result : SearchResult) (left right : GoalTree)
  | leaf (result : SearchResult) (node : RelationNode) (reason : String)
  | path (result : SearchResult) (node : RelationNode) (reason : String) (child : GoalTree)

/-- `GetResult` — types.go:33, 45, 58, 102. -/
def GoalTree.result : GoalTree → SearchResult
  | .or r _ => r
  | .and r _ => r
  | .diff r _ _ => r
  | .leaf r _ _ => r
  | .path r _ _ _ => r

/-- `utils.Conditional(found, SUCCESS, FAILURE)` — /repo/internal/utils/utils.go, as used in searcher.go:103,137,163,202. -/
def verdict (found : Bool) : SearchResult := if found then .success else .failure

/-! ### rule_evaluator.go -/

/-- `buildTupleToUsersetNode` — rule_evaluator.go:108-130; a wildcard leaves the object nil. -/
def buildTtuNode (computed : String) : RelationNode → Res RelationNode
  | .entitySet o _ => .ok (.entitySet o computed)
  | .entity o => .ok (.entitySet o computed)
  | .wildcard _ => .ok (.entitySet none computed)
  | .unset => .err .invalidVariant

/-- `Evaluate` and the three rule evaluators — rule_evaluator.go:29-106. -/
def evaluateRule (H : String → Nat) (pid : String) (o : Option Entity) (rel : String) : Rule → Prog (List RelationNode)
  | .this => Repo.getSuccessors H pid o rel
  | .ttu tupleset computed => do
    let succs ← Repo.getSuccessors H pid o tupleset
    Prog.lift (mapSliceErr (buildTtuNode computed) succs)
  | .cu target => Prog.lift (.ok [.entitySet o target])
  | .unset => Prog.lift (.err .invalidVariant)

/-! ### goal_tree.go -/

/-- `reasonBuilder` — goal_tree.go:219-230. -/
def reasonBuilder : Rule → String
  | .this => "Rule This"
  | .ttu a b => "Rule Tuple To Userset: " ++ a ++ " " ++ b
  | .cu t => "Rule Computed Userset: " ++ t
  | .unset => ""

/-- `buildGoalTree`, `buildGoalForRule`, `buildGoalForOpNode` — goal_tree.go:85-183; a nil tree is
dereferenced. -/
def buildGoalTree (H : String → Nat) (pid : String) (o : Option Entity) (rel : String) : ExprTree → Prog GoalTree
  | .nil => Prog.lift .panic
  | .unset => Prog.lift (.err .invalidVariant)
  | .rule rule => do
    let succs ← evaluateRule H pid o rel rule
    return .or .unknown (succs.map (fun n => .leaf .unknown n (reasonBuilder rule)))
  | .op l operator r => do
    let left ← buildGoalTree H pid o rel l
    let right ← buildGoalTree H pid o rel r
    match operator with
    | .union => return .or .unknown [left, right]
    | .intersection => return .and .unknown [left, right]
    | .difference => return .diff .unknown left right
    | .unknown => Prog.lift (.err .invalidVariant)

/-- `Build`, `handleTerminalNodes`, `handleEntitySet` — goal_tree.go:32-83. -/
def buildTree (env : Env) (pol : Policy) : RelationNode → Prog GoalTree
  | .entitySet o rel => do
    let o' ← Prog.lift (Res.deref o)
    match (newLut pol).getRelation o'.resource rel with
    | none => Prog.lift (.err .relationNotFound)
    | some relation => do
      let tree ← Prog.lift (getExpressionTree env.U relation)
      buildGoalTree env.H pol.id o rel tree
  | .entity o => Prog.lift (.ok (.leaf .unknown (.entity o) ""))
  | .wildcard r => Prog.lift (.ok (.leaf .unknown (.wildcard r) ""))
  | .unset => Prog.lift (.err .invalidVariant)

/-! ### searcher.go -/

/-- `GoalFoundSpec.Found` — searcher.go:223-269; `none` is the nil target of Expand.
Simplification: `isEntitySetGoalFound` compares pointers; goals built by the service are never
entity sets, and the comparison is taken to be false. -/
def goalFound (node : RelationNode) (goal : Option RelationNode) : Res Bool :=
  match goal with
  | none => .ok false
  | some (.entity g) =>
    match node with
    | .entity p => do
      let g ← Res.deref g
      let p ← Res.deref p
      return (decide (g.resource = p.resource) && decide (g.id = p.id))
    | .wildcard r => do
      let g ← Res.deref g
      return decide (r = g.resource)
    | .entitySet _ _ => .ok false
    | .unset => .ok false
  | some (.entitySet _ _) => .ok false
  | some (.wildcard _) => .ok false
  | some .unset => .ok false

mutual
/-- `search`, `searchDifference` — searcher.go:56-81, 151-175.  `descend` is `searchPath`; a path node's old child and result are
ignored by it. -/
def searchTree (descend : RelationNode → String → List Nat → Prog (GoalTree × List Nat)) :
    GoalTree → List Nat → Prog (GoalTree × List Nat)
  | .or _ paths, seen => do
    let (ps, any, seen) ← searchOr descend paths seen
    return (.or (verdict any) ps, seen)
  | .and _ paths, seen => do
    let (ps, all, seen) ← searchAnd descend paths seen
    return (.and (verdict all) ps, seen)
  | .diff _ l r, seen => do
    let (l', seen) ← searchTree descend l seen
    let (r', seen) ← searchTree descend r seen
    return (.diff (verdict (decide (l'.result = .success) && decide (r'.result = .failure))) l' r', seen)
  | .leaf _ node reason, seen => descend node reason seen
  | .path _ node reason _, seen => descend node reason seen

/-- Loop of `searchOR` — searcher.go:115-149: stops at the first success, later paths are kept unsearched. -/
def searchOr (descend : RelationNode → String → List Nat → Prog (GoalTree × List Nat)) :
    List GoalTree → List Nat → Prog (List GoalTree × Bool × List Nat)
  | [], seen => Prog.lift (.ok ([], false, seen))
  | t :: ts, seen => do
    let (t', seen) ← searchTree descend t seen
    if t'.result = .success then return (t' :: ts, true, seen)
    else do
      let (ts', any, seen) ← searchOr descend ts seen
      return (t' :: ts', any, seen)

/-- Loop of `searchAND` — searcher.go:83-113: stops at the first failure, later paths are kept unsearched. -/
def searchAnd (descend : RelationNode → String → List Nat → Prog (GoalTree × List Nat)) :
    List GoalTree → List Nat → Prog (List GoalTree × Bool × List Nat)
  | [], seen => Prog.lift (.ok ([], true, seen))
  | t :: ts, seen => do
    let (t', seen) ← searchTree descend t seen
    if t'.result = .failure then return (t' :: ts, false, seen)
    else do
      let (ts', all, seen) ← searchAnd descend ts seen
      return (t' :: ts', all, seen)
end

/-- `searchPath` — searcher.go:177-221.  `seen` is `seenNodes`, threaded through the whole search.  The
first argument bounds the number of nested expansions (`fuel` when exceeded). -/
def searchPath (env : Env) (pol : Policy) (goal : Option RelationNode) :
    Nat → RelationNode → String → List Nat → Prog (GoalTree × List Nat)
  | 0, _, _, _ => Prog.lift .fuel
  | n + 1, node, reason, seen => do
    let id ← Prog.lift (node.nodeId env.H)
    if id ∈ seen then return (.leaf .unknown node reason, seen)
    else do
      let seen := id :: seen
      let found ← Prog.lift (goalFound node goal)
      if found || node.isTerminal then return (.leaf (verdict found) node reason, seen)
      else do
        let tree ← buildTree env pol node
        let (tree, seen) ← searchTree (searchPath env pol goal n) tree seen
        return (.path tree.result node reason tree, seen)

/-- `Search` — searcher.go:30-54; a nil origin is dereferenced in `searchPath`. -/
def searchGoal (env : Env) (fuel : Nat) (pol : Policy) (origin : Option RelationNode) (goal : Option RelationNode) :
    Prog GoalTree :=
  match goal with
  | some (.wildcard _) => Prog.lift (.err .wildcardGoal)
  | _ => do
    let origin ← Prog.lift (Res.deref origin)
    let (tree, _) ← searchPath env pol goal fuel origin "Request" []
    return tree

end Zanzi
