import Verif.Model.Graph

/-
Model of /repo/internal/relation_graph/{goal_tree_serializer,relation_tree_serializer,walker}.go.
The output of the DOT serializers is modelled as the list of vertices and edges handed to gographviz, in order;
gographviz itself (formatting, merging of repeated vertices) is not modelled, and its
calls are taken to succeed.  The text of spew and of encoding/json is not modelled either.
-/

namespace Zanzi

/-- Vertex names: the literal `root`, or a quoted counter value (goal_tree_serializer.go:175-179) or node id
(relation_tree_serializer.go:56-61). -/
inductive DotId where
  | root
  | num (n : Nat)
  deriving DecidableEq, Repr

/-- Calls made on the gographviz graph. -/
inductive DotCall where
  | node (id : DotId) (label : String)
  | edge (src dst : DotId)
  deriving DecidableEq, Repr

/-- `sprintf` of the goal tree serializer and `wrap` of the relation tree serializer put a text between quotes and
change nothing in it — goal_tree_serializer.go:181-185, relation_tree_serializer.go:68-70. -/
def dotWrap (txt : String) : String := "\"" ++ txt ++ "\""

/-- How a vertex name is written — goal_tree_serializer.go:38, 175-179 (relation_tree_serializer.go:56-61 writes the root with quotes,
the same name in DOT). -/
def DotId.written : DotId → String
  | .root => "root"
  | .num n => dotWrap (toString n)

/-- `SearchResult.String` — types.go:75-87. -/
def SearchResult.str : SearchResult → String
  | .unknown => "UNKNOWN"
  | .success => "SUCCESS"
  | .failure => "FAILURE"

/-- Label of a path node — goal_tree_serializer.go:71. -/
def pathLabel (pretty reason : String) (r : SearchResult) : String :=
  "PathNode\nrelation node: " ++ pretty ++ "\nreason: " ++ reason ++ "\nresult: " ++ r.str

mutual
/-- `handleGoalTree` and the four handlers — goal_tree_serializer.go:51-173.  The counter is threaded; a nil object panics in
`PrettyString`. -/
def dotTree (parent : DotId) : GoalTree → Nat → Res (List DotCall × Nat)
  | .leaf r node reason, c => do
    let pretty ← node.prettyString
    return ([.node (.num c) (pathLabel pretty reason r), .edge parent (.num c)], c + 1)
  | .path r node reason child, c => do
    let pretty ← node.prettyString
    let (cs, c') ← dotTree (.num c) child (c + 1)
    return (.node (.num c) (pathLabel pretty reason r) :: .edge parent (.num c) :: cs, c')
  | .or r paths, c => do
    let (cs, c') ← dotList (.num c) paths (c + 1)
    return (.node (.num c) ("ORNode\nresult: " ++ r.str) :: .edge parent (.num c) :: cs, c')
  | .and r paths, c => do
    let (cs, c') ← dotList (.num c) paths (c + 1)
    return (.node (.num c) ("ANDNode\nresult: " ++ r.str) :: .edge parent (.num c) :: cs, c')
  | .diff r left right, c => do
    let (cs, c') ← dotTree (.num c) left (c + 1)
    let (cs', c'') ← dotTree (.num c) right c'
    return (.node (.num c) ("DifferenceNode\nresult: " ++ r.str) :: .edge parent (.num c) :: (cs ++ cs'), c'')

/-- The child loops — goal_tree_serializer.go:108-113, 135-140. -/
def dotList (parent : DotId) : List GoalTree → Nat → Res (List DotCall × Nat)
  | [], c => .ok ([], c)
  | t :: ts, c => do
    let (cs, c') ← dotTree parent t c
    let (cs', c'') ← dotList parent ts c'
    return (cs ++ cs', c'')
end

/-- `dotSerializer.Serialize` — goal_tree_serializer.go:33-49. -/
def dotSerialize (t : GoalTree) : Res (List DotCall) := do
  let (cs, _) ← dotTree .root t 0
  return .node .root "" :: cs

/-- Whether some goal-tree node below the root was given a parent pointer to its parent (searcher.go:109-111,
144-146, 171-172, 216): whenever the node has a child. -/
def GoalTree.hasChild : GoalTree → Bool
  | .leaf _ _ _ => false
  | .path _ _ _ _ => true
  | .or _ ps => !ps.isEmpty
  | .and _ ps => !ps.isEmpty
  | .diff _ _ _ => true

/-- `ExplainFormat` — relation_graph.proto; proto3 enums are open. -/
inductive ExplainFormat where
  | spew
  | json
  | dot
  | unknown
  deriving DecidableEq, Repr

/-- What is serialized.  Texts of spew and JSON are represented by the tree they print. -/
inductive Serialized where
  | spew (t : GoalTree)
  | json (t : GoalTree)
  | dot (calls : List DotCall)

/-- `SerializerFactory` — goal_tree_serializer.go:187-198: unknown formats are refused. -/
def serializerFactory : ExplainFormat → Res Unit
  | .unknown => .err .invalidVariant
  | _ => .ok ()

/-- `jsonSerializer.Serialize` — goal_tree_serializer.go:22-25.  encoding/json follows the exported `Parent` field; a child's
parent pointer leads back to a value being encoded, and the encoder reports the pointer cycle as an error
(Go ≥ 1.15; go.mod says 1.21). -/
def jsonSerialize (t : GoalTree) : Res Serialized :=
  if t.hasChild then .err .json else .ok (.json t)

/-- `Serialize` of the selected serializer — goal_tree_serializer.go:16-49. -/
def serialize : ExplainFormat → GoalTree → Res Serialized
  | .spew, t => .ok (.spew t)
  | .json, t => jsonSerialize t
  | .dot, t => do
    let cs ← dotSerialize t
    return .dot cs
  | .unknown, _ => .err .invalidVariant

/-! ### walker.go and relation_tree_serializer.go -/

/-- The forest of `Walk`: trees by node id (walker.go:30), and the ids without predecessor.  Trees are shared
by pointer, so children are recorded as ids. -/
structure Forest where
  nodes : List (Nat × RelationNode)
  children : List (Nat × Nat)
  orphans : List Nat

/-- `getTree` — walker.go:55-64: the first node seen with an id is kept. -/
def Forest.getTree (f : Forest) (id : Nat) (n : RelationNode) : Forest :=
  match kvGet f.nodes id with
  | some _ => f
  | none => { f with nodes := f.nodes ++ [(id, n)] }

/-- First loop of `Walk` — walker.go:33-35 (a set: duplicates are dropped). -/
def walkOrphans (H : String → Nat) : List (RelationNode × RelationNode) → Res (List Nat)
  | [] => .ok []
  | e :: es => do
    let id ← e.1.nodeId H
    let os ← walkOrphans H es
    return if id ∈ os then os else id :: os

/-- Second loop of `Walk` — walker.go:37-42. -/
def walkEdges (H : String → Nat) : List (RelationNode × RelationNode) → Forest → Res Forest
  | [], f => .ok f
  | e :: es, f => do
    let p ← e.1.nodeId H
    let c ← e.2.nodeId H
    let f := (f.getTree p e.1).getTree c e.2
    walkEdges H es { f with children := f.children ++ [(p, c)], orphans := f.orphans.filter (fun o => decide (o ≠ c)) }

/-- `Walk` — walker.go:24-53, on the listed edges. -/
def walk (H : String → Nat) (edges : List (RelationNode × RelationNode)) : Res Forest := do
  let os ← walkOrphans H edges
  walkEdges H edges ⟨[], [], os⟩

/-- Children of a tree node, in append order. -/
def Forest.childrenOf (f : Forest) (id : Nat) : List Nat :=
  (f.children.filter (fun p => decide (p.1 = id))).map (·.2)

/-- Concatenate the calls of a loop. -/
def concatRes {α β : Type} (g : α → Res (List β)) : List α → Res (List β)
  | [] => .ok []
  | a :: as => do
    let b ← g a
    let bs ← concatRes g as
    return b ++ bs

/-- `handleNode` — relation_tree_serializer.go:27-54 — for a non-root node; the bound is the recursion depth (Go's
recursion is unbounded: `fuel` for every bound means it never returns). -/
def dumpNode (f : Forest) : Nat → DotId → Nat → Res (List DotCall)
  | 0, _, _ => .fuel
  | n + 1, parent, id =>
    match kvGet f.nodes id with
    | none => .panic
    | some node => do
      let pretty ← node.prettyString
      let cs ← concatRes (dumpNode f n (.num id)) (f.childrenOf id)
      return .node (.num id) pretty :: .edge parent (.num id) :: cs

/-- `RelationTreeDOTSerializer.Serialize` — relation_tree_serializer.go:14-25; `order` is the iteration order Go chose
for the map of orphans (walker.go:45-47). -/
def dumpSerialize (f : Forest) (fuel : Nat) (order : List Nat) : Res (List DotCall) := do
  let cs ← concatRes (dumpNode f fuel .root) order
  return .node .root "root" :: cs

end Zanzi
