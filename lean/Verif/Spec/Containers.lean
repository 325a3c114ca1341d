import Verif.Model.Containers

/-
What the graph containers hold after a history of calls, read off the history alone (C56).
-/

namespace Zanzi.Spec

/-- A call that changes a `MapGraph`. -/
inductive GraphOp (T : Type) where
  | setNode (id : String) (node : T)
  | setEdge (src dst : String)

/-- Node `id` was last set to `v`. -/
def LastNode {T : Type} (h : List (GraphOp T)) (id : String) (v : T) : Prop :=
  ∃ pre post, h = pre ++ .setNode id v :: post ∧ ∀ w, .setNode id w ∉ post

/-- An edge from `a` to `b` was asked for at a moment when both nodes existed. -/
def Linked {T : Type} (h : List (GraphOp T)) (a b : String) : Prop :=
  ∃ pre post, h = pre ++ .setEdge a b :: post ∧ (∃ v, .setNode a v ∈ pre) ∧ ∃ v, .setNode b v ∈ pre

/-- The values are those of the ids satisfying `R`, each id once, in some order. -/
def ValuesOf {T : Type} (h : List (GraphOp T)) (R : String → Prop) (values : List T) : Prop :=
  ∃ ps : List (String × T), (ps.map (·.1)).Nodup ∧ (∀ id, id ∈ ps.map (·.1) ↔ R id) ∧ (∀ p ∈ ps, LastNode h p.1 p.2) ∧ ps.map (·.2) = values

/-- A call that changes a `MapDiGraph`. -/
inductive DiGraphOp where
  | addNode (n : GraphNode)
  | addEdge (e : GraphEdge)

/-- Node `n` was the last added with its id. -/
def AddedNode (h : List DiGraphOp) (n : GraphNode) : Prop :=
  ∃ pre post, h = pre ++ .addNode n :: post ∧ ∀ m, .addNode m ∈ post → m.id ≠ n.id

/-- Edge `e` was the last added between its ends. -/
def AddedEdge (h : List DiGraphOp) (e : GraphEdge) : Prop :=
  ∃ pre post, h = pre ++ .addEdge e :: post ∧ ∀ f, .addEdge f ∈ post → ¬ (f.source = e.source ∧ f.dest = e.dest)

end Zanzi.Spec
