import Verif.Spec.Explain

/-
The steps of an explanation: the usersets a goal tree expands, each with the result shown for it and the tree below it.
-/

namespace Zanzi.Spec

mutual
/-- Expanded nodes of a goal tree: node, result, tree below. -/
def steps : GoalTree → List (RelationNode × SearchResult × GoalTree)
  | .or _ ps => stepsList ps
  | .and _ ps => stepsList ps
  | .diff _ a b => steps a ++ steps b
  | .leaf _ _ _ => []
  | .path r n _ c => (n, r, c) :: steps c
def stepsList : List GoalTree → List (RelationNode × SearchResult × GoalTree)
  | [] => []
  | t :: ts => steps t ++ stepsList ts
end

mutual
/-- Nodes at which the search stopped because they had been visited before. -/
def cuts : GoalTree → List RelationNode
  | .or _ ps => cutsOr ps
  | .and _ ps => cutsAnd ps
  | .diff _ a b => cuts a ++ cuts b
  | .leaf r n _ => if r = .unknown then [n] else []
  | .path _ _ _ c => cuts c
/-- Paths of an OR: those after the first success are not visited. -/
def cutsOr : List GoalTree → List RelationNode
  | [] => []
  | t :: ts => cuts t ++ if t.result = .success then [] else cutsOr ts
/-- Paths of an AND: those after the first failure are not visited. -/
def cutsAnd : List GoalTree → List RelationNode
  | [] => []
  | t :: ts => cuts t ++ if t.result = .failure then [] else cutsAnd ts
end

/-- Every node at which the search below `n` stopped is `n` itself or decided below `n`, as far as visit identifiers tell. -/
def OwnCuts (H : String → Nat) (n : RelationNode) (c : GoalTree) : Prop :=
  ∀ m ∈ cuts c, ∃ m' ∈ n :: settled c, m'.nodeId H = m.nodeId H

end Zanzi.Spec
