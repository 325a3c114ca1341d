import Verif.Spec.Steps

/-
Reading a goal tree from top to bottom.
-/

namespace Zanzi.Spec

mutual
/-- The nodes of the visited part of a goal tree, in reading order, each with whether it is decided there. -/
def visits : GoalTree → List (RelationNode × Bool)
  | .or _ ps => visitsOr ps
  | .and _ ps => visitsAnd ps
  | .diff _ a b => visits a ++ visits b
  | .leaf r n _ => [(n, decide (r ≠ .unknown))]
  | .path _ n _ c => (n, true) :: visits c
/-- Paths of an OR: those after the first success are not visited. -/
def visitsOr : List GoalTree → List (RelationNode × Bool)
  | [] => []
  | t :: ts => visits t ++ if t.result = .success then [] else visitsOr ts
/-- Paths of an AND: those after the first failure are not visited. -/
def visitsAnd : List GoalTree → List (RelationNode × Bool)
  | [] => []
  | t :: ts => visits t ++ if t.result = .failure then [] else visitsAnd ts
end

end Zanzi.Spec
