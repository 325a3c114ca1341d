import Verif.Spec.Explain

/-
The tree Expand returns, read as a set of users (C81).
-/

namespace Zanzi.Spec

mutual
/-- User `u` is in the set the tree stands for: unions, intersections and differences of the users and wildcards evaluated at its leaves.  A leaf
without a result (already shown elsewhere, or not looked at) stands for nobody. -/
def inSet (u : Entity) : GoalTree → Bool
  | .or _ ps => inAny u ps
  | .and _ ps => inAll u ps
  | .diff _ l r => inSet u l && !inSet u r
  | .leaf .unknown _ _ => false
  | .leaf _ n _ => decide (n = .entity (some u)) || decide (n = .wildcard u.resource)
  | .path _ _ _ c => inSet u c
def inAny (u : Entity) : List GoalTree → Bool
  | [] => false
  | t :: ts => inSet u t || inAny u ts
def inAll (u : Entity) : List GoalTree → Bool
  | [] => true
  | t :: ts => inSet u t && inAll u ts
end

end Zanzi.Spec
