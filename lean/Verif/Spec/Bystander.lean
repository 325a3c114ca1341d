import Verif.Spec.Graph

/-
Subjects that do not concern a user, and goal trees without them.
-/

namespace Zanzi.Spec

/-- The subject is another user, or stands for all entities of another resource. -/
def Bystander (u : Entity) : Subject → Prop
  | .entity e => e ≠ u
  | .resourceSet n => n ≠ u.resource
  | .entitySet _ _ => False
  | .unset => False

/-- The same for graph nodes. -/
def bystands (u : Entity) : RelationNode → Bool
  | .entity (some e) => decide (e ≠ u)
  | .wildcard n => decide (n ≠ u.resource)
  | _ => false

/-- The tree is a leaf showing another user. -/
def standsBy (u : Entity) : GoalTree → Bool
  | .leaf _ n _ => bystands u n
  | _ => false

mutual
/-- The goal tree without the alternatives that are just other users. -/
def leaveOut (u : Entity) : GoalTree → GoalTree
  | .or r ps => .or r (leaveOutOr u ps)
  | .and r ps => .and r (leaveOutAnd u ps)
  | .diff r a b => .diff r (leaveOut u a) (leaveOut u b)
  | .leaf r n reason => .leaf r n reason
  | .path r n reason c => .path r n reason (leaveOut u c)
/-- Alternatives of an OR. -/
def leaveOutOr (u : Entity) : List GoalTree → List GoalTree
  | [] => []
  | t :: ts => if standsBy u t then leaveOutOr u ts else leaveOut u t :: leaveOutOr u ts
/-- Paths of an AND. -/
def leaveOutAnd (u : Entity) : List GoalTree → List GoalTree
  | [] => []
  | t :: ts => leaveOut u t :: leaveOutAnd u ts
end

end Zanzi.Spec
