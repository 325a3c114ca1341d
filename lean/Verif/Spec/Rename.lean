import Verif.Spec.Graph

/-
Renaming of objects and users.
-/

namespace Zanzi.Spec

/-- `ρ` gives objects and users of each resource other ids, different ones to different ones. -/
structure Renaming (ρ : Entity → Entity) : Prop where
  inj : ∀ a b, ρ a = ρ b → a = b
  resource : ∀ a, (ρ a).resource = a.resource

def renameSubject (ρ : Entity → Entity) : Subject → Subject
  | .entity e => .entity (ρ e)
  | .entitySet e rel => .entitySet (e.map ρ) rel
  | .resourceSet n => .resourceSet n
  | .unset => .unset

def renameRelationship (ρ : Entity → Entity) (r : Relationship) : Relationship :=
  ⟨r.object.map ρ, r.relation, r.subject.map (renameSubject ρ)⟩

def renameUSet (ρ : Entity → Entity) (x : USet) : USet := ⟨ρ x.object, x.relation⟩

/-- `R'` are the relationships `R` under other names. -/
def Renamed (ρ : Entity → Entity) (R R' : Relationship → Prop) : Prop := ∀ r', R' r' ↔ ∃ r, R r ∧ renameRelationship ρ r = r'

def renameNode (ρ : Entity → Entity) : RelationNode → RelationNode
  | .entity o => .entity (o.map ρ)
  | .entitySet o rel => .entitySet (o.map ρ) rel
  | .wildcard n => .wildcard n
  | .unset => .unset

mutual
/-- A goal tree under other names. -/
def renameTree (ρ : Entity → Entity) : GoalTree → GoalTree
  | .or r ps => .or r (renameTrees ρ ps)
  | .and r ps => .and r (renameTrees ρ ps)
  | .diff r a b => .diff r (renameTree ρ a) (renameTree ρ b)
  | .leaf r n reason => .leaf r (renameNode ρ n) reason
  | .path r n reason t => .path r (renameNode ρ n) reason (renameTree ρ t)
def renameTrees (ρ : Entity → Entity) : List GoalTree → List GoalTree
  | [] => []
  | t :: ts => renameTree ρ t :: renameTrees ρ ts
end

/-- Subjects of the relationships of userset `z`, in the order in which they are stored. -/
def subjectsOf (s : Store) (pid : String) (z : USet) : List Subject :=
  (relationships s pid).filterMap (fun r => if r.object = some z.object ∧ r.relation = z.relation then r.subject else none)

/-- `s'` holds the relationships a request starting at `x` consults in `s`, under other names and in the same order. -/
def RenamedInOrder (U : Unicode) (p : Policy) (ρ : Entity → Entity) (pid : String) (s s' : Store) (x : USet) : Prop :=
  ∀ y z, Reaches U p (Present s pid) x y.node → Consulted U p y z → subjectsOf s' pid (renameUSet ρ z) = (subjectsOf s pid z).map (renameSubject ρ)

end Zanzi.Spec
