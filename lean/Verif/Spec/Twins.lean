import Verif.Spec.Rename

/-
Users, and objects, with the same relationships (C117, C118).
-/

namespace Zanzi.Spec

/-- Users `u` and `v` are of the same kind, and whatever is given to one by name is given to the other. -/
def TwinUsers (R : Relationship → Prop) (u v : Entity) : Prop :=
  u.resource = v.resource ∧ ∀ o rel, R ⟨o, rel, some (.entity u)⟩ ↔ R ⟨o, rel, some (.entity v)⟩

/-- Objects `o` and `o'` are of the same kind and have the same relationships. -/
def TwinObjects (R : Relationship → Prop) (o o' : Entity) : Prop :=
  o.resource = o'.resource ∧ ∀ rel sub, R ⟨some o, rel, some sub⟩ ↔ R ⟨some o', rel, some sub⟩

/-- The entity a subject names. -/
def namedIn : Subject → Option Entity
  | .entity e => some e
  | .entitySet e _ => e
  | _ => none

/-- Nothing a request starting at `x` comes across is given to object `o` or its usersets. -/
def NoWayBack (U : Unicode) (p : Policy) (R : Relationship → Prop) (x : USet) (o : Entity) : Prop :=
  ∀ y z sub, Reaches U p R x y.node → Consulted U p y z → R ⟨some z.object, z.relation, some sub⟩ → namedIn sub ≠ some o

/-- The two entities change names. -/
def exchange (a b e : Entity) : Entity := if e = a then b else if e = b then a else e

end Zanzi.Spec
