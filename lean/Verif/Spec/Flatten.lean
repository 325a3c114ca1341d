import Verif.Spec.Graph

/-
What users expect of groups: a relation given to the members of a group is the same as the relation given to each of them.
Source: /repo/README.md and the comments of /repo/proto/zanzi/zanzi/domain/relationship.proto ("an EntitySet is a subject which represents a set of entities").
-/

namespace Zanzi.Spec

/-- A subject that stands for its users without looking at other relationships: an object, or all objects of a resource. -/
def Immediate : Subject → Prop
  | .entity _ => True
  | .resourceSet _ => True
  | .entitySet _ _ => False
  | .unset => False

/-- The relationship that gives `x` to the members of `y`. -/
def givenTo (x y : USet) : Relationship := ⟨some x.object, x.relation, some (.entitySet (some y.object) y.relation)⟩

/-- `R'` is `R`, with the subjects `M` in the place of userset `y` in userset `x`. -/
def Replaces (x y : USet) (M : Subject → Prop) (R R' : Relationship → Prop) : Prop :=
  R (givenTo x y) ∧ ∀ r, R' r ↔ (R r ∧ r ≠ givenTo x y) ∨ ∃ m, M m ∧ r = ⟨some x.object, x.relation, some m⟩

/-- `M` are immediate subjects that stand for user `u` if and only if `u` is in userset `y`. -/
def Lists (U : Unicode) (p : Policy) (R : Relationship → Prop) (y : USet) (M : Subject → Prop) (u : Entity) : Prop :=
  (∀ m, M m → Immediate m) ∧ ((∃ m, M m ∧ SubjectIn (fun _ => False) u m) ↔ Granted U p R u y)

/-- No arrow of an object of this resource looks at relation `rel` for objects. -/
def NoTupleset (U : Unicode) (p : Policy) (res rel : String) : Prop :=
  ∀ (w : USet) t b, w.object.resource = res → DefinedBy U p w t → .ttu rel b ∉ leaves t

end Zanzi.Spec
