import Verif.Model.Wire

/-
What reading a stored record back should give (C71), independent of the encoding.
-/

namespace Zanzi.Spec

/-- The largest of some numbers. -/
def largest : List Nat → Nat
  | [] => 0
  | n :: ns => max n (largest ns)

/-- Zero for an absent message. -/
def optNest {α : Type} (f : α → Nat) : Option α → Nat
  | none => 0
  | some a => f a

/-- How deep the messages of a rule are nested. -/
def Nest.rule : Rule → Nat
  | .unset => 1
  | _ => 2

/-- Of an expression tree: every operator adds two levels, its node and the tree below. -/
def Nest.tree : ExprTree → Nat
  | .nil => 0
  | .unset => 1
  | .op l _ r => 2 + max (Nest.tree l) (Nest.tree r)
  | .rule r => 1 + Nest.rule r

/-- Of an expression. -/
def Nest.expr : RelationExpression → Nat
  | .tree t => 1 + Nest.tree t
  | _ => 1

/-- Of a restriction. -/
def Nest.restriction : Restriction → Nat
  | .unset => 1
  | _ => 2

/-- Of a subject restriction. -/
def Nest.subjectRestriction : SubjectRestriction → Nat
  | .unset => 1
  | .universalSet => 2
  | .restrictionSet rs => 2 + largest (rs.map Nest.restriction)

/-- Of a relation. -/
def Nest.relation (r : Relation) : Nat :=
  1 + max (optNest Nest.expr r.relationExpression) (optNest Nest.subjectRestriction r.subjectRestriction)

/-- Of a resource. -/
def Nest.resource (r : Resource) : Nat := 1 + largest (r.relations.map Nest.relation)

/-- Of a policy. -/
def Nest.policy (p : Policy) : Nat := 1 + largest (p.resources.map Nest.resource)

/-- Of a record: the policy and the timestamp are inside it. -/
def Nest.policyRecord (r : PolicyRecord) : Nat := 1 + max (Nest.policy r.policy) 1

/-- How many operators lie above each other in a tree. -/
def opDepth : ExprTree → Nat
  | .op l _ r => 1 + max (opDepth l) (opDepth r)
  | _ => 0

/-- No expression tree of the policy is more than `d` operators deep; expressions given as text do not count. -/
def TreesWithin (d : Nat) (p : Policy) : Prop :=
  ∀ res ∈ p.resources, ∀ rel ∈ res.relations, ∀ t, rel.relationExpression = some (.tree t) → opDepth t ≤ d

/-- No relation holds an expression that is a tree without a root. -/
def WholeTrees (p : Policy) : Prop :=
  ∀ res ∈ p.resources, ∀ rel ∈ res.relations, rel.relationExpression ≠ some (.tree .nil)

/-- The same record; Go maps have no order. -/
def SameRecord (a b : PolicyRecord) : Prop :=
  a.appData = b.appData ∧ a.createdAt = b.createdAt ∧ a.policy.id = b.policy.id ∧ a.policy.name = b.policy.name ∧
  a.policy.description = b.policy.description ∧ a.policy.resources = b.policy.resources ∧
  a.policy.attributes.Perm b.policy.attributes

end Zanzi.Spec
