import Verif.Model.Domain

/-
Model of the generated validators that the policy service calls: /repo/pkg/domain/policy.pb.validate.go,
relation_expression_tree.pb.validate.go and relationship.pb.validate.go, in the mode `all = false` (`Validate`).
They contain no rule for any field; a nil receiver is accepted; the only errors they construct themselves are
for typed-nil oneof wrappers, which decoded messages do not contain (Domain.lean), so no error is left.
-/

namespace Zanzi

/-- Validation of an embedded message — e.g. policy.pb.validate.go:518-526, 490-492; `if m == nil { return nil }` on a nil receiver. -/
def validateOpt {α : Type} (f : α → Res Unit) : Option α → Res Unit
  | none => .ok ()
  | some a => f a

/-- `Rule.validate` — relation_expression_tree.pb.validate.go:399-539, with `This` (625-637), `ComputedUserset` (724-738) and
`TupleToUserset` (826-842): no rules. -/
def Rule.validate : Rule → Res Unit
  | .this => .ok ()
  | .cu _ => .ok ()
  | .ttu _ _ => .ok ()
  | .unset => .ok ()

/-- `RelationExpressionTree.validate` — relation_expression_tree.pb.validate.go:53-152, with `OpNode` (241-313; the operator has no rule). -/
def ExprTree.validate : ExprTree → Res Unit
  | .nil => .ok ()
  | .unset => .ok ()
  | .rule r => r.validate
  | .op l _ r => do
    l.validate
    r.validate

/-- `RelationExpression.validate` — policy.pb.validate.go:1284-1354; the text has no rule. -/
def RelationExpression.validate : RelationExpression → Res Unit
  | .expr _ => .ok ()
  | .tree t => t.validate
  | .unset => .ok ()

/-- `SubjectRestrictionSet_Restriction.validate` — policy.pb.validate.go:1445-1544, with `EntityRestriction` (839-853) and
`EntitySetRestriction` (943-959): no rules. -/
def Restriction.validate : Restriction → Res Unit
  | .entity _ => .ok ()
  | .entitySet _ _ => .ok ()
  | .unset => .ok ()

/-- `SubjectRestriction.validate` — policy.pb.validate.go:650-749, with `SubjectRestrictionSet` (1148-1194) and `UniversalSet` (1049-1061). -/
def SubjectRestriction.validate : SubjectRestriction → Res Unit
  | .restrictionSet rs => forEach Restriction.validate rs
  | .universalSet => .ok ()
  | .unset => .ok ()

/-- `Relation.validate` — policy.pb.validate.go:489-563. -/
def Relation.validate (d : Relation) : Res Unit := do
  validateOpt RelationExpression.validate d.relationExpression
  validateOpt SubjectRestriction.validate d.subjectRestriction

/-- `Resource.validate` — policy.pb.validate.go:352-402. -/
def Resource.validate (r : Resource) : Res Unit := forEach Relation.validate r.relations

/-- `Policy.Validate` — policy.pb.validate.go:41-43, 52-106. -/
def Policy.validate (p : Policy) : Res Unit := forEach Resource.validate p.resources

/-- `Entity.validate` — relationship.pb.validate.go:52-68: no rules. -/
def Entity.validate (_ : Entity) : Res Unit := .ok ()

/-- `Subject.validate` — relationship.pb.validate.go:313-453, with `ResourceSet` (540-554) and `EntitySet` (641-684). -/
def Subject.validate : Subject → Res Unit
  | .entity e => e.validate
  | .entitySet e _ => validateOpt Entity.validate e
  | .resourceSet _ => .ok ()
  | .unset => .ok ()

/-- `Relationship.validate` — relationship.pb.validate.go:155-227. -/
def Relationship.validate (r : Relationship) : Res Unit := do
  validateOpt Entity.validate r.object
  validateOpt Subject.validate r.subject

end Zanzi
