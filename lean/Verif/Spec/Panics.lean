import Verif.Spec.Store

/-
Which requests crash the policy service (C14), said in terms of the messages and of what the policy declares.
-/

namespace Zanzi.Spec

/-- A relationship message with a part missing. -/
def Incomplete (r : Option Relationship) : Prop := ∀ x, r = some x → ¬ RelationshipComplete x

/-- SetRelationship under policy `p`: the relationship or its object is missing; or the relation is declared and the subject (or the entity of a userset) is missing; or everything is
declared but the relation has no subject restriction. -/
def SetCrashes (p : Policy) (r : Option Relationship) : Prop :=
  r = none ∨ ∃ x, r = some x ∧ (x.object = none ∨ ∃ o d, x.object = some o ∧ Declares p o.resource x.relation d ∧
    (x.subject = none ∨ (∃ rel, x.subject = some (.entitySet none rel)) ∨
      ∃ sub, x.subject = some sub ∧ SubjectKnown p sub ∧ d.subjectRestriction = none))

/-- DeleteRelationships: the first part of the selector that is missing or unset is missing. -/
def SelectorCrashes (sel : Option Selector) : Prop :=
  sel = none ∨ ∃ x, sel = some x ∧ (x.object = none ∨ (x.object ≠ some .unset ∧ (x.relation = none ∨ (x.relation ≠ some .unset ∧ x.subject = none))))

/-- The object part of a selector is set and names a declared resource. -/
def ObjectKnown (p : Policy) (o : ObjectSelector) : Prop :=
  o ≠ .unset ∧ (∀ e, o = .objectSpec e → HasResource p e.resource) ∧ ∀ n, o = .resourceSpec n → HasResource p n

/-- The relation `rel` is declared on the resource the object part names. -/
def RelationOf (p : Policy) (o : ObjectSelector) (rel : String) : Prop :=
  (∃ e, o = .objectSpec e ∧ HasRelation p e.resource rel) ∨ ∃ n, o = .resourceSpec n ∧ HasRelation p n rel

/-- FindRelationshipRecords under policy `p`: the selector or its object part is missing; or the object part is fine and either it is "any" while the relation part is not, or the
relation part is fine and the subject part missing. -/
def FindCrashes (p : Policy) (sel : Option Selector) : Prop :=
  sel = none ∨ ∃ x, sel = some x ∧ (x.object = none ∨ ∃ o, x.object = some o ∧ ObjectKnown p o ∧
    ((o = .wildcard ∧ x.relation ≠ some .wildcard) ∨
      (x.subject = none ∧ (x.relation = some .wildcard ∨ ∃ n, x.relation = some (.relationName n) ∧ RelationOf p o n))))

/-- The expression of a relation is missing, or an operand in its tree is. -/
def ExpressionMissing (d : Relation) : Prop :=
  d.relationExpression = none ∨ ∃ t, d.relationExpression = some (.tree t) ∧ ¬ NoNil t

/-- The expression of a relation is acceptable. -/
def ExpressionOK (U : Unicode) (p : Policy) (res : String) (d : Relation) : Prop :=
  ∃ t, Denotes U.isIdent whiteSpace d t ∧ NoNil t ∧ ∀ x ∈ leaves t, RuleOK p res x

/-- Validating a policy crashes: names and subject restrictions are fine, and the first relation whose expression is not acceptable has it missing. -/
def PolicyCrashes (U : Unicode) (p : Policy) : Prop :=
  NamesUnique p ∧ RestrictionsOK p ∧ ∃ rs r rs' ds d ds', p.resources = rs ++ r :: rs' ∧ r.relations = ds ++ d :: ds' ∧
    (∀ r' ∈ rs, ∀ d' ∈ r'.relations, ExpressionOK U p r'.name d') ∧ (∀ d' ∈ ds, ExpressionOK U p r.name d') ∧ ExpressionMissing d

/-- A definition that cannot even be read. -/
def DefinitionCrashes (env : Env) (d : Option PolicyDefinition) : Prop :=
  d = none ∨ ∃ text, d = some (.yaml text) ∧ env.decode text = .panic

end Zanzi.Spec
