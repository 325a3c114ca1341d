import Verif.Spec.Grammar
import Verif.Model.Policy

/-
Independent specification of policy validity, relationship admission and selectors, stated on the
messages alone (membership in the lists of the policy), without lookup tables or loops.
Sources: /repo/docs, the comments of /repo/proto/zanzi/zanzi/domain/{policy,relationship,selector}.proto.
-/

namespace Zanzi.Spec

/-- The policy declares the resource. -/
def HasResource (p : Policy) (n : String) : Prop := ∃ r ∈ p.resources, r.name = n

/-- The policy declares relation `d` as `rel` of resource `res`. -/
def Declares (p : Policy) (res rel : String) (d : Relation) : Prop :=
  ∃ r ∈ p.resources, r.name = res ∧ d ∈ r.relations ∧ d.name = rel

/-- The policy declares the relation. -/
def HasRelation (p : Policy) (res rel : String) : Prop := ∃ d, Declares p res rel d

/-- Resource names are distinct, and relation names are distinct inside each resource. -/
def NamesUnique (p : Policy) : Prop :=
  (p.resources.map (·.name)).Nodup ∧ ∀ r ∈ p.resources, (r.relations.map (·.name)).Nodup

/-- A restriction entry names something the policy declares. -/
def RestrictionOK (p : Policy) : Restriction → Prop
  | .entity n => HasResource p n
  | .entitySet n rel => HasRelation p n rel
  | .unset => False

/-- A subject restriction is consistent with the policy. -/
def SubjectRestrictionOK (p : Policy) : SubjectRestriction → Prop
  | .restrictionSet rs => ∀ x ∈ rs, RestrictionOK p x
  | .universalSet => True
  | .unset => False

/-- Every subject restriction of the policy is consistent. -/
def RestrictionsOK (p : Policy) : Prop :=
  ∀ r ∈ p.resources, ∀ d ∈ r.relations, ∀ sr, d.subjectRestriction = some sr → SubjectRestrictionOK p sr

/-- The relations a rule of resource `res` mentions in the same resource are declared. -/
def RuleOK (p : Policy) (res : String) : Rule → Prop
  | .cu target => HasRelation p res target
  | .this => True
  | .ttu tupleset _ => HasRelation p res tupleset
  | .unset => False

/-- Tree denoted by a relation's expression: the given tree, or the one the text stands for. -/
def Denotes (isIdent isSpace : Char → Bool) (d : Relation) (t : ExprTree) : Prop :=
  d.relationExpression = some (.tree t) ∨
  ∃ text syms, d.relationExpression = some (.expr text) ∧
    Renders isIdent isSpace text.toList syms ∧ Derives .expr syms t

/-- Every relation's expression has a meaning, no operand is missing, and its rules refer to declared
relations. -/
def ExpressionsOK (isIdent isSpace : Char → Bool) (p : Policy) : Prop :=
  ∀ r ∈ p.resources, ∀ d ∈ r.relations, ∃ t, Denotes isIdent isSpace d t ∧ NoNil t ∧ ∀ x ∈ leaves t, RuleOK p r.name x

/-- Message shape: every relation carries an expression, and no operator has a missing operand. -/
def ExpressionsPresent (p : Policy) : Prop :=
  ∀ r ∈ p.resources, ∀ d ∈ r.relations,
    d.relationExpression ≠ none ∧ ∀ t, d.relationExpression = some (.tree t) → NoNil t

/-- Message shape: every relation carries a subject restriction. -/
def RestrictionsPresent (p : Policy) : Prop :=
  ∀ r ∈ p.resources, ∀ d ∈ r.relations, d.subjectRestriction ≠ none

/-- Resources a relation's subjects may come from. -/
def MayPointTo (p : Policy) (d : Relation) (res : String) : Prop :=
  (d.subjectRestriction = some .universalSet ∧ HasResource p res) ∨
  ∃ rs, d.subjectRestriction = some (.restrictionSet rs) ∧
    (.entity res ∈ rs ∨ ∃ rel, .entitySet res rel ∈ rs)

/-- The relation on the right of every arrow exists in every resource the tupleset relation may point to. -/
def ArrowsOK (isIdent isSpace : Char → Bool) (p : Policy) : Prop :=
  ∀ r ∈ p.resources, ∀ d ∈ r.relations, ∀ t, Denotes isIdent isSpace d t →
    ∀ a b, .ttu a b ∈ leaves t → ∀ d', Declares p r.name a d' →
      ∀ res, MayPointTo p d' res → HasRelation p res b

/-- Required fields of a policy (policy.proto: `min_len: 1` on id, resource name and relation name). -/
def PolicyFieldsOK (p : Policy) : Prop :=
  p.id ≠ "" ∧ ∀ r ∈ p.resources, r.name ≠ "" ∧ ∀ d ∈ r.relations, d.name ≠ ""

/-- Required names of a relationship (relationship.proto): object resource, relation, subject names. -/
def RelationshipNamesOK (r : Relationship) : Prop :=
  (∀ o, r.object = some o → o.resource ≠ "") ∧ r.relation ≠ "" ∧
  (∀ e, r.subject = some (.entity e) → e.resource ≠ "") ∧
  (∀ e rel, r.subject = some (.entitySet (some e) rel) → e.resource ≠ "" ∧ rel ≠ "") ∧
  (∀ n, r.subject = some (.resourceSet n) → n ≠ "")

/-- Required ids of a relationship. -/
def RelationshipIdsOK (r : Relationship) : Prop :=
  (∀ o, r.object = some o → o.id ≠ "") ∧
  (∀ e, r.subject = some (.entity e) → e.id ≠ "") ∧
  (∀ e rel, r.subject = some (.entitySet (some e) rel) → e.id ≠ "")

/-- A subject's names are declared. -/
def SubjectKnown (p : Policy) : Subject → Prop
  | .entity e => HasResource p e.resource
  | .entitySet (some e) rel => HasRelation p e.resource rel
  | .resourceSet n => HasResource p n
  | .entitySet none _ => False
  | .unset => False

/-- A subject restriction permits a subject. -/
inductive Permits : SubjectRestriction → Subject → Prop
  | universal (s : Subject) : Permits .universalSet s
  | entity {rs : List Restriction} {e : Entity} : .entity e.resource ∈ rs → Permits (.restrictionSet rs) (.entity e)
  | all {rs : List Restriction} {n : String} : .entity n ∈ rs → Permits (.restrictionSet rs) (.resourceSet n)
  | entitySet {rs : List Restriction} {e : Entity} {rel : String} :
      .entitySet e.resource rel ∈ rs → Permits (.restrictionSet rs) (.entitySet (some e) rel)

/-- The relationship's object, relation and subject are declared. -/
def SymbolsKnown (p : Policy) (r : Relationship) : Prop :=
  ∃ o s, r.object = some o ∧ r.subject = some s ∧
    HasResource p o.resource ∧ HasRelation p o.resource r.relation ∧ SubjectKnown p s

/-- A relationship the policy admits. -/
def Admissible (p : Policy) (r : Relationship) : Prop :=
  SymbolsKnown p r ∧
  ∃ o s d sr, r.object = some o ∧ r.subject = some s ∧ Declares p o.resource r.relation d ∧
    d.subjectRestriction = some sr ∧ Permits sr s

/-- No missing sub-message in a relationship. -/
def RelationshipComplete (r : Relationship) : Prop :=
  r.object ≠ none ∧ r.subject ≠ none ∧ ∀ rel, r.subject ≠ some (.entitySet none rel)

/-- No missing sub-message in a selector. -/
def SelectorComplete (s : Selector) : Prop :=
  s.object ≠ none ∧ s.relation ≠ none ∧ s.subject ≠ none

/-- A selector names only things the policy declares. -/
def SelectorKnown (p : Policy) (s : Selector) : Prop :=
  (∀ e, s.object = some (.objectSpec e) → HasResource p e.resource) ∧
  (∀ n, s.object = some (.resourceSpec n) → HasResource p n) ∧
  (∀ rel, s.relation = some (.relationName rel) →
    (∀ e, s.object = some (.objectSpec e) → HasRelation p e.resource rel) ∧
    (∀ n, s.object = some (.resourceSpec n) → HasRelation p n rel) ∧
    (s.object = some .wildcard → ∃ res, HasRelation p res rel)) ∧
  (∀ n, s.subject = some (.resourceSpec n) → HasResource p n) ∧
  (∀ sub, s.subject = some (.subjectSpec sub) → SubjectKnown p sub)

/-- All parts of a selector are set. -/
def SelectorSet (s : Selector) : Prop :=
  s.object ≠ some .unset ∧ s.relation ≠ some .unset ∧ s.subject ≠ some .unset

/-- Resource of a subject. -/
def subjectResource : Subject → Option String
  | .entity e => some e.resource
  | .entitySet (some e) _ => some e.resource
  | .resourceSet n => some n
  | _ => none

/-- A relationship matches a selector. -/
def Matches (s : Selector) (r : Relationship) : Prop :=
  (∀ e, s.object = some (.objectSpec e) → r.object = some e) ∧
  (∀ n, s.object = some (.resourceSpec n) → ∃ o, r.object = some o ∧ o.resource = n) ∧
  (∀ n, s.relation = some (.relationName n) → r.relation = n) ∧
  (∀ sub, s.subject = some (.subjectSpec sub) → r.subject = some sub) ∧
  (∀ n, s.subject = some (.resourceSpec n) → ∃ sub, r.subject = some sub ∧ subjectResource sub = some n)

end Zanzi.Spec
