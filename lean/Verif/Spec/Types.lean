import Verif.Spec.Graph
import Verif.Spec.Trace

/-
What subject restrictions promise: which kinds of users a policy can ever give a relation to, read off the policy alone.
Sources: /repo/README.md and the comments of /repo/proto/zanzi/zanzi/domain/policy.proto lines 76-128 ("the permissible types of subjects for Relationships with the current relation").
-/

namespace Zanzi.Spec

/-- Relation `d` may be given to objects of resource `t`. -/
def Takes (p : Policy) (d : Relation) (t : String) : Prop :=
  (d.subjectRestriction = some .universalSet ∧ HasResource p t) ∨ ∃ rs, d.subjectRestriction = some (.restrictionSet rs) ∧ .entity t ∈ rs

/-- Relation `d` may be given to usersets `rel` of resource `res`. -/
def TakesSet (p : Policy) (d : Relation) (res rel : String) : Prop :=
  (d.subjectRestriction = some .universalSet ∧ HasRelation p res rel) ∨ ∃ rs, d.subjectRestriction = some (.restrictionSet rs) ∧ .entitySet res rel ∈ rs

/-- A rule of relation `d` of resource `res` can give users of resource `t`, when `V` are the relations that can contain some. -/
def RuleMay (p : Policy) (t : String) (V : String → String → Prop) (res : String) (d : Relation) : Rule → Prop
  | .this => Takes p d t ∨ ∃ res' rel', TakesSet p d res' rel' ∧ V res' rel'
  | .cu target => V res target
  | .ttu tupleset computed => ∃ d' res', Declares p res tupleset d' ∧ MayPointTo p d' res' ∧ V res' computed
  | .unset => False

/-- The same for an expression. -/
def ExprMay (p : Policy) (t : String) (V : String → String → Prop) (res : String) (d : Relation) : ExprTree → Prop
  | .rule r => RuleMay p t V res d r
  | .op l .union r => ExprMay p t V res d l ∨ ExprMay p t V res d r
  | .op l .intersection r => ExprMay p t V res d l ∧ ExprMay p t V res d r
  | .op l .difference _ => ExprMay p t V res d l
  | .op _ .unknown _ => False
  | .nil => False
  | .unset => False

/-- Users of resource `t` can have relation `rel` of objects of resource `res`, as far as the policy's subject restrictions go. -/
def MayHold (U : Unicode) (p : Policy) (t res rel : String) : Prop :=
  ∀ V : String → String → Prop,
    (∀ res rel d e, Declares p res rel d → Denotes U.isIdent whiteSpace d e → ExprMay p t V res d e → V res rel) → V res rel

/-- Names the policy declares follow the style. -/
def NamesStyled (P : Char → Bool) (p : Policy) : Prop := ∀ r ∈ p.resources, NameStyle P r.name ∧ ∀ d ∈ r.relations, NameStyle P d.name

/-- Texts hashed for objects and usersets of the policy with id `i` or `j`. -/
def HashedFor (p : Policy) (i j : String) (t : String) : Prop :=
  ∃ res k rel, HasResource p res ∧ (k = i ∨ k = j) ∧ (rel = "" ∨ ∃ res', HasRelation p res' rel) ∧ (t = res ++ k ++ rel ∨ t = res ++ "/" ++ k ++ "/" ++ rel)

/-- The requests that create a policy and set relationships of it. -/
def installs (now : Timestamp) (p : Policy) (rs : List Relationship) : List Call :=
  .createPolicy now (some (.policy p)) [] :: rs.map (fun r => .setRelationship now p.id (some r) [])

end Zanzi.Spec
