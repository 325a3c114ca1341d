import Verif.Spec.Store

/-
Independent specification of access checks: which users a policy's rewrite rules give a relation to, given a set of
relationships.  Sources: /repo/README.md and the comments of
/repo/proto/zanzi/zanzi/domain/relation_expression_tree.proto (set semantics of Zanzibar userset rewrites).
-/

namespace Zanzi.Spec

/-- A userset `object#relation`. -/
structure USet where
  object : Entity
  relation : String
  deriving DecidableEq

/-- The graph node of a userset. -/
def USet.node (x : USet) : RelationNode := .entitySet (some x.object) x.relation

/-- User `u` is among the users a subject stands for, when `V` are the usersets containing `u`. -/
def SubjectIn (V : USet → Prop) (u : Entity) : Subject → Prop
  | .entity e => e = u
  | .resourceSet n => u.resource = n
  | .entitySet (some e) rel => V ⟨e, rel⟩
  | .entitySet none _ => False
  | .unset => False

/-- The object a tupleset subject points to. -/
def pointsTo : Subject → Option Entity
  | .entity e => some e
  | .entitySet e _ => e
  | .resourceSet _ => none
  | .unset => none

/-- `u` is in the users a rule gives for userset `x`. -/
def RuleIn (R : Relationship → Prop) (u : Entity) (V : USet → Prop) (x : USet) : Rule → Prop
  | .this => ∃ sub, R ⟨some x.object, x.relation, some sub⟩ ∧ SubjectIn V u sub
  | .cu target => V ⟨x.object, target⟩
  | .ttu tupleset computed => ∃ sub e, R ⟨some x.object, tupleset, some sub⟩ ∧ pointsTo sub = some e ∧ V ⟨e, computed⟩
  | .unset => False

/-- `u` is in the users an expression gives for userset `x`. -/
def ExprIn (R : Relationship → Prop) (u : Entity) (V : USet → Prop) (x : USet) : ExprTree → Prop
  | .rule r => RuleIn R u V x r
  | .op l .union r => ExprIn R u V x l ∨ ExprIn R u V x r
  | .op l .intersection r => ExprIn R u V x l ∧ ExprIn R u V x r
  | .op l .difference r => ExprIn R u V x l ∧ ¬ ExprIn R u V x r
  | .op _ .unknown _ => False
  | .nil => False
  | .unset => False

/-- Expression `t` defines the relation of userset `x` in the policy. -/
def DefinedBy (U : Unicode) (p : Policy) (x : USet) (t : ExprTree) : Prop :=
  ∃ d, Declares p x.object.resource x.relation d ∧ Denotes U.isIdent whiteSpace d t

/-- One application of the rules: `u` is in userset `x`, when `V` are the usersets containing `u`. -/
def Derived (U : Unicode) (p : Policy) (R : Relationship → Prop) (u : Entity) (V : USet → Prop) (x : USet) : Prop :=
  ∃ t, DefinedBy U p x t ∧ ExprIn R u V x t

/-- `V` are exactly the usersets containing `u`: a fixed point of the rules. -/
def Solution (U : Unicode) (p : Policy) (R : Relationship → Prop) (u : Entity) (V : USet → Prop) : Prop :=
  ∀ x, V x ↔ Derived U p R u V x

/-- `u` is in userset `x` by finitely many applications of the rules (least set closed under them).  For policies
without difference this is the least fixed point. -/
def Granted (U : Unicode) (p : Policy) (R : Relationship → Prop) (u : Entity) (x : USet) : Prop :=
  ∀ V : USet → Prop, (∀ y, Derived U p R u V y → V y) → V x

/-- The expression with every difference replaced by its left operand. -/
def positive : ExprTree → ExprTree
  | .op l .difference _ => positive l
  | .op l o r => .op (positive l) o (positive r)
  | t => t

/-- `Granted` when nothing is ever excluded. -/
def GrantedAtMost (U : Unicode) (p : Policy) (R : Relationship → Prop) (u : Entity) (x : USet) : Prop :=
  ∀ V : USet → Prop, (∀ y t, DefinedBy U p y t → ExprIn R u V y (positive t) → V y) → V x

/-- Rule `r` is the first alternative of a union of expressions. -/
def First (r : Rule) : ExprTree → Prop
  | .rule r' => r' = r
  | .op l .union _ => First r l
  | _ => False

/-- The expression with every difference replaced by its left operand and every intersection by nothing. -/
def bare : ExprTree → ExprTree
  | .op l .difference _ => bare l
  | .op _ .intersection _ => .unset
  | .op l o r => .op (bare l) o (bare r)
  | t => t

/-- `Granted` when nothing is ever excluded and no intersection ever holds. -/
def GrantedByUnion (U : Unicode) (p : Policy) (R : Relationship → Prop) (u : Entity) (x : USet) : Prop :=
  ∀ V : USet → Prop, (∀ y t, DefinedBy U p y t → ExprIn R u V y (bare t) → V y) → V x

/-- No difference in the expression. -/
def DiffFree : ExprTree → Prop
  | .op _ .difference _ => False
  | .op l _ r => DiffFree l ∧ DiffFree r
  | _ => True

/-- No intersection and no difference in the expression. -/
def UnionOnly : ExprTree → Prop
  | .op l .union r => UnionOnly l ∧ UnionOnly r
  | .op _ _ _ => False
  | _ => True

/-- No intersection in the expression. -/
def AndFree : ExprTree → Prop
  | .op _ .intersection _ => False
  | .op l _ r => AndFree l ∧ AndFree r
  | _ => True

/-- The graph node of a subject. -/
def subjectNode : Subject → RelationNode
  | .entity e => .entity (some e)
  | .entitySet e rel => .entitySet e rel
  | .resourceSet n => .wildcard n
  | .unset => .unset

/-- Userset `x` is defined through node `n`. -/
inductive Rewrites (U : Unicode) (p : Policy) (R : Relationship → Prop) (x : USet) : RelationNode → Prop
  | this {t sub} : DefinedBy U p x t → .this ∈ leaves t → R ⟨some x.object, x.relation, some sub⟩ →
      Rewrites U p R x (subjectNode sub)
  | cu {t target} : DefinedBy U p x t → .cu target ∈ leaves t → Rewrites U p R x (.entitySet (some x.object) target)
  | arrow {t tupleset computed sub e} : DefinedBy U p x t → .ttu tupleset computed ∈ leaves t →
      R ⟨some x.object, tupleset, some sub⟩ → pointsTo sub = some e → Rewrites U p R x (.entitySet (some e) computed)

/-- Nodes reachable from a userset through the rules. -/
inductive Reaches (U : Unicode) (p : Policy) (R : Relationship → Prop) (x : USet) : RelationNode → Prop
  | start : Reaches U p R x x.node
  | step {y n} : Reaches U p R x y.node → Rewrites U p R y n → Reaches U p R x n

/-- Every expression a request starting at `x` meets has property `P`. -/
def ExprsFrom (U : Unicode) (p : Policy) (R : Relationship → Prop) (x : USet) (P : ExprTree → Prop) : Prop :=
  ∀ y t, Reaches U p R x y.node → DefinedBy U p y t → P t

/-- Usersets whose stored relationships are read to expand `x`. -/
def Consulted (U : Unicode) (p : Policy) (x y : USet) : Prop :=
  y = x ∨ ∃ t tupleset computed, DefinedBy U p x t ∧ .ttu tupleset computed ∈ leaves t ∧ y = ⟨x.object, tupleset⟩

/-- No stored relationship shares the storage key of userset `y` without being a relationship of `y`. -/
def KeyClear (H : String → Nat) (R : Relationship → Prop) (y : USet) : Prop :=
  ∀ r o, R r → r.object = some o →
    H (o.resource ++ o.id ++ r.relation) = H (y.object.resource ++ y.object.id ++ y.relation) → o = y.object ∧ r.relation = y.relation

/-- No storage key collision on the usersets a request starting at `x` consults. -/
def KeysClear (U : Unicode) (H : String → Nat) (p : Policy) (R : Relationship → Prop) (x : USet) : Prop :=
  ∀ y z, Reaches U p R x y.node → Consulted U p y z → KeyClear H R z

/-- No two nodes a request starting at `x` reaches share the visit identifier. -/
def IdsClear (U : Unicode) (H : String → Nat) (p : Policy) (R : Relationship → Prop) (x : USet) : Prop :=
  ∀ m n id, Reaches U p R x m → Reaches U p R x n → m.nodeId H = .ok id → n.nodeId H = .ok id → m = n

/-- No two of these texts have the same hash. -/
def CollisionFree (H : String → Nat) (T : String → Prop) : Prop := ∀ a b, T a → T b → H a = H b → a = b

/-- Texts hashed for storage keys and visit identifiers by a request starting at `x`, or for the keys of stored relationships. -/
def Hashed (U : Unicode) (p : Policy) (R : Relationship → Prop) (x : USet) (t : String) : Prop :=
  (∃ n, Reaches U p R x n ∧ n.idPreimage = .ok t) ∨
  (∃ y z, Reaches U p R x y.node ∧ Consulted U p y z ∧ t = z.object.resource ++ z.object.id ++ z.relation) ∨
  (∃ r o, R r ∧ r.object = some o ∧ t = o.resource ++ o.id ++ r.relation)

mutual
/-- In a goal tree, no visited branch was cut off because its node had been visited before. -/
def Clean : GoalTree → Prop
  | .or _ ps => CleanOr ps
  | .and _ ps => CleanAnd ps
  | .diff _ l r => Clean l ∧ Clean r
  | .leaf r _ _ => r ≠ .unknown
  | .path _ _ _ c => Clean c
/-- Paths of an OR: those after the first success are not visited. -/
def CleanOr : List GoalTree → Prop
  | [] => True
  | t :: ts => Clean t ∧ (t.result = .success ∨ CleanOr ts)
/-- Paths of an AND: those after the first failure are not visited. -/
def CleanAnd : List GoalTree → Prop
  | [] => True
  | t :: ts => Clean t ∧ (t.result = .failure ∨ CleanAnd ts)
end

mutual
/-- A goal tree in which no AND succeeds and no difference excludes anything. -/
def Toothless : GoalTree → Prop
  | .or _ ps => ToothlessList ps
  | .and r ps => r ≠ .success ∧ ToothlessList ps
  | .diff r a b => (r = .success ↔ a.result = .success) ∧ Toothless a ∧ Toothless b
  | .leaf _ _ _ => True
  | .path _ _ _ c => Toothless c
def ToothlessList : List GoalTree → Prop
  | [] => True
  | t :: ts => Toothless t ∧ ToothlessList ts
end

/-- No wildcard reachable from `x` covers user `u`. -/
def NoWildcardFor (U : Unicode) (p : Policy) (R : Relationship → Prop) (x : USet) (u : Entity) : Prop :=
  ¬ Reaches U p R x (.wildcard u.resource)

/-- The request "does `u` have userset `x`". -/
def ask (x : USet) (u : Entity) : Option AccessRequest := some ⟨some x.object, x.relation, some u⟩

/-- Check answers `b`. -/
def Checks (env : Env) (s : Store) (fuel : Nat) (pid : String) (x : USet) (u : Entity) (b : Bool) : Prop :=
  (((Call.check fuel pid (ask x u)).prog env).run s).1 = .ok (.authorized b)

/-- ExplainCheck answers `b` with goal tree `t`. -/
def Explains (env : Env) (s : Store) (fuel : Nat) (pid : String) (x : USet) (u : Entity) (t : GoalTree) (b : Bool) : Prop :=
  (((Call.explainCheck fuel pid (ask x u) .spew).prog env).run s).1 = .ok (.explained (.spew t) b .spew)

mutual
/-- Nodes a goal tree shows. -/
def mentions : GoalTree → List RelationNode
  | .or _ ps => mentionsList ps
  | .and _ ps => mentionsList ps
  | .diff _ l r => mentions l ++ mentions r
  | .leaf _ n _ => [n]
  | .path _ n _ t => n :: mentions t
def mentionsList : List GoalTree → List RelationNode
  | [] => []
  | t :: ts => mentions t ++ mentionsList ts
end

/-- An expression without missing or unset parts. -/
def Whole : ExprTree → Prop
  | .rule _ => True
  | .op l o r => o ≠ .unknown ∧ Whole l ∧ Whole r
  | .nil => False
  | .unset => False

/-- No wildcard is stored where an arrow of a userset reachable from `x` looks for objects. -/
def TuplesetsConcrete (U : Unicode) (p : Policy) (R : Relationship → Prop) (x : USet) : Prop :=
  ∀ y t a b n, Reaches U p R x y.node → DefinedBy U p y t → .ttu a b ∈ leaves t → ¬ R ⟨some y.object, a, some (.resourceSet n)⟩

/-! ### A naming discipline without collisions -/

/-- A name: not empty, no character of class `P`, no slash. -/
def NameStyle (P : Char → Bool) (n : String) : Prop := n ≠ "" ∧ ∀ c ∈ n.toList, P c = false ∧ c ≠ '/'

/-- An id: begins and ends with a character of class `P`, no slash. -/
def IdentStyle (P : Char → Bool) (i : String) : Prop :=
  (∃ c, i.toList.head? = some c ∧ P c = true) ∧ (∃ c, i.toList.getLast? = some c ∧ P c = true) ∧ '/' ∉ i.toList

def EntityStyle (P : Char → Bool) (e : Entity) : Prop := NameStyle P e.resource ∧ IdentStyle P e.id

def SubjectStyle (P : Char → Bool) : Subject → Prop
  | .entity e => EntityStyle P e
  | .entitySet (some e) rel => EntityStyle P e ∧ NameStyle P rel
  | .entitySet none _ => False
  | .resourceSet n => NameStyle P n
  | .unset => False

def RelationshipStyle (P : Char → Bool) (r : Relationship) : Prop :=
  ∃ o sub, r.object = some o ∧ r.subject = some sub ∧ EntityStyle P o ∧ NameStyle P r.relation ∧ SubjectStyle P sub

def RuleStyle (P : Char → Bool) : Rule → Prop
  | .cu target => NameStyle P target
  | .ttu a b => NameStyle P a ∧ NameStyle P b
  | _ => True

/-- Rules of the policy use names of the style. -/
def PolicyStyle (P : Char → Bool) (U : Unicode) (p : Policy) : Prop := ∀ x t, DefinedBy U p x t → ∀ r ∈ leaves t, RuleStyle P r

/-- How a node is shown: resource and id, and the relation if there is one; all objects of a resource as a star. -/
def NodeText : RelationNode → String → Prop
  | .entitySet (some o) rel, text =>
    (rel = "" ∧ text = "(" ++ o.resource ++ ":" ++ o.id ++ ")") ∨ (rel ≠ "" ∧ text = "(" ++ o.resource ++ ":" ++ o.id ++ ", " ++ rel ++ ")")
  | .entity (some o), text => text = "(" ++ o.resource ++ ":" ++ o.id ++ ")"
  | .wildcard res, text => text = "(" ++ res ++ ":*)"
  | .unset, text => text = "(:)"
  | .entitySet none _, _ | .entity none, _ => False

end Zanzi.Spec
