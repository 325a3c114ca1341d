import Verif.Spec.Graph

/-
What a goal tree must say to justify an answer, what a tree shows, and how a drawing relates to a tree.
-/

namespace Zanzi.Spec

/-! ### Justified trees (C44) -/

/-- The node stands for user `u`. -/
def Names (u : Entity) (n : RelationNode) : Prop := n = .entity (some u) ∨ n = .wildcard u.resource

mutual
/-- A part of the tree the search did not enter: no results, no expansions. -/
def Untouched : GoalTree → Prop
  | .or r ps => r = .unknown ∧ UntouchedList ps
  | .and r ps => r = .unknown ∧ UntouchedList ps
  | .diff r a b => r = .unknown ∧ Untouched a ∧ Untouched b
  | .leaf r _ _ => r = .unknown
  | .path _ _ _ _ => False
def UntouchedList : List GoalTree → Prop
  | [] => True
  | t :: ts => Untouched t ∧ UntouchedList ts
end

mutual
/-- Every visited result of the tree is justified.  `T` are the nodes that stand for the user, `expands y t` says that `t` is the expansion of userset `y`,
`cut n` that an occurrence of `n` may be left open. -/
def Justified (T : RelationNode → Prop) (expands : USet → GoalTree → Prop) (cut : RelationNode → Prop) : GoalTree → Prop
  | .or r ps => JustifiedOr T expands cut ps ∧ r ≠ .unknown ∧ (r = .success ↔ ∃ p ∈ ps, p.result = .success)
  | .and r ps => JustifiedAnd T expands cut ps ∧ r ≠ .unknown ∧ (r = .success ↔ ∀ p ∈ ps, p.result = .success)
  | .diff r a b => Justified T expands cut a ∧ Justified T expands cut b ∧ r ≠ .unknown ∧
      (r = .success ↔ a.result = .success ∧ b.result ≠ .success)
  | .leaf r n _ => (r = .unknown ∧ cut n) ∨ (r = .success ∧ T n) ∨ (r = .failure ∧ ¬ T n ∧ ∀ y : USet, n ≠ y.node)
  | .path r n _ c => r = c.result ∧ ¬ T n ∧ (∃ y : USet, n = y.node ∧ expands y c) ∧ Justified T expands cut c
/-- Alternatives are visited in order up to the first success. -/
def JustifiedOr (T : RelationNode → Prop) (expands : USet → GoalTree → Prop) (cut : RelationNode → Prop) : List GoalTree → Prop
  | [] => True
  | t :: ts => Justified T expands cut t ∧
      ((t.result = .success ∧ UntouchedList ts) ∨ (t.result ≠ .success ∧ JustifiedOr T expands cut ts))
/-- Conjuncts are visited in order up to the first failure. -/
def JustifiedAnd (T : RelationNode → Prop) (expands : USet → GoalTree → Prop) (cut : RelationNode → Prop) : List GoalTree → Prop
  | [] => True
  | t :: ts => Justified T expands cut t ∧
      ((t.result ≠ .success ∧ UntouchedList ts) ∨ (t.result = .success ∧ JustifiedAnd T expands cut ts))
end

mutual
/-- Nodes whose result the tree settles: decided leaves and expanded nodes. -/
def settled : GoalTree → List RelationNode
  | .or _ ps => settledList ps
  | .and _ ps => settledList ps
  | .diff _ a b => settled a ++ settled b
  | .leaf .unknown _ _ => []
  | .leaf _ n _ => [n]
  | .path _ n _ c => n :: settled c
def settledList : List GoalTree → List RelationNode
  | [] => []
  | t :: ts => settled t ++ settledList ts
end

/-- Nodes a rule leads to from userset `y`. -/
def RuleNode (R : Relationship → Prop) (y : USet) (n : RelationNode) : Rule → Prop
  | .this => ∃ sub, R ⟨some y.object, y.relation, some sub⟩ ∧ n = subjectNode sub
  | .cu target => n = .entitySet (some y.object) target
  | .ttu tupleset computed => ∃ sub e, R ⟨some y.object, tupleset, some sub⟩ ∧ pointsTo sub = some e ∧ n = .entitySet (some e) computed
  | .unset => False

/-- The rules of an expression except those in right operands of intersections. -/
def firstLeaves : ExprTree → List Rule
  | .rule r => [r]
  | .op l .intersection _ => firstLeaves l
  | .op l _ r => firstLeaves l ++ firstLeaves r
  | _ => []

/-- Nodes reachable from a userset through the rules, never through a right operand of an intersection. -/
inductive Shown (U : Unicode) (p : Policy) (R : Relationship → Prop) (x : USet) : RelationNode → Prop
  | start : Shown U p R x x.node
  | step {y t r n} : Shown U p R x y.node → DefinedBy U p y t → r ∈ firstLeaves t → RuleNode R y n r → Shown U p R x n

/-- The node at the top of a tree, if it is not an operator. -/
def topNode : GoalTree → Option RelationNode
  | .leaf _ n _ => some n
  | .path _ n _ _ => some n
  | _ => none

/-- The reason given at the top of a tree, if it is not an operator. -/
def topReason : GoalTree → Option String
  | .leaf _ _ why => some why
  | .path _ _ why _ => some why
  | _ => none

/-- The text naming a rule in explanations. -/
def ruleText : Rule → String
  | .this => "Rule This"
  | .cu target => "Rule Computed Userset: " ++ target
  | .ttu tupleset computed => "Rule Tuple To Userset: " ++ tupleset ++ " " ++ computed
  | .unset => ""

/-- The tree has the shape of the expression, with the nodes its rules lead to from `y`, each under the name of the rule. -/
def Prescribed (R : Relationship → Prop) (y : USet) : ExprTree → GoalTree → Prop
  | .rule r, .or _ ps => (∀ p ∈ ps, (∃ n, topNode p = some n) ∧ topReason p = some (ruleText r)) ∧ ∀ n, (∃ p ∈ ps, topNode p = some n) ↔ RuleNode R y n r
  | .op l .union r, .or _ [a, b] => Prescribed R y l a ∧ Prescribed R y r b
  | .op l .intersection r, .and _ [a, b] => Prescribed R y l a ∧ Prescribed R y r b
  | .op l .difference r, .diff _ a b => Prescribed R y l a ∧ Prescribed R y r b
  | _, _ => False

/-- The tree is the expansion of userset `y` that the policy prescribes. -/
def Expansion (U : Unicode) (p : Policy) (R : Relationship → Prop) (y : USet) (t : GoalTree) : Prop :=
  ∃ e, DefinedBy U p y e ∧ Prescribed R y e t

/-! ### Drawings (C46) -/

/-- Children of a goal tree node, in order. -/
def children : GoalTree → List GoalTree
  | .or _ ps => ps
  | .and _ ps => ps
  | .diff _ a b => [a, b]
  | .leaf _ _ _ => []
  | .path _ _ _ c => [c]

/-- The node of the tree at a position (child indices from the root). -/
def subtree : GoalTree → List Nat → Option GoalTree
  | t, [] => some t
  | t, i :: p => match (children t)[i]? with
    | none => none
    | some c => subtree c p

/-- How a result is shown. -/
def resultText : SearchResult → String
  | .unknown => "UNKNOWN"
  | .failure => "FAILURE"
  | .success => "SUCCESS"

/-- What is written at a node: its kind, its result, and for a relation node the node and the reason. -/
def Caption : GoalTree → String → Prop
  | .or r _, l => l = "ORNode\nresult: " ++ resultText r
  | .and r _, l => l = "ANDNode\nresult: " ++ resultText r
  | .diff r _ _, l => l = "DifferenceNode\nresult: " ++ resultText r
  | .leaf r n reason, l | .path r n reason _, l => ∃ text, NodeText n text ∧
      l = "PathNode\nrelation node: " ++ text ++ "\nreason: " ++ reason ++ "\nresult: " ++ resultText r

/-- The calls draw the tree: an unlabelled root, one vertex per tree node under a number of its own, the edges from each node to its children and from the root to the tree, nothing else, nothing twice. -/
def Draws (t : GoalTree) (calls : List DotCall) : Prop :=
  ∃ num : List Nat → Nat,
    (∀ p q a b, subtree t p = some a → subtree t q = some b → num p = num q → p = q) ∧
    (∀ d l, .node d l ∈ calls ↔ (d = .root ∧ l = "") ∨ ∃ p a, subtree t p = some a ∧ d = .num (num p) ∧ Caption a l) ∧
    (∀ d d', .edge d d' ∈ calls ↔ (d = .root ∧ d' = .num (num [])) ∨
      ∃ p i a, subtree t (p ++ [i]) = some a ∧ d = .num (num p) ∧ d' = .num (num (p ++ [i]))) ∧
    calls.Nodup

end Zanzi.Spec
