import Verif.Spec.Rename

/-
Giving everything other names: objects and users, resources, relations and the policy itself.
-/

namespace Zanzi.Spec

/-- Other names for objects and users, resources, and relations. -/
structure Vocab where
  object : Entity → Entity
  resource : String → String
  relation : String → String

/-- Different things get different names, and an object of a resource becomes one of the renamed resource. -/
structure Respelling (ν : Vocab) : Prop where
  object_inj : ∀ a b, ν.object a = ν.object b → a = b
  resource_inj : ∀ a b, ν.resource a = ν.resource b → a = b
  relation_inj : ∀ a b, ν.relation a = ν.relation b → a = b
  resource : ∀ a, (ν.object a).resource = ν.resource a.resource

def respellSubject (ν : Vocab) : Subject → Subject
  | .entity e => .entity (ν.object e)
  | .entitySet e rel => .entitySet (e.map ν.object) (ν.relation rel)
  | .resourceSet n => .resourceSet (ν.resource n)
  | .unset => .unset

def respellRelationship (ν : Vocab) (r : Relationship) : Relationship :=
  ⟨r.object.map ν.object, ν.relation r.relation, r.subject.map (respellSubject ν)⟩

def respellUSet (ν : Vocab) (x : USet) : USet := ⟨ν.object x.object, ν.relation x.relation⟩

def respellRule (ν : Vocab) : Rule → Rule
  | .this => .this
  | .cu t => .cu (ν.relation t)
  | .ttu a b => .ttu (ν.relation a) (ν.relation b)
  | .unset => .unset

def respellExpr (ν : Vocab) : ExprTree → ExprTree
  | .rule r => .rule (respellRule ν r)
  | .op l o r => .op (respellExpr ν l) o (respellExpr ν r)
  | .nil => .nil
  | .unset => .unset

def respellNode (ν : Vocab) : RelationNode → RelationNode
  | .entity o => .entity (o.map ν.object)
  | .entitySet o rel => .entitySet (o.map ν.object) (ν.relation rel)
  | .wildcard n => .wildcard (ν.resource n)
  | .unset => .unset

/-- `R'` are the relationships `R` under other names. -/
def Respelled (ν : Vocab) (R R' : Relationship → Prop) : Prop := ∀ r', R' r' ↔ ∃ r, R r ∧ respellRelationship ν r = r'

/-- `p'` declares the relations of `p` under other names, with expressions that stand for those of `p` under other names.  Whose subjects are restricted how, the
order of declarations, the spelling of expressions, and the id and texts of the policy may differ. -/
structure RespelledPolicy (U : Unicode) (ν : Vocab) (p p' : Policy) : Prop where
  kept : ∀ a b d, Declares p a b d → ∃ d', Declares p' (ν.resource a) (ν.relation b) d' ∧
    ∀ t, Denotes U.isIdent whiteSpace d t → Denotes U.isIdent whiteSpace d' (respellExpr ν t)
  nothingNew : ∀ a' b' d', Declares p' a' b' d' → ∃ a b d, ν.resource a = a' ∧ ν.relation b = b' ∧ Declares p a b d ∧
    ∀ t', Denotes U.isIdent whiteSpace d' t' → ∃ t, Denotes U.isIdent whiteSpace d t ∧ respellExpr ν t = t'

/-- Texts of explanations: the same, or the same rule under other names. -/
def ReasonAs (ν : Vocab) (r r' : String) : Prop :=
  r' = r ∨ (∃ a b, r = "Rule Tuple To Userset: " ++ a ++ " " ++ b ∧ r' = "Rule Tuple To Userset: " ++ ν.relation a ++ " " ++ ν.relation b) ∨
  ∃ t, r = "Rule Computed Userset: " ++ t ∧ r' = "Rule Computed Userset: " ++ ν.relation t

mutual
/-- A goal tree and the same tree under other names. -/
inductive TreeAs (ν : Vocab) : GoalTree → GoalTree → Prop
  | or {v ps ps'} : TreesAs ν ps ps' → TreeAs ν (.or v ps) (.or v ps')
  | and {v ps ps'} : TreesAs ν ps ps' → TreeAs ν (.and v ps) (.and v ps')
  | diff {v a b a' b'} : TreeAs ν a a' → TreeAs ν b b' → TreeAs ν (.diff v a b) (.diff v a' b')
  | leaf {v n r r'} : ReasonAs ν r r' → TreeAs ν (.leaf v n r) (.leaf v (respellNode ν n) r')
  | path {v n r r' t t'} : ReasonAs ν r r' → TreeAs ν t t' → TreeAs ν (.path v n r t) (.path v (respellNode ν n) r' t')
inductive TreesAs (ν : Vocab) : List GoalTree → List GoalTree → Prop
  | nil : TreesAs ν [] []
  | cons {t t' ts ts'} : TreeAs ν t t' → TreesAs ν ts ts' → TreesAs ν (t :: ts) (t' :: ts')
end

/-- `s'` holds under `pid'` the relationships a request starting at `x` consults in `s` under `pid`, under other names and in the same order. -/
def RespelledInOrder (U : Unicode) (p : Policy) (ν : Vocab) (pid pid' : String) (s s' : Store) (x : USet) : Prop :=
  ∀ y z, Reaches U p (Present s pid) x y.node → Consulted U p y z → subjectsOf s' pid' (respellUSet ν z) = (subjectsOf s pid z).map (respellSubject ν)

end Zanzi.Spec
