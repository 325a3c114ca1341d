import Verif.Spec.Explain

/-
Users whom no intersection and no subtraction met by a request concerns (C36, C37).
-/

namespace Zanzi.Spec

/-- Rule `r` of userset `y` leads to node `n`. -/
inductive RuleLeads (R : Relationship → Prop) (y : USet) : Rule → RelationNode → Prop
  | this {sub} : R ⟨some y.object, y.relation, some sub⟩ → RuleLeads R y .this (subjectNode sub)
  | cu {target} : RuleLeads R y (.cu target) (.entitySet (some y.object) target)
  | arrow {tupleset computed sub e} : R ⟨some y.object, tupleset, some sub⟩ → pointsTo sub = some e →
      RuleLeads R y (.ttu tupleset computed) (.entitySet (some e) computed)

/-- Rules in the operands of intersections and in what differences subtract. -/
def guarded : ExprTree → List Rule
  | .op l .union r => guarded l ++ guarded r
  | .op l .difference r => guarded l ++ leaves r
  | .op l _ r => leaves l ++ leaves r
  | _ => []

/-- Rules outside of intersections and of what differences subtract. -/
def unguarded : ExprTree → List Rule
  | .rule r => [r]
  | .op l .union r => unguarded l ++ unguarded r
  | .op l .difference _ => unguarded l
  | _ => []

/-- Node `n` is user `u`, a wildcard covering them, or a userset from which one of these is reached. -/
def Involves (U : Unicode) (p : Policy) (R : Relationship → Prop) (u : Entity) (n : RelationNode) : Prop :=
  Names u n ∨ ∃ z m, n = z.node ∧ Reaches U p R z m ∧ Names u m

/-- No operand of an intersection and nothing subtracted, among what a request for `x` meets, involves user `u`. -/
def Unconcerned (U : Unicode) (p : Policy) (R : Relationship → Prop) (x : USet) (u : Entity) : Prop :=
  ∀ y t r n, Reaches U p R x y.node → DefinedBy U p y t → r ∈ guarded t → RuleLeads R y r n → ¬ Involves U p R u n

/-- Nobody is in a userset from which they are not reached: no userset contains `u` by virtue of itself alone. -/
def Supported (U : Unicode) (p : Policy) (R : Relationship → Prop) (u : Entity) (V : USet → Prop) : Prop :=
  ∀ y, V y → Involves U p R u y.node

end Zanzi.Spec
