import Verif.Spec.Graph

/-
Ways to rewrite the expressions of a policy.
-/

namespace Zanzi.Spec

/-- The rules an expression offers as alternatives. -/
def alternatives : ExprTree → List Rule
  | .rule r => [r]
  | .op l .union r => alternatives l ++ alternatives r
  | _ => []

/-- Expressions that differ in the grouping of unions and of intersections, in repeated alternatives, and in the use of a relation or of the one it is
defined as.  `al a = some b` means that relation `a` is defined as `b`. -/
inductive Regrouped (al : String → Option String) : ExprTree → ExprTree → Prop
  | refl (e) : Regrouped al e e
  | symm {e f} : Regrouped al e f → Regrouped al f e
  | trans {e f g} : Regrouped al e f → Regrouped al f g → Regrouped al e g
  | operands {l l' o r r'} : Regrouped al l l' → Regrouped al r r' → Regrouped al (.op l o r) (.op l' o r')
  | unions (l m r) : Regrouped al (.op (.op l .union m) .union r) (.op l .union (.op m .union r))
  | intersections (l m r) : Regrouped al (.op (.op l .intersection m) .intersection r) (.op l .intersection (.op m .intersection r))
  | repeated {l r} : UnionOnly r → Whole r → (∀ x ∈ leaves r, x ∈ alternatives l) → Regrouped al (.op l .union r) l
  | renamed {a b} : al a = some b → Regrouped al (.rule (.cu a)) (.rule (.cu b))

/-- In policy `p`, relation `a` of resource `n` is defined as relation `b` when `al n a = some b`, and `b` is not itself replaced. -/
def DefinedAs (U : Unicode) (p : Policy) (al : String → String → Option String) : Prop :=
  ∀ n a b, al n a = some b → al n b = none ∧ ∀ i, DefinedBy U p ⟨⟨n, i⟩, a⟩ (.rule (.cu b))

/-- Policy `p'` is policy `p` with expressions regrouped. -/
def RegroupedPolicy (U : Unicode) (al : String → String → Option String) (p p' : Policy) : Prop :=
  ∀ y : USet, (∀ e, DefinedBy U p y e → ∃ e', DefinedBy U p' y e' ∧ Regrouped (al y.object.resource) e e') ∧
    (∀ e', DefinedBy U p' y e' → ∃ e, DefinedBy U p y e)

/-- Expressions with the same meaning as sets of users. -/
def SameSet (R : Relationship → Prop) (x : USet) (e e' : ExprTree) : Prop := ∀ u V, ExprIn R u V x e ↔ ExprIn R u V x e'

end Zanzi.Spec
