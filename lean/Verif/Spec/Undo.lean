import Verif.Spec.Order

/-
Vocabulary for taking changes back.
-/

namespace Zanzi.Spec

/-- The requests of `cs` that set or delete a relationship have the same answers in both lists. -/
def SameForWrites {α : Type} (cs : List Call) (l l' : List α) : Prop := ∀ (i : Nat) (c : Call), cs[i]? = some c → IsRelWrite c → l[i]? = l'[i]?

end Zanzi.Spec
