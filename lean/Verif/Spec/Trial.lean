import Verif.Spec.Order
import Verif.Spec.Store
import Verif.Lemmas.Calls

/-
Vocabulary for trying out a policy.
-/

namespace Zanzi.Spec

/-- The request does not touch policy `pid` itself, and sets in it only what both `p` and `p'` allow. -/
def Indifferent (env : Env) (pid : String) (p p' : Policy) : Call → Prop
  | .updatePolicy d _ => ∀ q, Defines env d q → q.id ≠ pid
  | .deletePolicy id => id ≠ pid
  | .setRelationship _ id (some r) _ => id = pid → Admissible p r ∧ Admissible p' r
  | .setRelationship _ id none _ => id ≠ pid
  | _ => True

/-- The requests of `cs` that are not mere reads have the same answers in both lists. -/
def SameButReads {α : Type} (cs : List Call) (l l' : List α) : Prop := ∀ (i : Nat) (c : Call), cs[i]? = some c → c.isRead = false → l[i]? = l'[i]?

end Zanzi.Spec
