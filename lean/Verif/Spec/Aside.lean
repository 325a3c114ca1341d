import Verif.Spec.Elsewhere
import Verif.Spec.Sched

/-
Requests that leave alone what another request comes across (C115).
-/

namespace Zanzi.Spec

/-- Relationship `r` is stored under a key that a request starting at `x` reads. -/
def ReadFrom (U : Unicode) (H : String → Nat) (p : Policy) (R : Relationship → Prop) (x : USet) (r : Relationship) : Prop :=
  ∃ y z o, Reaches U p (Looked H R) x y.node ∧ Consulted U p y z ∧ r.object = some o ∧
    H (o.resource ++ o.id ++ r.relation) = H (z.object.resource ++ z.object.id ++ z.relation)

end Zanzi.Spec

namespace Zanzi

open Spec

/-- The request defines policy `p`. -/
def Call.writes (env : Env) (p : Policy) : Call → Prop
  | .createPolicy _ d _ | .updatePolicy d _ => Defines env d p
  | _ => False

/-- Check, ExplainCheck and Expand of `x`. -/
def Call.about (pid : String) (x : USet) : Call → Prop
  | .check _ q r => q = pid ∧ ∃ u, r = ask x u
  | .explainCheck _ q r _ => q = pid ∧ ∃ u, r = ask x u
  | .expand _ q r _ => q = pid ∧ r = some x.node
  | _ => False

/-- The request leaves alone what requests about `x` come across: it neither sets nor deletes a relationship they read, and a policy it defines under the same id defines what they come across as
`p` does. -/
def Call.Aside (env : Env) (pid : String) (p : Policy) (R : Relationship → Prop) (x : USet) (d : Call) : Prop :=
  (∀ now r a, d = .setRelationship now pid (some r) a → ¬ ReadFrom env.U env.H p R x r) ∧ (∀ r, d.mayDelete pid r → ¬ ReadFrom env.U env.H p R x r) ∧
    ∀ p', d.writes env p' → p'.id = pid → AlikeFrom env.U env.H p p' R x

end Zanzi
