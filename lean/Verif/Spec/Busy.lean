import Verif.Spec.Sched
import Verif.Spec.Cost

/-
Vocabulary for C104: a request in flight with the storage calls it has made itself, and what may be stored meanwhile.
-/

namespace Zanzi

open Spec

/-- As `Sys.Flight`, counting the storage calls request `c` has made itself. -/
inductive Sys.Attended (env : Env) (A : Call → Prop) (x : Sys) (c : Call) : Nat → List Store → Sys → Prog Answer → Prop
  | start {y : Sys} : Sys.Path env A x y → Attended env A x c 0 [y.store] y (c.prog env)
  | own {n : Nat} {op : Op} {k : Option op.Resp → Prog Answer} {h : List Store} {ts : List (Prog Answer)} {s s' : Store} {resp : Option op.Resp} {b : Bool} :
      Attended env A x c n h ⟨ts, s⟩ (.call op k) → OpStep op s resp b s' → Attended env A x c (n + 1) (s' :: h) ⟨ts, s'⟩ (k resp)
  | arrive {n : Nat} {h : List Store} {ts : List (Prog Answer)} {s : Store} {t : Prog Answer} (c' : Call) : A c' → Attended env A x c n h ⟨ts, s⟩ t →
      Attended env A x c n h ⟨ts ++ [c'.prog env], s⟩ t
  | op {n : Nat} {op : Op} {k : Option op.Resp → Prog Answer} {h : List Store} {ts₁ ts₂ : List (Prog Answer)} {s s' : Store} {t : Prog Answer}
      {resp : Option op.Resp} {b : Bool} :
      Attended env A x c n h ⟨ts₁ ++ .call op k :: ts₂, s⟩ t → OpStep op s resp b s' → Attended env A x c n (s' :: h) ⟨ts₁ ++ k resp :: ts₂, s'⟩ t
  | leave {n : Nat} {r : Res Answer} {h : List Store} {ts₁ ts₂ : List (Prog Answer)} {s : Store} {t : Prog Answer} :
      Attended env A x c n h ⟨ts₁ ++ .done r :: ts₂, s⟩ t → Attended env A x c n h ⟨ts₁ ++ ts₂, s⟩ t

namespace Spec

/-- Check, ExplainCheck and Expand, with the bound the model puts on their recursion and the policy asked. -/
def searches : Call → Option (Nat × String)
  | .check fuel pid _ => some (fuel, pid)
  | .explainCheck fuel pid _ _ => some (fuel, pid)
  | .expand fuel pid _ _ => some (fuel, pid)
  | _ => none

/-- The same request with another bound on the recursion. -/
def withFuel (fuel : Nat) : Call → Call
  | .check _ pid req => .check fuel pid req
  | .explainCheck _ pid req f => .explainCheck fuel pid req f
  | .expand _ pid root f => .expand fuel pid root f
  | c => c

/-- The relationships of policy `pid` are among `L`, and the policy has at most `m` relations, whose expressions refer to at most `k` stored relations each. -/
def Limited (U : Unicode) (pid : String) (L : List Relationship) (m k : Nat) (s : Store) : Prop :=
  (∀ r, Present s pid r → r ∈ L) ∧
  ∀ rec, policyAt s pid = some rec → (rec.policy.resources.flatMap (·.relations)).length ≤ m ∧ ∀ y t, DefinedBy U rec.policy y t → lookups t ≤ k

/-- What the other requests may spend, and on which policy's relationships it depends, `R` bounding their number. -/
def budget (R : Nat) : Call → Option (Nat × Option String)
  | .createPolicy _ _ _ => some (3, none)
  | .updatePolicy _ _ => some (3, none)
  | .deletePolicy pid => some (3 + 3 * R, some pid)
  | .getPolicy _ => some (1, none)
  | .listPolicyIds => some (1, none)
  | .setRelationship _ _ _ _ => some (4, none)
  | .deleteRelationship _ _ => some (3, none)
  | .getRelationship _ _ => some (1, none)
  | .findRelationshipRecords pid _ => some (2 + R, some pid)
  | .deleteRelationships pid _ => some (1 + 3 * R, some pid)
  | .dumpRelationships _ _ _ _ => some (2, none)
  | .check _ _ _ => none
  | .explainCheck _ _ _ _ => none
  | .expand _ _ _ _ => none

end Spec

end Zanzi
