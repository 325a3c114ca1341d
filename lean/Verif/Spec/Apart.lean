import Verif.Spec.Sched

/-
Schedules in which SetRelationship and DeletePolicy of a policy never overlap.
-/

namespace Zanzi

/-- The request sets a relationship of policy `pid`. -/
def Call.setsIn (pid : String) : Call → Prop
  | .setRelationship _ q _ _ => q = pid
  | _ => False

/-- Schedules from a fresh store, each request in flight with what it still has to execute.  No SetRelationship of policy `pid` arrives while a DeletePolicy of it is in flight,
nor the other way round; every DeletePolicy of it that leaves has succeeded, and the process does not crash while one is in flight.  All else is as in `Sys.Step`: requests of every kind interleave
at storage calls, storage calls may fail, the process may crash. -/
inductive Sys.Apart (env : Env) (pid : String) : List (Call × Prog Answer) → Store → Prop
  | init : Apart env pid [] Store.empty
  | arrive {ts : List (Call × Prog Answer)} {s : Store} (c : Call) : Apart env pid ts s →
      (c.setsIn pid → ∀ x ∈ ts, x.1 ≠ .deletePolicy pid) → (c = .deletePolicy pid → ∀ x ∈ ts, ¬ x.1.setsIn pid) → Apart env pid (ts ++ [(c, c.prog env)]) s
  | op {c : Call} {op : Op} {k : Option op.Resp → Prog Answer} {ts₁ ts₂ : List (Call × Prog Answer)} {s s' : Store} {resp : Option op.Resp} {b : Bool} :
      Apart env pid (ts₁ ++ (c, .call op k) :: ts₂) s → OpStep op s resp b s' → Apart env pid (ts₁ ++ (c, k resp) :: ts₂) s'
  | leave {c : Call} {r : Res Answer} {ts₁ ts₂ : List (Call × Prog Answer)} {s : Store} :
      Apart env pid (ts₁ ++ (c, .done r) :: ts₂) s → (c = .deletePolicy pid → ∃ a, r = .ok a) → Apart env pid (ts₁ ++ ts₂) s
  | crash {ts : List (Call × Prog Answer)} {s : Store} : Apart env pid ts s → (∀ x ∈ ts, x.1 ≠ .deletePolicy pid) → Apart env pid [] s

end Zanzi
