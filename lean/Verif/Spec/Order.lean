import Verif.Model.Exec

/-
Vocabulary for the order of requests that write.
-/

namespace Zanzi.Spec

/-- The request sets or deletes one relationship. -/
def IsRelWrite (c : Call) : Prop := (∃ now pid r a, c = .setRelationship now pid r a) ∨ ∃ pid r, c = .deleteRelationship pid r

/-- The request sets or deletes relationship `r`. -/
def WritesRel (c : Call) (r : Relationship) : Prop := (∃ now pid a, c = .setRelationship now pid (some r) a) ∨ ∃ pid, c = .deleteRelationship pid (some r)

/-- The request asks to create policy `p`. -/
def CreatesPolicy (env : Env) (c : Call) (p : Policy) : Prop := ∃ now d a, c = .createPolicy now d a ∧ getPolicyFromDefinition env d = .ok p

/-- Requests running at the same time: from what is left of them and the store at the left, storage calls of theirs in any order and without failures lead to the right. -/
inductive Interleaved (ts₀ : List (Prog Answer)) (s₀ : Store) : List (Prog Answer) → Store → Prop
  | refl : Interleaved ts₀ s₀ ts₀ s₀
  | op {op : Op} {k : Option op.Resp → Prog Answer} {ts₁ ts₂ : List (Prog Answer)} {s : Store} :
      Interleaved ts₀ s₀ (ts₁ ++ .call op k :: ts₂) s → Interleaved ts₀ s₀ (ts₁ ++ k (some (op.exec s).1) :: ts₂) (op.exec s).2

end Zanzi.Spec
