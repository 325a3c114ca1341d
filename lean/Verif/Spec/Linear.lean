import Verif.Spec.Order
import Verif.Lemmas.Calls

/-
Vocabulary for requests that come and go over time.
-/

namespace Zanzi.Spec

/-- What the caller of a request knows: nothing yet, the answer, or that the service is gone. -/
inductive Caller where
  | waiting
  | told (r : Res Answer)
  | lost

/-- A request: what it asks, what is left of it, and what its caller knows. -/
structure Req where
  call : Call
  left : Prog Answer
  caller : Caller

/-- What callers see happen: request number `i` is made, or gets its answer, or the service crashes. -/
inductive Event where
  | made (i : Nat)
  | answered (i : Nat)
  | crashed
  deriving DecidableEq

/-- The request reads, updates a policy or creates one. -/
def Sharable (c : Call) : Prop := c.isRead = true ∨ (∃ d a, c = .updatePolicy d a) ∨ ∃ now d a, c = .createPolicy now d a

/-- The requests so far, what callers saw, and the store: requests are made at any time `A` allows, their storage calls are made in any order, and their callers are answered at any time after the
last of them.  Storage calls of sharable requests may fail, before or after taking effect, and the service may crash while no other request is waited for. -/
inductive Timeline (env : Env) (A : List Req → Call → Prop) (s₀ : Store) : List Req → List Event → Store → Prop
  | init : Timeline env A s₀ [] [] s₀
  | make {l : List Req} {ev : List Event} {s : Store} (c : Call) : A l c → Timeline env A s₀ l ev s →
      Timeline env A s₀ (l ++ [⟨c, c.prog env, .waiting⟩]) (ev ++ [.made l.length]) s
  | op {l : List Req} {ev : List Event} {s s' : Store} {i : Nat} {c : Call} {op : Op} {k : Option op.Resp → Prog Answer} {resp : Option op.Resp} {failed : Bool} :
      l[i]? = some ⟨c, .call op k, .waiting⟩ → OpStep op s resp failed s' → (failed = true → Sharable c) →
      Timeline env A s₀ l ev s → Timeline env A s₀ (l.set i ⟨c, k resp, .waiting⟩) ev s'
  | reply {l : List Req} {ev : List Event} {s : Store} {i : Nat} {c : Call} {r : Res Answer} : l[i]? = some ⟨c, .done r, .waiting⟩ →
      Timeline env A s₀ l ev s → Timeline env A s₀ (l.set i ⟨c, .done r, .told r⟩) (ev ++ [.answered i]) s
  | crash {l : List Req} {ev : List Event} {s : Store} : (∀ q ∈ l, q.caller = .waiting → Sharable q.call) → Timeline env A s₀ l ev s →
      Timeline env A s₀ (l.map (fun q => match q.caller with | .waiting => ⟨q.call, q.left, .lost⟩ | _ => q)) (ev ++ [.crashed]) s

/-- Requests kept apart: while others are waited for, only reads, updates and creations of policies nobody else is creating are made, and none of these while a request of another kind is waited for. -/
def KeptApart (env : Env) (l : List Req) (c : Call) : Prop :=
  ∀ q ∈ l, q.caller = .waiting → Sharable q.call ∧ Sharable c ∧ ∀ p p', CreatesPolicy env q.call p → CreatesPolicy env c p' → p.id ≠ p'.id

/-- Request `i` comes before request `j`. -/
def Before (served : List (Nat × Call × Res Answer)) (i j : Nat) : Prop :=
  ∃ l₁ l₂, served = l₁ ++ l₂ ∧ i ∈ l₁.map (·.1) ∧ j ∈ l₂.map (·.1)

/-- Request `i` was answered, or lost in a crash. -/
def Over (ev : List Event) (i : Nat) : Prop := .answered i ∈ ev ∨ ∃ ev₁ ev₂, ev = ev₁ ++ .crashed :: ev₂ ∧ .made i ∈ ev₁

/-- Request `i` was over before request `j` was made. -/
def Earlier (ev : List Event) (i j : Nat) : Prop := ∃ ev₁ ev₂, ev = ev₁ ++ ev₂ ∧ Over ev₁ i ∧ .made j ∈ ev₂

/-- Serving requests one at a time, in an order that respects which were over before others were made, explains the answers callers got and the store.  Requests without answer, or answered that
a storage call failed, may or may not have been served. -/
structure Explained (env : Env) (s₀ : Store) (l : List Req) (ev : List Event) (s : Store) (served : List (Nat × Call × Res Answer)) : Prop where
  once : (served.map (·.1)).Nodup
  asked : ∀ i c r, (i, c, r) ∈ served → ∃ q, l[i]? = some q ∧ q.call = c ∧ ∀ r', q.caller = .told r' → r' = r ∨ r' = .err .store
  answers : ∀ i q r, l[i]? = some q → q.caller = .told r → r ≠ .err .store → (i, q.call, r) ∈ served
  results : runCalls env (served.map (·.2.1)) s₀ = (served.map (·.2.2), s)
  order : ∀ i j, Earlier ev i j → i ∈ served.map (·.1) → j ∈ served.map (·.1) → Before served i j

end Zanzi.Spec
