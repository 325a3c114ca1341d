import Verif.Spec.Graph

/-
Vocabulary for statements about other requests: what a request addresses, schedules of the server, and a request in
flight among others.
-/

namespace Zanzi

open Spec

/-- Policy a request addresses. -/
def Call.target (env : Env) : Call → Option String
  | .createPolicy _ d _ | .updatePolicy d _ =>
    match getPolicyFromDefinition env d with
    | .ok p => some p.id
    | _ => none
  | .deletePolicy q | .getPolicy q | .setRelationship _ q _ _ | .deleteRelationship q _ | .getRelationship q _
  | .findRelationshipRecords q _ | .deleteRelationships q _ | .check _ q _ | .explainCheck _ q _ _ | .expand _ q _ _
  | .dumpRelationships _ _ q _ => some q
  | .listPolicyIds => none

/-- The graph queries and policy read of a policy. -/
def Call.graphQuery (pid : String) : Call → Prop
  | .getPolicy q | .check _ q _ | .explainCheck _ q _ _ | .expand _ q _ _ | .dumpRelationships _ _ q _ => q = pid
  | _ => False

/-- Relationships a request names or, for bulk deletions, may remove. -/
def Call.affects (s : Store) : Call → Relationship → Prop
  | .setRelationship _ _ r _, x | .deleteRelationship _ r, x => r = some x
  | .deleteRelationships q _, x | .deletePolicy q, x => Present s q x
  | _, _ => False

/-- The request may delete relationship `x` of policy `q`. -/
def Call.mayDelete (q : String) (x : Relationship) : Call → Prop
  | .deleteRelationship q' r => q' = q ∧ r = some x
  | .deleteRelationships q' sel => q' = q ∧ ∃ y, sel = some y ∧ Matches y x
  | .deletePolicy q' => q' = q
  | _ => False

/-- Schedules from `x` in which every arriving request satisfies `A`; requests interleave at storage calls, storage calls may fail, and the process may
crash. -/
inductive Sys.Path (env : Env) (A : Call → Prop) (x : Sys) : Sys → Prop
  | refl : Path env A x x
  | arrive {ts : List (Prog Answer)} {s : Store} (c : Call) : A c → Path env A x ⟨ts, s⟩ → Path env A x ⟨ts ++ [c.prog env], s⟩
  | op {op : Op} {k : Option op.Resp → Prog Answer} {ts₁ ts₂ : List (Prog Answer)} {s s' : Store} {resp : Option op.Resp} {b : Bool} :
      Path env A x ⟨ts₁ ++ .call op k :: ts₂, s⟩ → OpStep op s resp b s' → Path env A x ⟨ts₁ ++ k resp :: ts₂, s'⟩
  | leave {r : Res Answer} {ts₁ ts₂ : List (Prog Answer)} {s : Store} :
      Path env A x ⟨ts₁ ++ .done r :: ts₂, s⟩ → Path env A x ⟨ts₁ ++ ts₂, s⟩
  | crash {ts : List (Prog Answer)} {s : Store} : Path env A x ⟨ts, s⟩ → Path env A x ⟨[], s⟩

/-- Request `c` in flight: starting from `x`, a schedule whose arriving requests satisfy `A` brings the rest of the server to `y` while
request `c`, which arrived on the way, still has to execute `t`.  Once `t` is `done r`, the request answers `r`.  The list holds the
stores the server had since `c` arrived, latest first. -/
inductive Sys.Flight (env : Env) (A : Call → Prop) (x : Sys) (c : Call) : List Store → Sys → Prog Answer → Prop
  | start {y : Sys} : Sys.Path env A x y → Flight env A x c [y.store] y (c.prog env)
  | own {op : Op} {k : Option op.Resp → Prog Answer} {h : List Store} {ts : List (Prog Answer)} {s s' : Store} {resp : Option op.Resp} {b : Bool} :
      Flight env A x c h ⟨ts, s⟩ (.call op k) → OpStep op s resp b s' → Flight env A x c (s' :: h) ⟨ts, s'⟩ (k resp)
  | arrive {h : List Store} {ts : List (Prog Answer)} {s : Store} {t : Prog Answer} (c' : Call) : A c' → Flight env A x c h ⟨ts, s⟩ t →
      Flight env A x c h ⟨ts ++ [c'.prog env], s⟩ t
  | op {op : Op} {k : Option op.Resp → Prog Answer} {h : List Store} {ts₁ ts₂ : List (Prog Answer)} {s s' : Store} {t : Prog Answer}
      {resp : Option op.Resp} {b : Bool} :
      Flight env A x c h ⟨ts₁ ++ .call op k :: ts₂, s⟩ t → OpStep op s resp b s' → Flight env A x c (s' :: h) ⟨ts₁ ++ k resp :: ts₂, s'⟩ t
  | leave {r : Res Answer} {h : List Store} {ts₁ ts₂ : List (Prog Answer)} {s : Store} {t : Prog Answer} :
      Flight env A x c h ⟨ts₁ ++ .done r :: ts₂, s⟩ t → Flight env A x c h ⟨ts₁ ++ ts₂, s⟩ t

/-- The relationship names the user: directly, or by a wildcard for the user's resource. -/
def NamesUser (u : Entity) (r : Relationship) : Prop := r.subject = some (.entity u) ∨ r.subject = some (.resourceSet u.resource)

/-- The request asks policy `pid` whether a subject has some relation. -/
def Call.asks (pid : String) (subject : Option Entity) : Call → Prop
  | .check _ q req | .explainCheck _ q req _ => q = pid ∧ ∀ a, req = some a → a.subject = subject
  | _ => False

/-- The answer grants access. -/
def Answer.grants : Answer → Prop
  | .authorized b | .explained _ b _ => b = true
  | _ => False

/-- Stored at some moment of a history. -/
def StoredOnce (hist : List Store) (pid : String) (r : Relationship) : Prop := ∃ s ∈ hist, Present s pid r
/-- Stored at every moment of a history. -/
def StoredThroughout (hist : List Store) (pid : String) (r : Relationship) : Prop := ∀ s ∈ hist, Present s pid r

end Zanzi
