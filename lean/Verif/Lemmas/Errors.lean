import Verif.Model.Errors
import Verif.Spec.Errors
import Verif.Lemmas.Calls
import Verif.Lemmas.StoreRun

/-
Runs of programs with error values.
-/

namespace Zanzi

open Prog Spec

/-- What `wrap` makes of an outcome. -/
def wrapRes {α : Type} (bs : List Blame) : Res α → Res (Except GoErr α)
  | .ok a => .ok (.ok a)
  | .err e => .ok (.error ⟨e, bs⟩)
  | .panic => .panic
  | .fuel => .fuel

theorem wrap_done {α : Type} (bs : List Blame) (r : Res α) : (Prog.done r).wrap bs = .done (wrapRes bs r) := by cases r <;> rfl

theorem wrap_runF {α : Type} {bs : List Blame} {p : Prog α} {s s' : Store} {b : Bool} {r : Res (Except GoErr α)} (h : RunF (p.wrap bs) s b r s') :
    ∃ r0, RunF p s b r0 s' ∧ r = wrapRes bs r0 := by
  induction p generalizing s b with
  | done r0 =>
    rw [wrap_done] at h
    cases h
    exact ⟨r0, .done _ _, rfl⟩
  | call op k ih =>
    cases h with
    | call h1 h2 =>
      obtain ⟨r0, h3, h4⟩ := ih _ h2
      exact ⟨r0, .call h1 h3, h4⟩

theorem bind_runF {α β : Type} {p : Prog α} {k : α → Prog β} {s s' : Store} {b : Bool} {r : β} (h : RunF (p >>= k) s b (.ok r) s') :
    ∃ a s1 b1 b2, RunF p s b1 (.ok a) s1 ∧ RunF (k a) s1 b2 (.ok r) s' ∧ b = (b1 || b2) := by
  induction p generalizing s b with
  | done r0 =>
    cases r0 with
    | ok a => exact ⟨a, s, false, b, .done _ _, h, rfl⟩
    | err e => cases h
    | panic => cases h
    | fuel => cases h
  | call op f ih =>
    cases h with
    | call h1 h2 =>
      obtain ⟨a, s1, b1, b2, h3, h4, h5⟩ := ih _ h2
      exact ⟨a, s1, _, b2, .call h1 h3, h4, by rw [h5, Bool.or_assoc]⟩

theorem andThen_runF {α β : Type} {p : Prog (Except GoErr α)} {k : α → Prog (Except GoErr β)} {s s' : Store} {b : Bool} {e : GoErr}
    (h : RunF (p.andThen k) s b (.ok (.error e)) s') :
    RunF p s b (.ok (.error e)) s' ∨ ∃ a s1 b1 b2, RunF p s b1 (.ok (.ok a)) s1 ∧ RunF (k a) s1 b2 (.ok (.error e)) s' ∧ b = (b1 || b2) := by
  obtain ⟨x, s1, b1, b2, h1, h2, h3⟩ := bind_runF h
  cases x with
  | ok a => exact .inr ⟨a, s1, b1, b2, h1, h2, h3⟩
  | error e' =>
    cases h2
    rw [Bool.or_false] at h3
    exact .inl (h3 ▸ h1)

theorem wrap_error {α : Type} {bs : List Blame} {p : Prog α} {s s' : Store} {b : Bool} {e : GoErr} (h : RunF (p.wrap bs) s b (.ok (.error e)) s') :
    RunF p s b (.err e.cause) s' ∧ e.blame = bs := by
  obtain ⟨r0, h1, h2⟩ := wrap_runF h
  cases r0 <;> cases h2
  exact ⟨h1, rfl⟩

theorem wrap_value {α : Type} {bs : List Blame} {p : Prog α} {s s' : Store} {b : Bool} {a : α} (h : RunF (p.wrap bs) s b (.ok (.ok a)) s') :
    RunF p s b (.ok a) s' := by
  obtain ⟨r0, h1, h2⟩ := wrap_runF h
  cases r0 <;> cases h2
  exact h1

/-- An error of a request's program under `wrap []` followed by steps that return no error. -/
theorem wrap_lift_error {α : Type} {bs : List Blame} {r : Res α} {s s' : Store} {b : Bool} {e : GoErr} (h : RunF ((Prog.lift r).wrap bs) s b (.ok (.error e)) s') :
    r = .err e.cause ∧ e.blame = bs ∧ b = false ∧ s' = s := by
  obtain ⟨h1, h2⟩ := wrap_error h
  cases h1
  exact ⟨rfl, h2, rfl, rfl⟩

theorem lift_value {α : Type} {r : Res α} {s s' : Store} {b : Bool} {a : α} (h : RunF (Prog.lift r) s b (.ok a) s') : r = .ok a ∧ b = false ∧ s' = s := by
  unfold Prog.lift at h
  generalize hx : (Res.ok a : Res α) = x at h
  cases h
  exact ⟨hx.symm ▸ rfl, rfl, rfl⟩

theorem return_ok_runF {α : Type} {a : α} {s s' : Store} {b : Bool} {e : GoErr} (h : RunF (Pure.pure (Except.ok a) : Prog (Except GoErr α)) s b (.ok (.error e)) s') :
    False := by cases h

/-- The errors of the policy lookup. -/
theorem getPolicyE_error {pid : String} {s s' : Store} {b : Bool} {e : GoErr} (h : RunF (GraphService.getPolicyE pid) s b (.ok (.error e)) s') :
    (b = true ∧ e = ⟨.store, [.internal]⟩) ∨ (b = false ∧ policyAt s pid = none ∧ e = ⟨.policyNotFound, [.invalidRequest]⟩) := by
  rcases andThen_runF h with h | ⟨a, s1, b1, b2, h1, h2, h3⟩
  · obtain ⟨h1, h2⟩ := wrap_error h
    cases h1 with
    | call h3 h4 =>
      cases h3 with
      | ok => cases h4
      | failBefore => left; obtain ⟨c, bl⟩ := e; cases h4; cases h2; exact ⟨rfl, rfl⟩
      | failAfter => left; obtain ⟨c, bl⟩ := e; cases h4; cases h2; exact ⟨rfl, rfl⟩
  · have h1 := wrap_value h1
    cases h1 with
    | call h4 h5 =>
      cases h4 with
      | ok =>
        have hp : ((Op.polGet pid).exec s).1 = policyAt s pid := (policyAt_eq s pid).symm
        rw [hp] at h5
        cases h5
        cases hq : policyAt s pid with
        | none => rw [hq] at h2; cases h2; exact .inr ⟨h3, rfl, rfl⟩
        | some rec => rw [hq] at h2; cases h2
      | failBefore => cases h5
      | failAfter => cases h5

theorem getPolicyE_value {pid : String} {s s' : Store} {b : Bool} {rec : PolicyRecord} (h : RunF (GraphService.getPolicyE pid) s b (.ok (.ok rec)) s') :
    b = false ∧ policyAt s pid = some rec ∧ s' = s := by
  obtain ⟨x, s1, b1, b2, h1, h2, h3⟩ := bind_runF h
  cases x with
  | error e => cases h2
  | ok a =>
    have h1 := wrap_value h1
    cases h1 with
    | call h4 h5 =>
      cases h4 with
      | ok =>
        have hp : ((Op.polGet pid).exec s).1 = policyAt s pid := (policyAt_eq s pid).symm
        rw [hp] at h5
        cases h5
        cases hq : policyAt s pid with
        | none => rw [hq] at h2; cases h2
        | some rec => rw [hq] at h2; cases h2; exact ⟨h3, rfl, rfl⟩
      | failBefore => cases h5
      | failAfter => cases h5

mutual
theorem dotTree_ne_err (parent : DotId) (t : GoalTree) (c : Nat) (e : Err) : dotTree parent t c ≠ .err e := by
  match t with
  | .leaf r node reason => rw [dotTree]; unfold RelationNode.prettyString; split <;> nofun
  | .path r node reason child =>
    rw [dotTree]
    intro h
    obtain ⟨x, hx⟩ | hx : (∃ x, node.prettyString = .ok x) ∨ node.prettyString = .panic := by unfold RelationNode.prettyString; split <;> simp
    · rw [hx] at h
      rcases hd : dotTree (.num c) child (c + 1) with y | y | _ | _
      · rw [hd] at h; cases h
      · exact dotTree_ne_err _ child _ y hd
      · rw [hd] at h; cases h
      · rw [hd] at h; cases h
    · rw [hx] at h; cases h
  | .or r ps =>
    rw [dotTree]
    intro h
    rcases hd : dotList (.num c) ps (c + 1) with y | y | _ | _
    · rw [hd] at h; cases h
    · exact dotList_ne_err _ ps _ y hd
    · rw [hd] at h; cases h
    · rw [hd] at h; cases h
  | .and r ps =>
    rw [dotTree]
    intro h
    rcases hd : dotList (.num c) ps (c + 1) with y | y | _ | _
    · rw [hd] at h; cases h
    · exact dotList_ne_err _ ps _ y hd
    · rw [hd] at h; cases h
    · rw [hd] at h; cases h
  | .diff r l m =>
    rw [dotTree]
    intro h
    rcases hd : dotTree (.num c) l (c + 1) with y | y | _ | _
    · rw [hd] at h
      rcases hd' : dotTree (.num c) m y.2 with z | z | _ | _
      · simp only [Res.bind_ok, hd'] at h; cases h
      · exact dotTree_ne_err _ m _ z hd'
      · simp only [Res.bind_ok, hd'] at h; cases h
      · simp only [Res.bind_ok, hd'] at h; cases h
    · exact dotTree_ne_err _ l _ y hd
    · rw [hd] at h; cases h
    · rw [hd] at h; cases h

theorem dotList_ne_err (parent : DotId) (ts : List GoalTree) (c : Nat) (e : Err) : dotList parent ts c ≠ .err e := by
  match ts with
  | [] => rw [dotList]; nofun
  | t :: ts =>
    rw [dotList]
    intro h
    rcases hd : dotTree parent t c with y | y | _ | _
    · rw [hd] at h
      rcases hd' : dotList parent ts y.2 with z | z | _ | _
      · simp only [Res.bind_ok, hd'] at h; cases h
      · exact dotList_ne_err _ ts _ z hd'
      · simp only [Res.bind_ok, hd'] at h; cases h
      · simp only [Res.bind_ok, hd'] at h; cases h
    · exact dotTree_ne_err _ t _ y hd
    · rw [hd] at h; cases h
    · rw [hd] at h; cases h
end

/-- Only JSON goes wrong. -/
theorem serialize_error {f : ExplainFormat} {t : GoalTree} {e : Err} (hf : f ≠ .unknown) (h : serialize f t = .err e) : f = .json := by
  cases f with
  | spew => cases h
  | json => rfl
  | unknown => exact absurd rfl hf
  | dot =>
    rw [serialize, dotSerialize] at h
    rcases hd : dotTree .root t 0 with y | y | _ | _
    · rw [hd] at h; cases h
    · exact absurd hd (dotTree_ne_err _ _ _ _)
    · rw [hd] at h; cases h
    · rw [hd] at h; cases h

/-- A run in which the call numbered `n` fails before taking effect. -/
def runFault {α : Type} : Nat → Prog α → Store → Res α × Store
  | _, .done r, s => (r, s)
  | 0, .call _ k, s => (k none).run s
  | n + 1, .call op k, s => runFault n (k (some (op.exec s).1)) (op.exec s).2

/-- Whether the program makes more than `n` calls. -/
def callsBeyond {α : Type} : Nat → Prog α → Store → Bool
  | _, .done _, _ => false
  | 0, .call _ _, _ => true
  | n + 1, .call op k, s => callsBeyond n (k (some (op.exec s).1)) (op.exec s).2

theorem runFault_runF {α : Type} {n : Nat} {p : Prog α} {s : Store} (h : callsBeyond n p s = true) : RunF p s true (runFault n p s).1 (runFault n p s).2 := by
  induction p generalizing n s with
  | done r => cases n <;> cases h
  | call op k ih =>
    cases n with
    | zero => exact RunF.call (b := true) (b' := false) (.failBefore op s) (runF_of_run _ _)
    | succ n => exact RunF.call (b := false) (b' := true) (.ok op s) (ih _ h)

/-- The error value of an outcome. -/
def errorOf {α : Type} : Res (Except GoErr α) → Option GoErr
  | .ok (.error e) => some e
  | _ => none

theorem errorOf_some {α : Type} {r : Res (Except GoErr α)} {e : GoErr} (h : errorOf r = some e) : r = .ok (.error e) := by
  unfold errorOf at h
  split at h
  · cases h; rfl
  · cases h

theorem fails_of {α : Type} {p : Prog (Except GoErr α)} {s : Store} {e : GoErr} (h : errorOf (p.run s).1 = some e) : ∃ s', RunF p s false (.ok (.error e)) s' :=
  ⟨(p.run s).2, errorOf_some h ▸ runF_of_run _ _⟩

theorem faults_of {α : Type} {p : Prog (Except GoErr α)} {s : Store} {e : GoErr} (n : Nat) (hn : callsBeyond n p s = true) (h : errorOf (runFault n p s).1 = some e) :
    ∃ s', RunF p s true (.ok (.error e)) s' :=
  ⟨(runFault n p s).2, errorOf_some h ▸ runFault_runF hn⟩

/-- Forgetting the error value. -/
def Prog.forget {α : Type} (p : Prog (Except GoErr α)) : Prog α := do
  match ← p with
  | .ok a => return a
  | .error e => Prog.lift (.err e.cause)

theorem bind_call {α β : Type} (op : Op) (f : Option op.Resp → Prog α) (k : α → Prog β) : (Prog.call op f >>= k) = .call op (fun r => f r >>= k) := rfl

theorem forget_wrap {α : Type} (bs : List Blame) (p : Prog α) : (p.wrap bs).forget = p := by
  induction p with
  | done r => cases r <;> rfl
  | call op k ih =>
    show Prog.call op (fun r => ((k r).wrap bs).forget) = _
    simp only [ih]

theorem forget_andThen {α β : Type} (p : Prog (Except GoErr α)) (k : α → Prog (Except GoErr β)) : (p.andThen k).forget = p.forget >>= fun a => (k a).forget := by
  induction p with
  | done r =>
    cases r with
    | ok x => cases x <;> rfl
    | err e => rfl
    | panic => rfl
    | fuel => rfl
  | call op f ih =>
    show Prog.call op (fun r => ((f r).andThen k).forget) = Prog.call op (fun r => (f r).forget >>= fun a => (k a).forget)
    simp only [ih]

theorem forget_return {α : Type} (a : α) : (Pure.pure (Except.ok a) : Prog (Except GoErr α)).forget = Pure.pure a := rfl

theorem bind_assoc_prog {α β γ : Type} (p : Prog α) (k : α → Prog β) (l : β → Prog γ) : (p >>= k) >>= l = p >>= fun a => k a >>= l := by
  induction p with
  | done r => cases r <;> rfl
  | call op f ih =>
    show Prog.call op (fun r => (f r >>= k) >>= l) = Prog.call op (fun r => f r >>= fun a => k a >>= l)
    simp only [ih]

theorem forget_getPolicyE (pid : String) : (GraphService.getPolicyE pid).forget = GraphService.getPolicy pid := by
  rw [GraphService.getPolicyE, forget_andThen, forget_wrap, GraphService.getPolicy]
  congr 1
  funext x
  cases x <;> rfl

/-- The requests with error values are the requests of the other models. -/
theorem forget_progE (env : Env) (c : Call) : (c.progE env).forget = c.prog env := by
  cases c with
  | check fuel pid req =>
    simp only [Call.progE, Call.prog, GraphService.checkE, GraphService.check, forget_andThen, forget_wrap, forget_getPolicyE, forget_return]
  | explainCheck fuel pid req f =>
    simp only [Call.progE, Call.prog, GraphService.explainCheckE, GraphService.explainCheck, forget_andThen, forget_wrap, forget_getPolicyE, forget_return]
  | expand fuel pid root f =>
    simp only [Call.progE, Call.prog, GraphService.expandE, GraphService.expand, forget_andThen, forget_wrap, forget_getPolicyE, forget_return]
  | dumpRelationships fuel order pid f =>
    simp only [Call.progE, Call.prog, GraphService.dumpRelationshipsE, GraphService.dumpRelationships, forget_andThen, forget_wrap, forget_getPolicyE, forget_return, bind_assoc_prog]
    cases f <;> simp only [forget_wrap]
  | _ => exact forget_wrap _ _

end Zanzi
