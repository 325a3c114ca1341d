import Verif.Lemmas.Store

/-
Which storage calls the API methods make.
-/

namespace Zanzi

open Prog

mutual
theorem searchTree_ops {P : Op → Prop} {d : RelationNode → String → List Nat → Prog (GoalTree × List Nat)}
    (hd : ∀ n r s, (d n r s).AllOps P) : ∀ (t : GoalTree) (seen : List Nat), (searchTree d t seen).AllOps P
  | .or _ ps, seen => by
    rw [searchTree]; exact AllOps.bind (searchOr_ops hd ps seen) (fun _ => .done _)
  | .and _ ps, seen => by
    rw [searchTree]; exact AllOps.bind (searchAnd_ops hd ps seen) (fun _ => .done _)
  | .diff _ l r, seen => by
    rw [searchTree]
    exact AllOps.bind (searchTree_ops hd l seen) (fun _ => AllOps.bind (searchTree_ops hd r _) (fun _ => .done _))
  | .leaf _ n r, seen => by rw [searchTree]; exact hd _ _ _
  | .path _ n r _, seen => by rw [searchTree]; exact hd _ _ _

theorem searchOr_ops {P : Op → Prop} {d : RelationNode → String → List Nat → Prog (GoalTree × List Nat)}
    (hd : ∀ n r s, (d n r s).AllOps P) : ∀ (ts : List GoalTree) (seen : List Nat), (searchOr d ts seen).AllOps P
  | [], seen => by rw [searchOr]; exact .done _
  | t :: ts, seen => by
    rw [searchOr]
    refine AllOps.bind (searchTree_ops hd t seen) (fun x => ?_)
    obtain ⟨t', s'⟩ := x
    dsimp only
    split
    exact .done _
    exact AllOps.bind (searchOr_ops hd ts _) (fun _ => .done _)

theorem searchAnd_ops {P : Op → Prop} {d : RelationNode → String → List Nat → Prog (GoalTree × List Nat)}
    (hd : ∀ n r s, (d n r s).AllOps P) : ∀ (ts : List GoalTree) (seen : List Nat), (searchAnd d ts seen).AllOps P
  | [], seen => by rw [searchAnd]; exact .done _
  | t :: ts, seen => by
    rw [searchAnd]
    refine AllOps.bind (searchTree_ops hd t seen) (fun x => ?_)
    obtain ⟨t', s'⟩ := x
    dsimp only
    split
    exact .done _
    exact AllOps.bind (searchAnd_ops hd ts _) (fun _ => .done _)
end

mutual
theorem searchTree_fs {d : RelationNode → String → List Nat → Prog (GoalTree × List Nat)}
    (hd : ∀ n r s, (d n r s).FailStop) : ∀ (t : GoalTree) (seen : List Nat), (searchTree d t seen).FailStop
  | .or _ ps, seen => by
    rw [searchTree]; exact FailStop.bind (searchOr_fs hd ps seen) (fun _ => .done _)
  | .and _ ps, seen => by
    rw [searchTree]; exact FailStop.bind (searchAnd_fs hd ps seen) (fun _ => .done _)
  | .diff _ l r, seen => by
    rw [searchTree]
    exact FailStop.bind (searchTree_fs hd l seen) (fun _ => FailStop.bind (searchTree_fs hd r _) (fun _ => .done _))
  | .leaf _ n r, seen => by rw [searchTree]; exact hd _ _ _
  | .path _ n r _, seen => by rw [searchTree]; exact hd _ _ _

theorem searchOr_fs {d : RelationNode → String → List Nat → Prog (GoalTree × List Nat)}
    (hd : ∀ n r s, (d n r s).FailStop) : ∀ (ts : List GoalTree) (seen : List Nat), (searchOr d ts seen).FailStop
  | [], seen => by rw [searchOr]; exact .done _
  | t :: ts, seen => by
    rw [searchOr]
    refine FailStop.bind (searchTree_fs hd t seen) (fun x => ?_)
    obtain ⟨t', s'⟩ := x
    dsimp only
    split
    exact .done _
    exact FailStop.bind (searchOr_fs hd ts _) (fun _ => .done _)

theorem searchAnd_fs {d : RelationNode → String → List Nat → Prog (GoalTree × List Nat)}
    (hd : ∀ n r s, (d n r s).FailStop) : ∀ (ts : List GoalTree) (seen : List Nat), (searchAnd d ts seen).FailStop
  | [], seen => by rw [searchAnd]; exact .done _
  | t :: ts, seen => by
    rw [searchAnd]
    refine FailStop.bind (searchTree_fs hd t seen) (fun x => ?_)
    obtain ⟨t', s'⟩ := x
    dsimp only
    split
    exact .done _
    exact FailStop.bind (searchAnd_fs hd ts _) (fun _ => .done _)
end

theorem Repo.getSuccessors_ops {P : Op → Prop} {pid : String} {H : String → Nat} (hP : ∀ x, P (.edgeSucc pid (H x))) (o rel) :
    (Repo.getSuccessors H pid o rel).AllOps P :=
  AllOps.bind (AllOps.lift _) (fun _ => AllOps.bind (AllOps.op (hP _)) (fun _ => .done _))

theorem evaluateRule_ops {P : Op → Prop} {pid : String} {H : String → Nat} (hP : ∀ x, P (.edgeSucc pid (H x))) (o rel) (r : Rule) :
    (evaluateRule H pid o rel r).AllOps P := by
  cases r <;> unfold evaluateRule
  · exact .done _
  · exact Repo.getSuccessors_ops hP _ _
  · exact .done _
  · exact AllOps.bind (Repo.getSuccessors_ops hP _ _) (fun _ => .done _)

theorem evaluateRule_fs (H pid o rel) (r : Rule) : (evaluateRule H pid o rel r).FailStop := by
  cases r <;> unfold evaluateRule
  · exact .done _
  · exact Repo.getSuccessors_fs _ _ _ _
  · exact .done _
  · exact FailStop.bind (Repo.getSuccessors_fs _ _ _ _) (fun _ => .done _)

theorem buildGoalTree_ops {P : Op → Prop} {pid : String} {H : String → Nat} (hP : ∀ x, P (.edgeSucc pid (H x))) (o rel) (t : ExprTree) :
    (buildGoalTree H pid o rel t).AllOps P := by
  induction t with
  | nil => exact .done _
  | unset => exact .done _
  | rule r => exact AllOps.bind (evaluateRule_ops hP _ _ _) (fun _ => .done _)
  | op l op r ihl ihr =>
    refine AllOps.bind ihl (fun _ => AllOps.bind ihr (fun _ => ?_))
    cases op <;> exact .done _

theorem buildGoalTree_fs (H pid o rel) (t : ExprTree) : (buildGoalTree H pid o rel t).FailStop := by
  induction t with
  | nil => exact .done _
  | unset => exact .done _
  | rule r => exact FailStop.bind (evaluateRule_fs _ _ _ _ _) (fun _ => .done _)
  | op l op r ihl ihr =>
    refine FailStop.bind ihl (fun _ => FailStop.bind ihr (fun _ => ?_))
    cases op <;> exact .done _

theorem buildTree_ops {P : Op → Prop} {pol : Policy} {env : Env} (hP : ∀ x, P (.edgeSucc pol.id (env.H x))) (n : RelationNode) :
    (buildTree env pol n).AllOps P := by
  cases n with
  | entitySet o rel =>
    refine AllOps.bind (AllOps.lift _) (fun o' => ?_)
    split
    · exact .done _
    · exact AllOps.bind (AllOps.lift _) (fun _ => buildGoalTree_ops hP _ _ _)
  | entity => exact .done _
  | wildcard => exact .done _
  | unset => exact .done _

theorem buildTree_fs (env pol) (n : RelationNode) : (buildTree env pol n).FailStop := by
  cases n with
  | entitySet o rel =>
    refine FailStop.bind (FailStop.lift _) (fun o' => ?_)
    split
    · exact .done _
    · exact FailStop.bind (FailStop.lift _) (fun _ => buildGoalTree_fs _ _ _ _ _)
  | entity => exact .done _
  | wildcard => exact .done _
  | unset => exact .done _

theorem searchPath_ops {P : Op → Prop} {pol : Policy} {env : Env} (hP : ∀ x, P (.edgeSucc pol.id (env.H x))) (goal) (n : Nat) :
    ∀ node reason seen, (searchPath env pol goal n node reason seen).AllOps P := by
  induction n with
  | zero => intros; exact .done _
  | succ n ih =>
    intro node reason seen
    refine AllOps.bind (AllOps.lift _) (fun id => ?_)
    split
    · exact .done _
    · refine AllOps.bind (AllOps.lift _) (fun found => ?_)
      split
      · exact .done _
      · exact AllOps.bind (buildTree_ops hP _) (fun _ => AllOps.bind (searchTree_ops ih _ _) (fun _ => .done _))

theorem searchPath_fs (env pol goal) (n : Nat) : ∀ node reason seen, (searchPath env pol goal n node reason seen).FailStop := by
  induction n with
  | zero => intros; exact .done _
  | succ n ih =>
    intro node reason seen
    refine FailStop.bind (FailStop.lift _) (fun id => ?_)
    split
    · exact .done _
    · refine FailStop.bind (FailStop.lift _) (fun found => ?_)
      split
      · exact .done _
      · exact FailStop.bind (buildTree_fs _ _ _) (fun _ => FailStop.bind (searchTree_fs ih _ _) (fun _ => .done _))

theorem searchGoal_ops {P : Op → Prop} {pol : Policy} {env : Env} (hP : ∀ x, P (.edgeSucc pol.id (env.H x))) (n origin goal) :
    (searchGoal env n pol origin goal).AllOps P := by
  unfold searchGoal
  split
  · exact .done _
  · exact AllOps.bind (AllOps.lift _) (fun _ => AllOps.bind (searchPath_ops hP _ _ _ _ _) (fun _ => .done _))

theorem searchGoal_read (env n pol origin goal) : (searchGoal env n pol origin goal).ReadOnly :=
  searchGoal_ops (fun _ => rfl) _ _ _

theorem searchGoal_fs (env n pol origin goal) : (searchGoal env n pol origin goal).FailStop := by
  unfold searchGoal
  split
  · exact .done _
  · exact FailStop.bind (FailStop.lift _) (fun _ => FailStop.bind (searchPath_fs _ _ _ _ _ _ _) (fun _ => .done _))

namespace GraphService

theorem getPolicy_read (pid) : (getPolicy pid).ReadOnly := by
  refine AllOps.bind (Repo.getPolicy_read _) (fun x => ?_)
  cases x <;> exact .done _
theorem getPolicy_fs (pid) : (getPolicy pid).FailStop := by
  refine FailStop.bind (Repo.getPolicy_fs _) (fun x => ?_)
  cases x <;> exact .done _
theorem checkTree_read (env n pol req) : (checkTree env n pol req).ReadOnly :=
  AllOps.bind (AllOps.lift _) (fun _ => searchGoal_read _ _ _ _ _)
theorem checkTree_fs (env n pol req) : (checkTree env n pol req).FailStop :=
  FailStop.bind (FailStop.lift _) (fun _ => searchGoal_fs _ _ _ _ _)
theorem check_read (env n pid req) : (check env n pid req).ReadOnly :=
  AllOps.bind (getPolicy_read _) (fun _ => AllOps.bind (checkTree_read _ _ _ _) (fun _ => .done _))
theorem check_fs (env n pid req) : (check env n pid req).FailStop :=
  FailStop.bind (getPolicy_fs _) (fun _ => FailStop.bind (checkTree_fs _ _ _ _) (fun _ => .done _))
theorem explainCheck_read (env n pid req f) : (explainCheck env n pid req f).ReadOnly :=
  AllOps.bind (AllOps.lift _) (fun _ => AllOps.bind (getPolicy_read _) (fun _ => AllOps.bind (checkTree_read _ _ _ _)
    (fun _ => AllOps.bind (AllOps.lift _) (fun _ => .done _))))
theorem explainCheck_fs (env n pid req f) : (explainCheck env n pid req f).FailStop :=
  FailStop.bind (FailStop.lift _) (fun _ => FailStop.bind (getPolicy_fs _) (fun _ => FailStop.bind (checkTree_fs _ _ _ _)
    (fun _ => FailStop.bind (FailStop.lift _) (fun _ => .done _))))
theorem expand_read (env n pid req f) : (expand env n pid req f).ReadOnly :=
  AllOps.bind (AllOps.lift _) (fun _ => AllOps.bind (getPolicy_read _) (fun _ => AllOps.bind (searchGoal_read _ _ _ _ _)
    (fun _ => AllOps.bind (AllOps.lift _) (fun _ => .done _))))
theorem expand_fs (env n pid req f) : (expand env n pid req f).FailStop :=
  FailStop.bind (FailStop.lift _) (fun _ => FailStop.bind (getPolicy_fs _) (fun _ => FailStop.bind (searchGoal_fs _ _ _ _ _)
    (fun _ => FailStop.bind (FailStop.lift _) (fun _ => .done _))))
theorem dump_read (env n o pid f) : (dumpRelationships env n o pid f).ReadOnly :=
  AllOps.bind (getPolicy_read _) (fun _ => AllOps.bind (Repo.listEdges_read _) (fun _ => AllOps.bind (AllOps.lift _)
    (fun _ => by cases f <;> exact .done _)))
theorem dump_fs (env n o pid f) : (dumpRelationships env n o pid f).FailStop :=
  FailStop.bind (getPolicy_fs _) (fun _ => FailStop.bind (Repo.listEdges_fs _) (fun _ => FailStop.bind (FailStop.lift _)
    (fun _ => by cases f <;> exact .done _)))

end GraphService

/-- The calls that are reads. -/
def Call.isRead : Call → Bool
  | .getPolicy _ | .listPolicyIds | .getRelationship _ _ | .findRelationshipRecords _ _ | .check _ _ _
  | .explainCheck _ _ _ _ | .expand _ _ _ _ | .dumpRelationships _ _ _ _ => true
  | _ => false

theorem Service.findRelationshipRecords_read (env pid sel) : (Service.findRelationshipRecords env pid sel).ReadOnly := by
  refine AllOps.bind (Repo.getPolicy_read _) (fun x => ?_)
  cases x
  · exact .done _
  · exact AllOps.bind (AllOps.lift _) (fun _ => Repo.findRelationshipRecords_read _ _ _)

theorem Service.findRelationshipRecords_fs (env pid sel) : (Service.findRelationshipRecords env pid sel).FailStop := by
  refine FailStop.bind (Repo.getPolicy_fs _) (fun x => ?_)
  cases x
  · exact .done _
  · exact FailStop.bind (FailStop.lift _) (fun _ => Repo.findRelationshipRecords_fs _ _ _)

theorem Call.prog_read (env : Env) {c : Call} (h : c.isRead = true) : (c.prog env).ReadOnly := by
  cases c <;> simp [Call.isRead] at h <;> refine AllOps.bind ?_ (fun _ => .done _)
  · exact Repo.getPolicy_read _
  · exact Repo.listPolicyIds_read
  · exact Repo.getRelationship_read _ _ _
  · exact Service.findRelationshipRecords_read _ _ _
  · exact GraphService.check_read _ _ _ _
  · exact GraphService.explainCheck_read _ _ _ _ _
  · exact GraphService.expand_read _ _ _ _ _
  · exact GraphService.dump_read _ _ _ _ _

theorem Service.createPolicy_fs (env now d a) : (Service.createPolicy env now d a).FailStop := by
  refine FailStop.bind (FailStop.lift _) (fun p => FailStop.bind (Repo.getPolicy_fs _) (fun x => ?_))
  cases x
  · exact FailStop.bind (FailStop.lift _) (fun _ => FailStop.bind (Repo.setPolicy_fs _) (fun _ => .done _))
  · exact .done _
theorem Service.updatePolicy_fs (env d a) : (Service.updatePolicy env d a).FailStop := by
  refine FailStop.bind (FailStop.lift _) (fun p => FailStop.bind (Repo.getPolicy_fs _) (fun x => ?_))
  cases x
  · exact .done _
  · exact FailStop.bind (FailStop.lift _) (fun _ => FailStop.bind (Repo.setPolicy_fs _) (fun _ => .done _))
theorem Service.deletePolicy_fs (env id) : (Service.deletePolicy env id).FailStop := by
  refine FailStop.bind (Repo.deletePolicy_fs _) (fun x => ?_)
  cases x
  · exact .done _
  · exact FailStop.bind (Repo.deleteRelationships_fs _ _ _) (fun _ => .done _)
theorem Service.setRelationship_fs (env now pid r a) : (Service.setRelationship env now pid r a).FailStop := by
  refine FailStop.bind (Repo.getPolicy_fs _) (fun x => ?_)
  cases x
  · exact .done _
  · exact FailStop.bind (FailStop.lift _) (fun _ => FailStop.bind (FailStop.lift _) (fun _ => Repo.setRelationship_fs _ _))

theorem Call.prog_fs (env : Env) (c : Call) : (c.prog env).FailStop := by
  cases c <;> refine FailStop.bind ?_ (fun _ => .done _)
  · exact Service.createPolicy_fs _ _ _ _
  · exact Service.updatePolicy_fs _ _ _
  · exact Service.deletePolicy_fs _ _
  · exact Repo.getPolicy_fs _
  · exact Repo.listPolicyIds_fs
  · exact Service.setRelationship_fs _ _ _ _ _
  · exact Repo.deleteRelationship_fs _ _ _
  · exact Repo.getRelationship_fs _ _ _
  · exact Service.findRelationshipRecords_fs _ _ _
  · exact Repo.deleteRelationships_fs _ _ _
  · exact GraphService.check_fs _ _ _ _
  · exact GraphService.explainCheck_fs _ _ _ _ _
  · exact GraphService.expand_fs _ _ _ _ _
  · exact GraphService.dump_fs _ _ _ _ _

theorem allowed_subject_set {r : Relationship} {l : Lut} (h : allowedRelationship (some r) l = .ok ()) :
    r.subject ≠ some .unset := by
  intro hs
  unfold allowedRelationship at h
  simp only [relRequiredFields_ok] at h
  simp only [Res.bind_ok, Res.deref_some] at h
  rw [Res.bind_eq_ok] at h
  obtain ⟨_, h1, _⟩ := h
  unfold checkSymbols at h1
  simp only [Res.bind_ok, Res.deref_some, hs] at h1
  rw [Res.bind_eq_ok] at h1
  obtain ⟨o, _, h1⟩ := h1
  revert h1
  split
  · simp
  · split <;> simp

theorem Service.createPolicy_ok (env now d a) : (Service.createPolicy env now d a).AllOps (OpOK env) := by
  refine AllOps.bind (AllOps.lift _) (fun p => AllOps.bind (Repo.read_opOK (Repo.getPolicy_read _)) (fun x => ?_))
  cases x
  · dsimp only
    cases hv : verifyPolicy env.U p with
    | ok u =>
      rw [lift_ok_bind]
      exact AllOps.bind (Repo.setPolicy_ok hv) (fun _ => .done _)
    | err => exact .done _
    | panic => exact .done _
    | fuel => exact .done _
  · exact .done _

theorem Service.updatePolicy_ok (env d a) : (Service.updatePolicy env d a).AllOps (OpOK env) := by
  refine AllOps.bind (AllOps.lift _) (fun p => AllOps.bind (Repo.read_opOK (Repo.getPolicy_read _)) (fun x => ?_))
  cases x
  · exact .done _
  · dsimp only
    cases hv : verifyPolicy env.U p with
    | ok u =>
      rw [lift_ok_bind]
      exact AllOps.bind (Repo.setPolicy_ok hv) (fun _ => .done _)
    | err => exact .done _
    | panic => exact .done _
    | fuel => exact .done _

theorem Service.deletePolicy_ok (env id) : (Service.deletePolicy env id).AllOps (OpOK env) := by
  refine AllOps.bind (Repo.deletePolicy_ok _) (fun x => ?_)
  cases x
  · exact .done _
  · exact AllOps.bind (Repo.deleteRelationships_ok _ _) (fun _ => .done _)

theorem Service.setRelationship_ok (env now pid r a) : (Service.setRelationship env now pid r a).AllOps (OpOK env) := by
  refine AllOps.bind (Repo.read_opOK (Repo.getPolicy_read _)) (fun x => ?_)
  cases x with
  | none => exact .done _
  | some rec =>
    dsimp only
    cases r with
    | none => exact .done _
    | some r =>
      cases hv : allowedRelationship (some r) (newLut rec.policy) with
      | ok u =>
        rw [lift_ok_bind, Res.deref_some, lift_ok_bind]
        exact Repo.setRelationship_ok (allowed_subject_set hv)
      | err => exact .done _
      | panic => exact .done _
      | fuel => exact .done _

/-- Whatever storage answers, every request keeps to the storage calls that preserve the invariant. -/
theorem Call.prog_ok (env : Env) (c : Call) : (c.prog env).AllOps (OpOK env) := by
  by_cases hr : c.isRead = true
  · exact Repo.read_opOK (Call.prog_read env hr)
  · cases c <;> simp [Call.isRead] at hr <;> refine AllOps.bind ?_ (fun _ => .done _)
    · exact Service.createPolicy_ok _ _ _ _
    · exact Service.updatePolicy_ok _ _ _
    · exact Service.deletePolicy_ok _ _
    · exact Service.setRelationship_ok _ _ _ _ _
    · exact Repo.deleteRelationship_ok _ _
    · exact Repo.deleteRelationships_ok _ _

theorem WF.run {env : Env} {s : Store} (hs : WF env s) (c : Call) : WF env ((c.prog env).run s).2 :=
  (Call.prog_ok env c).run WF.exec hs

theorem WF.runCalls {env : Env} {s : Store} (hs : WF env s) (cs : List Call) : WF env (runCalls env cs s).2 := by
  induction cs generalizing s with
  | nil => exact hs
  | cons c cs ih => exact ih (hs.run c)

/-- The invariant holds in every reachable state of the server, and every request in flight keeps to
invariant-preserving calls. -/
theorem Sys.Reachable.wf {env : Env} {x : Sys} (h : Sys.Reachable env x) :
    WF env x.store ∧ ∀ t ∈ x.threads, t.AllOps (OpOK env) := by
  induction h with
  | init => exact ⟨WF.empty env, by simp⟩
  | step _ hst ih =>
    cases hst with
    | arrive c ts s =>
      refine ⟨ih.1, fun t ht => ?_⟩
      rcases List.mem_append.1 ht with h | h
      · exact ih.2 t h
      · rw [List.mem_singleton.1 h]; exact Call.prog_ok env c
    | @op o k ts₁ ts₂ s s' resp b hop =>
      have h0 := ih.2 _ (List.mem_append.2 (.inr (List.mem_cons_self)))
      cases h0 with
      | call ho hk =>
        refine ⟨?_, fun t ht => ?_⟩
        · cases hop with
          | ok => exact WF.exec _ _ ho ih.1
          | failBefore => exact ih.1
          | failAfter => exact WF.exec _ _ ho ih.1
        · rcases List.mem_append.1 ht with h | h
          · exact ih.2 t (List.mem_append.2 (.inl h))
          · rcases List.mem_cons.1 h with h | h
            · rw [h]; exact hk _
            · exact ih.2 t (List.mem_append.2 (.inr (List.mem_cons_of_mem _ h)))
    | leave r ts₁ ts₂ s =>
      refine ⟨ih.1, fun t ht => ih.2 t ?_⟩
      rcases List.mem_append.1 ht with h | h
      · exact List.mem_append.2 (.inl h)
      · exact List.mem_append.2 (.inr (List.mem_cons_of_mem _ h))
    | crash ts s => exact ⟨ih.1, by simp⟩

end Zanzi
