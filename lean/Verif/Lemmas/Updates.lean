import Verif.Lemmas.Serve
import Verif.Spec.Order

/-
Overlapping requests that create different policies, update policies or read take effect one after the other.
-/

namespace Zanzi

open Spec Prog

/-- Storage calls that read relationships or their data. -/
def edgeRead : Op → Prop
  | .edgeGet _ _ | .edgeList _ | .edgeSucc _ _ | .dataGet _ => True
  | _ => False

/-- Stores with the same relationships and data. -/
def SameEdges (s s' : Store) : Prop := s.edges = s'.edges ∧ s.data = s'.data

theorem edgeRead_exec {o : Op} (h : edgeRead o) {s s' : Store} (hs : SameEdges s s') : (o.exec s).1 = (o.exec s').1 ∧ (o.exec s).2 = s := by
  obtain ⟨h1, h2⟩ := hs
  cases o <;> simp only [edgeRead] at h <;> exact ⟨by simp only [Op.exec, h1, h2]; try rfl, rfl⟩

theorem edgeRead_run {α : Type} {p : Prog α} (h : p.AllOps edgeRead) {s s' : Store} (hs : SameEdges s s') : (p.run s).1 = (p.run s').1 ∧ (p.run s).2 = s := by
  induction h with
  | done r => exact ⟨rfl, rfl⟩
  | @call o k ho _ ih =>
    show ((k (some (o.exec s).1)).run (o.exec s).2).1 = ((k (some (o.exec s').1)).run (o.exec s').2).1 ∧ ((k (some (o.exec s).1)).run (o.exec s).2).2 = s
    rw [(edgeRead_exec ho hs).2, ← (edgeRead_exec ho hs).1, (edgeRead_exec ho (s := s') ⟨rfl, rfl⟩).2]
    exact ih _

/-- A program that reads policies at most once, at its start. -/
def ReadsOnce {α : Type} (p : Prog α) : Prop :=
  p.AllOps edgeRead ∨ ∃ (o : Op) (k : Option o.Resp → Prog α), p = .call o k ∧ o.isRead = true ∧ ∀ x, (k (some x)).AllOps edgeRead

theorem ReadsOnce.bind {α β : Type} {p : Prog α} {k : α → Prog β} (h : ReadsOnce p) (hk : ∀ a, (k a).AllOps edgeRead) : ReadsOnce (p >>= k) := by
  rcases h with h | ⟨o, f, rfl, ho, hf⟩
  · exact .inl (AllOps.bind h hk)
  · exact .inr ⟨o, fun r => f r >>= k, rfl, ho, fun x => AllOps.bind (hf x) hk⟩

theorem ReadsOnce.op {o : Op} (h : o.isRead = true) : ReadsOnce (Prog.op o) := .inr ⟨o, _, rfl, h, fun _ => .done _⟩

theorem ReadsOnce.lift_bind {α β : Type} (r : Res α) {k : α → Prog β} (hk : ∀ a, ReadsOnce (k a)) : ReadsOnce (Prog.lift r >>= k) := by
  cases r with
  | ok a => exact hk a
  | err => exact .inl (.done _)
  | panic => exact .inl (.done _)
  | fuel => exact .inl (.done _)

theorem searchGoal_edgeRead (env : Env) (n : Nat) (pol : Policy) (origin goal) : (searchGoal env n pol origin goal).AllOps edgeRead :=
  searchGoal_ops (P := edgeRead) (fun _ => trivial) _ _ _

theorem graphGetPolicy_once (pid : String) : ReadsOnce (GraphService.getPolicy pid) :=
  (ReadsOnce.op (o := .polGet pid) rfl).bind (fun x => by cases x <;> exact .done _)

theorem checkTree_edgeRead (env : Env) (n : Nat) (pol : Policy) (req) : (GraphService.checkTree env n pol req).AllOps edgeRead :=
  AllOps.bind (AllOps.lift _) (fun _ => searchGoal_edgeRead _ _ _ _ _)

theorem getRelationship_edgeRead (H : String → Nat) (pid : String) (r : Option Relationship) : (Repo.getRelationship H pid r).AllOps edgeRead :=
  AllOps.bind (AllOps.lift _) (fun _ => AllOps.bind (AllOps.lift _) (fun e => AllOps.bind (AllOps.op (P := edgeRead) trivial)
    (fun x => by cases x <;> exact .done _)))

theorem findRelationships_edgeRead (pid : String) (sel : Option Selector) : (Repo.findRelationships pid sel).AllOps edgeRead :=
  AllOps.bind (AllOps.op (P := edgeRead) trivial) (fun _ => AllOps.bind (AllOps.lift _) (fun _ => AllOps.lift _))

theorem Call.prog_once (env : Env) {c : Call} (h : c.isRead = true) : ReadsOnce (c.prog env) := by
  cases c <;> simp [Call.isRead] at h
  case getPolicy id => exact (ReadsOnce.op (o := .polGet id) rfl).bind (fun _ => .done _)
  case listPolicyIds => exact (ReadsOnce.op (o := .polList) rfl).bind (fun _ => .done _)
  case getRelationship pid r => exact .inl (AllOps.bind (getRelationship_edgeRead _ _ _) (fun _ => .done _))
  case findRelationshipRecords pid sel =>
    refine ReadsOnce.bind (p := Service.findRelationshipRecords env pid sel) ?_ (fun _ => .done _)
    refine (ReadsOnce.op (o := .polGet pid) rfl).bind (fun x => ?_)
    cases x with
    | none => exact .done _
    | some x =>
      exact AllOps.bind (AllOps.lift _) (fun _ => AllOps.bind (findRelationships_edgeRead _ _) (fun _ => AllOps.mapSlice (fun _ _ => getRelationship_edgeRead _ _ _)))
  case check fuel pid req =>
    exact ReadsOnce.bind (p := GraphService.check env fuel pid req) ((graphGetPolicy_once pid).bind (fun _ => AllOps.bind (checkTree_edgeRead _ _ _ _) (fun _ => .done _))) (fun _ => .done _)
  case explainCheck fuel pid req f =>
    exact ReadsOnce.bind (p := GraphService.explainCheck env fuel pid req f) (ReadsOnce.lift_bind _ (fun _ => (graphGetPolicy_once pid).bind (fun _ =>
      AllOps.bind (checkTree_edgeRead _ _ _ _) (fun _ => AllOps.bind (AllOps.lift _) (fun _ => .done _))))) (fun _ => .done _)
  case expand fuel pid root f =>
    exact ReadsOnce.bind (p := GraphService.expand env fuel pid root f) (ReadsOnce.lift_bind _ (fun _ => (graphGetPolicy_once pid).bind (fun _ =>
      AllOps.bind (searchGoal_edgeRead _ _ _ _ _) (fun _ => AllOps.bind (AllOps.lift _) (fun _ => .done _))))) (fun _ => .done _)
  case dumpRelationships fuel order pid f =>
    refine ReadsOnce.bind (p := GraphService.dumpRelationships env fuel order pid f) ((graphGetPolicy_once pid).bind (fun x =>
      AllOps.bind (AllOps.bind (AllOps.op (P := edgeRead) trivial) (fun _ => .done _)) (fun _ => AllOps.bind (AllOps.lift _) (fun _ => ?_)))) (fun _ => .done _)
    cases f <;> exact .done _

/-- CreatePolicy or UpdatePolicy about to write. -/
def polWrite (rec : PolicyRecord) (ans : Answer) : Prog Answer :=
  .call (.polSet rec) (fun | none => .done (.err .store) | some _ => .done (.ok ans))

/-- CreatePolicy or UpdatePolicy having accepted the policy. -/
def polHasWrite (rec : PolicyRecord) (ans : Answer) : Prog Answer :=
  .call (.polHas rec.policy.id) (fun | none => .done (.err .store) | some _ => polWrite rec ans)

theorem setPolicy_prog {α : Type} (rec : PolicyRecord) (x : α) (f : α → Answer) : ((Repo.setPolicy rec >>= fun _ => pure x) >>= fun x => pure (f x)) = polHasWrite rec (f x) := by
  show Prog.call (.polHas rec.policy.id) _ = _
  unfold polHasWrite
  congr 1
  funext y
  cases y with
  | none => rfl
  | some y =>
    show Prog.call (.polSet _) _ = polWrite _ _
    unfold polWrite
    congr 1
    funext z
    cases z <;> rfl

/-- What a CreatePolicy or UpdatePolicy will write and answer, having accepted the policy. -/
def Ready (env : Env) (s : Store) (c : Call) (rec : PolicyRecord) (ans : Answer) : Prop :=
  (∃ d a p old, c = .updatePolicy d a ∧ getPolicyFromDefinition env d = .ok p ∧ verifyPolicy env.U p = .ok () ∧ kvGet s.policies p.id = some old ∧ rec = ⟨p, a, old.createdAt⟩ ∧ ans = .updated) ∨
  (∃ now d a p, c = .createPolicy now d a ∧ getPolicyFromDefinition env d = .ok p ∧ verifyPolicy env.U p = .ok () ∧ kvGet s.policies p.id = none ∧ rec = ⟨p, a, now⟩ ∧ ans = .created rec)

theorem Ready.serve {env : Env} {s : Store} {c : Call} {rec : PolicyRecord} {ans : Answer} (h : Ready env s c rec ans) : serve env c s = (.ok ans, s.putPolicy rec) := by
  rcases h with ⟨d, a, p, old, rfl, hd, hv, hg, rfl, rfl⟩ | ⟨now, d, a, p, rfl, hd, hv, hg, rfl, rfl⟩
  · rw [serve_update, hd]
    simp only [hg, hv]
  · rw [serve_create, hd]
    simp only [hg, hv]

/-- The request creates policy `id` or updates it. -/
def PolWrite (env : Env) (c : Call) (p : Policy) : Prop :=
  (∃ d a, c = .updatePolicy d a ∧ getPolicyFromDefinition env d = .ok p) ∨ ∃ now d a, c = .createPolicy now d a ∧ getPolicyFromDefinition env d = .ok p

/-- UpdatePolicy after the record was read. -/
def updRest (env : Env) (p : Policy) (a : Bytes) (x : Option PolicyRecord) : Prog Unit :=
  match x with
  | none => Prog.lift (.err .policyNotFound)
  | some record => do
    Prog.lift (verifyPolicy env.U p)
    let _ ← Repo.setPolicy { record with policy := p, appData := a }
    return ()

/-- CreatePolicy after the record was read. -/
def crRest (env : Env) (now : Timestamp) (p : Policy) (a : Bytes) (x : Option PolicyRecord) : Prog PolicyRecord :=
  match x with
  | some _ => Prog.lift (.err .policyExists)
  | none => do
    Prog.lift (verifyPolicy env.U p)
    let rec' : PolicyRecord := { policy := p, appData := a, createdAt := now }
    let _ ← Repo.setPolicy rec'
    return rec'

/-- CreatePolicy and UpdatePolicy first read the record; then they are done, or have accepted the policy. -/
theorem polWrite_prog {env : Env} {c : Call} {p : Policy} (h : PolWrite env c p) :
    ∃ k : Option (Option PolicyRecord) → Prog Answer, c.prog env = .call (.polGet p.id) k ∧
      ∀ s : Store, (∃ r, k (some (kvGet s.policies p.id)) = .done r) ∨ ∃ rec ans, Ready env s c rec ans ∧ k (some (kvGet s.policies p.id)) = polHasWrite rec ans := by
  rcases h with ⟨d, a, rfl, hd⟩ | ⟨now, d, a, rfl, hd⟩
  · have e : (Call.updatePolicy d a).prog env = ((Prog.lift (Res.ok p) >>= fun p => (Prog.op (.polGet p.id) >>= fun x => updRest env p a x)) >>= fun _ => pure Answer.updated) := by
      show (Service.updatePolicy env d a >>= fun _ => pure Answer.updated) = _
      rw [← hd]
      rfl
    rw [lift_ok_bind] at e
    refine ⟨_, e, fun s => ?_⟩
    cases hg : kvGet s.policies p.id with
    | none => exact .inl ⟨_, rfl⟩
    | some old =>
      show (∃ r, (updRest env p a (some old) >>= fun _ => pure Answer.updated) = .done r) ∨ ∃ rec ans, Ready env s _ rec ans ∧ (updRest env p a (some old) >>= fun _ => pure Answer.updated) = polHasWrite rec ans
      cases hv : verifyPolicy env.U p with
      | ok _ =>
        refine .inr ⟨⟨p, a, old.createdAt⟩, .updated, .inl ⟨d, a, p, old, rfl, hd, hv, hg, rfl, rfl⟩, ?_⟩
        rw [← setPolicy_prog (α := Unit) _ () (fun _ => Answer.updated)]
        show ((Prog.lift (verifyPolicy env.U p) >>= fun _ => (Repo.setPolicy { old with policy := p, appData := a } >>= fun _ => pure ())) >>= fun _ => pure Answer.updated) = _
        rw [hv, lift_ok_bind]
      | err e => exact .inl ⟨.err e, by unfold updRest; dsimp only; rw [hv]; rfl⟩
      | panic => exact .inl ⟨.panic, by unfold updRest; dsimp only; rw [hv]; rfl⟩
      | fuel => exact .inl ⟨.fuel, by unfold updRest; dsimp only; rw [hv]; rfl⟩
  · have e : (Call.createPolicy now d a).prog env = ((Prog.lift (Res.ok p) >>= fun p => (Prog.op (.polGet p.id) >>= fun x => crRest env now p a x)) >>= fun x => pure (Answer.created x)) := by
      show (Service.createPolicy env now d a >>= fun x => pure (Answer.created x)) = _
      rw [← hd]
      rfl
    rw [lift_ok_bind] at e
    refine ⟨_, e, fun s => ?_⟩
    cases hg : kvGet s.policies p.id with
    | some _ => exact .inl ⟨_, rfl⟩
    | none =>
      show (∃ r, (crRest env now p a none >>= fun x => pure (Answer.created x)) = .done r) ∨ ∃ rec ans, Ready env s _ rec ans ∧ (crRest env now p a none >>= fun x => pure (Answer.created x)) = polHasWrite rec ans
      cases hv : verifyPolicy env.U p with
      | ok _ =>
        refine .inr ⟨⟨p, a, now⟩, .created ⟨p, a, now⟩, .inr ⟨now, d, a, p, rfl, hd, hv, hg, rfl, rfl⟩, ?_⟩
        rw [← setPolicy_prog (⟨p, a, now⟩ : PolicyRecord) (⟨p, a, now⟩ : PolicyRecord) Answer.created]
        show ((Prog.lift (verifyPolicy env.U p) >>= fun _ => (Repo.setPolicy ⟨p, a, now⟩ >>= fun _ => pure (⟨p, a, now⟩ : PolicyRecord))) >>= fun x => pure (Answer.created x)) = _
        rw [hv, lift_ok_bind]
      | err e => exact .inl ⟨.err e, by unfold crRest; dsimp only; rw [hv]; rfl⟩
      | panic => exact .inl ⟨.panic, by unfold crRest; dsimp only; rw [hv]; rfl⟩
      | fuel => exact .inl ⟨.fuel, by unfold crRest; dsimp only; rw [hv]; rfl⟩

theorem polWrite_bad {env : Env} {c : Call} (h : (∃ d a, c = .updatePolicy d a) ∨ ∃ now d a, c = .createPolicy now d a) : (∃ p, PolWrite env c p) ∨ ∃ r, c.prog env = .done r := by
  rcases h with ⟨d, a, rfl⟩ | ⟨now, d, a, rfl⟩
  · cases hd : getPolicyFromDefinition env d with
    | ok p => exact .inl ⟨p, .inl ⟨d, a, rfl, hd⟩⟩
    | err e =>
      refine .inr ⟨.err e, ?_⟩
      show (Service.updatePolicy env d a >>= fun _ => pure Answer.updated) = _
      unfold Service.updatePolicy
      rw [hd]
      rfl
    | panic =>
      refine .inr ⟨.panic, ?_⟩
      show (Service.updatePolicy env d a >>= fun _ => pure Answer.updated) = _
      unfold Service.updatePolicy
      rw [hd]
      rfl
    | fuel =>
      refine .inr ⟨.fuel, ?_⟩
      show (Service.updatePolicy env d a >>= fun _ => pure Answer.updated) = _
      unfold Service.updatePolicy
      rw [hd]
      rfl
  · cases hd : getPolicyFromDefinition env d with
    | ok p => exact .inl ⟨p, .inr ⟨now, d, a, rfl, hd⟩⟩
    | err e =>
      refine .inr ⟨.err e, ?_⟩
      show (Service.createPolicy env now d a >>= fun x => pure (Answer.created x)) = _
      unfold Service.createPolicy
      rw [hd]
      rfl
    | panic =>
      refine .inr ⟨.panic, ?_⟩
      show (Service.createPolicy env now d a >>= fun x => pure (Answer.created x)) = _
      unfold Service.createPolicy
      rw [hd]
      rfl
    | fuel =>
      refine .inr ⟨.fuel, ?_⟩
      show (Service.createPolicy env now d a >>= fun x => pure (Answer.created x)) = _
      unfold Service.createPolicy
      rw [hd]
      rfl

/-- What may be left of a request that has not taken effect. -/
inductive Pending (env : Env) (s : Store) : Call → Prog Answer → Prop
  | read {c : Call} {o : Op} {k : Option o.Resp → Prog Answer} : c.prog env = .call o k → o.isRead = true → (∀ x, (k (some x)).AllOps edgeRead) → Pending env s c (.call o k)
  | start {c : Call} {p : Policy} : PolWrite env c p → Pending env s c (c.prog env)
  | has {c : Call} {rec : PolicyRecord} {ans : Answer} : Ready env s c rec ans → Pending env s c (polHasWrite rec ans)
  | set {c : Call} {rec : PolicyRecord} {ans : Answer} : Ready env s c rec ans → Pending env s c (polWrite rec ans)

theorem isRead_exec {o : Op} (h : o.isRead = true) (s : Store) : (o.exec s).2 = s := by
  cases o <;> first | rfl | simp [Op.isRead] at h

/-- A step of a request that has not taken effect: it takes none, or it takes the effect it has when served alone and only reads relationships from there, to give the answer it gives when served alone. -/
theorem Pending.step {env : Env} {s₀ s : Store} {c : Call} {o : Op} {k : Option o.Resp → Prog Answer} (h : Pending env s c (.call o k)) (hb : SameEdges s s₀) :
    ((o.exec s).2 = s ∧ Pending env s c (k (some (o.exec s).1))) ∨
      (((o.exec s).2 = s ∨ ∃ rec ans, Ready env s c rec ans ∧ (o.exec s).2 = s.putPolicy rec) ∧ (k (some (o.exec s).1)).AllOps edgeRead ∧
        serve env c s = (((k (some (o.exec s).1)).run s₀).1, (o.exec s).2)) := by
  have hrun : c.prog env = .call o k → serve env c s = (k (some (o.exec s).1)).run (o.exec s).2 := by
    intro he
    show (c.prog env).run s = _
    rw [he]
    rfl
  generalize ht : Prog.call o k = t at h
  cases h with
  | read he ho hk =>
    cases ht
    have hs := isRead_exec ho s
    refine .inr ⟨.inl hs, hk _, ?_⟩
    rw [hrun he, hs]
    exact Prod.ext (edgeRead_run (hk _) hb).1 (edgeRead_run (hk _) hb).2
  | @start p hw =>
    obtain ⟨k', e, hk⟩ := polWrite_prog hw
    have e' := ht.trans e
    injection e' with ho hk'
    subst ho
    cases hk'
    rcases hk s with ⟨r, hr⟩ | ⟨rec, ans, hready, hr⟩
    · refine .inr ⟨.inl rfl, ?_⟩
      show (k' (some (kvGet s.policies p.id))).AllOps edgeRead ∧ serve env _ s = (((k' (some (kvGet s.policies p.id))).run s₀).1, s)
      rw [hrun ht.symm]
      show _ ∧ (k' (some (kvGet s.policies p.id))).run s = _
      rw [hr]
      exact ⟨.done _, rfl⟩
    · refine .inl ⟨rfl, ?_⟩
      show Pending env s _ (k' (some (kvGet s.policies p.id)))
      rw [hr]
      exact .has hready
  | has hready =>
    unfold polHasWrite at ht
    cases ht
    exact .inl ⟨rfl, .set hready⟩
  | set hready =>
    unfold polWrite at ht
    cases ht
    exact .inr ⟨.inr ⟨_, _, hready, rfl⟩, .done _, hready.serve⟩

theorem Pending.not_done {env : Env} {s : Store} {c : Call} {r : Res Answer} (h : Pending env s c (.done r)) : False := by
  generalize ht : Prog.done r = t at h
  cases h with
  | read => cases ht
  | start hw =>
    obtain ⟨_, e, _⟩ := polWrite_prog hw
    cases ht.trans e
  | has => cases ht
  | set => cases ht

/-- The requests do not both create the same policy. -/
def NotBothCreate (env : Env) (c c' : Call) : Prop := ∀ p p', CreatesPolicy env c p → CreatesPolicy env c' p' → p.id ≠ p'.id

/-- What a request writes leaves those alone that do not create the same policy. -/
theorem Ready.keep {env : Env} {s : Store} {c c' : Call} {rec rec' : PolicyRecord} {ans ans' : Answer} (h : Ready env s c rec ans) (hw : Ready env s c' rec' ans') (hn : NotBothCreate env c c') :
    Ready env (s.putPolicy rec') c rec ans := by
  rcases h with ⟨d, a, p, old, rfl, hd, hv, hg, rfl, rfl⟩ | ⟨now, d, a, p, rfl, hd, hv, hg, rfl, rfl⟩
  · by_cases he : p.id = rec'.policy.id
    · rcases hw with ⟨d', a', p', old', rfl, hd', hv', hg', rfl, rfl⟩ | ⟨now', d', a', p', rfl, hd', hv', hg', rfl, rfl⟩
      · dsimp only at he
        rw [← he, hg] at hg'
        cases hg'
        refine .inl ⟨d, a, p, ⟨p', a', old.createdAt⟩, rfl, hd, hv, ?_, rfl, rfl⟩
        unfold Store.putPolicy
        dsimp only
        rw [kvGet_put, if_pos he]
      · dsimp only at he
        rw [← he, hg] at hg'
        cases hg'
    · refine .inl ⟨d, a, p, old, rfl, hd, hv, ?_, rfl, rfl⟩
      unfold Store.putPolicy
      dsimp only
      rw [kvGet_put, if_neg he, hg]
  · refine .inr ⟨now, d, a, p, rfl, hd, hv, ?_, rfl, rfl⟩
    unfold Store.putPolicy
    dsimp only
    rw [kvGet_put, if_neg, hg]
    intro he
    rcases hw with ⟨d', a', p', old', rfl, hd', hv', hg', rfl, rfl⟩ | ⟨now', d', a', p', rfl, hd', hv', hg', rfl, rfl⟩
    · dsimp only at he
      rw [← he, hg] at hg'
      cases hg'
    · exact hn p p' ⟨now, d, a, rfl, hd⟩ ⟨now', d', a', rfl, hd'⟩ he

theorem Pending.keep {env : Env} {s : Store} {c c' : Call} {t : Prog Answer} {rec' : PolicyRecord} {ans' : Answer} (h : Pending env s c t) (hw : Ready env s c' rec' ans') (hn : NotBothCreate env c c') :
    Pending env (s.putPolicy rec') c t := by
  cases h with
  | read h1 h2 h3 => exact .read h1 h2 h3
  | start h => exact .start h
  | has h => exact .has (h.keep hw hn)
  | set h => exact .set (h.keep hw hn)

/-- A request, what is left of it, and its answer if it has taken effect. -/
structure Flying where
  call : Call
  left : Prog Answer
  answer : Option (Res Answer)

/-- The requests that have taken effect, with their answers. -/
def taken : List Flying → List (Call × Res Answer)
  | [] => []
  | ⟨c, _, some r⟩ :: l => (c, r) :: taken l
  | ⟨_, _, none⟩ :: l => taken l

theorem taken_append (l l' : List Flying) : taken (l ++ l') = taken l ++ taken l' := by
  induction l with
  | nil => rfl
  | cons x l ih =>
    obtain ⟨c, t, r⟩ := x
    cases r with
    | some r => simp only [List.cons_append, taken, ih]
    | none => simp only [List.cons_append, taken, ih]

/-- A request in flight: it has not taken effect, or is bound to give its answer. -/
def FlyingOK (env : Env) (s₀ s : Store) : Flying → Prop
  | ⟨c, t, none⟩ => Pending env s c t
  | ⟨_, t, some r⟩ => t.AllOps edgeRead ∧ (t.run s₀).1 = r

theorem flying_done {env : Env} {s₀ s : Store} {l : List Flying} (hl : ∀ x ∈ l, FlyingOK env s₀ s x) {rs : List (Res Answer)} (h : l.map (·.left) = rs.map .done) :
    taken l = (l.map (·.call)).zip rs := by
  induction l generalizing rs with
  | nil => rfl
  | cons x l ih =>
    cases rs with
    | nil => cases h
    | cons r rs =>
      simp only [List.map_cons, List.cons.injEq] at h
      obtain ⟨h1, h2⟩ := h
      obtain ⟨c, t, a⟩ := x
      have hx := hl _ (List.mem_cons_self ..)
      dsimp only at h1
      subst h1
      cases a with
      | none => exact (Pending.not_done hx).elim
      | some a =>
        have : r = a := hx.2
        subst this
        simp only [taken, List.map_cons, List.zip_cons_cons, ih (fun y hy => hl y (List.mem_cons_of_mem _ hy)) h2]

theorem flying_start (env : Env) (s : Store) (cs : List Call) (hc : ∀ c ∈ cs, c.isRead = true ∨ (∃ d a, c = .updatePolicy d a) ∨ ∃ now d a, c = .createPolicy now d a) :
    ∃ l : List Flying, l.map (·.call) = cs ∧ l.map (·.left) = cs.map (·.prog env) ∧ (∀ x ∈ l, FlyingOK env s s x) ∧ runCalls env ((taken l).map (·.1)) s = ((taken l).map (·.2), s) := by
  induction cs with
  | nil => exact ⟨[], rfl, rfl, by simp, rfl⟩
  | cons c cs ih =>
    obtain ⟨l, h1, h2, h3, h4⟩ := ih (fun c h => hc c (List.mem_cons_of_mem _ h))
    have hcase : (c.prog env).AllOps edgeRead ∨ Pending env s c (c.prog env) := by
      rcases hc c (List.mem_cons_self ..) with h | h
      · rcases Call.prog_once env h with h | ⟨o, k, h, ho, hk⟩
        · exact .inl h
        · exact .inr (h ▸ .read h ho hk)
      · rcases polWrite_bad (env := env) h with ⟨p, h⟩ | ⟨r, hr⟩
        · exact .inr (.start h)
        · rw [hr]
          exact .inl (.done _)
    rcases hcase with h | h
    · refine ⟨⟨c, c.prog env, some ((c.prog env).run s).1⟩ :: l, by simp [h1], by simp [h2], fun x hx => ?_, ?_⟩
      · rcases List.mem_cons.1 hx with rfl | hx
        · exact ⟨h, rfl⟩
        · exact h3 x hx
      · simp only [taken, List.map_cons]
        rw [runCalls_cons, show serve env c s = (((c.prog env).run s).1, s) from Prod.ext rfl (edgeRead_run h ⟨rfl, rfl⟩).2, h4]
    · refine ⟨⟨c, c.prog env, none⟩ :: l, by simp [h1], by simp [h2], fun x hx => ?_, h4⟩
      rcases List.mem_cons.1 hx with rfl | hx
      · exact h
      · exact h3 x hx

theorem updates_inv {env : Env} {cs : List Call} (hc : ∀ c ∈ cs, c.isRead = true ∨ (∃ d a, c = .updatePolicy d a) ∨ ∃ now d a, c = .createPolicy now d a)
    (hn : cs.Pairwise (NotBothCreate env)) {s₀ s : Store} {ts : List (Prog Answer)} (h : Interleaved (cs.map (·.prog env)) s₀ ts s) :
    SameEdges s s₀ ∧ ∃ l : List Flying, l.map (·.call) = cs ∧ l.map (·.left) = ts ∧ (∀ x ∈ l, FlyingOK env s₀ s x) ∧
      ∃ p : List (Call × Res Answer), p.Perm (taken l) ∧ runCalls env (p.map (·.1)) s₀ = (p.map (·.2), s) := by
  induction h with
  | refl =>
    obtain ⟨l, h1, h2, h3, h4⟩ := flying_start env s₀ cs hc
    exact ⟨⟨rfl, rfl⟩, l, h1, h2, h3, _, .refl _, h4⟩
  | @op o k ts₁ ts₂ s _ ih =>
    obtain ⟨hb, l, h1, h2, h3, p, h4, h5⟩ := ih
    obtain ⟨l₁, l', rfl, rfl, hl'⟩ := List.map_eq_append_iff.1 h2
    obtain ⟨⟨c, t, a⟩, l₂, rfl, ht, rfl⟩ := List.map_eq_cons_iff.1 hl'
    dsimp only at ht
    subst ht
    have hp := h3 ⟨c, .call o k, a⟩ (by simp)
    have hput : ∀ a' s', FlyingOK env s₀ s' ⟨c, k (some (o.exec s).1), a'⟩ → (∀ x, x ∈ l₁ ∨ x ∈ l₂ → FlyingOK env s₀ s' x) →
        ∀ x ∈ l₁ ++ ⟨c, k (some (o.exec s).1), a'⟩ :: l₂, FlyingOK env s₀ s' x := by
      intro a' s' h h' x hx
      simp only [List.mem_append, List.mem_cons] at hx
      rcases hx with hx | rfl | hx
      · exact h' x (.inl hx)
      · exact h
      · exact h' x (.inr hx)
    have hold : ∀ x, x ∈ l₁ ∨ x ∈ l₂ → FlyingOK env s₀ s x := fun x hx => h3 x (by rcases hx with hx | hx <;> simp [hx])
    have hc1 : ∀ a', (l₁ ++ ⟨c, k (some (o.exec s).1), a'⟩ :: l₂).map (·.call) = cs := by
      intro a'
      rw [← h1]
      simp
    cases a with
    | some r =>
      obtain ⟨ha, hr⟩ := hp
      cases ha with
      | call ho hk =>
        have hs := (edgeRead_exec ho hb)
        refine ⟨hs.2.symm ▸ hb, l₁ ++ ⟨c, k (some (o.exec s).1), some r⟩ :: l₂, hc1 _, by simp, hput _ _ ⟨hk _, ?_⟩ (by rw [hs.2]; exact hold), p, ?_, by rw [hs.2]; exact h5⟩
        · rw [← hr, hs.1]
          show _ = ((k (some (o.exec s₀).1)).run (o.exec s₀).2).1
          rw [(edgeRead_exec ho (s := s₀) ⟨rfl, rfl⟩).2]
        · rw [taken_append] at h4 ⊢
          exact h4
    | none =>
      have hs := Pending.step hp hb
      rw [taken_append] at h4
      rcases hs with ⟨he, hs⟩ | ⟨hw, ha, he⟩
      · exact ⟨he.symm ▸ hb, l₁ ++ ⟨c, k (some (o.exec s).1), none⟩ :: l₂, hc1 _, by simp, hput _ _ (by rw [he]; exact hs) (by rw [he]; exact hold), p, by rw [taken_append]; exact h4, by rw [h5, he]⟩
      · have hnew : SameEdges (o.exec s).2 s₀ ∧ ∀ x, x ∈ l₁ ∨ x ∈ l₂ → FlyingOK env s₀ (o.exec s).2 x := by
          rcases hw with hw | ⟨rec, ans, hw, he'⟩
          · rw [hw]
            exact ⟨hb, hold⟩
          · rw [he']
            refine ⟨hb, fun x hx => ?_⟩
            have hx' := hold x hx
            obtain ⟨c', t', a'⟩ := x
            cases a' with
            | some _ => exact hx'
            | none =>
              refine Pending.keep hx' hw ?_
              rw [← h1, List.map_append, List.map_cons, List.pairwise_append, List.pairwise_cons] at hn
              rcases hx with hx | hx
              · exact hn.2.2 _ (List.mem_map_of_mem (f := Flying.call) hx) _ (List.mem_cons_self ..)
              · have := hn.2.1.1 _ (List.mem_map_of_mem (f := Flying.call) hx)
                exact fun p p' h h' => (this p' p h' h).symm
        refine ⟨hnew.1, l₁ ++ ⟨c, k (some (o.exec s).1), some ((k (some (o.exec s).1)).run s₀).1⟩ :: l₂, hc1 _, by simp, hput _ _ ⟨ha, rfl⟩ hnew.2, p ++ [(c, ((k (some (o.exec s).1)).run s₀).1)], ?_, ?_⟩
        · rw [taken_append]
          exact (List.perm_append_comm.trans (h4.cons _)).trans List.perm_middle.symm
        · rw [List.map_append, List.map_append, runCalls_append, h5]
          show ((p.map (·.2)) ++ [(serve env c s).1], (serve env c s).2) = _
          rw [he]
          rfl

end Zanzi
