import Verif.Lemmas.Crash
import Verif.Spec.Sched

/-
Invariants over schedules of the server.
-/

namespace Zanzi

open Spec Prog

/-- Every reachable state is the end of a schedule from a fresh store, and conversely. -/
theorem Sys.reachable_iff (env : Env) (y : Sys) : Sys.Reachable env y ↔ Sys.Path env (fun _ => True) ⟨[], Store.empty⟩ y := by
  constructor
  · intro h
    induction h with
    | init => exact .refl
    | step _ hst ih =>
      cases hst with
      | arrive c ts s => exact .arrive c trivial ih
      | op h => exact .op ih h
      | leave r ts₁ ts₂ s => exact .leave ih
      | crash ts s => exact .crash ih
  · intro h
    induction h with
    | refl => exact .init
    | arrive c _ _ ih => exact .step ih (.arrive c _ _)
    | op _ hs ih => exact .step ih (.op hs)
    | leave _ ih => exact .step ih (.leave _ _ _ _)
    | crash _ ih => exact .step ih (.crash _ _)

namespace Sys.Path

variable {env : Env} {A : Call → Prop} {x : Sys}

theorem run_bind {α : Type} {p : Prog α} {k : α → Prog Answer} {ts₁ ts₂ : List (Prog Answer)} {s s' : Store} {a : α}
    (h : Path env A x ⟨ts₁ ++ (p >>= k) :: ts₂, s⟩) (hr : p.run s = (.ok a, s')) : Path env A x ⟨ts₁ ++ k a :: ts₂, s'⟩ := by
  replace h : Path env A x ⟨ts₁ ++ (p.bind k) :: ts₂, s⟩ := h
  induction p generalizing s with
  | done r => cases hr; exact h
  | call o f ih => exact ih _ hr (.op h (.ok o s))

theorem run_done {p : Prog Answer} {ts₁ ts₂ : List (Prog Answer)} {s : Store}
    (h : Path env A x ⟨ts₁ ++ p :: ts₂, s⟩) : Path env A x ⟨ts₁ ++ .done (p.run s).1 :: ts₂, (p.run s).2⟩ := by
  induction p generalizing s with
  | done r => exact h
  | call o f ih => exact ih _ (.op h (.ok o s))

/-- Serving requests one after the other is one of the schedules. -/
theorem serve {s : Store} (h : Path env A x ⟨[], s⟩) (c : Call) (hc : A c) : Path env A x ⟨[], (Zanzi.serve env c s).2⟩ :=
  .crash (run_done (ts₁ := []) (ts₂ := []) (.arrive c hc h))

theorem runCalls {s : Store} (h : Path env A x ⟨[], s⟩) (cs : List Call) (hc : ∀ c ∈ cs, A c) :
    Path env A x ⟨[], (Zanzi.runCalls env cs s).2⟩ := by
  induction cs generalizing s with
  | nil => exact h
  | cons c cs ih => exact ih (h.serve c (hc c (by simp))) (fun c' hc' => hc c' (by simp [hc']))

/-- Rely-guarantee induction: `I` is an invariant of the store, `J` relates the store to a request in flight, `St` bounds the changes requests make. -/
theorem inv {I : Store → Prop} {J : Store → Prog Answer → Prop} {St : Store → Store → Prop}
    (hrefl : ∀ s, St s s)
    (harr : ∀ s c, I s → A c → J s (c.prog env))
    (hI : ∀ s o k, I s → J s (.call o k) → I (o.exec s).2 ∧ St s (o.exec s).2)
    (hst : ∀ s s' t, J s t → St s s' → J s' t)
    (hstep : ∀ s o k resp b s', I s → J s (.call o k) → OpStep o s resp b s' → J s' (k resp))
    {y : Sys} (h : Path env A x y) (h0 : I x.store) (hx : ∀ t ∈ x.threads, J x.store t) : I y.store ∧ ∀ t ∈ y.threads, J y.store t := by
  induction h with
  | refl => exact ⟨h0, hx⟩
  | arrive c hc _ ih =>
    refine ⟨ih.1, fun t ht => ?_⟩
    rcases List.mem_append.1 ht with h | h
    · exact ih.2 t h
    · rw [List.mem_singleton.1 h]; exact harr _ c ih.1 hc
  | @op o k ts₁ ts₂ s s' resp b _ hop ih =>
    have hj := ih.2 _ (List.mem_append.2 (.inr List.mem_cons_self))
    have hs : I s' ∧ St s s' := by
      cases hop with
      | ok => exact hI _ _ _ ih.1 hj
      | failBefore => exact ⟨ih.1, hrefl _⟩
      | failAfter => exact hI _ _ _ ih.1 hj
    refine ⟨hs.1, fun t ht => ?_⟩
    rcases List.mem_append.1 ht with h | h
    · exact hst _ _ _ (ih.2 t (List.mem_append.2 (.inl h))) hs.2
    · rcases List.mem_cons.1 h with h | h
      · rw [h]; exact hstep _ _ _ _ _ _ ih.1 hj hop
      · exact hst _ _ _ (ih.2 t (List.mem_append.2 (.inr (List.mem_cons_of_mem _ h)))) hs.2
  | leave _ ih =>
    refine ⟨ih.1, fun t ht => ih.2 t ?_⟩
    rcases List.mem_append.1 ht with h | h
    · exact List.mem_append.2 (.inl h)
    · exact List.mem_append.2 (.inr (List.mem_cons_of_mem _ h))
  | crash _ ih => exact ⟨ih.1, by simp⟩

end Sys.Path

theorem Prog.bind_assoc {α β γ : Type} (p : Prog α) (f : α → Prog β) (g : β → Prog γ) :
    ((p >>= f) >>= g) = (p >>= fun a => f a >>= g) := by
  show (p.bind f).bind g = p.bind (fun a => (f a).bind g)
  induction p with
  | done r => cases r <;> rfl
  | call o k ih =>
    show Prog.call o _ = Prog.call o _
    congr 1
    funext r
    exact ih r

/-- Storage calls other than deleting policy `id`. -/
def keepsPol (id : String) (o : Op) : Prop := o ≠ .polDel id

theorem keepsPol_exec {id : String} {o : Op} (h : keepsPol id o) (s : Store) (hs : (kvGet s.policies id).isSome = true) :
    (kvGet (o.exec s).2.policies id).isSome = true := by
  cases o <;> try exact hs
  case polSet rec =>
    show (kvGet (kvPut strLt s.policies rec.policy.id rec) id).isSome = true
    rw [kvGet_put]
    split
    · rfl
    · exact hs
  case polDel q =>
    show (kvGet (kvDel s.policies q) id).isSome = true
    rw [kvGet_del, if_neg (fun he => h (by rw [he]))]
    exact hs

theorem prog_keepsPol (env : Env) {c : Call} {id : String} (h : c ≠ .deletePolicy id) : (c.prog env).AllOps (keepsPol id) := by
  have hdel : ∀ H q r, (Repo.deleteRelationship H q r).AllOps (keepsPol id) := by
    intro H q r
    unfold Repo.deleteRelationship
    exact AllOps.bind (AllOps.lift _) (fun _ => AllOps.bind (AllOps.lift _) (fun _ => AllOps.bind (AllOps.op (fun h => nomatch h)) (fun _ =>
      AllOps.bind (AllOps.op (fun h => nomatch h)) (fun _ => AllOps.bind (AllOps.op (fun h => nomatch h)) (fun _ => .done _)))))
  have hread : ∀ {α : Type} {p : Prog α}, p.ReadOnly → p.AllOps (keepsPol id) := by
    intro α p hp
    refine hp.mono (fun o ho he => ?_)
    rw [he] at ho
    simp [Op.isRead] at ho
  have hbulk : ∀ H q sel, (Repo.deleteRelationships H q sel).AllOps (keepsPol id) := by
    intro H q sel
    unfold Repo.deleteRelationships
    exact AllOps.bind (hread (Repo.findRelationships_read _ _)) (fun _ => AllOps.bind
      (AllOps.mapSlice (fun _ _ => hdel _ _ _)) (fun _ => .done _))
  have hsetp : ∀ rec, (Repo.setPolicy rec).AllOps (keepsPol id) := by
    intro rec
    exact AllOps.bind (AllOps.op (fun h => nomatch h)) (fun _ => AllOps.bind (AllOps.op (fun h => nomatch h)) (fun _ => .done _))
  by_cases hr : c.isRead = true
  · exact hread (Call.prog_read env hr)
  · cases c <;> simp [Call.isRead] at hr <;> refine AllOps.bind ?_ (fun _ => .done _)
    case createPolicy now d a =>
      refine AllOps.bind (AllOps.lift _) (fun _ => AllOps.bind (hread (Repo.getPolicy_read _)) (fun x => ?_))
      cases x
      · exact AllOps.bind (AllOps.lift _) (fun _ => AllOps.bind (hsetp _) (fun _ => .done _))
      · exact .done _
    case updatePolicy d a =>
      refine AllOps.bind (AllOps.lift _) (fun _ => AllOps.bind (hread (Repo.getPolicy_read _)) (fun x => ?_))
      cases x
      · exact .done _
      · exact AllOps.bind (AllOps.lift _) (fun _ => AllOps.bind (hsetp _) (fun _ => .done _))
    case deletePolicy q =>
      have hne : q ≠ id := fun he => h (by rw [he])
      unfold Service.deletePolicy Repo.deletePolicy
      refine AllOps.bind (AllOps.bind (AllOps.op (fun h => nomatch h)) (fun x => ?_)) (fun x => ?_)
      · split
        · exact AllOps.bind (AllOps.op (fun he => hne (Op.polDel.inj he))) (fun _ => .done _)
        · exact .done _
      · split
        · exact AllOps.bind (hbulk _ _ _) (fun _ => .done _)
        · exact .done _
    case setRelationship now q r a =>
      refine AllOps.bind (hread (Repo.getPolicy_read _)) (fun x => ?_)
      cases x with
      | none => exact .done _
      | some _ =>
        refine AllOps.bind (AllOps.lift _) (fun _ => AllOps.bind (AllOps.lift _) (fun r => ?_))
        unfold Repo.setRelationship
        exact AllOps.bind (AllOps.lift _) (fun _ => AllOps.bind (AllOps.op (fun h => nomatch h)) (fun _ => AllOps.bind (AllOps.op (fun h => nomatch h))
          (fun _ => AllOps.bind (AllOps.op (fun h => nomatch h)) (fun _ => .done _))))
    case deleteRelationship q r => exact hdel _ _ _
    case deleteRelationships q sel => exact hbulk _ _ _

/-! ### Creates that cannot succeed -/

/-- While policy `id` is stored, the request cannot answer that it created `id`. -/
inductive NoCreate (id : String) : Prog Answer → Prop
  | done {r : Res Answer} : (∀ rec, r = .ok (.created rec) → rec.policy.id ≠ id) → NoCreate id (.done r)
  | get {k : Option (Option PolicyRecord) → Prog Answer} : NoCreate id (k none) → (∀ rec, NoCreate id (k (some (some rec)))) →
      NoCreate id (.call (.polGet id) k)
  | call {o : Op} {k : Option o.Resp → Prog Answer} : (∀ r, NoCreate id (k r)) → NoCreate id (.call o k)

theorem NoCreate.map {id : String} {α : Type} {f : α → Answer} (hf : ∀ a rec, f a = .created rec → rec.policy.id ≠ id) (p : Prog α) :
    NoCreate id (p >>= fun a => pure (f a)) := by
  show NoCreate id (p.bind fun a => pure (f a))
  induction p with
  | done r =>
    cases r with
    | ok a => exact .done (fun rec h => hf a rec (Res.ok.inj h))
    | err => exact .done (fun _ h => nomatch h)
    | panic => exact .done (fun _ h => nomatch h)
    | fuel => exact .done (fun _ h => nomatch h)
  | call o k ih => exact .call ih

theorem prog_noCreate (env : Env) (c : Call) (id : String) : NoCreate id (c.prog env) := by
  cases c <;> try (refine NoCreate.map ?_ _; intro a rec h; cases h; done)
  case createPolicy now d a =>
    show NoCreate id (Service.createPolicy env now d a >>= fun x => pure (.created x))
    unfold Service.createPolicy
    cases getPolicyFromDefinition env d with
    | err => exact .done (fun _ h => nomatch h)
    | panic => exact .done (fun _ h => nomatch h)
    | fuel => exact .done (fun _ h => nomatch h)
    | ok p =>
      rw [lift_ok_bind]
      by_cases hp : p.id = id
      · subst hp
        exact .get (.done (fun _ h => nomatch h)) (fun _ => .done (fun _ h => nomatch h))
      · refine .call (fun r => ?_)
        cases r with
        | none => exact .done (fun _ h => nomatch h)
        | some o =>
          cases o with
          | some _ => exact .done (fun _ h => nomatch h)
          | none =>
            show NoCreate id (Prog.lift (verifyPolicy env.U p) >>= _ >>= fun x => pure (Answer.created x))
            cases verifyPolicy env.U p with
            | err => exact .done (fun _ h => nomatch h)
            | panic => exact .done (fun _ h => nomatch h)
            | fuel => exact .done (fun _ h => nomatch h)
            | ok u =>
              rw [lift_ok_bind, Prog.bind_assoc]
              refine NoCreate.map (f := fun _ => Answer.created ⟨p, a, now⟩) ?_ (Repo.setPolicy ⟨p, a, now⟩)
              rintro _ rec h
              cases h
              exact hp

/-! ### Relationships are only written while the policy is stored -/

/-- Unless it reads policy `pid` and finds it, the request writes no relationship of `pid`. -/
inductive Guarded (pid : String) : Prog Answer → Prop
  | done {r : Res Answer} : Guarded pid (.done r)
  | get {k : Option (Option PolicyRecord) → Prog Answer} : Guarded pid (k none) → Guarded pid (k (some none)) → Guarded pid (.call (.polGet pid) k)
  | call {o : Op} {k : Option o.Resp → Prog Answer} : (∀ k e, o ≠ .edgeSet pid k e) → (∀ r, Guarded pid (k r)) → Guarded pid (.call o k)

theorem Guarded.of {pid : String} {p : Prog Answer} (h : p.AllOps (fun o => ∀ k e, o ≠ .edgeSet pid k e)) : Guarded pid p := by
  induction h with
  | done => exact .done
  | call ho _ ih => exact .call ho ih

/-- Only SetRelationship writes relationships. -/
theorem prog_notSet (env : Env) (c : Call) (pid : String) (hc : ¬ ∃ now r a, c = .setRelationship now pid r a) :
    (c.prog env).AllOps (fun o => ∀ k e, o ≠ .edgeSet pid k e) := by
  have hread : ∀ {α : Type} {p : Prog α}, p.ReadOnly → p.AllOps (fun o => ∀ k e, o ≠ .edgeSet pid k e) := by
    intro α p hp
    refine hp.mono (fun o ho k e he => ?_)
    rw [he] at ho
    simp [Op.isRead] at ho
  have hdel : ∀ H q r, (Repo.deleteRelationship H q r).AllOps (fun o => ∀ k e, o ≠ .edgeSet pid k e) := by
    intro H q r
    unfold Repo.deleteRelationship
    exact AllOps.bind (AllOps.lift _) (fun _ => AllOps.bind (AllOps.lift _) (fun _ => AllOps.bind (AllOps.op (fun _ _ h => nomatch h)) (fun _ =>
      AllOps.bind (AllOps.op (fun _ _ h => nomatch h)) (fun _ => AllOps.bind (AllOps.op (fun _ _ h => nomatch h)) (fun _ => .done _)))))
  have hbulk : ∀ H q sel, (Repo.deleteRelationships H q sel).AllOps (fun o => ∀ k e, o ≠ .edgeSet pid k e) := by
    intro H q sel
    unfold Repo.deleteRelationships
    exact AllOps.bind (hread (Repo.findRelationships_read _ _)) (fun _ => AllOps.bind
      (AllOps.mapSlice (fun _ _ => hdel _ _ _)) (fun _ => .done _))
  have hsetp : ∀ rec, (Repo.setPolicy rec).AllOps (fun o => ∀ k e, o ≠ .edgeSet pid k e) := by
    intro rec
    exact AllOps.bind (AllOps.op (fun _ _ h => nomatch h)) (fun _ => AllOps.bind (AllOps.op (fun _ _ h => nomatch h)) (fun _ => .done _))
  by_cases hr : c.isRead = true
  · exact hread (Call.prog_read env hr)
  · cases c <;> simp [Call.isRead] at hr <;> refine AllOps.bind ?_ (fun _ => .done _)
    case createPolicy now d a =>
      refine AllOps.bind (AllOps.lift _) (fun _ => AllOps.bind (hread (Repo.getPolicy_read _)) (fun x => ?_))
      cases x
      · exact AllOps.bind (AllOps.lift _) (fun _ => AllOps.bind (hsetp _) (fun _ => .done _))
      · exact .done _
    case updatePolicy d a =>
      refine AllOps.bind (AllOps.lift _) (fun _ => AllOps.bind (hread (Repo.getPolicy_read _)) (fun x => ?_))
      cases x
      · exact .done _
      · exact AllOps.bind (AllOps.lift _) (fun _ => AllOps.bind (hsetp _) (fun _ => .done _))
    case deletePolicy q =>
      unfold Service.deletePolicy Repo.deletePolicy
      refine AllOps.bind (AllOps.bind (AllOps.op (fun _ _ h => nomatch h)) (fun x => ?_)) (fun x => ?_)
      · split
        · exact AllOps.bind (AllOps.op (fun _ _ h => nomatch h)) (fun _ => .done _)
        · exact .done _
      · split
        · exact AllOps.bind (hbulk _ _ _) (fun _ => .done _)
        · exact .done _
    case setRelationship now q r a =>
      have hne : q ≠ pid := fun he => hc ⟨now, r, a, by rw [he]⟩
      refine AllOps.bind (hread (Repo.getPolicy_read _)) (fun x => ?_)
      cases x with
      | none => exact .done _
      | some _ =>
        refine AllOps.bind (AllOps.lift _) (fun _ => AllOps.bind (AllOps.lift _) (fun r => ?_))
        unfold Repo.setRelationship
        exact AllOps.bind (AllOps.lift _) (fun _ => AllOps.bind (AllOps.op (fun _ _ h => nomatch h)) (fun _ =>
          AllOps.bind (AllOps.op (fun _ _ h => hne (by cases h; rfl)))
          (fun _ => AllOps.bind (AllOps.op (fun _ _ h => nomatch h)) (fun _ => .done _))))
    case deleteRelationship q r => exact hdel _ _ _
    case deleteRelationships q sel => exact hbulk _ _ _

theorem prog_guarded (env : Env) (c : Call) (pid : String) : Guarded pid (c.prog env) := by
  by_cases hc : ∃ now r a, c = .setRelationship now pid r a
  · obtain ⟨now, r, a, rfl⟩ := hc
    exact .get .done .done
  · exact Guarded.of (prog_notSet env c pid hc)

theorem notSet_exec {pid : String} {o : Op} (h : ∀ k e, o ≠ .edgeSet pid k e) (s : Store) (hs : s.edges pid = []) :
    (o.exec s).2.edges pid = [] := by
  cases o <;> try exact hs
  case edgeSet q k e =>
    show (s.setEdges q _).edges pid = []
    rw [setEdges_edges, if_neg (fun he => h k e (by rw [he])), hs]
  case edgeDel q k =>
    show (s.setEdges q _).edges pid = []
    rw [setEdges_edges]
    split
    · next he => rw [← he, hs]; rfl
    · exact hs

end Zanzi
