import Verif.Lemmas.Sched
import Verif.Props.Isolation

/-
C31–C35: properties over every schedule of the server.
-/

namespace Zanzi

open Spec Prog

/-! ### C31 -/

/-- What is left of a CreatePolicy of a valid policy once it has seen that the id is free. -/
theorem create_rest {env : Env} {p : Policy} (hv : verifyPolicy env.U p = .ok ()) (now : Timestamp) (a : Bytes) :
    ∃ k : Option PolicyRecord → Prog Answer,
      (Call.createPolicy now (some (.policy p)) a).prog env = (Repo.getPolicy p.id >>= k) ∧
      ∀ s, (k none).run s = (.ok (.created ⟨p, a, now⟩), s.putPolicy ⟨p, a, now⟩) := by
  refine ⟨fun fetched => (match fetched with
    | some _ => Prog.lift (.err .policyExists)
    | none => do
      Prog.lift (verifyPolicy env.U p)
      let rec' : PolicyRecord := { policy := p, appData := a, createdAt := now }
      let _ ← Repo.setPolicy rec'
      return rec') >>= fun x => pure (Answer.created x), ?_, ?_⟩
  · show (Service.createPolicy env now (some (.policy p)) a >>= fun x => pure (Answer.created x)) = _
    unfold Service.createPolicy getPolicyFromDefinition
    simp only [Res.deref_some, Res.bind_ok, lift_ok_bind]
    rw [Prog.bind_assoc]
    rfl
  · intro s
    simp only [hv, lift_ok_bind, run_bind, run_setPolicy, andThen_ok, run_pure]

/-- C31 is violated: two concurrent CreatePolicy calls for the same id can both succeed; the second silently replaces the first. -/
theorem C31_concurrent_create_violated (H : String → Nat) : ∃ s : Store,
    Sys.Reachable (wEnv H) ⟨[.done (.ok (.created ⟨docPolicy "p", [1], 1⟩)), .done (.ok (.created ⟨docPolicy "p", [2], 2⟩))], s⟩ ∧
    policyAt s "p" = some ⟨docPolicy "p", [2], 2⟩ := by
  have hv : verifyPolicy (wEnv H).U (docPolicy "p") = .ok () := by
    have : verifyPolicy U0 (docPolicy "p") = .ok () := by decide +kernel
    exact this
  obtain ⟨k1, e1, r1⟩ := create_rest hv 1 [1]
  obtain ⟨k2, e2, r2⟩ := create_rest hv 2 [2]
  refine ⟨(Store.empty.putPolicy ⟨docPolicy "p", [1], 1⟩).putPolicy ⟨docPolicy "p", [2], 2⟩, ?_, ?_⟩
  · rw [Sys.reachable_iff]
    have h0 : Sys.Path (wEnv H) (fun _ => True) ⟨[], Store.empty⟩ ⟨[], Store.empty⟩ := .refl
    have h1 := Sys.Path.arrive (.createPolicy 1 (some (.policy (docPolicy "p"))) [1]) trivial h0
    have h2 := Sys.Path.arrive (.createPolicy 2 (some (.policy (docPolicy "p"))) [2]) trivial h1
    rw [e1, e2] at h2
    have h3 := Sys.Path.run_bind (ts₁ := []) (s := Store.empty) (a := none) (s' := Store.empty) h2 rfl
    have h4 := Sys.Path.run_bind (ts₁ := [k1 none]) (ts₂ := []) (s := Store.empty) (a := none) (s' := Store.empty) h3 rfl
    have h5 := Sys.Path.run_done (ts₁ := []) (ts₂ := [k2 none]) h4
    rw [r1] at h5
    have h6 := Sys.Path.run_done (ts₁ := [.done (.ok (.created ⟨docPolicy "p", [1], 1⟩))]) (ts₂ := []) h5
    rw [r2] at h6
    exact h6
  · rw [policyAt_eq]
    unfold Store.putPolicy
    dsimp only
    rw [kvGet_put, if_pos (show "p" = (docPolicy "p").id from rfl)]

/-- Full claim: of several concurrent CreatePolicy calls for an id at most one succeeds.  What holds: once the policy is stored, then in every schedule of later requests that does not include
a DeletePolicy of that id — with any interleaving, storage failures and crashes — the policy stays stored and no CreatePolicy for it succeeds.  Missing: calls that overlap
the first successful one. -/
theorem C31_create_exclusive_partial (env : Env) (s : Store) (id : String) (hs : (policyAt s id).isSome = true) (y : Sys)
    (h : Sys.Path env (fun c => c ≠ .deletePolicy id) ⟨[], s⟩ y) :
    (policyAt y.store id).isSome = true ∧ ∀ rec, rec.policy.id = id → .done (.ok (.created rec)) ∉ y.threads := by
  rw [policyAt_eq] at hs
  have := Sys.Path.inv (I := fun s => (kvGet s.policies id).isSome = true)
    (J := fun _ t => t.AllOps (keepsPol id) ∧ NoCreate id t) (St := fun _ _ => True)
    (fun _ => trivial)
    (fun s c _ hc => ⟨prog_keepsPol env hc, prog_noCreate env c id⟩)
    (fun s o k hI hJ => by
      obtain ⟨hJ, _⟩ := hJ
      cases hJ with
      | call ho _ => exact ⟨keepsPol_exec ho s hI, trivial⟩)
    (fun _ _ _ h _ => h)
    (fun s o k resp b s' hI hJ hst => by
      obtain ⟨h1, h2⟩ := hJ
      cases h1 with
      | call ho hk =>
        refine ⟨hk _, ?_⟩
        cases h2 with
        | call h => exact h _
        | get hn hs =>
          cases hst with
          | ok =>
            obtain ⟨rec, hrec⟩ := Option.isSome_iff_exists.1 hI
            rw [show ((Op.polGet id).exec s).1 = some rec from hrec]
            exact hs rec
          | failBefore => exact hn
          | failAfter => exact hn)
    h hs (by simp)
  rw [policyAt_eq]
  refine ⟨this.1, fun rec hrec hmem => ?_⟩
  have := (this.2 _ hmem).2
  cases this with
  | done h => exact h rec rfl hrec

/-! ### C32 -/

/-- In every state a server can reach — any interleaving, storage failures, crashes — every stored policy is valid and stored under its own id. -/
theorem C32_stored_policies_valid (env : Env) (y : Sys) (h : Sys.Reachable env y) (id : String) (rec : PolicyRecord)
    (hr : policyAt y.store id = some rec) : rec.policy.id = id ∧ ValidPolicy env.U rec.policy := by
  rw [policyAt_eq] at hr
  exact ⟨h.wf.1.polKey _ _ (kvGet_mem hr), (C09_validation_exact _ _).1 (h.wf.1.polValid _ _ (kvGet_mem hr))⟩

example (H : String → Nat) : ∃ y, Sys.Reachable (wEnv H) y ∧ (policyAt y.store "p").isSome = true := by
  obtain ⟨s, h1, h2⟩ := C31_concurrent_create_violated H
  exact ⟨_, h1, by rw [h2]; rfl⟩

/-! ### C33 -/

/-- What is left of a SetRelationship once it has read the policy. -/
theorem set_rest {env : Env} {rec : PolicyRecord} {r : Relationship} {e : IRel} (ha : allowedRelationship (some r) (newLut rec.policy) = .ok ())
    (he : toInternal r = .ok e) (now : Timestamp) (pid : String) (a : Bytes) :
    ∃ k : Option PolicyRecord → Prog Answer,
      (Call.setRelationship now pid (some r) a).prog env = (Repo.getPolicy pid >>= k) ∧
      ∀ s, (k (some rec)).run s = (.ok (.overwritten (kvGet (s.edges pid) (e.key env.H)).isSome), s.putRel env.H pid e a now) := by
  refine ⟨fun record => (match record with
    | none => Prog.lift (.err .policyNotFound)
    | some record => do
      Prog.lift (allowedRelationship (some r) (newLut record.policy))
      let r ← Prog.lift (Res.deref (some r))
      Repo.setRelationship env.H { policyId := pid, relationship := r, appData := a, createdAt := now }) >>= fun x => pure (Answer.overwritten x), ?_, ?_⟩
  · show (Service.setRelationship env now pid (some r) a >>= fun x => pure (Answer.overwritten x)) = _
    unfold Service.setRelationship
    rw [Prog.bind_assoc]
    rfl
  · intro s
    simp only [ha, lift_ok_bind, Res.deref_some]
    rw [run_bind, run_repo_setRelationship he, andThen_ok]
    rfl

/-- C33 is violated: when DeletePolicy runs between SetRelationship's reading of the policy and its write, both calls succeed and the relationship is stored for a
policy that does not exist. -/
theorem C33_orphan_violated (H : String → Nat) : ∃ s : Store,
    Sys.Reachable (wEnv H) ⟨[.done (.ok (.overwritten false)), .done (.ok (.deletedPolicy true 0))], s⟩ ∧
    policyAt s "p" = none ∧ Present s "p" rA := by
  have ha : allowedRelationship (some rA) (newLut (docPolicy "p")) = .ok () := by decide +kernel
  obtain ⟨k, e1, r1⟩ := set_rest (env := wEnv H) (rec := ⟨docPolicy "p", [], 0⟩) ha eA_of 1 "p" []
  let s1 : Store := ({ wStore with policies := kvDel wStore.policies "p" } : Store).delRels "p" ((relationships wStore "p").map (relKey H))
  have hdel : serve (wEnv H) (.deletePolicy "p") wStore = (.ok (.deletedPolicy true 0), s1) := by
    rw [serve_deletePolicy, wStore_pol "p" (.inl rfl)]
    rfl
  have hed : (s1.putRel H "p" eA [] 1).edges "p" = [(eA.key H, eA)] := by
    simp [s1, Store.putRel, Store.delRels, wStore, Store.putPolicy, Store.empty, kvPut, kvGet, kvInsert]
  refine ⟨s1.putRel H "p" eA [] 1, ?_, ?_, ?_⟩
  · rw [Sys.reachable_iff]
    have h0 : Sys.Path (wEnv H) (fun _ => True) ⟨[], Store.empty⟩ ⟨[], Store.empty⟩ := .refl
    have h1 := h0.runCalls [.createPolicy 0 (some (.policy (docPolicy "p"))) [], .createPolicy 0 (some (.policy (docPolicy "q"))) []]
      (fun _ _ => trivial)
    rw [wStore_reached] at h1
    have h2 := Sys.Path.arrive (.setRelationship 1 "p" (some rA) []) trivial h1
    have h3 := Sys.Path.arrive (.deletePolicy "p") trivial h2
    rw [e1] at h3
    have h4 := Sys.Path.run_bind (ts₁ := []) (s := wStore) (a := kvGet wStore.policies "p") (s' := wStore) h3 rfl
    rw [wStore_pol "p" (.inl rfl)] at h4
    have h5 := Sys.Path.run_done (ts₁ := [k (some ⟨docPolicy "p", [], 0⟩)]) (ts₂ := []) h4
    rw [show Prog.run _ wStore = _ from hdel] at h5
    have h6 := Sys.Path.run_done (ts₁ := []) (ts₂ := [.done (.ok (.deletedPolicy true 0))]) h5
    rw [r1] at h6
    exact h6
  · rw [policyAt_eq]
    show kvGet (kvDel wStore.policies "p") "p" = none
    rw [kvGet_del, if_pos rfl]
  · unfold Present relationships; rw [hed]; simp [eA, rA, fromInternal, subjectFromInternal]

/-- No relationship is stored for policy `pid` unless the policy is. -/
def NoOrphans (s : Store) (pid : String) : Prop := ∀ r, Present s pid r → (policyAt s pid).isSome = true

theorem noOrphans_iff (s : Store) (pid : String) : NoOrphans s pid ↔ (kvGet s.policies pid).isSome = true ∨ s.edges pid = [] := by
  unfold NoOrphans
  rw [policyAt_eq]
  constructor
  · intro h
    cases he : s.edges pid with
    | nil => exact .inr rfl
    | cons p m => exact .inl (h (fromInternal p.2) (by simp [Present, relationships, he]))
  · rintro (h | h) r hr
    · exact h
    · simp [Present, relationships, h] at hr

/-- Full claim: no relationship outlives its policy, under concurrency.  What holds: if no orphan is stored for `pid`, then none appears in any schedule — any interleaving, failures, crashes — of requests that do not
delete policy `pid`.  Missing: schedules in which DeletePolicy of `pid` overlaps other requests or is interrupted (`C33_orphan_violated`, `C29_delete_policy_crash_violated`). -/
theorem C33_no_orphans_partial (env : Env) (s : Store) (pid : String) (hs : NoOrphans s pid) (y : Sys)
    (h : Sys.Path env (fun c => c ≠ .deletePolicy pid) ⟨[], s⟩ y) : NoOrphans y.store pid := by
  rw [noOrphans_iff] at hs ⊢
  have := Sys.Path.inv (I := fun s => (kvGet s.policies pid).isSome = true ∨ s.edges pid = [])
    (J := fun s t => t.AllOps (keepsPol pid) ∧ ((kvGet s.policies pid).isSome = true ∨ Guarded pid t))
    (St := fun s s' => (kvGet s.policies pid).isSome = true → (kvGet s'.policies pid).isSome = true)
    (fun _ h => h)
    (fun s c _ hc => ⟨prog_keepsPol env hc, .inr (prog_guarded env c pid)⟩)
    (fun s o k hI hJ => by
      obtain ⟨h1, h2⟩ := hJ
      cases h1 with
      | call ho _ =>
        refine ⟨?_, keepsPol_exec ho s⟩
        rcases hI with hp | he
        · exact .inl (keepsPol_exec ho s hp)
        · rcases h2 with hp | hg
          · exact .inl (keepsPol_exec ho s hp)
          · right
            cases hg with
            | get _ _ => exact he
            | call hn _ => exact notSet_exec hn s he)
    (fun s s' t h hst => ⟨h.1, h.2.imp hst id⟩)
    (fun s o k resp b s' hI hJ hst => by
      obtain ⟨h1, h2⟩ := hJ
      cases h1 with
      | call ho hk =>
        refine ⟨hk _, ?_⟩
        have hmono : (kvGet s.policies pid).isSome = true → (kvGet s'.policies pid).isSome = true := by
          intro hp
          cases hst with
          | ok => exact keepsPol_exec ho s hp
          | failBefore => exact hp
          | failAfter => exact keepsPol_exec ho s hp
        rcases h2 with hp | hg
        · exact .inl (hmono hp)
        · cases hg with
          | call _ h => exact .inr (h _)
          | get hn hs =>
            cases hst with
            | ok =>
              cases hp : kvGet s.policies pid with
              | some rec => left; exact hmono (by rw [hp]; rfl)
              | none =>
                right
                rw [show ((Op.polGet pid).exec s).1 = none from hp]
                exact hs
            | failBefore => exact .inr hn
            | failAfter => exact .inr hn)
    h hs (by simp)
  exact this.1

/-- Requests served one after the other, including DeletePolicy, never leave a relationship without its policy. -/
theorem C33_sequential_no_orphans_partial (env : Env) (cs : List Call) (pid : String) : NoOrphans (runCalls env cs Store.empty).2 pid := by
  have key : ∀ (cs : List Call) (s : Store), WF env s → NoOrphans s pid → NoOrphans (runCalls env cs s).2 pid := by
    intro cs
    induction cs with
    | nil => intro s _ h; exact h
    | cons c cs ih =>
      intro s hs h
      rw [runCalls_cons]
      refine ih _ (hs.run c) ?_
      by_cases hc : c = .deletePolicy pid
      · subst hc
        obtain ⟨h1, h2⟩ := C25_delete_policy env s pid hs
        cases hp : policyAt s pid with
        | none => rw [h1 hp]; exact h
        | some rec =>
          obtain ⟨s', e, _, _, hn, _⟩ := h2 (by rw [hp]; rfl)
          rw [e]
          exact fun r hr => absurd hr (hn r)
      · exact C33_no_orphans_partial env s pid h _ (Sys.Path.refl.serve c hc)
  exact key cs Store.empty (WF.empty env) (fun r hr => by simp [Present, relationships, Store.empty] at hr)

example (H : String → Nat) : NoOrphans wStore "p" ∧
    Sys.Path (wEnv H) (fun c => c ≠ .deletePolicy "p") ⟨[], wStore⟩ ⟨[], (serve (wEnv H) (.setRelationship 1 "p" (some rA) []) wStore).2⟩ :=
  ⟨fun r hr => by simp [Present, relationships, wStore, Store.putPolicy, Store.empty] at hr, Sys.Path.refl.serve _ (fun h => nomatch h)⟩

/-! ### C34 -/

/-- GetPolicy, ListPolicyIds, GetRelationship, FindRelationshipRecords, Check, ExplainCheck, Expand and DumpRelationships leave the store as it was: served alone, with any
storage failures, when interrupted at any point, and no storage call they can make in any schedule changes the store. -/
theorem C34_reads_never_write (env : Env) (c : Call)
    (hc : match c with
      | .getPolicy _ | .listPolicyIds | .getRelationship _ _ | .findRelationshipRecords _ _ | .check _ _ _ | .explainCheck _ _ _ _ | .expand _ _ _ _
      | .dumpRelationships _ _ _ _ => True
      | _ => False) :
    (∀ s, (serve env c s).2 = s) ∧
    (∀ s b r s', RunF (c.prog env) s b r s' → s' = s) ∧
    (∀ s n, (c.prog env).crash n s = s) ∧
    (c.prog env).AllOps (fun o => ∀ s, (o.exec s).2 = s) := by
  have hr : (c.prog env).ReadOnly := Call.prog_read env (by cases c <;> first | rfl | exact hc.elim)
  refine ⟨fun s => hr.run s, fun s b r s' h => hr.runF h, fun s n => ?_, hr.mono (fun o ho s => read_exec ho s)⟩
  exact hr.crash (I := fun x => x = s) (fun o x ho hx => by rw [read_exec ho, hx]) n rfl

/-! ### C35 -/

/-- If a storage call fails while a request is served, the answer is the storage error; and in every schedule of the server, a request whose
storage call fails answers with the storage error at once. -/
theorem C35_storage_errors_surface (env : Env) :
    (∀ c s r s', RunF (Call.prog env c) s true r s' → r = .err .store) ∧
    (∀ y, Sys.Reachable env y → ∀ op k, .call op k ∈ y.threads → k none = .done (.err .store)) := by
  refine ⟨fun c s r s' h => (Call.prog_fs env c).runF h rfl, ?_⟩
  intro y hy op k hmem
  rw [Sys.reachable_iff] at hy
  have := Sys.Path.inv (I := fun _ => True) (J := fun _ t => t.FailStop) (St := fun _ _ => True)
    (fun _ => trivial) (fun s c _ _ => Call.prog_fs env c) (fun _ _ _ _ _ => ⟨trivial, trivial⟩) (fun _ _ _ h _ => h)
    (fun s o k resp b s' _ hJ hst => by
      cases hJ with
      | call hn hk =>
        cases hst with
        | ok => exact hk _
        | failBefore => rw [hn]; exact .done _
        | failAfter => rw [hn]; exact .done _)
    hy trivial (by simp)
  have := this.2 _ hmem
  cases this with
  | call hn _ => exact hn

example (H : String → Nat) (s : Store) : RunF ((Call.getPolicy "p").prog (wEnv H)) s true (.err .store) s :=
  RunF.call (b := true) (b' := false) (.failBefore _ _) (.done _ _)

end Zanzi
