import Verif.Props.Bulk
import Verif.Props.Interference
import Verif.Spec.Repeat

/-
C93: requests sent again.  C94: interrupted CreatePolicy and UpdatePolicy.
-/

namespace Zanzi

open Spec Prog

theorem delRels_again (s : Store) (pid : String) (ks : List EdgeKey) : (s.delRels pid ks).delRels pid ks = s.delRels pid ks := by
  unfold Store.delRels
  simp only [if_true, List.filter_filter, Bool.and_self]
  congr 1
  funext q
  split <;> rfl

theorem putPolicy_again (s : Store) (rec : PolicyRecord) : (s.putPolicy rec).putPolicy rec = s.putPolicy rec := by
  unfold Store.putPolicy
  simp only [kvPut_idem]

theorem putRel_later (s : Store) (H : String → Nat) (pid : String) (e : IRel) (a : Bytes) (now now' : Timestamp) :
    ((s.putRel H pid e a now).putRel H pid e a now').policies = (s.putRel H pid e a now).policies ∧
    ((s.putRel H pid e a now).putRel H pid e a now').edges = (s.putRel H pid e a now).edges ∧
    ∀ k, (kvGet ((s.putRel H pid e a now).putRel H pid e a now').data k).map (·.appData) = (kvGet (s.putRel H pid e a now).data k).map (·.appData) := by
  refine ⟨rfl, ?_, fun k => ?_⟩
  · unfold Store.putRel
    simp only [if_true, kvPut_idem]
    funext q
    split <;> rfl
  · unfold Store.putRel
    simp only [kvGet_put]
    split <;> rfl

theorem matching_delMatching {env : Env} {s : Store} (hs : WF env s) (pid : String) (sel : Selector) :
    matching (s.delRels pid ((matching s pid sel).map (relKey env.H))) pid sel = [] := by
  rw [List.eq_nil_iff_forall_not_mem]
  intro r hr
  have h1 := mem_matching.1 hr
  have h2 := h1.1
  unfold Present at h2
  rw [hs.relationships_delMatching] at h2
  simp [h1.2] at h2

theorem sent_again {env : Env} {s0 : Store} (hwf : WF env s0) (c : Call) (now : Timestamp) (r r' : Res Answer) (s s' : Store)
    (h : serve env c s0 = (r, s)) (h' : serve env (servedAt now c) s = (r', s')) :
    r' = answeredAgain r ∧ s'.policies = s.policies ∧ s'.edges = s.edges ∧ (∀ k, (kvGet s'.data k).map (·.appData) = (kvGet s.data k).map (·.appData)) ∧
    (servedAt now c = c → s' = s) := by
  have done : r' = answeredAgain r → s' = s → r' = answeredAgain r ∧ s'.policies = s.policies ∧ s'.edges = s.edges ∧
      (∀ k, (kvGet s'.data k).map (·.appData) = (kvGet s.data k).map (·.appData)) ∧ (servedAt now c = c → s' = s) := by
    rintro h1 rfl
    exact ⟨h1, rfl, rfl, fun _ => rfl, fun _ => rfl⟩
  by_cases hread : c.isRead = true
  · have h1 : s = s0 := by
      have := (Call.prog_read env hread).run s0
      rw [show (c.prog env).run s0 = (r, s) from h] at this
      exact this
    subst h1
    have h2 : servedAt now c = c := by cases c <;> first | rfl | simp [Call.isRead] at hread
    rw [h2] at h'
    cases h.symm.trans h'
    refine done ?_ rfl
    cases hr : r with
    | err => rfl
    | panic => rfl
    | fuel => rfl
    | ok a =>
      subst hr
      cases c <;> first | simp only [Call.isRead, Bool.false_eq_true] at hread | skip
      all_goals
        have h3 := congrArg Prod.fst h
        simp only [serve, Call.prog] at h3
        rw [run_map] at h3
        revert h3
        generalize Prog.run _ _ = y
        obtain ⟨y1, y2⟩ := y
        cases y1 <;> intro h3 <;> cases h3
        rfl
  · cases c <;> simp only [Call.isRead, not_true_eq_false, Bool.false_eq_true, not_false_eq_true] at hread
    case createPolicy t d a =>
      simp only [servedAt] at h'
      rw [serve_create] at h h'
      cases hd : getPolicyFromDefinition env d with
      | err => rw [hd] at h h'; cases h; cases h'; exact done rfl rfl
      | panic => rw [hd] at h h'; cases h; cases h'; exact done rfl rfl
      | fuel => rw [hd] at h h'; cases h; cases h'; exact done rfl rfl
      | ok p =>
        rw [hd] at h h'
        dsimp only at h h'
        cases hp : kvGet s0.policies p.id with
        | some rec =>
          rw [hp] at h
          cases h
          rw [hp] at h'
          cases h'
          exact done rfl rfl
        | none =>
          rw [hp] at h
          dsimp only at h
          cases hv : verifyPolicy env.U p with
          | err => rw [hv] at h h'; cases h; rw [hp] at h'; cases h'; exact done rfl rfl
          | panic => rw [hv] at h h'; cases h; rw [hp] at h'; cases h'; exact done rfl rfl
          | fuel => rw [hv] at h h'; cases h; rw [hp] at h'; cases h'; exact done rfl rfl
          | ok u =>
            rw [hv] at h
            cases h
            have : kvGet (s0.putPolicy ⟨p, a, t⟩).policies p.id = some ⟨p, a, t⟩ := by
              show kvGet (kvPut strLt s0.policies p.id _) p.id = _
              rw [kvGet_put, if_pos rfl]
            rw [this] at h'
            cases h'
            exact done rfl rfl
    case updatePolicy d a =>
      simp only [servedAt] at h'
      rw [serve_update] at h h'
      cases hd : getPolicyFromDefinition env d with
      | err => rw [hd] at h h'; cases h; cases h'; exact done rfl rfl
      | panic => rw [hd] at h h'; cases h; cases h'; exact done rfl rfl
      | fuel => rw [hd] at h h'; cases h; cases h'; exact done rfl rfl
      | ok p =>
        rw [hd] at h h'
        dsimp only at h h'
        cases hp : kvGet s0.policies p.id with
        | none =>
          rw [hp] at h
          cases h
          rw [hp] at h'
          cases h'
          exact done rfl rfl
        | some rec =>
          rw [hp] at h
          dsimp only at h
          cases hv : verifyPolicy env.U p with
          | err => rw [hv] at h h'; cases h; rw [hp] at h'; cases h'; exact done rfl rfl
          | panic => rw [hv] at h h'; cases h; rw [hp] at h'; cases h'; exact done rfl rfl
          | fuel => rw [hv] at h h'; cases h; rw [hp] at h'; cases h'; exact done rfl rfl
          | ok u =>
            rw [hv] at h h'
            cases h
            have : kvGet (s0.putPolicy ⟨p, a, rec.createdAt⟩).policies p.id = some ⟨p, a, rec.createdAt⟩ := by
              show kvGet (kvPut strLt s0.policies p.id _) p.id = _
              rw [kvGet_put, if_pos rfl]
            rw [this] at h'
            dsimp only at h'
            rw [putPolicy_again] at h'
            cases h'
            exact done rfl rfl
    case deletePolicy id =>
      simp only [servedAt] at h'
      rw [serve_deletePolicy] at h h'
      cases hp : (kvGet s0.policies id).isSome with
      | false =>
        rw [hp] at h
        cases h
        rw [hp] at h'
        cases h'
        exact done rfl rfl
      | true =>
        rw [hp] at h
        cases h
        have : kvGet (({ s0 with policies := kvDel s0.policies id } : Store).delRels id ((relationships s0 id).map (relKey env.H))).policies id = none := by
          show kvGet (kvDel s0.policies id) id = none
          rw [kvGet_del, if_pos rfl]
        rw [this] at h'
        cases h'
        exact done rfl rfl
    case setRelationship t pid rel a =>
      simp only [servedAt] at h'
      by_cases hok : ∃ ans, r = .ok ans
      · obtain ⟨ans, rfl⟩ := hok
        obtain ⟨q, e, rec, rfl, he, hp, ha, rfl, rfl⟩ := serve_set_inv h
        rw [serve_set_ok (s := s0.putRel env.H pid e a t) hp ha he] at h'
        have hin : kvGet ((s0.putRel env.H pid e a t).edges pid) (e.key env.H) = some e := by
          show kvGet (if pid = pid then kvPut edgeLt (s0.edges pid) (e.key env.H) e else s0.edges pid) (e.key env.H) = _
          rw [if_pos rfl, kvGet_put, if_pos rfl]
        rw [hin] at h'
        obtain ⟨h1, h2⟩ := Prod.mk.inj h'
        subst h1
        subst h2
        have hl := putRel_later s0 env.H pid e a t now
        refine ⟨rfl, hl.1, hl.2.1, hl.2.2, fun hn => ?_⟩
        simp only [servedAt, Call.setRelationship.injEq, and_true] at hn
        rw [hn, putRel_putRel]
      · have hs : s0 = s := (serve_set_unchanged h (fun a ha => hok ⟨a, ha⟩)).symm
        subst hs
        have h0 := h
        rw [serve_set] at h h'
        cases hp : kvGet s0.policies pid with
        | none => rw [hp] at h h'; cases h; cases h'; exact done rfl rfl
        | some rec =>
          rw [hp] at h h'
          dsimp only at h h'
          cases ha : allowedRelationship rel (newLut rec.policy) with
          | err => rw [ha] at h h'; cases h; cases h'; exact done rfl rfl
          | panic => rw [ha] at h h'; cases h; cases h'; exact done rfl rfl
          | fuel => rw [ha] at h h'; cases h; cases h'; exact done rfl rfl
          | ok u =>
            obtain ⟨q, e, rfl, he⟩ := allowed_complete ha
            rw [serve_set_ok hp ha he] at h0
            exact absurd ⟨_, (Prod.mk.inj h0).1.symm⟩ hok
    case deleteRelationship pid rel =>
      simp only [servedAt] at h'
      cases rel with
      | none => cases h; cases h'; exact done rfl rfl
      | some rel =>
        rcases toInternal_normal_or_panic rel with ⟨e, he⟩ | hpn
        · rw [serve_delete he] at h h'
          cases h
          have : kvGet ((s0.delRels pid [e.key env.H]).edges pid) (e.key env.H) = none := by
            show kvGet (if pid = pid then (s0.edges pid).filter (fun p => decide (p.1 ∉ [e.key env.H])) else s0.edges pid) (e.key env.H) = none
            rw [if_pos rfl, kvGet_none_iff]
            intro v hv
            simp at hv
          rw [this, delRels_again] at h'
          cases h'
          exact done rfl rfl
        · rw [serve_delete_panic hpn] at h h'
          cases h
          cases h'
          exact done rfl rfl
    case deleteRelationships pid sel =>
      simp only [servedAt] at h'
      rcases serve_bulk_cases (env := env) (s := s0) pid sel with ⟨y, rfl, hc, hset⟩ | ⟨h1, h2⟩
      · rw [serve_deleteMatching hc hset] at h h'
        cases h
        rw [matching_delMatching hwf, List.map_nil, delRels_nil] at h'
        cases h'
        exact done rfl rfl
      · rw [h] at h1 h2
        dsimp only at h2
        subst h2
        cases h.symm.trans h'
        refine done ?_ rfl
        cases r with
        | ok a => exact absurd rfl (h1 a)
        | err => rfl
        | panic => rfl
        | fuel => rfl

/-- C93: in every reachable store, sending a request again after it was answered — served at whatever time — is answered as `answeredAgain` says, and stores no other policy, no other
relationship and no other application data than the first time; served at the same time it changes nothing at all. -/
theorem C93_sent_again (env : Env) (x : Sys) (hx : Sys.Reachable env x) (c : Call) (now : Timestamp) (r r' : Res Answer) (s s' : Store)
    (h : serve env c x.store = (r, s)) (h' : serve env (servedAt now c) s = (r', s')) :
    r' = answeredAgain r ∧ s'.policies = s.policies ∧ s'.edges = s.edges ∧ (∀ k, (kvGet s'.data k).map (·.appData) = (kvGet s.data k).map (·.appData)) ∧
    (servedAt now c = c → s' = s) :=
  sent_again hx.wf.1 c now r r' s s' h h'

/-- Met by a relationship set for the first time and again later, and by a bulk deletion: the answers differ the second time. -/
example (H : String → Nat) : ∃ x, Sys.Reachable (wEnv H) x ∧ x.store = wStore ∧
    (serve (wEnv H) (.setRelationship 5 "p" (some rA) [7]) wStore).1 = .ok (.overwritten false) ∧
    (serve (wEnv H) (servedAt 9 (.setRelationship 5 "p" (some rA) [7])) (serve (wEnv H) (.setRelationship 5 "p" (some rA) [7]) wStore).2).1 = .ok (.overwritten true) ∧
    (serve (wEnv H) (.createPolicy 5 (some (.policy (docPolicy "p"))) [7]) Store.empty).1 = .ok (.created ⟨docPolicy "p", [7], 5⟩) := by
  have hx : Sys.Reachable (wEnv H) ⟨[], wStore⟩ := by
    rw [Sys.reachable_iff]
    have := Sys.Path.runCalls (env := wEnv H) (A := fun _ => True) (.refl (x := ⟨[], Store.empty⟩)) [.createPolicy 0 (some (.policy (docPolicy "p"))) [], .createPolicy 0 (some (.policy (docPolicy "q"))) []]
      (fun _ _ => trivial)
    rw [wStore_reached] at this
    exact this
  have h1 : (serve (wEnv H) (.setRelationship 5 "p" (some rA) [7]) wStore).1 = .ok (.overwritten false) := by
    rw [w_set H rfl (.inl rfl) (.inl ⟨rfl, rfl⟩)]
    rfl
  refine ⟨_, hx, rfl, h1, ?_, ?_⟩
  · exact (C93_sent_again (wEnv H) _ hx (.setRelationship 5 "p" (some rA) [7]) 9 _ _ _ _ (Prod.ext h1 rfl) (Prod.ext rfl rfl)).1
  · rw [serve_create]
    have hp : verifyPolicy U0 (docPolicy "p") = .ok () := by decide +kernel
    show (match verifyPolicy U0 (docPolicy "p") with
      | .ok () => ((Res.ok (Answer.created ⟨docPolicy "p", [7], 5⟩) : Res Answer), Store.empty.putPolicy ⟨docPolicy "p", [7], 5⟩)
      | .err e => (.err e, Store.empty) | .panic => (.panic, Store.empty) | .fuel => (.fuel, Store.empty)).1 = _
    rw [hp]

/-! ### C94 -/

theorem interrupted_setPolicy {rec : PolicyRecord} {s t : Store} (h : (Repo.setPolicy rec).Interrupted s t) : t = s ∨ t = s.putPolicy rec := by
  unfold Repo.setPolicy at h
  rcases interrupted_bind h with h | ⟨_, _, h1, h⟩
  · exact .inl (interrupted_read_op rfl h)
  · cases h1
    rcases interrupted_bind h with h | ⟨_, _, h1, h⟩
    · exact interrupted_op h
    · cases h1
      exact .inr (interrupted_pure h)

/-- C94: an interrupted CreatePolicy or UpdatePolicy has done all of its work or none. -/
theorem C94_policy_write_atomic (env : Env) (s t : Store) (c : Call) (hc : (∃ now d a, c = .createPolicy now d a) ∨ ∃ d a, c = .updatePolicy d a)
    (ht : Leaves env c s t) : t = s ∨ t = (serve env c s).2 := by
  have hi := ht.interrupted
  rcases hc with ⟨now, d, a, rfl⟩ | ⟨d, a, rfl⟩
  · rw [serve_create]
    replace hi : ((Service.createPolicy env now d a >>= fun x => pure (Answer.created x) : Prog Answer)).Interrupted s t := hi
    unfold Service.createPolicy Repo.getPolicy at hi
    cases hd : getPolicyFromDefinition env d with
    | err => rw [hd] at hi; exact .inl (interrupted_done hi)
    | panic => rw [hd] at hi; exact .inl (interrupted_done hi)
    | fuel => rw [hd] at hi; exact .inl (interrupted_done hi)
    | ok p =>
      rw [hd] at hi
      simp only [lift_ok_bind, Prog.bind_assoc] at hi
      rcases interrupted_bind hi with h | ⟨f, _, h1, h⟩
      · exact .inl (interrupted_read_op rfl h)
      · cases h1
        dsimp only
        cases hp : kvGet s.policies p.id with
        | some rec =>
          rw [show ((Op.polGet p.id).exec s).1 = _ from hp] at h
          exact .inl (interrupted_done h)
        | none =>
          rw [show ((Op.polGet p.id).exec s).1 = _ from hp] at h
          dsimp only at h ⊢
          cases hv : verifyPolicy env.U p with
          | err => rw [hv] at h; exact .inl (interrupted_done h)
          | panic => rw [hv] at h; exact .inl (interrupted_done h)
          | fuel => rw [hv] at h; exact .inl (interrupted_done h)
          | ok u =>
            rw [hv] at h
            simp only [lift_ok_bind, Prog.bind_assoc] at h
            rcases interrupted_bind h with h | ⟨_, s', h1, h⟩
            · exact interrupted_setPolicy h
            · rw [interrupted_pure h]
              have h2 := interrupted_run (Repo.setPolicy ⟨p, a, now⟩) s
              rw [show (Repo.setPolicy ⟨p, a, now⟩).run s = _ from h1] at h2
              exact interrupted_setPolicy h2
  · rw [serve_update]
    replace hi : ((Service.updatePolicy env d a >>= fun _ => pure Answer.updated : Prog Answer)).Interrupted s t := hi
    unfold Service.updatePolicy Repo.getPolicy at hi
    cases hd : getPolicyFromDefinition env d with
    | err => rw [hd] at hi; exact .inl (interrupted_done hi)
    | panic => rw [hd] at hi; exact .inl (interrupted_done hi)
    | fuel => rw [hd] at hi; exact .inl (interrupted_done hi)
    | ok p =>
      rw [hd] at hi
      simp only [lift_ok_bind, Prog.bind_assoc] at hi
      rcases interrupted_bind hi with h | ⟨f, _, h1, h⟩
      · exact .inl (interrupted_read_op rfl h)
      · cases h1
        dsimp only
        cases hp : kvGet s.policies p.id with
        | none =>
          rw [show ((Op.polGet p.id).exec s).1 = _ from hp] at h
          exact .inl (interrupted_done h)
        | some rec =>
          rw [show ((Op.polGet p.id).exec s).1 = _ from hp] at h
          dsimp only at h ⊢
          cases hv : verifyPolicy env.U p with
          | err => rw [hv] at h; exact .inl (interrupted_done h)
          | panic => rw [hv] at h; exact .inl (interrupted_done h)
          | fuel => rw [hv] at h; exact .inl (interrupted_done h)
          | ok u =>
            rw [hv] at h
            simp only [lift_ok_bind, Prog.bind_assoc] at h
            rcases interrupted_bind h with h | ⟨_, s', h1, h⟩
            · exact interrupted_setPolicy h
            · rw [interrupted_pure h]
              have h2 := interrupted_run (Repo.setPolicy ⟨p, a, rec.createdAt⟩) s
              rw [show (Repo.setPolicy ⟨p, a, rec.createdAt⟩).run s = _ from h1] at h2
              exact interrupted_setPolicy h2

/-- C94: whatever the request, if served without interruption it would have been refused, then interrupted it leaves nothing behind either. -/
theorem C94_refused_leaves_nothing (env : Env) (s t : Store) (c : Call) (hrun : ∀ ans, (serve env c s).1 ≠ .ok ans) (ht : Leaves env c s t) : t = s := by
  have hsame := C13_rejected_changes_nothing env s c _ _ rfl hrun
  have hi := ht.interrupted
  by_cases hread : c.isRead = true
  · obtain ⟨n, rfl⟩ := hi
    exact (Call.prog_read env hread).crash (I := fun u => u = s) (fun o u ho hu => by rw [read_exec ho, hu]) n rfl
  · cases c <;> simp only [Call.isRead, not_true_eq_false, Bool.false_eq_true, not_false_eq_true] at hread
    case createPolicy now d a =>
      rcases C94_policy_write_atomic env s t _ (.inl ⟨now, d, a, rfl⟩) ht with h | h
      · exact h
      · exact h.trans hsame
    case updatePolicy d a =>
      rcases C94_policy_write_atomic env s t _ (.inr ⟨d, a, rfl⟩) ht with h | h
      · exact h
      · exact h.trans hsame
    case deletePolicy id =>
      rw [serve_deletePolicy] at hrun
      split at hrun
      · exact absurd rfl (hrun _)
      · exact absurd rfl (hrun _)
    case setRelationship now pid rel a =>
      replace hi : ((Service.setRelationship env now pid rel a >>= fun x => pure (Answer.overwritten x) : Prog Answer)).Interrupted s t := hi
      unfold Service.setRelationship Repo.getPolicy at hi
      rw [Prog.bind_assoc] at hi
      rcases interrupted_bind hi with h | ⟨f, _, h1, h⟩
      · exact interrupted_read_op rfl h
      · cases h1
        cases hp : kvGet s.policies pid with
        | none =>
          rw [show ((Op.polGet pid).exec s).1 = _ from hp] at h
          exact interrupted_done h
        | some rec =>
          rw [show ((Op.polGet pid).exec s).1 = _ from hp] at h
          dsimp only at h
          cases ha : allowedRelationship rel (newLut rec.policy) with
          | err => rw [ha] at h; exact interrupted_done h
          | panic => rw [ha] at h; exact interrupted_done h
          | fuel => rw [ha] at h; exact interrupted_done h
          | ok u =>
            obtain ⟨q, e, rfl, he⟩ := allowed_complete ha
            exact absurd (congrArg Prod.fst (serve_set_ok hp ha he)) (hrun _)
    case deleteRelationship pid rel =>
      replace hi : ((Repo.deleteRelationship env.H pid rel >>= fun x => pure (Answer.found x) : Prog Answer)).Interrupted s t := hi
      unfold Repo.deleteRelationship at hi
      cases rel with
      | none => exact interrupted_done hi
      | some r =>
        rcases toInternal_normal_or_panic r with ⟨e, he⟩ | hpn
        · exact absurd (congrArg Prod.fst (serve_delete he)) (hrun _)
        · rw [show Res.deref (some r) = .ok r from rfl, lift_ok_bind, hpn] at hi
          exact interrupted_done hi
    case deleteRelationships pid sel => exact C30_refused_changes_nothing env s t pid sel hrun ht

theorem created_of {env : Env} {s : Store} {now : Timestamp} {d : Option PolicyDefinition} {a : Bytes} {ans : Answer}
    (h : (serve env (.createPolicy now d a) s).1 = .ok ans) : ∃ rec, ans = .created rec := by
  simp only [serve, Call.prog] at h
  rw [run_map] at h
  revert h
  generalize Prog.run _ _ = y
  obtain ⟨y1, y2⟩ := y
  cases y1 <;> intro h <;> cases h
  exact ⟨_, rfl⟩

theorem updated_of {env : Env} {s : Store} {d : Option PolicyDefinition} {a : Bytes} {ans : Answer}
    (h : (serve env (.updatePolicy d a) s).1 = .ok ans) : ans = .updated := by
  simp only [serve, Call.prog] at h
  rw [run_map] at h
  revert h
  generalize Prog.run _ _ = y
  obtain ⟨y1, y2⟩ := y
  cases y1 <;> intro h <;> cases h
  rfl

/-- C94: repeating an interrupted CreatePolicy, UpdatePolicy, SetRelationship or DeleteRelationship leaves exactly the store the uninterrupted request would have left; and it is refused
only if the first one would have been, except that CreatePolicy is told that the policy exists when the interrupted one had stored it. -/
theorem C94_retry (env : Env) (s t : Store) (c : Call) (hs : WF env s) (hd : ∀ id, c ≠ .deletePolicy id) (hb : ∀ pid sel, c ≠ .deleteRelationships pid sel)
    (ht : Leaves env c s t) :
    (serve env c t).2 = (serve env c s).2 ∧
    ((∀ ans, (serve env c s).1 ≠ .ok ans) → (serve env c t).1 = (serve env c s).1) ∧
    ((∃ ans, (serve env c s).1 = .ok ans) → (∃ ans, (serve env c t).1 = .ok ans) ∨
      (∃ rec, (serve env c s).1 = .ok (.created rec)) ∧ (serve env c t).1 = .err .policyExists ∧ t = (serve env c s).2) := by
  by_cases hok : ∃ ans, (serve env c s).1 = .ok ans
  · obtain ⟨ans, hok⟩ := hok
    suffices hsuf : (serve env c t).2 = (serve env c s).2 ∧ ((∃ ans, (serve env c t).1 = .ok ans) ∨
      (∃ rec, (serve env c s).1 = .ok (.created rec)) ∧ (serve env c t).1 = .err .policyExists ∧ t = (serve env c s).2) from
        ⟨hsuf.1, fun h => absurd hok (h ans), fun _ => hsuf.2⟩
    by_cases hread : c.isRead = true
    · have h1 : t = s := by
        obtain ⟨n, rfl⟩ := ht.interrupted
        exact (Call.prog_read env hread).crash (I := fun u => u = s) (fun o u ho hu => by rw [read_exec ho, hu]) n rfl
      subst h1
      exact ⟨rfl, .inl ⟨ans, hok⟩⟩
    · cases c <;> simp only [Call.isRead, not_true_eq_false, Bool.false_eq_true, not_false_eq_true] at hread
      case createPolicy now d a =>
        rcases C94_policy_write_atomic env s t _ (.inl ⟨now, d, a, rfl⟩) ht with rfl | rfl
        · exact ⟨rfl, .inl ⟨ans, hok⟩⟩
        · obtain ⟨h1, _, _, _, h2⟩ := sent_again hs (.createPolicy now d a) now _ _ _ _ rfl rfl
          simp only [servedAt] at h1 h2
          refine ⟨h2 trivial, ?_⟩
          rw [hok] at h1
          obtain ⟨rec, rfl⟩ := created_of hok
          exact .inr ⟨⟨rec, hok⟩, h1, rfl⟩
      case updatePolicy d a =>
        rcases C94_policy_write_atomic env s t _ (.inr ⟨d, a, rfl⟩) ht with rfl | rfl
        · exact ⟨rfl, .inl ⟨ans, hok⟩⟩
        · obtain ⟨h1, _, _, _, h2⟩ := sent_again hs (.updatePolicy d a) 0 _ _ _ _ rfl rfl
          simp only [servedAt] at h1 h2
          refine ⟨h2 trivial, ?_⟩
          rw [hok] at h1
          obtain rfl := updated_of hok
          exact .inl ⟨_, h1⟩
      case deletePolicy id => exact absurd rfl (hd id)
      case deleteRelationships pid sel => exact absurd rfl (hb pid sel)
      case setRelationship now pid rel a =>
        obtain ⟨q, e, rec, rfl, _⟩ := serve_set_inv (show serve env _ s = (_, (serve env _ s).2) from Prod.ext hok rfl)
        obtain ⟨_, _, _, ⟨b, h⟩, _⟩ := C27_set_crash_partial env s _ t now pid q a ans hs (Prod.ext hok rfl) ht
        exact ⟨by rw [h], .inl ⟨_, by rw [h]⟩⟩
      case deleteRelationship pid rel =>
        cases rel with
        | none => cases hok
        | some q =>
          obtain ⟨_, _, _, b, h⟩ := C28_delete_crash_partial env s _ t pid q ans (Prod.ext hok rfl) ht
          exact ⟨by rw [h], .inl ⟨_, by rw [h]⟩⟩
  · have := C94_refused_leaves_nothing env s t c (fun ans h => hok ⟨ans, h⟩) ht
    subst this
    exact ⟨rfl, fun _ => rfl, fun h => absurd h hok⟩

/-- Met: a CreatePolicy that stopped after storing the policy, and one that stopped before; and a refused one. -/
example (H : String → Nat) :
    Leaves (wEnv H) (.createPolicy 5 (some (.policy (docPolicy "p"))) [7]) Store.empty (Store.empty.putPolicy ⟨docPolicy "p", [7], 5⟩) ∧
    Leaves (wEnv H) (.createPolicy 5 (some (.policy (docPolicy "p"))) [7]) Store.empty Store.empty ∧
    Store.empty.putPolicy ⟨docPolicy "p", [7], 5⟩ ≠ Store.empty ∧
    (∀ ans, (serve (wEnv H) (.createPolicy 5 (some (.policy (docPolicy "p"))) [7]) wStore).1 ≠ .ok ans) := by
  have hp : verifyPolicy U0 (docPolicy "p") = .ok () := by decide +kernel
  have h1 : (serve (wEnv H) (.createPolicy 5 (some (.policy (docPolicy "p"))) [7]) Store.empty).2 = Store.empty.putPolicy ⟨docPolicy "p", [7], 5⟩ := by
    rw [serve_create]
    show (match verifyPolicy U0 (docPolicy "p") with
      | .ok () => ((Res.ok (Answer.created ⟨docPolicy "p", [7], 5⟩) : Res Answer), Store.empty.putPolicy ⟨docPolicy "p", [7], 5⟩)
      | .err e => (.err e, Store.empty) | .panic => (.panic, Store.empty) | .fuel => (.fuel, Store.empty)).2 = _
    rw [hp]
  refine ⟨.inl ?_, .inl ⟨0, ?_⟩, ?_, ?_⟩
  · obtain ⟨n, hn⟩ := interrupted_run ((Call.createPolicy 5 (some (.policy (docPolicy "p"))) [7]).prog (wEnv H)) Store.empty
    exact ⟨n, by rw [← hn]; exact h1.symm⟩
  · obtain ⟨n, hn⟩ := interrupted_zero ((Call.createPolicy 5 (some (.policy (docPolicy "p"))) [7]).prog (wEnv H)) Store.empty
    rfl
  · intro h
    have := congrArg (fun s => s.policies.length) h
    simp [Store.putPolicy, kvPut, kvGet, kvInsert, Store.empty] at this
  · intro ans
    rw [serve_create]
    simp only [getPolicyFromDefinition, Res.deref_some, Res.bind_ok]
    rw [show kvGet wStore.policies (docPolicy "p").id = _ from wStore_pol "p" (.inl rfl)]
    exact fun h => by cases h

end Zanzi
