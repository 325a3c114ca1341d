import Verif.Props.Store

/-
Properties of policy records: C22–C25.
-/

namespace Zanzi

open Spec

/-! ### C22: listing -/

/-- ListPolicyIds lists exactly the ids of stored policies, in strictly increasing order. -/
theorem C22_list_state (env : Env) (s : Store) (hs : WF env s) :
    ∃ l, serve env .listPolicyIds s = (.ok (.ids l), s) ∧ l.Pairwise (· < ·) ∧
      ∀ id, id ∈ l ↔ (policyAt s id).isSome = true := by
  refine ⟨_, serve_listPolicyIds, ?_, ?_⟩
  · have := hs.polSorted
    unfold KeysSorted strLt at this
    rw [List.pairwise_map]
    exact this.imp (by simp)
  · intro id
    rw [policyAt_eq, kvGet_isSome_iff]
    simp

example (H : String → Nat) : WF (wEnv H) wStore ∧ serve (wEnv H) .listPolicyIds wStore = (.ok (.ids ["p", "q"]), wStore) :=
  ⟨wStore_wf H, rfl⟩

/-- How one answered call changes the set of live policies. -/
def liveStep (live : String → Prop) : Call × Res Answer → String → Prop
  | (.createPolicy _ _ _, .ok (.created rec)) => fun id => id = rec.policy.id ∨ live id
  | (.deletePolicy d, .ok (.deletedPolicy true _)) => fun id => id ≠ d ∧ live id
  | _ => live

/-- Ids created and not since deleted, according to a history of calls and answers. -/
def liveAfter : List (Call × Res Answer) → (String → Prop) → String → Prop
  | [], live => live
  | x :: h, live => liveAfter h (liveStep live x)

theorem live_step (env : Env) (s : Store) (c : Call) :
    liveStep (fun id => (kvGet s.policies id).isSome = true) (c, (serve env c s).1) =
      fun id => (kvGet (serve env c s).2.policies id).isSome = true := by
  by_cases hr : c.isRead = true
  · have h1 := (Call.prog_read env hr).run s
    rw [show ((c.prog env).run s).2 = s from h1]
    cases c <;> simp [Call.isRead] at hr <;> rfl
  · cases c <;> simp [Call.isRead] at hr
    case createPolicy now d a =>
      rw [serve_create]
      cases getPolicyFromDefinition env d with
      | err => rfl
      | panic => rfl
      | fuel => rfl
      | ok p =>
        dsimp only
        cases hk : kvGet s.policies p.id with
        | some _ => rfl
        | none =>
          dsimp only
          cases verifyPolicy env.U p with
          | err => rfl
          | panic => rfl
          | fuel => rfl
          | ok u =>
            funext id
            simp only [liveStep, Store.putPolicy, kvGet_put]
            by_cases h : id = p.id <;> simp [h]
    case updatePolicy d a =>
      rw [serve_update]
      cases getPolicyFromDefinition env d with
      | err => rfl
      | panic => rfl
      | fuel => rfl
      | ok p =>
        dsimp only
        cases hk : kvGet s.policies p.id with
        | none => rfl
        | some rec =>
          dsimp only
          cases verifyPolicy env.U p with
          | err => rfl
          | panic => rfl
          | fuel => rfl
          | ok u =>
            funext id
            simp only [liveStep, Store.putPolicy, kvGet_put]
            by_cases h : id = p.id <;> simp [h, hk]
    case deletePolicy d =>
      rw [serve_deletePolicy]
      split
      · funext id
        simp only [liveStep, Store.delRels, kvGet_del]
        by_cases h : id = d <;> simp [h]
      · rfl
    case setRelationship now pid r a =>
      have hp : (serve env (.setRelationship now pid r a) s).2.policies = s.policies := by
        cases hs : serve env (.setRelationship now pid r a) s with
        | mk res s' =>
          cases res with
          | ok ans => obtain ⟨r', e, rec, rfl, he, _, _, _, rfl⟩ := serve_set_inv hs; rfl
          | err => rw [serve_set_unchanged hs (by simp)]
          | panic => rw [serve_set_unchanged hs (by simp)]
          | fuel => rw [serve_set_unchanged hs (by simp)]
      rw [hp]
      rfl
    case deleteRelationship pid r =>
      have hp : (serve env (.deleteRelationship pid r) s).2.policies = s.policies := by
        cases r with
        | none => rfl
        | some r =>
          rcases toInternal_normal_or_panic r with ⟨e, he⟩ | he
          · rw [serve_delete he]; rfl
          · rw [serve_delete_panic he]
      rw [hp]
      rfl
    case deleteRelationships pid sel =>
      have hp : (serve env (.deleteRelationships pid sel) s).2.policies = s.policies := by
        rcases serve_bulk_cases (env := env) (s := s) pid sel with ⟨x, rfl, h1, h2⟩ | h1
        · rw [serve_deleteMatching h1 h2]; rfl
        · rw [h1.2]
      rw [hp]
      rfl

/-- After any sequence of API calls on a fresh store, ListPolicyIds returns exactly the ids created and not since deleted,
each once, in increasing order. -/
theorem C22_list_history (env : Env) (cs : List Call) :
    ∃ l, (serve env .listPolicyIds (runCalls env cs Store.empty).2).1 = .ok (.ids l) ∧ l.Pairwise (· < ·) ∧
      ∀ id, id ∈ l ↔ liveAfter (cs.zip (runCalls env cs Store.empty).1) (fun _ => False) id := by
  obtain ⟨l, h1, h2, h3⟩ := C22_list_state env _ ((WF.empty env).runCalls cs)
  refine ⟨l, by rw [h1], h2, fun id => (h3 id).trans ?_⟩
  rw [policyAt_eq]
  have key : ∀ (cs : List Call) (s : Store), liveAfter (cs.zip (runCalls env cs s).1) (fun id => (kvGet s.policies id).isSome = true) =
      fun id => (kvGet (runCalls env cs s).2.policies id).isSome = true := by
    intro cs
    induction cs with
    | nil => intro s; rfl
    | cons c cs ih =>
      intro s
      show liveAfter (cs.zip (runCalls env cs (serve env c s).2).1) (liveStep _ (c, (serve env c s).1)) = _
      rw [live_step, ih]
      rfl
  have h0 : (fun _ : String => False) = fun id => (kvGet Store.empty.policies id).isSome = true := by
    funext id; simp [Store.empty, kvGet]
  rw [h0, key]

/-! ### C23: create -/

/-- CreatePolicy on an existing id fails and leaves the store untouched; on a free id with a valid policy it succeeds, GetPolicy returns the
record, and nothing else changes. -/
theorem C23_create_exclusive (env : Env) (s : Store) (now : Timestamp) (d : Option PolicyDefinition) (a : Bytes) (p : Policy)
    (hd : Defines env d p) :
    ((policyAt s p.id).isSome = true → serve env (.createPolicy now d a) s = (.err .policyExists, s)) ∧
    (policyAt s p.id = none → ValidPolicy env.U p → ∃ s',
      serve env (.createPolicy now d a) s = (.ok (.created ⟨p, a, now⟩), s') ∧
      serve env (.getPolicy p.id) s' = (.ok (.policy (some ⟨p, a, now⟩)), s') ∧
      (∀ id, id ≠ p.id → policyAt s' id = policyAt s id) ∧ s'.edges = s.edges ∧ s'.data = s.data) ∧
    (policyAt s p.id = none → ¬ ValidPolicy env.U p → ∀ r s', serve env (.createPolicy now d a) s = (r, s') →
      (∀ ans, r ≠ .ok ans) ∧ s' = s) := by
  rw [serve_create, getPolicyFromDefinition_ok_iff.2 hd]
  simp only [policyAt_eq]
  refine ⟨?_, ?_, ?_⟩
  · intro h
    obtain ⟨x, hx⟩ := Option.isSome_iff_exists.1 h
    rw [hx]
  · intro h hv
    rw [h]
    dsimp only
    rw [(C09_validation_exact env.U p).2 hv]
    refine ⟨_, rfl, ?_, ?_, rfl, rfl⟩
    · rw [serve_getPolicy]; simp [Store.putPolicy, kvGet_put]
    · intro id hid; simp [Store.putPolicy, kvGet_put, hid]
  · intro h hv
    rw [h]
    dsimp only
    cases hver : verifyPolicy env.U p with
    | ok => exact absurd ((C09_validation_exact env.U p).1 hver) hv
    | err => rintro r s' h; cases h; simp
    | panic => rintro r s' h; cases h; simp
    | fuel => rintro r s' h; cases h; simp

example (H : String → Nat) : Defines (wEnv H) (some (.policy (docPolicy "p"))) (docPolicy "p") ∧
    (policyAt wStore "p").isSome = true ∧ policyAt Store.empty "p" = none ∧ ValidPolicy U0 (docPolicy "p") ∧
    ¬ ValidPolicy U0 { docPolicy "p" with resources := (docPolicy "p").resources ++ (docPolicy "p").resources } := by
  refine ⟨?_, ?_, ?_, (C09_validation_exact _ _).1 (by decide +kernel), fun h => ?_⟩
  · simp [Defines]
  · rw [policyAt_eq, wStore_pol "p" (.inl rfl)]
    rfl
  · rw [policyAt_eq]
    rfl
  · have := (C09_validation_exact _ _).2 h
    revert this
    decide +kernel

/-! ### C24: update -/

/-- UpdatePolicy on an unknown id fails; on a known id with a valid policy it replaces policy and data, keeps the creation
time, and leaves everything else alone. -/
theorem C24_update (env : Env) (s : Store) (d : Option PolicyDefinition) (a : Bytes) (p : Policy) (hd : Defines env d p) :
    (policyAt s p.id = none → serve env (.updatePolicy d a) s = (.err .policyNotFound, s)) ∧
    (∀ rec, policyAt s p.id = some rec → ValidPolicy env.U p → ∃ s',
      serve env (.updatePolicy d a) s = (.ok .updated, s') ∧
      serve env (.getPolicy p.id) s' = (.ok (.policy (some ⟨p, a, rec.createdAt⟩)), s') ∧
      (∀ id, id ≠ p.id → policyAt s' id = policyAt s id) ∧ s'.edges = s.edges ∧ s'.data = s.data) ∧
    (∀ rec, policyAt s p.id = some rec → ¬ ValidPolicy env.U p → ∀ r s', serve env (.updatePolicy d a) s = (r, s') →
      (∀ ans, r ≠ .ok ans) ∧ s' = s) := by
  rw [serve_update, getPolicyFromDefinition_ok_iff.2 hd]
  simp only [policyAt_eq]
  refine ⟨?_, ?_, ?_⟩
  · intro h; rw [h]
  · intro rec h hv
    rw [h]
    dsimp only
    rw [(C09_validation_exact env.U p).2 hv]
    refine ⟨_, rfl, ?_, ?_, rfl, rfl⟩
    · rw [serve_getPolicy]; simp [Store.putPolicy, kvGet_put]
    · intro id hid; simp [Store.putPolicy, kvGet_put, hid]
  · intro rec h hv
    rw [h]
    dsimp only
    cases hver : verifyPolicy env.U p with
    | ok => exact absurd ((C09_validation_exact env.U p).1 hver) hv
    | err => rintro r s' h; cases h; simp
    | panic => rintro r s' h; cases h; simp
    | fuel => rintro r s' h; cases h; simp

example (H : String → Nat) : ∃ s', serve (wEnv H) (.updatePolicy (some (.policy (docPolicy "q"))) [9]) wStore = (.ok .updated, s') ∧
    policyAt s' "q" = some ⟨docPolicy "q", [9], 0⟩ := by
  have hd : Defines (wEnv H) (some (.policy (docPolicy "q"))) (docPolicy "q") := by simp [Defines]
  have hp : policyAt wStore "q" = some ⟨docPolicy "q", [], 0⟩ := by rw [policyAt_eq]; exact wStore_pol "q" (.inr rfl)
  obtain ⟨s', h1, h2, _⟩ := (C24_update (wEnv H) wStore _ [9] _ hd).2.1 _ hp ((C09_validation_exact U0 _).1 (by decide +kernel))
  refine ⟨s', h1, ?_⟩
  rw [serve_getPolicy] at h2
  rw [policyAt_eq]
  exact Answer.policy.inj (Res.ok.inj (Prod.mk.inj h2).1)

/-! ### C25: deleting a policy -/

theorem edges_delAll {env : Env} {s : Store} (hs : WF env s) (id : String) :
    (s.delRels id ((relationships s id).map (relKey env.H))).edges id = [] := by
  have : (s.delRels id ((relationships s id).map (relKey env.H))).edges id =
      (s.edges id).filter (fun p => decide (p.1 ∉ (relationships s id).map (relKey env.H))) := by
    simp [Store.delRels]
  rw [this, List.filter_eq_nil_iff]
  intro p hp
  simp only [decide_eq_true_eq]
  have hm : fromInternal p.2 ∈ relationships s id := List.mem_map_of_mem (f := fun p => fromInternal p.2) hp
  exact fun h => h (List.mem_map.2 ⟨fromInternal p.2, hm, hs.mem_relKey hp⟩)

/-- DeletePolicy on a stored id reports found and the number of its relationships; afterwards the policy and all its relationships are gone and
other policies and their relationships are unchanged; whatever is created later under the id starts with no relationship.  On an unknown id it
reports not found and changes nothing. -/
theorem C25_delete_policy (env : Env) (s : Store) (id : String) (hs : WF env s) :
    (policyAt s id = none → serve env (.deletePolicy id) s = (.ok (.deletedPolicy false 0), s)) ∧
    ((policyAt s id).isSome = true → ∃ s',
      serve env (.deletePolicy id) s = (.ok (.deletedPolicy true (relationships s id).length), s') ∧
      (relationships s id).Nodup ∧
      policyAt s' id = none ∧ (∀ r, ¬ Present s' id r) ∧
      (∀ q, q ≠ id → policyAt s' q = policyAt s q ∧ relationships s' q = relationships s q) ∧
      (∀ now d a rec s'', serve env (.createPolicy now d a) s' = (.ok (.created rec), s'') → ∀ r, ¬ Present s'' id r)) := by
  simp only [policyAt_eq]
  refine ⟨?_, ?_⟩
  · intro h; rw [serve_deletePolicy, h]; rfl
  · intro h
    have hs1 : WF env ({ s with policies := kvDel s.policies id } : Store) := WF.exec (.polDel id) s trivial hs
    refine ⟨_, by rw [serve_deletePolicy, h]; rfl, hs.relationships_nodup id, ?_, ?_, ?_, ?_⟩
    · simp [Store.delRels, kvGet_del]
    · intro r hr
      unfold Present relationships at hr
      have := edges_delAll hs1 id
      rw [show relationships { s with policies := kvDel s.policies id } id = relationships s id from rfl] at this
      erw [this] at hr
      simp at hr
    · intro q hq
      refine ⟨?_, ?_⟩
      · simp [Store.delRels, kvGet_del, hq]
      · exact relationships_delRels_other _ hq _
    · intro now d a rec s'' hc r hr
      have he : s''.edges = ((({ s with policies := kvDel s.policies id } : Store).delRels id ((relationships s id).map (relKey env.H)))).edges := by
        rw [serve_create] at hc
        split at hc
        · split at hc
          · cases hc
          · split at hc <;> cases hc
            rfl
        all_goals cases hc
      unfold Present relationships at hr
      have := edges_delAll hs1 id
      rw [show relationships { s with policies := kvDel s.policies id } id = relationships s id from rfl] at this
      rw [he] at hr
      erw [this] at hr
      simp at hr

example (H : String → Nat) : WF (wEnv H) (w1Store H) ∧ (policyAt (w1Store H) "p").isSome = true ∧ relationships (w1Store H) "p" = [rA] ∧
    policyAt (w1Store H) "unknown" = none := by
  refine ⟨w1_wf H, ?_, w1_relationships H, ?_⟩
  · rw [policyAt_eq, show kvGet (w1Store H).policies "p" = _ from wStore_pol "p" (.inl rfl)]
    rfl
  · rw [policyAt_eq]
    rfl

end Zanzi
