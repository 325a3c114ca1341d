import Verif.Lemmas.Crash
import Verif.Props.Isolation

/-
C27–C30: requests interrupted by a crash (or, since every request stops at the first storage error, by a storage failure).
-/

namespace Zanzi

open Spec Prog

/-- `t` is a store that serving `c` on `s` can leave behind: the process stopped after some storage call, or a storage call failed. -/
def Leaves (env : Env) (c : Call) (s t : Store) : Prop :=
  (∃ n, t = (c.prog env).crash n s) ∨ ∃ b r, RunF (c.prog env) s b r t

theorem Leaves.interrupted {env : Env} {c : Call} {s t : Store} (h : Leaves env c s t) : (c.prog env).Interrupted s t := by
  rcases h with h | ⟨b, r, h⟩
  · exact h
  · exact (Call.prog_fs env c).interrupted h

/-! ### C27 -/

/-- C27 is violated: if the process stops between the two writes of SetRelationship, the relationship is visible to Check and find, but it
has no record: GetRelationship returns nothing and find returns an empty (nil) record. -/
theorem C27_set_crash_violated (H : String → Nat) : ∃ n t,
    t = ((Call.setRelationship 5 "p" (some rA) [7]).prog (wEnv H)).crash n wStore ∧
    ¬ Present wStore "p" rA ∧ Present t "p" rA ∧
    serve (wEnv H) (.getRelationship "p" (some rA)) t = (.ok (.relationship none), t) ∧
    serve (wEnv H) (.findRelationshipRecords "p" (some allSelector)) t = (.ok (.records [none]), t) := by
  have hint : ((Call.setRelationship 5 "p" (some rA) [7]).prog (wEnv H)).Interrupted wStore (wStore.putEdge H "p" eA) := by
    refine interrupted_left (p := Service.setRelationship (wEnv H) 5 "p" (some rA) [7]) ?_
    unfold Service.setRelationship
    refine interrupted_right (a := kvGet wStore.policies "p") (s' := wStore) rfl ?_
    rw [wStore_pol "p" (.inl rfl)]
    dsimp only
    have ha : allowedRelationship (some rA) (newLut (docPolicy "p")) = .ok () := by decide +kernel
    rw [ha, lift_ok_bind, Res.deref_some, lift_ok_bind]
    unfold Repo.setRelationship
    dsimp only
    rw [eA_of, lift_ok_bind]
    refine interrupted_right (a := kvGet (wStore.edges "p") (eA.key H)) (s' := wStore) rfl ?_
    refine interrupted_right (a := ()) (s' := wStore.putEdge H "p" eA) rfl ?_
    exact interrupted_zero _ _
  obtain ⟨n, hn⟩ := hint
  have hed : (wStore.putEdge H "p" eA).edges "p" = [(eA.key H, eA)] := by
    simp [Store.putEdge, Store.setEdges, wStore, Store.putPolicy, Store.empty, kvPut, kvGet, kvInsert]
  have hrel : relationships (wStore.putEdge H "p" eA) "p" = [rA] := by
    unfold relationships; rw [hed]; rfl
  have hd : kvGet (wStore.putEdge H "p" eA).data (eA.key H) = none := rfl
  refine ⟨n, wStore.putEdge H "p" eA, hn, ?_, ?_, ?_, ?_⟩
  · simp [Present, relationships, wStore, Store.putPolicy, Store.empty]
  · unfold Present; rw [hrel]; simp
  · rw [serve_get eA_of]
    rfl
  · rw [serve_find allSelector_complete.1 allSelector_complete.2, matching_all, hrel]
    have : kvGet (wStore.putEdge H "p" eA).policies "p" = some ⟨docPolicy "p", [], 0⟩ := wStore_pol "p" (.inl rfl)
    rw [this]
    have hv : validSelector (some allSelector) (docPolicy "p") = .ok () := by decide +kernel
    simp only [hv, List.map_cons, List.map_nil]
    rfl

/-- Full claim: SetRelationship is atomic under crashes.  What holds, for a request that would have succeeded with store `s'`: whatever it leaves behind, policies are
unchanged; the relationships of all policies, hence Check and the set of relationships found, are those before or those after; the data records
are those before or those after; data is never written without the relationship; repeating the request gives exactly `s'`; and overwriting a stored
relationship is fully atomic.  Missing: relationship and data record together. -/
theorem C27_set_crash_partial (env : Env) (s s' t : Store) (now : Timestamp) (pid : String) (r : Relationship) (a : Bytes) (ans : Answer)
    (hs : WF env s) (hset : serve env (.setRelationship now pid (some r) a) s = (.ok ans, s'))
    (ht : Leaves env (.setRelationship now pid (some r) a) s t) :
    t.policies = s.policies ∧
    ((∀ q, relationships t q = relationships s q) ∨ (∀ q, relationships t q = relationships s' q)) ∧
    (t.data = s.data ∨ t = s') ∧
    (∃ b, serve env (.setRelationship now pid (some r) a) t = (.ok (.overwritten b), s')) ∧
    (Present s pid r → t = s ∨ t = s') := by
  obtain ⟨r', e, rec, h1, he, hp, ha, _, rfl⟩ := serve_set_inv hset
  cases h1
  have hrel : ∀ q, relationships (s.putEdge env.H pid e) q = relationships (s.putRel env.H pid e a now) q := by
    intro q
    simp only [relationships, Store.putEdge, Store.setEdges, Store.putRel]
  rcases interrupted_set he ht.interrupted with rfl | rfl | rfl
  · exact ⟨rfl, .inl fun _ => rfl, .inl rfl, ⟨_, serve_set_ok hp ha he⟩, fun _ => .inl rfl⟩
  · refine ⟨rfl, .inr hrel, .inl rfl, ⟨(kvGet ((s.putEdge env.H pid e).edges pid) (e.key env.H)).isSome, ?_⟩, ?_⟩
    · rw [serve_set_ok (s := s.putEdge env.H pid e) hp ha he, putRel_putEdge]
    · intro hpr
      left
      have := kvPut_same (lt := edgeLt) (hs.edgeNodup pid) ((hs.present_iff he).1 hpr)
      unfold Store.putEdge Store.setEdges
      rw [this]
      have : (fun q => if q = pid then s.edges pid else s.edges q) = s.edges := by
        funext q; split
        · next h => rw [h]
        · rfl
      rw [this]
  · refine ⟨rfl, .inr fun _ => rfl, .inr rfl,
      ⟨(kvGet ((s.putRel env.H pid e a now).edges pid) (e.key env.H)).isSome, ?_⟩, fun _ => .inr rfl⟩
    rw [serve_set_ok (s := s.putRel env.H pid e a now) hp ha he, putRel_putRel]

/-! ### C28 -/

/-- C28 is violated: if the process stops between the two deletions of DeleteRelationship, the relationship is gone for Check and find, but
GetRelationship still returns its record. -/
theorem C28_delete_crash_violated (H : String → Nat) : ∃ (pre : List Call) (s t : Store) (n : Nat),
    (runCalls (wEnv H) pre Store.empty).2 = s ∧
    t = ((Call.deleteRelationship "p" (some rA)).prog (wEnv H)).crash n s ∧
    Present s "p" rA ∧ ¬ Present t "p" rA ∧
    serve (wEnv H) (.getRelationship "p" (some rA)) t = (.ok (.relationship (some ⟨"p", rA, 1, [7]⟩)), t) := by
  let s : Store := wStore.putRel H "p" eA [7] 1
  have hset : serve (wEnv H) (.setRelationship 1 "p" (some rA) [7]) wStore = (.ok (.overwritten false), s) := by
    rw [w_set H rfl (.inl rfl) (.inl ⟨rfl, rfl⟩)]
    rfl
  have hint : ((Call.deleteRelationship "p" (some rA)).prog (wEnv H)).Interrupted s (s.delEdge "p" (eA.key H)) := by
    refine interrupted_left (p := Repo.deleteRelationship H "p" (some rA)) ?_
    unfold Repo.deleteRelationship
    rw [Res.deref_some, lift_ok_bind, eA_of, lift_ok_bind]
    refine interrupted_right (a := kvGet (s.edges "p") (eA.key H)) (s' := s) rfl ?_
    refine interrupted_right (a := ()) (s' := s.delEdge "p" (eA.key H)) rfl ?_
    exact interrupted_zero _ _
  obtain ⟨n, hn⟩ := hint
  have hed : s.edges "p" = [(eA.key H, eA)] := by
    simp [s, Store.putRel, wStore, Store.putPolicy, Store.empty, kvPut, kvGet, kvInsert]
  have hed' : (s.delEdge "p" (eA.key H)).edges "p" = [] := by
    simp [Store.delEdge, Store.setEdges, hed, kvDel]
  have hda : kvGet (s.delEdge "p" (eA.key H)).data (eA.key H) = some ⟨eA.key H, 1, [7]⟩ := by
    simp [s, Store.delEdge, Store.setEdges, Store.putRel, kvGet_put]
  refine ⟨_, s, s.delEdge "p" (eA.key H), n, (w_reach H [.setRelationship 1 "p" (some rA) [7]]).trans ?_, hn, ?_, ?_, ?_⟩
  · rw [runCalls_cons, hset, runCalls_nil]
  · unfold Present relationships; rw [hed]; simp [eA, rA, fromInternal, subjectFromInternal]
  · unfold Present relationships; rw [hed']; simp
  · rw [serve_get eA_of]
    show (Res.ok (Answer.relationship ((kvGet (s.delEdge "p" (eA.key H)).data (eA.key H)).map _)), _) = _
    rw [hda]
    rfl

/-- Full claim: an interrupted DeleteRelationship leaves the relationship intact or gone, and repeating it completes the deletion.  What holds: policies are unchanged,
the relationships of all policies are those before or those after; the data records are those before or those after; and repeating the request always succeeds and
gives exactly the store of the uninterrupted request.  Missing: relationship and data record together. -/
theorem C28_delete_crash_partial (env : Env) (s s' t : Store) (pid : String) (r : Relationship) (ans : Answer)
    (hdel : serve env (.deleteRelationship pid (some r)) s = (.ok ans, s'))
    (ht : Leaves env (.deleteRelationship pid (some r)) s t) :
    t.policies = s.policies ∧
    ((∀ q, relationships t q = relationships s q) ∨ (∀ q, relationships t q = relationships s' q)) ∧
    (t.data = s.data ∨ t = s') ∧
    (∃ b, serve env (.deleteRelationship pid (some r)) t = (.ok (.found b), s')) := by
  rcases toInternal_normal_or_panic r with ⟨e, he⟩ | hpn
  · rw [serve_delete he] at hdel
    cases hdel
    have hre : (s.delEdge pid (e.key env.H)).edges = (s.delRels pid [e.key env.H]).edges := by
      simp [Store.delEdge, Store.setEdges, Store.delRels, kvDel]
    have hidem : ∀ x : Store, (x.delRels pid [e.key env.H]).delRels pid [e.key env.H] = x.delRels pid [e.key env.H] := by
      intro x
      unfold Store.delRels
      simp only [if_true, List.filter_filter, Bool.and_self]
      congr 1
      funext q
      split <;> rfl
    rcases interrupted_delete he ht.interrupted with rfl | rfl | rfl
    · exact ⟨rfl, .inl fun _ => rfl, .inl rfl, _, serve_delete he⟩
    · refine ⟨rfl, .inr fun q => ?_, .inl rfl, (kvGet ((s.delEdge pid (e.key env.H)).edges pid) (e.key env.H)).isSome, ?_⟩
      · unfold relationships; rw [hre]
      · have : (s.delEdge pid (e.key env.H)).delRels pid [e.key env.H] = s.delRels pid [e.key env.H] := by
          have h2 := congrArg Store.edges (hidem s)
          unfold Store.delRels at h2 ⊢
          rw [hre]
          unfold Store.delRels
          dsimp only at h2 ⊢
          rw [h2]
          rfl
        rw [serve_delete he, this]
    · refine ⟨rfl, .inr fun _ => rfl, .inr rfl,
        (kvGet ((s.delRels pid [e.key env.H]).edges pid) (e.key env.H)).isSome, ?_⟩
      rw [serve_delete he, hidem]
  · rw [serve_delete_panic hpn] at hdel
    cases hdel

/-! ### C29 -/

/-- C29 is violated: if the process stops right after DeletePolicy removed the policy record, repeating DeletePolicy reports not found and removes nothing, and a later CreatePolicy of
the same id finds the old relationships in place. -/
theorem C29_delete_policy_crash_violated (H : String → Nat) : ∃ (pre : List Call) (s t t' : Store) (n : Nat),
    (runCalls (wEnv H) pre Store.empty).2 = s ∧
    t = ((Call.deletePolicy "p").prog (wEnv H)).crash n s ∧
    policyAt t "p" = none ∧ Present t "p" rA ∧
    serve (wEnv H) (.deletePolicy "p") t = (.ok (.deletedPolicy false 0), t) ∧
    serve (wEnv H) (.createPolicy 9 (some (.policy (docPolicy "p"))) []) t = (.ok (.created ⟨docPolicy "p", [], 9⟩), t') ∧
    Present t' "p" rA := by
  let s : Store := wStore.putRel H "p" eA [7] 1
  let t : Store := { s with policies := kvDel s.policies "p" }
  have hset : serve (wEnv H) (.setRelationship 1 "p" (some rA) [7]) wStore = (.ok (.overwritten false), s) := by
    rw [w_set H rfl (.inl rfl) (.inl ⟨rfl, rfl⟩)]
    rfl
  have hint : ((Call.deletePolicy "p").prog (wEnv H)).Interrupted s t := by
    refine interrupted_left (p := Service.deletePolicy (wEnv H) "p") ?_
    unfold Service.deletePolicy
    refine interrupted_right (p := Repo.deletePolicy "p") (a := true) (s' := t) ?_ (interrupted_zero _ _)
    unfold Repo.deletePolicy
    have : (kvGet s.policies "p").isSome = true := by
      rw [show kvGet s.policies "p" = _ from wStore_pol "p" (.inl rfl)]; rfl
    rw [run_bind, run_polHas, andThen_ok, this]
    rfl
  obtain ⟨n, hn⟩ := hint
  have hpol : kvGet t.policies "p" = none := by
    show kvGet (kvDel s.policies "p") "p" = none
    rw [kvGet_del, if_pos rfl]
  have hed : ∀ x : Store, x.edges = s.edges → Present x "p" rA := by
    intro x hx
    have : s.edges "p" = [(eA.key H, eA)] := by
      simp [s, Store.putRel, wStore, Store.putPolicy, Store.empty, kvPut, kvGet, kvInsert]
    unfold Present relationships; rw [hx, this]; simp [eA, rA, fromInternal, subjectFromInternal]
  refine ⟨_, s, t, t.putPolicy ⟨docPolicy "p", [], 9⟩, n, (w_reach H [.setRelationship 1 "p" (some rA) [7]]).trans ?_, hn, ?_, hed t rfl, ?_, ?_,
    hed _ rfl⟩
  · rw [runCalls_cons, hset, runCalls_nil]
  · rw [policyAt_eq, hpol]
  · rw [serve_deletePolicy, hpol]; rfl
  · have hv : verifyPolicy U0 (docPolicy "p") = .ok () := by decide +kernel
    rw [serve_create]
    simp only [getPolicyFromDefinition, Res.deref_some, Res.bind_ok, wEnv, hv]
    rw [show kvGet t.policies (docPolicy "p").id = none from hpol]

/-- Full claim: repeating an interrupted DeletePolicy finishes the job.  What holds, whatever an interrupted DeletePolicy leaves behind: other policies and their relationships are untouched; no
relationship is added; if the policy record is still there then nothing happened at all, and repeating gives exactly the uninterrupted outcome; and DeleteRelationships with the all-selector
always removes the leftovers.  Missing: repeating DeletePolicy when the record is already gone. -/
theorem C29_delete_policy_crash_partial (env : Env) (s t : Store) (id : String) (hs : WF env s) (ht : Leaves env (.deletePolicy id) s t) :
    (∀ q, q ≠ id → policyAt t q = policyAt s q ∧ relationships t q = relationships s q) ∧
    (∀ r, Present t id r → Present s id r) ∧
    ((policyAt t id).isSome = true → t = s) ∧
    (∃ m t', serve env (.deleteRelationships id (some allSelector)) t = (.ok (.affected m), t') ∧ (∀ r, ¬ Present t' id r) ∧
      ∀ q, q ≠ id → relationships t' q = relationships s q) := by
  have hwt : WF env t := hs.interrupted ht.interrupted
  obtain ⟨l, t', h1, _, _, h2, h3, _⟩ := C19_bulk_delete_partial env t id allSelector hwt allSelector_complete.1 allSelector_complete.2
  have hlast : ∀ r, ¬ Present t' id r := fun r hr => ((h2 r).1 hr).2 (matches_all r)
  simp only [policyAt_eq]
  rcases interrupted_deletePolicy ht.interrupted with rfl | ⟨hp, hth⟩
  · exact ⟨fun _ _ => ⟨rfl, rfl⟩, fun _ h => h, fun _ => rfl, _, t', h1, hlast, h3⟩
  · have hrel : ∀ q, q ≠ id → relationships t q = relationships s q := by
      intro q hq
      unfold relationships
      rw [hth.other q hq]
    refine ⟨fun q hq => ⟨?_, hrel q hq⟩, ?_, ?_, _, t', h1, hlast, fun q hq => (h3 q hq).trans (hrel q hq)⟩
    · rw [hth.pol, kvGet_del, if_neg hq]
    · intro r hr
      obtain ⟨p, hp, rfl⟩ := List.mem_map.1 hr
      exact List.mem_map.2 ⟨p, hth.sub p hp, rfl⟩
    · intro h
      rw [hth.pol, kvGet_del, if_pos rfl] at h
      cases h

/-! ### C30 -/

/-- Whatever an interrupted DeleteRelationships leaves behind: no relationship outside the selector is lost, in any policy, none is added, policies are unchanged, and running it again succeeds and leaves exactly
the relationships of an uninterrupted run, in every policy. -/
theorem C30_bulk_delete_resumable (env : Env) (s s' t : Store) (pid : String) (sel : Selector) (ans : Answer) (hs : WF env s)
    (hrun : serve env (.deleteRelationships pid (some sel)) s = (.ok ans, s'))
    (ht : Leaves env (.deleteRelationships pid (some sel)) s t) :
    t.policies = s.policies ∧
    (∀ q r, Present s q r → ¬ (q = pid ∧ Matches sel r) → Present t q r) ∧
    (∀ q r, Present t q r → Present s q r) ∧
    ∃ m t', serve env (.deleteRelationships pid (some sel)) t = (.ok (.affected m), t') ∧ t'.policies = s'.policies ∧
      ∀ q r, Present t' q r ↔ Present s' q r := by
  have hsel : SelectorComplete sel ∧ SelectorSet sel := by
    rcases serve_bulk_cases (env := env) (s := s) pid (some sel) with ⟨x, hx, h⟩ | ⟨h, _⟩
    · cases hx; exact h
    · rw [hrun] at h; exact absurd rfl (h ans)
  obtain ⟨hc, hset⟩ := hsel
  have hwt : WF env t := hs.interrupted ht.interrupted
  have hth := interrupted_bulk hc hset ht.interrupted
  obtain ⟨l, s1, h1, _, _, h2, h3, h4⟩ := C19_bulk_delete_partial env s pid sel hs hc hset
  obtain ⟨l', t', g1, _, _, g2, g3, g4⟩ := C19_bulk_delete_partial env t pid sel hwt hc hset
  rw [hrun] at h1
  cases h1
  have hother : ∀ q, q ≠ pid → relationships t q = relationships s q := by
    intro q hq; unfold relationships; rw [hth.other q hq]
  have hsub : ∀ q r, Present t q r → Present s q r := by
    intro q r hr
    by_cases hq : q = pid
    · subst hq
      obtain ⟨p, hp, rfl⟩ := List.mem_map.1 hr
      exact List.mem_map.2 ⟨p, hth.sub p hp, rfl⟩
    · unfold Present at hr ⊢; rw [hother q hq] at hr; exact hr
  have hkeep : ∀ q r, Present s q r → ¬ (q = pid ∧ Matches sel r) → Present t q r := by
    intro q r hr hn
    by_cases hq : q = pid
    · subst hq
      obtain ⟨p, hp, rfl⟩ := List.mem_map.1 hr
      refine List.mem_map.2 ⟨p, hth.keep p hp ?_, rfl⟩
      intro hk
      obtain ⟨x, hx, hkx⟩ := List.mem_map.1 hk
      obtain ⟨hxp, hxm⟩ := mem_matching.1 hx
      obtain ⟨p', hp', rfl⟩ := List.mem_map.1 hxp
      rw [hs.mem_relKey hp'] at hkx
      have e1 := mem_kvGet (hs.edgeNodup q) (show (p'.1, p'.2) ∈ s.edges q from hp')
      have e2 := mem_kvGet (hs.edgeNodup q) (show (p.1, p.2) ∈ s.edges q from hp)
      rw [hkx, e2] at e1
      have e3 : p.2 = p'.2 := Option.some.inj e1
      exact hn ⟨rfl, by rw [e3]; exact hxm⟩
    · unfold Present at hr ⊢; rw [hother q hq]; exact hr
  refine ⟨hth.pol, hkeep, hsub, _, t', g1, ?_, ?_⟩
  · rw [g4, h4, hth.pol]
  · intro q r
    by_cases hq : q = pid
    · subst hq
      rw [g2, h2]
      constructor
      · rintro ⟨a, b⟩; exact ⟨hsub _ _ a, b⟩
      · rintro ⟨a, b⟩; exact ⟨hkeep _ _ a (fun h => b h.2), b⟩
    · unfold Present
      rw [g3 q hq, h3 q hq, hother q hq]

/-- The hypotheses are met by every crash point of the calls used in the counterexamples. -/
example (H : String → Nat) (n : Nat) : Leaves (wEnv H) (.deleteRelationships "p" (some allSelector)) wStore
    (((Call.deleteRelationships "p" (some allSelector)).prog (wEnv H)).crash n wStore) ∧
    ∃ ans s', serve (wEnv H) (.deleteRelationships "p" (some allSelector)) wStore = (.ok ans, s') :=
  ⟨.inl ⟨n, rfl⟩, _, _, serve_deleteMatching allSelector_complete.1 allSelector_complete.2 _⟩

example (H : String → Nat) : ∃ ans s', serve (wEnv H) (.setRelationship 5 "p" (some rA) [7]) wStore = (.ok ans, s') ∧
    Leaves (wEnv H) (.setRelationship 5 "p" (some rA) [7]) wStore s' := by
  refine ⟨_, _, w_set H rfl (.inl rfl) (.inl ⟨rfl, rfl⟩) 5 [7],
    .inr ⟨false, .ok (.overwritten (kvGet (wStore.edges "p") (eA.key H)).isSome), ?_⟩⟩
  have := runF_of_run ((Call.setRelationship 5 "p" (some rA) [7]).prog (wEnv H)) wStore
  rw [show Prog.run _ wStore = _ from w_set H rfl (.inl rfl) (.inl ⟨rfl, rfl⟩) 5 [7]] at this
  exact this

end Zanzi
