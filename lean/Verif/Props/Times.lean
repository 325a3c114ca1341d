import Verif.Lemmas.Effects
import Verif.Lemmas.Witness
import Verif.Props.Store

/-
C88: records tell when they were created.
-/

namespace Zanzi

open Spec Prog

variable {env : Env}

/-! ### Policies -/

theorem effect_policy {s s' : Store} {c : Call} (h : Effect env s c s') {pid : String} {rec' : PolicyRecord} (hp : kvGet s'.policies pid = some rec') :
    (∃ rec, kvGet s.policies pid = some rec ∧ rec.createdAt = rec'.createdAt) ∨
      (kvGet s.policies pid = none ∧ ∃ now d a, c = .createPolicy now d a ∧ rec'.createdAt = now) := by
  cases h with
  | same => exact .inl ⟨rec', hp, rfl⟩
  | @created now d a p hn =>
    rw [show (s.putPolicy ⟨p, a, now⟩).policies = kvPut strLt s.policies p.id ⟨p, a, now⟩ from rfl, kvGet_put] at hp
    split at hp
    · rename_i h; subst h; cases hp; exact .inr ⟨hn, now, d, a, rfl, rfl⟩
    · exact .inl ⟨rec', hp, rfl⟩
  | @updated d a p rec hn =>
    rw [show (s.putPolicy ⟨p, a, rec.createdAt⟩).policies = kvPut strLt s.policies p.id ⟨p, a, rec.createdAt⟩ from rfl, kvGet_put] at hp
    split at hp
    · rename_i h; subst h; cases hp; exact .inl ⟨rec, hn, rfl⟩
    · exact .inl ⟨rec', hp, rfl⟩
  | put e rec _ => exact .inl ⟨rec', hp, rfl⟩
  | del pid' ks _ => exact .inl ⟨rec', hp, rfl⟩
  | delPolicy id =>
    rw [show (({ s with policies := kvDel s.policies id } : Store).delRels id ((relationships s id).map (relKey env.H))).policies = kvDel s.policies id from rfl, kvGet_del] at hp
    split at hp
    · cases hp
    · exact .inl ⟨rec', hp, rfl⟩

/-- **C88** (policies).  After any history, a policy's creation time is that of the CreatePolicy request since which the policy has existed without interruption: it did not
exist before that request, and after it, through every update, it existed with this creation time. -/
theorem C88_policy_time (cs : List Call) (pid : String) (rec : PolicyRecord) (h : policyAt (runCalls env cs Store.empty).2 pid = some rec) :
    ∃ pre now d a post, cs = pre ++ .createPolicy now d a :: post ∧ rec.createdAt = now ∧ policyAt (runCalls env pre Store.empty).2 pid = none ∧
      ∀ mid, mid <+: post → ∃ rec', policyAt (runCalls env (pre ++ .createPolicy now d a :: mid) Store.empty).2 pid = some rec' ∧ rec'.createdAt = now := by
  have key : ∀ (cs : List Call) (s : Store) (rec : PolicyRecord), kvGet (runCalls env cs s).2.policies pid = some rec →
      (∀ mid, mid <+: cs → ∃ rec', kvGet (runCalls env mid s).2.policies pid = some rec' ∧ rec'.createdAt = rec.createdAt) ∨
      ∃ pre now d a post, cs = pre ++ .createPolicy now d a :: post ∧ rec.createdAt = now ∧ kvGet (runCalls env pre s).2.policies pid = none ∧
        ∀ mid, mid <+: post → ∃ rec', kvGet (runCalls env (pre ++ .createPolicy now d a :: mid) s).2.policies pid = some rec' ∧ rec'.createdAt = now := by
    intro cs
    induction cs with
    | nil =>
      intro s rec h
      refine .inl (fun mid hm => ?_)
      rw [List.prefix_nil] at hm
      subst hm
      exact ⟨rec, h, rfl⟩
    | cons c cs ih =>
      intro s rec h
      rw [runCalls_cons] at h
      rcases ih _ _ h with h1 | ⟨pre, now, d, a, post, rfl, h1, h2, h3⟩
      · obtain ⟨rec1, e1, e2⟩ := h1 [] List.nil_prefix
        rw [runCalls_nil] at e1
        rcases effect_policy (serve_effect env c s) e1 with ⟨rec0, e3, e4⟩ | ⟨e3, now, d, a, rfl, e4⟩
        · refine .inl (fun mid hm => ?_)
          cases mid with
          | nil => exact ⟨rec0, e3, e4.trans e2⟩
          | cons c' mid =>
            obtain ⟨rfl, hm'⟩ := List.cons_prefix_cons.1 hm
            rw [runCalls_cons]
            exact h1 mid hm'
        · refine .inr ⟨[], now, d, a, cs, rfl, e2.symm.trans e4, e3, fun mid hm => ?_⟩
          obtain ⟨rec', f1, f2⟩ := h1 mid hm
          exact ⟨rec', by rw [List.nil_append, runCalls_cons]; exact f1, f2.trans (e2.symm.trans e4)⟩
      · exact .inr ⟨c :: pre, now, d, a, post, rfl, h1, by rw [runCalls_cons]; exact h2, fun mid hm => by
          obtain ⟨rec', f1, f2⟩ := h3 mid hm
          exact ⟨rec', by rw [List.cons_append, runCalls_cons]; exact f1, f2⟩⟩
  simp only [policyAt_eq] at h ⊢
  rcases key cs _ _ h with h1 | h1
  · obtain ⟨_, h2, _⟩ := h1 [] List.nil_prefix
    cases h2
  · exact h1

/-! ### Relationships -/

/-- Times in a store at time `T`. -/
structure Timed (s : Store) (T : Timestamp) : Prop where
  pol : ∀ pid rec, kvGet s.policies pid = some rec → rec.createdAt ≤ T
  data : ∀ k d, kvGet s.data k = some d → d.createdAt ≤ T
  edge : ∀ pid k e, (k, e) ∈ s.edges pid → ∃ rec, kvGet s.policies pid = some rec ∧ ∀ d, kvGet s.data k = some d → rec.createdAt ≤ d.createdAt

theorem Timed.mono {s : Store} {T T' : Timestamp} (h : Timed s T) (hT : T ≤ T') : Timed s T' :=
  ⟨fun pid rec hp => Nat.le_trans (h.pol pid rec hp) hT, fun k d hd => Nat.le_trans (h.data k d hd) hT, h.edge⟩

theorem Timed.delRels {s : Store} {T : Timestamp} (h : Timed s T) (pid : String) (ks : List EdgeKey) : Timed (s.delRels pid ks) T := by
  have hd : ∀ k d, kvGet (s.delRels pid ks).data k = some d → kvGet s.data k = some d := by
    intro k d hk
    rw [kvGet_delRels_data] at hk
    split at hk
    · cases hk
    · exact hk
  refine ⟨h.pol, fun k d hk => h.data k d (hd k d hk), fun q k e he => ?_⟩
  have hm : (k, e) ∈ s.edges q := by
    unfold Store.delRels at he
    dsimp only at he
    split at he
    · rename_i hq; subst hq; exact (List.mem_filter.1 he).1
    · exact he
  obtain ⟨rec, h1, h2⟩ := h.edge q k e hm
  exact ⟨rec, h1, fun d hk => h2 d (hd k d hk)⟩

theorem Timed.putPolicy {s : Store} {T : Timestamp} (h : Timed s T) (rec : PolicyRecord) (hT : rec.createdAt ≤ T)
    (hr : ∀ rec0, kvGet s.policies rec.policy.id = some rec0 → rec0.createdAt = rec.createdAt) : Timed (s.putPolicy rec) T := by
  refine ⟨fun pid rec' hp => ?_, h.data, fun pid k e he => ?_⟩
  · rw [show (s.putPolicy rec).policies = kvPut strLt s.policies rec.policy.id rec from rfl, kvGet_put] at hp
    split at hp
    · cases hp; exact hT
    · exact h.pol _ _ hp
  · obtain ⟨rec0, h1, h2⟩ := h.edge pid k e he
    show ∃ r, kvGet (kvPut strLt s.policies rec.policy.id rec) pid = some r ∧ _
    rw [kvGet_put]
    split
    · rename_i hq; subst hq; exact ⟨rec, rfl, fun d hd => hr _ h1 ▸ h2 d hd⟩
    · exact ⟨rec0, h1, h2⟩

theorem Timed.serve {s : Store} {T T' : Timestamp} (hs : WF env s) (h : Timed s T) (c : Call) (hT : T ≤ T') (hc : ∀ t, stamp c = some t → T ≤ t ∧ t ≤ T') :
    Timed (serve env c s).2 T' := by
  have h := h.mono (Nat.le_refl T)
  have he := serve_effect env c s
  generalize (Zanzi.serve env c s).2 = s' at he
  cases he with
  | same => exact h.mono hT
  | @created now d a p hn => exact (h.mono hT).putPolicy _ (hc now rfl).2 (fun rec0 h0 => by rw [hn] at h0; cases h0)
  | @updated d a p rec hn => exact (h.mono hT).putPolicy _ (show rec.createdAt ≤ T' from Nat.le_trans (h.pol _ _ hn) hT) (fun rec0 h0 => by rw [hn] at h0; cases h0; rfl)
  | @put now pid r a e rec hp =>
    obtain ⟨h1, h2⟩ := hc now rfl
    have hd : ∀ k d, kvGet (s.putRel env.H pid e a now).data k = some d → d.createdAt = now ∨ kvGet s.data k = some d := by
      intro k d hk
      rw [show (s.putRel env.H pid e a now).data = kvPut edgeLt s.data (e.key env.H) ⟨e.key env.H, now, a⟩ from rfl, kvGet_put] at hk
      split at hk
      · cases hk; exact .inl rfl
      · exact .inr hk
    refine ⟨fun pid' rec' hp' => Nat.le_trans (h.pol _ _ hp') hT, fun k d hk => ?_, fun q k e' he' => ?_⟩
    · rcases hd k d hk with hk | hk
      · rw [hk]; exact h2
      · exact Nat.le_trans (h.data k d hk) hT
    · have hq : ∃ rec, kvGet s.policies q = some rec ∧ ((k, e') ∈ s.edges q ∨ k = e.key env.H) := by
        unfold Store.putRel at he'
        dsimp only at he'
        split at he'
        · rename_i hq; subst hq
          rcases mem_kvPut he' with he' | he'
          · exact ⟨rec, hp, .inr (by cases he'; rfl)⟩
          · exact ⟨rec, hp, .inl he'⟩
        · obtain ⟨rec0, h3, _⟩ := h.edge q k e' he'
          exact ⟨rec0, h3, .inl he'⟩
      obtain ⟨rec0, h3, h4⟩ := hq
      refine ⟨rec0, h3, fun d hk => ?_⟩
      have hle := Nat.le_trans (h.pol _ _ h3) h1
      rcases hd k d hk with hk' | hk'
      · rw [hk']; exact hle
      · rcases h4 with h4 | rfl
        · obtain ⟨rec1, h5, h6⟩ := h.edge q k e' h4
          rw [h3] at h5; cases h5
          exact h6 d hk'
        · rw [show (s.putRel env.H pid e a now).data = kvPut edgeLt s.data (e.key env.H) ⟨e.key env.H, now, a⟩ from rfl, kvGet_put, if_pos rfl] at hk
          cases hk
          exact hle
  | del _ pid ks _ => exact (h.mono hT).delRels pid ks
  | delPolicy id =>
    have h' := (h.mono hT).delRels id ((relationships s id).map (relKey env.H))
    refine ⟨fun pid rec hp => ?_, h'.data, fun pid k e he => ?_⟩
    · rw [show (({ s with policies := kvDel s.policies id } : Store).delRels id ((relationships s id).map (relKey env.H))).policies = kvDel s.policies id from rfl, kvGet_del] at hp
      split at hp
      · cases hp
      · exact h'.pol _ _ hp
    · obtain ⟨rec, h1, h2⟩ := h'.edge pid k e he
      refine ⟨rec, ?_, h2⟩
      show kvGet (kvDel s.policies id) pid = some rec
      rw [kvGet_del, if_neg ?_]
      · exact h1
      · rintro rfl
        unfold Store.delRels at he
        dsimp only at he
        rw [if_pos rfl] at he
        obtain ⟨hm, hk⟩ := List.mem_filter.1 he
        refine absurd ?_ (of_decide_eq_true hk)
        exact List.mem_map.2 ⟨_, List.mem_map.2 ⟨_, hm, rfl⟩, hs.mem_relKey hm⟩

theorem timed_run {cs : List Call} {s : Store} {T T' : Timestamp} (hs : WF env s) (h : Timed s T) (ho : InOrder cs) (hlo : ∀ t ∈ cs.filterMap stamp, T ≤ t)
    (hhi : ∀ t ∈ cs.filterMap stamp, t ≤ T') (hT : T ≤ T') : Timed (runCalls env cs s).2 T' := by
  induction cs generalizing s T with
  | nil => exact h.mono hT
  | cons c cs ih =>
    rw [runCalls_cons]
    cases hc : stamp c with
    | none =>
      simp only [InOrder, List.filterMap_cons, hc] at ho hlo hhi
      exact ih (hs.run c) (h.serve hs c (Nat.le_refl T) (fun t ht => by rw [hc] at ht; cases ht)) ho hlo hhi hT
    | some t =>
      simp only [InOrder, List.filterMap_cons, hc, List.pairwise_cons, List.mem_cons, forall_eq_or_imp] at ho hlo hhi
      exact ih (T := t) (hs.run c) (h.serve hs c hlo.1 (fun t' ht => by rw [hc] at ht; cases ht; exact ⟨hlo.1, Nat.le_refl _⟩)) ho.2 ho.1 hhi.2 hhi.1

theorem find_records {s : Store} {pid : String} {sel : Option Selector} {recs : List (Option RelationshipRecord)}
    (h : (serve env (.findRelationshipRecords pid sel) s).1 = .ok (.records recs)) {x : RelationshipRecord} (hx : some x ∈ recs) :
    Present s pid x.relationship ∧ (serve env (.getRelationship pid (some x.relationship)) s).1 = .ok (.relationship (some x)) := by
  have hn : ∃ sp, newSelectorSpec sel = .ok sp := by
    have hrun : serve env (.findRelationshipRecords pid sel) s = Prog.run (do let x ← Service.findRelationshipRecords env pid sel; return Answer.records x) s := rfl
    rw [hrun, run_map] at h
    unfold Service.findRelationshipRecords at h
    rw [run_bind, show (Repo.getPolicy pid).run s = (.ok (kvGet s.policies pid), s) from rfl, andThen_ok] at h
    cases hp : kvGet s.policies pid with
    | none => rw [hp] at h; cases h
    | some rec =>
      rw [hp] at h
      dsimp only at h
      cases hv : validSelector sel rec.policy with
      | err => rw [hv] at h; cases h
      | panic => rw [hv] at h; cases h
      | fuel => rw [hv] at h; cases h
      | ok u =>
        rw [hv, lift_ok_bind] at h
        unfold Repo.findRelationshipRecords Repo.findRelationships at h
        cases hn : newSelectorSpec sel with
        | ok sp => exact ⟨sp, rfl⟩
        | err e => simp [run_bind, hn, run_done] at h
        | panic => simp [run_bind, hn, run_done] at h
        | fuel => simp [run_bind, hn, run_done] at h
  obtain ⟨sp, hn⟩ := hn
  obtain ⟨sel, rfl, hc, hset⟩ := newSelectorSpec_complete hn
  rw [serve_find hc hset] at h
  split at h
  · cases h
  · split at h
    · cases h
      obtain ⟨r, hr, hrx⟩ := List.mem_map.1 hx
      obtain ⟨hp, _⟩ := mem_matching.1 hr
      obtain ⟨e, he⟩ := toInternal_complete.2 (present_complete hp)
      cases hd : kvGet s.data (relKey env.H r) with
      | none => rw [hd] at hrx; cases hrx
      | some d =>
        rw [hd] at hrx
        cases hrx
        rw [relKey_of he] at hd
        exact ⟨hp, by rw [serve_get he, hd]; rfl⟩
    · cases h
    · cases h
    · cases h

/-- **C88** (relationships, partial).  After any history during which the clock did not run backwards, no relationship of a policy is recorded as created before the policy, or after the
last request: neither in what FindRelationshipRecords returns, nor in what GetRelationship returns for a stored relationship.  Missing: that the time is that of the
request since which the relationship exists; it is that of the last request that wrote it (C15_read_until_changed_partial). -/
theorem C88_relationship_time_partial (cs : List Call) (ho : InOrder cs) (T : Timestamp) (hT : ∀ t ∈ cs.filterMap stamp, t ≤ T) (pid : String) (x : RelationshipRecord)
    (h : (∃ sel recs, (serve env (.findRelationshipRecords pid sel) (runCalls env cs Store.empty).2).1 = .ok (.records recs) ∧ some x ∈ recs) ∨
      (∃ r, Present (runCalls env cs Store.empty).2 pid r ∧
        (serve env (.getRelationship pid (some r)) (runCalls env cs Store.empty).2).1 = .ok (.relationship (some x)))) :
    ∃ rec, policyAt (runCalls env cs Store.empty).2 pid = some rec ∧ rec.createdAt ≤ x.createdAt ∧ x.createdAt ≤ T := by
  have hs := (WF.empty env).runCalls cs
  have ht : Timed (runCalls env cs Store.empty).2 T :=
    timed_run (T := 0) (WF.empty env) ⟨fun _ _ h => (by cases h), fun _ _ h => (by cases h), fun _ _ _ h => (by cases h)⟩ ho (fun _ _ => Nat.zero_le _) hT (Nat.zero_le _)
  generalize (runCalls env cs Store.empty).2 = s at hs ht h
  have hg : ∃ r, Present s pid r ∧ (serve env (.getRelationship pid (some r)) s).1 = .ok (.relationship (some x)) := by
    rcases h with ⟨sel, recs, h1, h2⟩ | h
    · obtain ⟨h3, h4⟩ := find_records h1 h2
      exact ⟨_, h3, h4⟩
    · exact h
  obtain ⟨r, hr, hx⟩ := hg
  obtain ⟨⟨k, e⟩, hm, rfl⟩ := List.mem_map.1 hr
  obtain ⟨i, he⟩ := toInternal_complete.2 (present_complete hr)
  have hk : i.key env.H = k := by rw [← relKey_of he]; exact hs.mem_relKey hm
  rw [serve_get he, hk] at hx
  obtain ⟨rec, h1, h2⟩ := ht.edge pid k e hm
  cases hd : kvGet s.data k with
  | none => rw [hd] at hx; cases hx
  | some d =>
    rw [hd] at hx
    cases hx
    exact ⟨rec, by rw [policyAt_eq]; exact h1, h2 d hd, ht.data k d hd⟩

/-- **C88** is violated for relationships: a relationship that was set at time 0, and has existed ever since, is recorded as created at time 5 after it was set again at time 5, although the
second request was told that the relationship existed already. -/
theorem C88_overwritten_violated (H : String → Nat) :
    Present (w1Store H) "p" rA ∧
    (serve (wEnv H) (.setRelationship 0 "p" (some rA) []) wStore).2 = w1Store H ∧
    (serve (wEnv H) (.setRelationship 5 "p" (some rA) []) (w1Store H)).1 = .ok (.overwritten true) ∧
    (serve (wEnv H) (.getRelationship "p" (some rA)) (w1Store H)).1 = .ok (.relationship (some ⟨"p", rA, 0, []⟩)) ∧
    (serve (wEnv H) (.getRelationship "p" (some rA)) (serve (wEnv H) (.setRelationship 5 "p" (some rA) []) (w1Store H)).2).1 =
      .ok (.relationship (some ⟨"p", rA, 5, []⟩)) := by
  obtain ⟨h1, h2⟩ := C15_read_your_write (wEnv H) _ _ 0 "p" rA [] _ (wStore_wf H) (w1_set H)
  have h3 : serve (wEnv H) (.setRelationship 5 "p" (some rA) []) (w1Store H) = (.ok (.overwritten true), (w1Store H).putRel H "p" eA [] 5) := by
    rw [w_set H (s := w1Store H) rfl (.inl rfl) (.inl ⟨rfl, rfl⟩)]
    simp [w1Store, Store.putRel, kvGet_put]
  obtain ⟨h4, _⟩ := C15_read_your_write (wEnv H) _ _ 5 "p" rA [] _ (w1_wf H) h3
  exact ⟨h2, by rw [w1_set], by rw [h3], by rw [h1], by rw [h3, h4]⟩

/-- The hypotheses of C88_policy_time and C88_relationship_time_partial are met: two policies were created at time 0 and a relationship was set at time 0, then at time 5. -/
example (H : String → Nat) :
    let cs : List Call := [.createPolicy 0 (some (.policy (docPolicy "p"))) [], .createPolicy 0 (some (.policy (docPolicy "q"))) [],
      .setRelationship 0 "p" (some rA) [], .setRelationship 5 "p" (some rA) []]
    policyAt (runCalls (wEnv H) cs Store.empty).2 "p" = some ⟨docPolicy "p", [], 0⟩ ∧ InOrder cs ∧ (∀ t ∈ cs.filterMap stamp, t ≤ 5) ∧
      Present (runCalls (wEnv H) cs Store.empty).2 "p" rA ∧
      (serve (wEnv H) (.getRelationship "p" (some rA)) (runCalls (wEnv H) cs Store.empty).2).1 = .ok (.relationship (some ⟨"p", rA, 5, []⟩)) := by
  intro cs
  have h3 : serve (wEnv H) (.setRelationship 5 "p" (some rA) []) (w1Store H) = (.ok (.overwritten true), (w1Store H).putRel H "p" eA [] 5) := by
    rw [w_set H (s := w1Store H) rfl (.inl rfl) (.inl ⟨rfl, rfl⟩)]
    simp [w1Store, Store.putRel, kvGet_put]
  have hr : (runCalls (wEnv H) cs Store.empty).2 = (w1Store H).putRel H "p" eA [] 5 := by
    rw [show cs = [.createPolicy 0 (some (.policy (docPolicy "p"))) [], .createPolicy 0 (some (.policy (docPolicy "q"))) []] ++
      [.setRelationship 0 "p" (some rA) [], .setRelationship 5 "p" (some rA) []] from rfl, runCalls_append, wStore_reached, runCalls_cons, w1_set, runCalls_cons, h3, runCalls_nil]
  obtain ⟨h4, h5⟩ := C15_read_your_write (wEnv H) _ _ 5 "p" rA [] _ (w1_wf H) h3
  rw [hr]
  refine ⟨?_, ?_, ?_, h5, by rw [h4]⟩
  · rw [policyAt_eq]
    exact wStore_pol "p" (.inl rfl)
  · simp [cs, InOrder, stamp]
  · simp [cs, stamp]

end Zanzi
