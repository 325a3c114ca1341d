import Verif.Lemmas.Witness
import Verif.Props.Policy

/-
Properties of the policy service served one request at a time: C13–C25, C54.
`WF env s` is the invariant of every store reachable through the API (`Sys.Reachable.wf`, C32).
-/

namespace Zanzi

open Spec

/-! ### C54: storage representation -/

/-- Converting a relationship to its stored form succeeds exactly when no sub-message is missing, and converting back gives the
original; the same for graph nodes. -/
theorem C54_round_trip :
    (∀ r, (∃ e, toInternal r = .ok e) ↔ RelationshipComplete r) ∧
    (∀ r e, toInternal r = .ok e → fromInternal e = r) ∧
    (∀ r r' e, toInternal r = .ok e → toInternal r' = .ok e → r = r') ∧
    (∀ n i, fromPublicNode n = .ok i → toPublicNode i = n) ∧
    (∀ n, (∃ i, fromPublicNode n = .ok i) ↔ ((∀ rel, n ≠ .entitySet none rel) ∧ n ≠ .entity none)) := by
  refine ⟨fun r => toInternal_complete, fun r e => fromInternal_toInternal, fun r r' e => toInternal_inj, ?_, ?_⟩
  · intro n i h
    cases n with
    | unset => simp [fromPublicNode] at h; subst h; rfl
    | wildcard => simp [fromPublicNode] at h; subst h; rfl
    | entity o => cases o <;> simp [fromPublicNode] at h; subst h; rfl
    | entitySet o _ => cases o <;> simp [fromPublicNode] at h; subst h; rfl
  · intro n
    cases n with
    | unset => simp [fromPublicNode]
    | wildcard => simp [fromPublicNode]
    | entity o => cases o <;> simp [fromPublicNode]
    | entitySet o _ => cases o <;> simp [fromPublicNode]

/-- The successors and edges read by the graph are the stored relationships, node by node. -/
theorem C54_graph_view (e : IRel) (r : Relationship) (h : toInternal r = .ok e) :
    (∃ o, r.object = some o ∧ toPublicNode e.source = .entitySet (some o) r.relation) ∧
    toPublicNode e.dest = match r.subject with
      | some (.entity x) => .entity (some x)
      | some (.entitySet x rel) => .entitySet x rel
      | some (.resourceSet n) => .wildcard n
      | _ => .unset := by
  obtain ⟨o, rel, sb⟩ := r
  cases sb with
  | none => simp [toInternal] at h
  | some sb =>
    cases o with
    | none => cases sb <;> simp [toInternal] at h; rename_i x _; cases x <;> simp at h
    | some o =>
      cases sb with
      | unset => simp [toInternal] at h; subst h; exact ⟨⟨o, rfl, rfl⟩, rfl⟩
      | entity => simp [toInternal] at h; subst h; exact ⟨⟨o, rfl, rfl⟩, rfl⟩
      | resourceSet => simp [toInternal] at h; subst h; exact ⟨⟨o, rfl, rfl⟩, rfl⟩
      | entitySet x y =>
        cases x with
        | none => simp [toInternal] at h
        | some x => simp [toInternal] at h; subst h; exact ⟨⟨o, rfl, rfl⟩, rfl⟩

example : RelationshipComplete ⟨some ⟨"file", "readme"⟩, "owner", some (.entitySet (some ⟨"group", "g"⟩) "member")⟩ := by
  simp [RelationshipComplete]

/-! ### C13: rejected requests -/

/-- Any API call that does not answer with a success response (and met no storage fault) leaves the store as it was. -/
theorem C13_rejected_changes_nothing (env : Env) (s : Store) (c : Call) (r : Res Answer) (s' : Store)
    (h : serve env c s = (r, s')) (hr : ∀ a, r ≠ .ok a) : s' = s := by
  by_cases hread : c.isRead = true
  · have := (Call.prog_read env hread).run s
    rw [show (c.prog env).run s = (r, s') from h] at this
    exact this
  · cases c <;> simp [Call.isRead] at hread
    case createPolicy now d a =>
      rw [serve_create] at h
      split at h
      · split at h
        · cases h; rfl
        · split at h <;> cases h <;> first | rfl | exact absurd rfl (hr _)
      all_goals (cases h; rfl)
    case updatePolicy d a =>
      rw [serve_update] at h
      split at h
      · split at h
        · cases h; rfl
        · split at h <;> cases h <;> first | rfl | exact absurd rfl (hr _)
      all_goals (cases h; rfl)
    case deletePolicy id =>
      rw [serve_deletePolicy] at h
      split at h <;> cases h <;> exact absurd rfl (hr _)
    case setRelationship now pid rel a => exact serve_set_unchanged h hr
    case deleteRelationship pid rel =>
      cases rel with
      | none => cases h; rfl
      | some rel =>
        rcases toInternal_normal_or_panic rel with ⟨e, he⟩ | he
        · rw [serve_delete he] at h; cases h; exact absurd rfl (hr _)
        · rw [serve_delete_panic he] at h; cases h; rfl
    case deleteRelationships pid sel =>
      rcases serve_bulk_cases (env := env) (s := s) pid sel with ⟨x, rfl, h1, h2⟩ | h1
      · rw [serve_deleteMatching h1 h2] at h
        cases h
        exact absurd rfl (hr _)
      · rw [h] at h1; exact h1.2

example (H : String → Nat) : serve (wEnv H) (.setRelationship 0 "unknown" (some rA) []) wStore = (.err .policyNotFound, wStore) := by
  rfl

/-! ### C15: read your writes -/

/-- Right after a successful SetRelationship, GetRelationship returns exactly the written record and the relationship is
present. -/
theorem C15_read_your_write (env : Env) (s s' : Store) (now : Timestamp) (pid : String) (r : Relationship) (a : Bytes) (ans : Answer)
    (hs : WF env s) (h : serve env (.setRelationship now pid (some r) a) s = (.ok ans, s')) :
    serve env (.getRelationship pid (some r)) s' = (.ok (.relationship (some ⟨pid, r, now, a⟩)), s') ∧ Present s' pid r := by
  have hs' : WF env s' := by
    have := hs.run (.setRelationship now pid (some r) a)
    rw [show Prog.run _ s = (.ok ans, s') from h] at this
    exact this
  obtain ⟨r', e, rec, h1, he, _, _, _, rfl⟩ := serve_set_inv h
  cases h1
  refine ⟨?_, ?_⟩
  · rw [serve_get he]
    simp [Store.putRel, kvGet_put]
  · rw [hs'.present_iff he]
    simp [Store.putRel, kvGet_put]

example (H : String → Nat) : WF (wEnv H) wStore ∧
    serve (wEnv H) (.setRelationship 0 "p" (some rA) []) wStore = (.ok (.overwritten false), w1Store H) :=
  ⟨wStore_wf H, w1_set H⟩

/-! ### C16, C17: flags -/

/-- No other stored relationship of the policy shares `r`'s storage key. -/
def NoAlias (env : Env) (s : Store) (pid : String) (r : Relationship) : Prop :=
  ∀ r', Present s pid r' → relKey env.H r' = relKey env.H r → r' = r

theorem edge_isSome_iff {env : Env} {s : Store} (hs : WF env s) {pid : String} {r : Relationship} {e : IRel}
    (he : toInternal r = .ok e) (hn : NoAlias env s pid r) :
    (kvGet (s.edges pid) (e.key env.H)).isSome = true ↔ Present s pid r := by
  rw [hs.present_iff he]
  constructor
  · intro h
    obtain ⟨e', he'⟩ := Option.isSome_iff_exists.1 h
    have hm := kvGet_mem he'
    have hb := (hs.edgeNorm pid _ _ hm).back
    have : fromInternal e' = r := by
      apply hn _ (List.mem_map.2 ⟨_, hm, rfl⟩)
      rw [relKey_of hb, relKey_of he]
      exact (hs.edgeKey pid _ _ hm).symm
    rw [this, he] at hb
    cases hb
    exact he'
  · intro h; rw [h]; rfl

/-- Full claim: RecordOverwritten is true exactly when the relationship was present.  Proved under the hypothesis that no
other stored relationship has the same storage key (see C21 for when that holds, and `C16_overwrite_violated`). -/
theorem C16_overwrite_flag_partial (env : Env) (s s' : Store) (now : Timestamp) (pid : String) (r : Relationship) (a : Bytes) (b : Bool)
    (hs : WF env s) (hn : NoAlias env s pid r)
    (h : serve env (.setRelationship now pid (some r) a) s = (.ok (.overwritten b), s')) :
    b = true ↔ Present s pid r := by
  obtain ⟨r', e, rec, h1, he, _, _, h2, _⟩ := serve_set_inv h
  cases h1
  cases h2
  exact edge_isSome_iff hs he hn

example (H : String → Nat) : WF (wEnv H) (w1Store H) ∧ NoAlias (wEnv H) (w1Store H) "p" rA ∧ Present (w1Store H) "p" rA ∧
    ∃ s', serve (wEnv H) (.setRelationship 5 "p" (some rA) [1]) (w1Store H) = (.ok (.overwritten true), s') := by
  have h := w1_relationships H
  refine ⟨w1_wf H, ?_, by unfold Present; rw [h]; simp, ?_⟩
  · intro r' hr' _
    unfold Present at hr'
    rw [h] at hr'
    simpa using hr'
  · refine ⟨(w1Store H).putRel H "p" eA [1] 5, ?_⟩
    rw [w_set H (s := w1Store H) rfl (.inl rfl) (.inl ⟨rfl, rfl⟩)]
    have : (kvGet ((w1Store H).edges "p") (eA.key H)).isSome = true := by simp [w1Store, Store.putRel, kvGet_put]
    rw [this]

/-- DeleteRelationship always succeeds on a complete relationship; afterwards the relationship is absent (for find, check and
get), and repeating the call reports not found and changes nothing. -/
theorem C17_deleted_is_gone (env : Env) (s : Store) (pid : String) (r : Relationship) (hs : WF env s)
    (hc : RelationshipComplete r) :
    ∃ b s', serve env (.deleteRelationship pid (some r)) s = (.ok (.found b), s') ∧
      ¬ Present s' pid r ∧
      serve env (.getRelationship pid (some r)) s' = (.ok (.relationship none), s') ∧
      serve env (.deleteRelationship pid (some r)) s' = (.ok (.found false), s') := by
  obtain ⟨e, he⟩ := toInternal_complete.2 hc
  refine ⟨_, _, serve_delete he, ?_, ?_, ?_⟩
  · have hs' : WF env (s.delRels pid [e.key env.H]) := by
      have := hs.run (.deleteRelationship pid (some r))
      rw [show Prog.run _ s = _ from serve_delete he] at this
      exact this
    rw [hs'.present_iff he]
    intro h
    have := kvGet_mem h
    simp [Store.delRels] at this
  · rw [serve_get he]
    have : kvGet (s.delRels pid [e.key env.H]).data (e.key env.H) = none := by
      rw [kvGet_none_iff]; intro v hv; simp [Store.delRels] at hv
    rw [this]; rfl
  · rw [serve_delete he]
    have h1 : kvGet ((s.delRels pid [e.key env.H]).edges pid) (e.key env.H) = none := by
      rw [kvGet_none_iff]; intro v hv; simp [Store.delRels] at hv
    rw [h1, delRels_delRels]
    simp [Store.delRels]

example (H : String → Nat) : WF (wEnv H) (w1Store H) ∧ RelationshipComplete rA ∧ Present (w1Store H) "p" rA := by
  refine ⟨w1_wf H, by simp [RelationshipComplete, rA], ?_⟩
  unfold Present
  rw [w1_relationships]
  simp

/-- Full claim: Found is true exactly when the relationship was present, and no other relationship disappears.  Proved when no other
stored relationship has the same storage key. -/
theorem C17_found_flag_partial (env : Env) (s s' : Store) (pid : String) (r : Relationship) (b : Bool) (hs : WF env s)
    (hn : NoAlias env s pid r) (h : serve env (.deleteRelationship pid (some r)) s = (.ok (.found b), s')) :
    (b = true ↔ Present s pid r) ∧
    (∀ q r', Present s' q r' ↔ Present s q r' ∧ ¬ (q = pid ∧ r' = r)) ∧ s'.policies = s.policies := by
  rcases toInternal_normal_or_panic r with ⟨e, he⟩ | he
  · have hs' := hs.run (.deleteRelationship pid (some r))
    rw [show Prog.run _ s = _ from serve_delete he] at hs'
    rw [serve_delete he] at h
    cases h
    refine ⟨edge_isSome_iff hs he hn, ?_, rfl⟩
    intro q r'
    by_cases hq : q = pid
    · subst hq
      constructor
      · intro hp
        obtain ⟨p, hp1, hp2⟩ := List.mem_map.1 hp
        have hp3 : p ∈ s.edges q ∧ p.1 ≠ e.key env.H := by simpa [Store.delRels] using hp1
        refine ⟨List.mem_map.2 ⟨p, hp3.1, hp2⟩, ?_⟩
        rintro ⟨-, rfl⟩
        apply hp3.2
        rw [← hs.mem_relKey hp3.1, hp2, relKey_of he]
      · rintro ⟨hp, hne⟩
        obtain ⟨p, hp1, hp2⟩ := List.mem_map.1 hp
        refine List.mem_map.2 ⟨p, ?_, hp2⟩
        have : p.1 ≠ e.key env.H := by
          intro hk
          apply hne
          refine ⟨rfl, hn r' hp ?_⟩
          rw [← hp2, hs.mem_relKey hp1, hk, relKey_of he]
        simpa [Store.delRels] using ⟨hp1, this⟩
    · unfold Present
      rw [relationships_delRels_other s hq]
      simp [hq]
  · exfalso
    rw [serve_delete_panic he] at h
    cases h

example (H : String → Nat) : NoAlias (wEnv H) (w1Store H) "p" rA ∧
    ∃ s', serve (wEnv H) (.deleteRelationship "p" (some rA)) (w1Store H) = (.ok (.found true), s') := by
  refine ⟨?_, (w1Store H).delRels "p" [eA.key H], ?_⟩
  · intro r' hr' _
    unfold Present at hr'
    rw [w1_relationships] at hr'
    simpa using hr'
  · rw [serve_delete eA_of]
    have : (kvGet ((w1Store H).edges "p") (eA.key (wEnv H).H)).isSome = true := by simp [w1Store, Store.putRel, kvGet_put, wEnv]
    rw [this]
    rfl

/-! ### C18, C19: find and bulk delete -/

/-- Full claim: find returns one record per stored matching relationship, nothing else, no duplicates.  Proved for policies whose relationships
all have their data record (C26 gives histories where that holds; `C20_isolation_violated` one where it does not): the
answer is a duplicate-free list, every record is the one GetRelationship returns, and its relationships are exactly the
stored ones that match. -/
theorem C18_find_exact_partial (env : Env) (s : Store) (pid : String) (sel : Selector) (rec : PolicyRecord)
    (hs : WF env s) (hp : policyAt s pid = some rec) (hc : SelectorComplete sel) (hset : SelectorSet sel)
    (hv : validSelector (some sel) rec.policy = .ok ())
    (hd : ∀ r, Present s pid r → serve env (.getRelationship pid (some r)) s ≠ (.ok (.relationship none), s)) :
    ∃ l : List RelationshipRecord,
      serve env (.findRelationshipRecords pid (some sel)) s = (.ok (.records (l.map some)), s) ∧
      (l.map (·.relationship)).Nodup ∧
      (∀ r, r ∈ l.map (·.relationship) ↔ Present s pid r ∧ Matches sel r) ∧
      ∀ x ∈ l, x.policyId = pid ∧
        serve env (.getRelationship pid (some x.relationship)) s = (.ok (.relationship (some x)), s) := by
  rw [policyAt_eq] at hp
  have hdat : ∀ r, Present s pid r → ∃ d, kvGet s.data (relKey env.H r) = some d := by
    intro r hr
    obtain ⟨e, he⟩ := toInternal_complete.2 (present_complete hr)
    cases hk : kvGet s.data (relKey env.H r) with
    | some d => exact ⟨d, rfl⟩
    | none =>
      exfalso
      apply hd r hr
      rw [serve_get he, ← relKey_of he, hk]
      rfl
  let f : Relationship → RelationshipRecord := fun r =>
    match kvGet s.data (relKey env.H r) with
    | some d => ⟨pid, r, d.createdAt, d.appData⟩
    | none => ⟨pid, r, 0, []⟩
  have hf : ∀ r, (f r).relationship = r := by
    intro r; simp only [f]; split <;> rfl
  have hmap : ((matching s pid sel).map f).map (·.relationship) = matching s pid sel := by
    rw [List.map_map]
    refine Eq.trans (List.map_congr_left (g := id) ?_) (List.map_id _)
    intro r _
    exact hf r
  refine ⟨(matching s pid sel).map f, ?_, ?_, ?_, ?_⟩
  · rw [serve_find hc hset, hp]
    simp only [hv]
    congr 3
    rw [List.map_map]
    apply List.map_congr_left
    intro r hr
    obtain ⟨d, hd⟩ := hdat r (mem_matching.1 hr).1
    simp [f, hd]
  · rw [hmap]; exact hs.matching_nodup pid sel
  · intro r
    rw [hmap]; exact mem_matching
  · intro x hx
    obtain ⟨r, hr, rfl⟩ := List.mem_map.1 hx
    obtain ⟨e, he⟩ := toInternal_complete.2 (present_complete (mem_matching.1 hr).1)
    obtain ⟨d, hd⟩ := hdat r (mem_matching.1 hr).1
    refine ⟨by simp [f, hd], ?_⟩
    rw [hf, serve_get he, ← relKey_of he, hd]
    simp [f, hd]

example (H : String → Nat) : policyAt (w1Store H) "p" = some ⟨docPolicy "p", [], 0⟩ ∧ SelectorComplete allSelector ∧ SelectorSet allSelector ∧
    validSelector (some allSelector) (docPolicy "p") = .ok () ∧
    ∀ r, Present (w1Store H) "p" r → serve (wEnv H) (.getRelationship "p" (some r)) (w1Store H) ≠ (.ok (.relationship none), w1Store H) := by
  refine ⟨by rw [policyAt_eq]; exact wStore_pol "p" (.inl rfl), allSelector_complete.1, allSelector_complete.2, by decide +kernel, ?_⟩
  intro r hr
  unfold Present at hr
  rw [w1_relationships] at hr
  have : r = rA := by simpa using hr
  subst this
  rw [w1_get]
  simp

/-- Bulk delete succeeds, reports the number of stored matching relationships, and removes exactly those; relationships of all
other policies and all policies stay.  (That the data records of another policy may be lost is
`C20_isolation_violated`.) -/
theorem C19_bulk_delete_partial (env : Env) (s : Store) (pid : String) (sel : Selector) (hs : WF env s)
    (hc : SelectorComplete sel) (hset : SelectorSet sel) :
    ∃ (l : List Relationship) (s' : Store),
      serve env (.deleteRelationships pid (some sel)) s = (.ok (.affected l.length), s') ∧
      l.Nodup ∧ (∀ r, r ∈ l ↔ Present s pid r ∧ Matches sel r) ∧
      (∀ r, Present s' pid r ↔ Present s pid r ∧ ¬ Matches sel r) ∧
      (∀ q, q ≠ pid → relationships s' q = relationships s q) ∧
      s'.policies = s.policies := by
  refine ⟨matching s pid sel, _, serve_deleteMatching hc hset pid, hs.matching_nodup pid sel,
    fun r => mem_matching, ?_, fun q hq => relationships_delRels_other s hq _, rfl⟩
  intro r
  unfold Present
  rw [hs.relationships_delMatching]
  simp

example (H : String → Nat) : WF (wEnv H) (w1Store H) ∧ SelectorComplete allSelector ∧ SelectorSet allSelector ∧
    Present (w1Store H) "p" rA ∧ Matches allSelector rA := by
  refine ⟨w1_wf H, allSelector_complete.1, allSelector_complete.2, ?_, ?_⟩
  · unfold Present
    rw [w1_relationships]
    simp
  · simp [Matches, allSelector]

end Zanzi
