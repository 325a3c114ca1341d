import Verif.Lemmas.Undo
import Verif.Props.Order
import Verif.Props.Clock

/-
C120: a relationship set can be taken back, a relationship deleted can be put back.
-/

namespace Zanzi

open Spec

/-- Full claim: setting a relationship that is not there and deleting it again, with other requests in between, leaves things as if it had never been set. Proved when Get says there is none and Set
says it overwrote nothing, for reads and for sets and deletes of relationships with other keys in between: these are answered as if it had not been set, the deletion finds it, and whatever is asked
later is answered as if it had never been set. Missing: relationships that are there in another policy, with which the data is shared, and relationships running together
(`C120_undo_violated`). -/
theorem C120_undo_partial (env : Env) (x : Sys) (hx : Sys.Reachable env x) (now : Timestamp) (pid : String) (r : Relationship) (a : Bytes)
    (hget : (serve env (.getRelationship pid (some r)) x.store).1 = .ok (.relationship none))
    (hset : (serve env (.setRelationship now pid (some r) a) x.store).1 = .ok (.overwritten false)) (cs : List Call)
    (hcs : ∀ c ∈ cs, c.isRead = true ∨ IsRelWrite c ∧ ∀ r', WritesRel c r' → RelationshipComplete r' → relKey env.H r ≠ relKey env.H r') :
    (∃ mid, (runCalls env (.setRelationship now pid (some r) a :: (cs ++ [.deleteRelationship pid (some r)])) x.store).1 = .ok (.overwritten false) :: (mid ++ [.ok (.found true)]) ∧
      SameForWrites cs mid (runCalls env cs x.store).1) ∧
    ∀ later, (runCalls env later (runCalls env (.setRelationship now pid (some r) a :: (cs ++ [.deleteRelationship pid (some r)])) x.store).2).1 =
      (runCalls env later (runCalls env cs x.store).2).1 := by
  have ho : EdgesOrdered x.store := fun q => ⟨hx.wf.1.edgeNodup q, hx.wf.1.edgeSorted q⟩
  obtain ⟨r', e, rec, hr, he, hp, ha, hans, _⟩ := serve_set_inv (show serve env (.setRelationship now pid (some r) a) x.store = (.ok (.overwritten false), _) from Prod.ext hset rfl)
  cases hr
  have hrc : RelationshipComplete r := toInternal_complete.1 ⟨e, he⟩
  have hfree : kvGet (x.store.edges pid) (relKey env.H r) = none := by
    rw [relKey_of he]
    exact Option.not_isSome_iff_eq_none.1 (by rw [← Answer.overwritten.inj hans]; decide)
  have hdata : kvGet x.store.data (relKey env.H r) = none := by
    rw [serve_get he] at hget
    rw [relKey_of he]
    exact Option.map_eq_none_iff.1 (Answer.relationship.inj (Res.ok.inj hget))
  have hw : WritesRel (.setRelationship now pid (some r) a) r := .inl ⟨_, _, _, rfl⟩
  have hb : ∀ c ∈ cs, Between env (.setRelationship now pid (some r) a) c := by
    intro c hc
    rcases hcs c hc with h | ⟨h, h'⟩
    · exact .inl h
    · refine .inr ⟨h, fun r1 r2 h1 h2 _ h4 => ?_⟩
      rcases h1 with ⟨_, _, _, h1⟩ | ⟨_, h1⟩ <;> cases h1
      exact h' r2 h2 h4
  obtain ⟨hm1, hm2⟩ := between_move (.inl ⟨_, _, _, _, rfl⟩) cs ho hb
  obtain ⟨hpol, hord⟩ := between_runs cs ho hb
  obtain ⟨hk1, hk2⟩ := between_key hw hrc cs (s := x.store) hb
  have hset1 := serve_set_write (env := env) (now := now) (a := a) (s := (runCalls env cs x.store).2) (by rw [hpol]; exact hp) ha he
  rw [hset1] at hm2
  obtain ⟨hd1, hd2⟩ := SameMaps.run (Call.prog env (.deleteRelationship pid (some r))) hm2
  have hdel := serve_delete_write (env := env) (pid := pid) (s := ((runCalls env cs x.store).2.write pid (relKey env.H r) (some (e, ⟨relKey env.H r, now, a⟩)))) he
  have hrun : runCalls env (.setRelationship now pid (some r) a :: (cs ++ [.deleteRelationship pid (some r)])) x.store =
      (.ok (.overwritten false) :: ((runCalls env cs (serve env (.setRelationship now pid (some r) a) x.store).2).1 ++ [.ok (.found true)]),
        (serve env (.deleteRelationship pid (some r)) (runCalls env cs (serve env (.setRelationship now pid (some r) a) x.store).2).2).2) := by
    rw [runCalls_cons, runCalls_append, runCalls_cons, runCalls_nil]
    have : (serve env (.deleteRelationship pid (some r)) (runCalls env cs (serve env (.setRelationship now pid (some r) a) x.store).2).2).1 = .ok (.found true) := by
      refine hd1.trans ?_
      show (serve env (.deleteRelationship pid (some r)) _).1 = _
      rw [hdel, write_get, if_pos ⟨rfl, rfl⟩]
      rfl
    rw [this]
    exact Prod.ext (congrArg (· :: _) hset) rfl
  rw [hrun]
  refine ⟨⟨_, rfl, hm1⟩, fun later => (SameMaps.runCalls env later ?_).1⟩
  refine SameMaps.trans hd2 ?_
  show SameMaps (serve env (.deleteRelationship pid (some r)) _).2 _
  rw [hdel]
  refine ⟨by rw [write_policies, write_policies], write_back hord pid _ _ none ((hk1 pid).trans hfree), fun k => ?_⟩
  simp only [write_data]
  by_cases h : k = relKey env.H r
  · rw [if_pos h, h]; exact (hk2.trans hdata).symm
  · rw [if_neg h, if_neg h]

/-- Full claim: deleting a relationship and setting it again with the same application data leaves things as they were but for when it was created. Proved for reads and for sets and deletes of
relationships with other keys in between. Missing: relationships running together (`C120_undo_violated`). -/
theorem C120_redo_partial (env : Env) (x : Sys) (hx : Sys.Reachable env x) (now t : Timestamp) (pid : String) (r : Relationship) (a : Bytes) (hr : Present x.store pid r)
    (hget : (serve env (.getRelationship pid (some r)) x.store).1 = .ok (.relationship (some ⟨pid, r, t, a⟩)))
    (hset : (serve env (.setRelationship now pid (some r) a) x.store).1 = .ok (.overwritten true)) (cs : List Call)
    (hcs : ∀ c ∈ cs, c.isRead = true ∨ IsRelWrite c ∧ ∀ r', WritesRel c r' → RelationshipComplete r' → relKey env.H r ≠ relKey env.H r') :
    (∃ mid, (runCalls env (.deleteRelationship pid (some r) :: (cs ++ [.setRelationship now pid (some r) a])) x.store).1 = .ok (.found true) :: (mid ++ [.ok (.overwritten false)]) ∧
      SameForWrites cs mid (runCalls env cs x.store).1) ∧
    ∀ later, PlaceByPlace SameOutcome (runCalls env later (runCalls env (.deleteRelationship pid (some r) :: (cs ++ [.setRelationship now pid (some r) a])) x.store).2).1
      (runCalls env later (runCalls env cs x.store).2).1 := by
  have ho : EdgesOrdered x.store := fun q => ⟨hx.wf.1.edgeNodup q, hx.wf.1.edgeSorted q⟩
  obtain ⟨r', e, rec, hr', he, hp, ha, _, _⟩ := serve_set_inv (show serve env (.setRelationship now pid (some r) a) x.store = (.ok (.overwritten true), _) from Prod.ext hset rfl)
  cases hr'
  have hrc : RelationshipComplete r := toInternal_complete.1 ⟨e, he⟩
  have hedge : kvGet (x.store.edges pid) (relKey env.H r) = some e := by
    rw [relKey_of he]
    exact (hx.wf.1.present_iff he).1 hr
  have hdata : kvGet x.store.data (relKey env.H r) = some ⟨relKey env.H r, t, a⟩ := by
    rw [serve_get he] at hget
    rw [relKey_of he]
    cases h : kvGet x.store.data (e.key env.H) with
    | none => rw [h] at hget; exact nomatch Answer.relationship.inj (Res.ok.inj hget)
    | some d =>
      rw [h] at hget
      have h1 := Option.some.inj (Answer.relationship.inj (Res.ok.inj hget))
      have h2 := hx.wf.1.dataKey _ _ (kvGet_mem h)
      obtain ⟨i, t', a'⟩ := d
      simp only [RelationshipRecord.mk.injEq, true_and] at h1
      dsimp only at h2
      rw [h1.1, h1.2, h2]
  have hw : WritesRel (.deleteRelationship pid (some r)) r := .inr ⟨_, rfl⟩
  have hb : ∀ c ∈ cs, Between env (.deleteRelationship pid (some r)) c := by
    intro c hc
    rcases hcs c hc with h | ⟨h, h'⟩
    · exact .inl h
    · refine .inr ⟨h, fun r1 r2 h1 h2 _ h4 => ?_⟩
      rcases h1 with ⟨_, _, _, h1⟩ | ⟨_, h1⟩ <;> cases h1
      exact h' r2 h2 h4
  obtain ⟨hm1, hm2⟩ := between_move (.inr ⟨_, _, rfl⟩) cs ho hb
  obtain ⟨hpol, hord⟩ := between_runs cs ho hb
  obtain ⟨hk1, hk2⟩ := between_key hw hrc cs (s := x.store) hb
  rw [serve_delete_write (env := env) (pid := pid) (s := (runCalls env cs x.store).2) he] at hm2
  obtain ⟨hd1, hd2⟩ := SameMaps.run (Call.prog env (.setRelationship now pid (some r) a)) hm2
  have hset1 := serve_set_write (env := env) (now := now) (a := a) (s := (runCalls env cs x.store).2.write pid (relKey env.H r) none) (by rw [write_policies, hpol]; exact hp) ha he
  have hdel : (serve env (.deleteRelationship pid (some r)) x.store).1 = .ok (.found true) := by
    rw [serve_delete_write he, hedge]
    rfl
  have hrun : runCalls env (.deleteRelationship pid (some r) :: (cs ++ [.setRelationship now pid (some r) a])) x.store =
      (.ok (.found true) :: ((runCalls env cs (serve env (.deleteRelationship pid (some r)) x.store).2).1 ++ [.ok (.overwritten false)]),
        (serve env (.setRelationship now pid (some r) a) (runCalls env cs (serve env (.deleteRelationship pid (some r)) x.store).2).2).2) := by
    rw [runCalls_cons, runCalls_append, runCalls_cons, runCalls_nil]
    have : (serve env (.setRelationship now pid (some r) a) (runCalls env cs (serve env (.deleteRelationship pid (some r)) x.store).2).2).1 = .ok (.overwritten false) := by
      refine hd1.trans ?_
      show (serve env (.setRelationship now pid (some r) a) _).1 = _
      rw [hset1, write_get, if_pos ⟨rfl, rfl⟩]
      rfl
    rw [this]
    exact Prod.ext (congrArg (· :: _) hdel) rfl
  rw [hrun]
  refine ⟨⟨_, rfl, hm1⟩, fun later => ?_⟩
  rw [(SameMaps.runCalls env later hd2).1]
  have hreq : ∀ l : List Call, PlaceByPlace SameRequest l l := by
    intro l
    induction l with
    | nil => trivial
    | cons c l ih =>
      refine ⟨?_, ih⟩
      cases c with
      | createPolicy now d a => exact ⟨now, rfl⟩
      | setRelationship now q r a => exact ⟨now, rfl⟩
      | _ => exact ⟨0, rfl⟩
  refine (C100_clock env later later (hreq later) _ _ ?_).1
  show SameButTimes (serve env (.setRelationship now pid (some r) a) _).2 _
  rw [hset1]
  have hself := SameButTimes.refl (runCalls env cs x.store).2
  refine ⟨by rw [write_policies, write_policies], fun id => by rw [write_policies, write_policies]; exact hself.policies id, write_back hord pid _ none _ ((hk1 pid).trans hedge), fun k => ?_⟩
  simp only [write_data]
  by_cases h : k = relKey env.H r
  · rw [if_pos h, h, hk2, hdata]; exact ⟨rfl, rfl⟩
  · rw [if_neg h, if_neg h]; exact hself.data k

/-- C120 is violated, whatever the hash. A relationship set in one policy, answered as new, and deleted again takes with it the data of the same relationship in another policy; and one that runs
together with another, set and deleted again, takes the other with it. -/
theorem C120_undo_violated (H : String → Nat) : ∃ (pre pre' : List Call) (s s' : Store), (runCalls (wEnv H) pre Store.empty).2 = s ∧ (runCalls (wEnv H) pre' Store.empty).2 = s' ∧
    ¬ Present s "p" rA ∧ (runCalls (wEnv H) [.setRelationship 3 "p" (some rA) [3], .deleteRelationship "p" (some rA)] s).1 = [.ok (.overwritten false), .ok (.found true)] ∧
    (serve (wEnv H) (.getRelationship "q" (some rA)) s).1 = .ok (.relationship (some ⟨"q", rA, 2, [2]⟩)) ∧
    (serve (wEnv H) (.getRelationship "q" (some rA)) (runCalls (wEnv H) [.setRelationship 3 "p" (some rA) [3], .deleteRelationship "p" (some rA)] s).2).1 = .ok (.relationship none) ∧
    ¬ Present s' "p" rA ∧ Present s' "p" rB ∧ ¬ Present (runCalls (wEnv H) [.setRelationship 3 "p" (some rA) [3], .deleteRelationship "p" (some rA)] s').2 "p" rB := by
  have hH : (wEnv H).H = H := rfl
  have hk := key_alias H
  refine ⟨_, _, wStore.putRel H "q" eA [2] 2, wStore.putRel H "p" eB [2] 2, (w_reach H [.setRelationship 2 "q" (some rA) [2]]).trans ?_, (w_reach H [.setRelationship 2 "p" (some rB) [2]]).trans ?_,
    ?_, ?_, ?_, ?_, ?_, ?_, ?_⟩
  · rw [runCalls_cons, w_set H rfl (.inr rfl) (.inl ⟨rfl, rfl⟩), runCalls_nil]
  · rw [runCalls_cons, w_set H rfl (.inl rfl) (.inr ⟨rfl, rfl⟩), runCalls_nil]
  · unfold Present relationships
    simp [Store.putRel, wStore, Store.putPolicy, Store.empty]
  · rw [runCalls_cons, w_set H (s := wStore.putRel H "q" eA [2] 2) rfl (.inl rfl) (.inl ⟨rfl, rfl⟩), runCalls_cons, serve_delete eA_of, runCalls_nil, hH]
    simp [Store.putRel, wStore, Store.putPolicy, Store.empty, kvGet_put, kvGet]
  · rw [serve_get eA_of, hH]
    simp [Store.putRel, kvGet_put]
  · rw [runCalls_cons, w_set H (s := wStore.putRel H "q" eA [2] 2) rfl (.inl rfl) (.inl ⟨rfl, rfl⟩), runCalls_cons, serve_delete_write eA_of, runCalls_nil, serve_get eA_of, hH, write_data, relKey_of eA_of]
    simp
  · unfold Present relationships
    simp [Store.putRel, wStore, Store.putPolicy, Store.empty, kvPut, kvGet, kvInsert, eB, rA, fromInternal, subjectFromInternal]
  · unfold Present relationships
    simp [Store.putRel, wStore, Store.putPolicy, Store.empty, kvPut, kvGet, kvInsert, eB, rB, fromInternal, subjectFromInternal]
  · rw [runCalls_cons, w_set H (s := wStore.putRel H "p" eB [2] 2) rfl (.inl rfl) (.inl ⟨rfl, rfl⟩), runCalls_cons, serve_delete eA_of, runCalls_nil, hH]
    unfold Present relationships
    simp [Store.delRels, Store.putRel, wStore, Store.putPolicy, Store.empty, kvPut, kvGet, kvInsert, hk]

/-- A relationship set or deleted between. -/
def rC : Relationship := ⟨some ⟨"doc", "2"⟩, "owner", some (.entity ⟨"user", "u"⟩)⟩

theorem wStore_reachable (H : String → Nat) (cs : List Call) : Sys.Reachable (wEnv H) ⟨[], (runCalls (wEnv H) cs wStore).2⟩ := by
  have := (Sys.Path.runCalls (A := fun _ => True) (.refl (env := wEnv H) (x := ⟨[], Store.empty⟩))
    ([.createPolicy 0 (some (.policy (docPolicy "p"))) [], .createPolicy 0 (some (.policy (docPolicy "q"))) []] ++ cs) (fun _ _ => trivial)).reachable .init
  rw [w_reach] at this
  exact this

/-- The hypotheses of `C120_undo_partial` met with a check and a write in between. -/
example : Sys.Reachable (wEnv Hx) ⟨[], wStore⟩ ∧ (serve (wEnv Hx) (.getRelationship "p" (some rA)) wStore).1 = .ok (.relationship none) ∧
    (serve (wEnv Hx) (.setRelationship 3 "p" (some rA) [3]) wStore).1 = .ok (.overwritten false) ∧
    ∀ c ∈ [Call.listPolicyIds, .setRelationship 4 "p" (some rC) []], c.isRead = true ∨ IsRelWrite c ∧ ∀ r', WritesRel c r' → RelationshipComplete r' → relKey Hx rA ≠ relKey Hx r' := by
  refine ⟨wStore_reachable Hx [], by rw [serve_get eA_of]; rfl, by rw [w_set Hx rfl (.inl rfl) (.inl ⟨rfl, rfl⟩)]; rfl, fun c hc => ?_⟩
  simp only [List.mem_cons, List.not_mem_nil, or_false] at hc
  rcases hc with rfl | rfl
  · exact .inl rfl
  · refine .inr ⟨.inl ⟨_, _, _, _, rfl⟩, fun r' h _ => ?_⟩
    rcases h with ⟨_, _, _, h⟩ | ⟨_, h⟩ <;> cases h
    decide +kernel

/-- The hypotheses of `C120_redo_partial` met with a read and a deletion in between. -/
example : Sys.Reachable (wEnv Hx) ⟨[], w1Store Hx⟩ ∧ Present (w1Store Hx) "p" rA ∧ (serve (wEnv Hx) (.getRelationship "p" (some rA)) (w1Store Hx)).1 = .ok (.relationship (some ⟨"p", rA, 0, []⟩)) ∧
    (serve (wEnv Hx) (.setRelationship 3 "p" (some rA) []) (w1Store Hx)).1 = .ok (.overwritten true) ∧
    ∀ c ∈ [Call.listPolicyIds, .deleteRelationship "p" (some rC)], c.isRead = true ∨ IsRelWrite c ∧ ∀ r', WritesRel c r' → RelationshipComplete r' → relKey Hx rA ≠ relKey Hx r' := by
  refine ⟨?_, ?_, by rw [w1_get], ?_, fun c hc => ?_⟩
  · have := wStore_reachable Hx [.setRelationship 0 "p" (some rA) []]
    rw [runCalls_cons, w1_set, runCalls_nil] at this
    exact this
  · show rA ∈ relationships (w1Store Hx) "p"
    rw [w1_relationships]
    exact List.mem_singleton.2 rfl
  · rw [w_set Hx (s := w1Store Hx) rfl (.inl rfl) (.inl ⟨rfl, rfl⟩)]
    simp [w1Store, Store.putRel, kvGet_put]
  · simp only [List.mem_cons, List.not_mem_nil, or_false] at hc
    rcases hc with rfl | rfl
    · exact .inl rfl
    · refine .inr ⟨.inr ⟨_, _, rfl⟩, fun r' h _ => ?_⟩
      rcases h with ⟨_, _, _, h⟩ | ⟨_, h⟩ <;> cases h
      decide +kernel

end Zanzi
