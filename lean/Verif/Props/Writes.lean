import Verif.Lemmas.Writes
import Verif.Lemmas.Abstract
import Verif.Props.Concurrency
import Verif.Props.Interference

/-
Properties C64, C65: writes among other requests.
Specification: Spec/Sched.lean.
-/

namespace Zanzi

open Spec Prog

/-! ### C64: answered writes are in effect -/

/-- Full claim: when DeleteRelationship answers, the relationship is gone, whatever else runs, until it is set again.  Proved for schedules — any interleaving, storage failures, crashes before the request
arrives — in which no request sets a relationship with the same storage key, from the moment of the answer on.  Missing: overlapping requests that set it (`C65_set_delete_race_violated`). -/
theorem C64_delete_in_effect_partial (env : Env) (x : Sys) (hx : Sys.Reachable env x) (hidle : x.threads = []) (pid : String) (r : Relationship)
    (hist : List Store) (y : Sys) (a : Answer)
    (h : Sys.Flight env (fun d => ∀ now q r' b, d = .setRelationship now q (some r') b → RelationshipComplete r' → relKey env.H r' ≠ relKey env.H r) x
      (.deleteRelationship pid (some r)) hist y (.done (.ok a))) :
    ¬ Present y.store pid r ∧ serve env (.getRelationship pid (some r)) y.store = (.ok (.relationship none), y.store) := by
  have hw := h.wp (R := StaysGone pid (relKey env.H r)) (P := noWrite pid (relKey env.H r))
    (Q := fun res s => ∀ a, res = .ok a → RelationshipComplete r ∧ kvGet (s.edges pid) (relKey env.H r) = none ∧ kvGet s.data (relKey env.H r) = none)
    (fun _ => ⟨id, id⟩) (fun _ _ _ h1 h2 => ⟨h2.1 ∘ h1.1, h2.2 ∘ h1.2⟩) (fun o s ho => noWrite_exec ho s)
    (fun d hd => prog_ops env d (fun o ho => ⟨fun e he => (by subst he; cases ho), fun d he => (by subst he; cases ho)⟩)
      (fun _ _ => ⟨fun _ => nofun, fun _ => nofun⟩) (fun _ => ⟨fun _ => nofun, fun _ => nofun⟩)
      (fun now q r' b e he hi => by
        have := hd now q r' b he (toInternal_complete.1 ⟨e, hi⟩)
        rw [relKey_of hi] at this
        exact ⟨⟨fun _ h => this (Op.edgeSet.inj h).2.1, fun _ => nofun⟩, ⟨fun _ => nofun, fun d h => by cases h; exact this⟩⟩)
      (fun _ _ _ _ _ => ⟨⟨fun _ => nofun, fun _ => nofun⟩, ⟨fun _ => nofun, fun _ => nofun⟩⟩))
    (by simp [hidle]) (fun s => delete_wp env pid r s)
  obtain ⟨hc, h1, h2⟩ := hw.1 y.store ⟨id, id⟩ a rfl
  obtain ⟨e, he⟩ := toInternal_complete.2 hc
  rw [relKey_of he] at h1 h2
  refine ⟨fun hp => ?_, ?_⟩
  · rw [(h.wf hx _ h.hist.1).present_iff he, h1] at hp
    cases hp
  · rw [serve_get he, h2]
    rfl

/-- Full claim: when SetRelationship answers, the relationship is stored with its data, whatever else runs, until it is deleted or set again.  Proved for schedules — any interleaving, storage failures,
crashes before the request arrives — in which no request may delete a relationship with the same storage key, and those setting one set the same relationship: from the answer on it is stored, with the data of this request
or of one of those (`W`).  Missing: overlapping requests that may delete it (`C65_set_delete_race_violated`). -/
theorem C64_set_in_effect_partial (env : Env) (x : Sys) (hx : Sys.Reachable env x) (hidle : x.threads = []) (now : Timestamp) (pid : String)
    (r : Relationship) (hr : RelationshipComplete r) (b : Bytes) (W : Timestamp → Bytes → Prop) (hist : List Store) (y : Sys) (a : Answer)
    (h : Sys.Flight env (fun d => (∀ q r', d.mayDelete q r' → RelationshipComplete r' → relKey env.H r' ≠ relKey env.H r) ∧
        ∀ now' q r' b', d = .setRelationship now' q (some r') b' → RelationshipComplete r' → relKey env.H r' = relKey env.H r → (q = pid → r' = r) ∧ W now' b') x
      (.setRelationship now pid (some r) b) hist y (.done (.ok a))) :
    Present y.store pid r ∧ ∃ now' b', (now' = now ∧ b' = b ∨ W now' b') ∧
      serve env (.getRelationship pid (some r)) y.store = (.ok (.relationship (some ⟨pid, r, now', b'⟩)), y.store) := by
  obtain ⟨e, he⟩ := toInternal_complete.2 hr
  let D : RelData → Prop := fun d => d.createdAt = now ∧ d.appData = b ∨ W d.createdAt d.appData
  have hw := h.wp (R := StaysSet pid (e.key env.H) e D) (P := onlyWrites pid (e.key env.H) e D)
    (Q := fun res s => ∀ a, res = .ok a → kvGet (s.edges pid) (e.key env.H) = some e ∧ ∃ d, kvGet s.data (e.key env.H) = some d ∧ D d)
    (fun _ => ⟨id, id⟩) (fun _ _ _ h1 h2 => ⟨h2.1 ∘ h1.1, h2.2 ∘ h1.2⟩) (fun o s ho => onlyWrites_exec ho s)
    (fun d hd => prog_ops env d
      (fun o ho => ⟨fun e he => (by subst he; cases ho), fun d he => (by subst he; cases ho), fun he => (by subst he; cases ho), fun he => (by subst he; cases ho)⟩)
      (fun _ _ => ⟨fun _ => nofun, fun _ => nofun, nofun, nofun⟩) (fun _ => ⟨fun _ => nofun, fun _ => nofun, nofun, nofun⟩)
      (fun now' q r' b' e' hset hi => by
        have h1 := hd.2 now' q r' b' hset (toInternal_complete.1 ⟨e', hi⟩)
        rw [relKey_of hi, relKey_of he] at h1
        refine ⟨⟨fun e2 h2 => ?_, fun _ => nofun, nofun, nofun⟩, ⟨fun _ => nofun, fun d h2 hk => ?_, nofun, nofun⟩⟩
        · have h3 := Op.edgeSet.inj h2
          obtain rfl := (h1 h3.2.1).1 h3.1
          rw [he] at hi
          cases hi
          exact h3.2.2.symm
        · cases h2
          exact .inr (h1 hk).2)
      (fun q r' e' hdel hi => by
        have h1 := hd.1 q r' hdel (toInternal_complete.1 ⟨e', hi⟩)
        rw [relKey_of hi, relKey_of he] at h1
        exact ⟨⟨fun _ => nofun, fun _ => nofun, fun h => h1 (Op.edgeDel.inj h).2, nofun⟩,
          ⟨fun _ => nofun, fun _ => nofun, nofun, fun h => h1 (Op.dataDel.inj h)⟩⟩))
    (by simp [hidle]) (fun s => set_wp env now pid r b e he (.inl ⟨rfl, rfl⟩) s)
  obtain ⟨h1, d, h2, h3⟩ := hw.1 y.store ⟨id, id⟩ a rfl
  refine ⟨?_, d.createdAt, d.appData, h3, ?_⟩
  · rw [(h.wf hx _ h.hist.1).present_iff he, h1]
  · rw [serve_get he, h2]
    rfl

/-- The server with policies "p" and "q" created. -/
theorem w_reachable (H : String → Nat) : Sys.Reachable (wEnv H) ⟨[], wStore⟩ := by
  rw [Sys.reachable_iff]
  have h0 : Sys.Path (wEnv H) (fun _ => True) ⟨[], Store.empty⟩ ⟨[], Store.empty⟩ := .refl
  have h1 := h0.runCalls [.createPolicy 0 (some (.policy (docPolicy "p"))) [], .createPolicy 0 (some (.policy (docPolicy "q"))) []]
    (fun _ _ => trivial)
  rw [wStore_reached] at h1
  exact h1

theorem w1_reachable (H : String → Nat) : Sys.Reachable (wEnv H) ⟨[], w1Store H⟩ := by
  have h := Sys.Path.serve (A := fun _ => True) ((Sys.reachable_iff _ _).1 (w_reachable H)) (.setRelationship 0 "p" (some rA) []) trivial
  rw [w1_set] at h
  exact (Sys.reachable_iff _ _).2 h

/-- C64 is violated whatever the hash, without any overlap: `rA` has just been stored, or deleted, with success; a later request setting the different relationship `rB`
takes `rA` away, respectively makes Get answer a record for it. -/
theorem C64_in_effect_violated (H : String → Nat) : Sys.Reachable (wEnv H) ⟨[], wStore⟩ ∧ rA ≠ rB ∧
    serve (wEnv H) (.setRelationship 0 "p" (some rA) []) wStore = (.ok (.overwritten false), w1Store H) ∧ Present (w1Store H) "p" rA ∧
    ¬ Present (serve (wEnv H) (.setRelationship 1 "p" (some rB) []) (w1Store H)).2 "p" rA ∧
    ∃ s, serve (wEnv H) (.deleteRelationship "p" (some rA)) (w1Store H) = (.ok (.found true), s) ∧
      (serve (wEnv H) (.getRelationship "p" (some rA)) (serve (wEnv H) (.setRelationship 1 "p" (some rB) [1]) s).2).1 =
        .ok (.relationship (some ⟨"p", rA, 1, [1]⟩)) := by
  have hH : (wEnv H).H = H := rfl
  have hwf : WF (wEnv H) (w1Store H) := (w1_reachable H).wf.1
  have hpr : Present (w1Store H) "p" rA := (present_putRel (wStore_wf H) eA_of (by simp [rA]) [] 0 "p" rA).2 (.inl ⟨rfl, rfl⟩)
  refine ⟨w_reachable H, by decide, w1_set H, hpr, ?_, (w1Store H).delRels "p" [eA.key H], ?_, ?_⟩
  · rw [w_set H (s := w1Store H) rfl (.inl rfl) (.inr ⟨rfl, rfl⟩)]
    refine fun h => ((present_putRel hwf eB_of (by simp [rB]) [] 1 "p" rA).1 h).elim (fun h => by simp [rA, rB] at h) (fun h => h.2 ⟨rfl, ?_⟩)
    rw [relKey_of eA_of, relKey_of eB_of]
    exact key_alias H
  · rw [serve_delete eA_of, (hwf.present_iff eA_of).1 hpr]
    rfl
  · rw [w_set H (s := (w1Store H).delRels "p" [eA.key H]) rfl (.inl rfl) (.inr ⟨rfl, rfl⟩), serve_get eA_of, hH]
    simp [Store.putRel, kvGet_put, key_alias]

/-- Relation `a` of user:u on doc:1. -/
def relA : Relationship := ⟨some doc1, "a", some (.entity usr)⟩

example : ∃ hist y, Sys.Flight gEnv (fun d => d = setB) ⟨[], aStore⟩ (.deleteRelationship "p" (some relA)) hist y (.done (.ok (.found true))) ∧
    ¬ Present y.store "p" relA ∧ Present y.store "p" ⟨some doc1, "b", some (.entity usr)⟩ := by
  have f0 : Sys.Flight gEnv (fun d => d = setB) ⟨[], aStore⟩ (.deleteRelationship "p" (some relA)) [aStore] ⟨[], aStore⟩ _ := .start (y := ⟨[], aStore⟩) .refl
  obtain ⟨h1, f1⟩ := f0.served setB rfl
  obtain ⟨h2, f2⟩ := f1.own_run
  have he : ((serve gEnv (.deleteRelationship "p" (some relA)) (serve gEnv setB aStore).2).1 = .ok (.found true)) := by rfl
  rw [show (Prog.run _ _).1 = _ from he] at f2
  refine ⟨h2, _, f2, (C64_delete_in_effect_partial gEnv _ (gStore_reachable _ _ _) rfl "p" relA h2 _ _ (f2.mono ?_)).1, ?_⟩
  · rintro d rfl now q r' b h _
    cases h
    decide +kernel
  · show _ ∈ relationships _ _
    decide +kernel

/-- Two clients set the same new relationship with different data. -/
example : ∃ hist y, Sys.Flight gEnv (fun d => d = .setRelationship 7 "p" (some ⟨some doc1, "b", some (.entity usr)⟩) [7]) ⟨[], aStore⟩ setB hist y (.done (.ok (.overwritten true))) ∧
    Present y.store "p" ⟨some doc1, "b", some (.entity usr)⟩ := by
  have f0 : Sys.Flight gEnv (fun d => d = .setRelationship 7 "p" (some ⟨some doc1, "b", some (.entity usr)⟩) [7]) ⟨[], aStore⟩ setB [aStore] ⟨[], aStore⟩ _ :=
    .start (y := ⟨[], aStore⟩) .refl
  obtain ⟨h1, f1⟩ := f0.served _ rfl
  obtain ⟨h2, f2⟩ := f1.own_run
  have he : ((serve gEnv setB (serve gEnv (.setRelationship 7 "p" (some ⟨some doc1, "b", some (.entity usr)⟩) [7]) aStore).2).1 = .ok (.overwritten true)) := by rfl
  rw [show (Prog.run _ _).1 = _ from he] at f2
  refine ⟨h2, _, f2, (C64_set_in_effect_partial gEnv _ (gStore_reachable _ _ _) rfl 0 "p" _ (toInternal_complete.1 ⟨_, rfl⟩) [] (fun t b => t = 7 ∧ b = [7]) h2 _ _ (f2.mono ?_)).1⟩
  rintro d rfl
  refine ⟨fun q r' h => h.elim, fun now' q r' b' h _ _ => ?_⟩
  have := Call.setRelationship.inj h
  exact ⟨fun _ => (Option.some.inj this.2.2.1).symm, this.1.symm, this.2.2.2.symm⟩

/-! ### C65: overlapping writes of one relationship -/

/-- C65 is violated: DeleteRelationship and SetRelationship of a stored relationship overlap.  Both succeed, and afterwards the relationship is stored but has no record: Get answers nothing.
Neither order of the two requests leaves this. -/
theorem C65_set_delete_race_violated (H : String → Nat) : ∃ s : Store,
    Sys.Path (wEnv H) (fun d => d = .deleteRelationship "p" (some rA) ∨ d = .setRelationship 1 "p" (some rA) [1]) ⟨[], w1Store H⟩
      ⟨[.done (.ok (.found true)), .done (.ok (.overwritten false))], s⟩ ∧
    Present s "p" rA ∧ serve (wEnv H) (.getRelationship "p" (some rA)) s = (.ok (.relationship none), s) ∧
    ¬ Present (serve (wEnv H) (.deleteRelationship "p" (some rA)) (serve (wEnv H) (.setRelationship 1 "p" (some rA) [1]) (w1Store H)).2).2 "p" rA ∧
    (serve (wEnv H) (.getRelationship "p" (some rA)) (serve (wEnv H) (.setRelationship 1 "p" (some rA) [1])
      (serve (wEnv H) (.deleteRelationship "p" (some rA)) (w1Store H)).2).2).1 = .ok (.relationship (some ⟨"p", rA, 1, [1]⟩)) := by
  let s1 : Store := (w1Store H).setEdges "p" (kvDel ((w1Store H).edges "p") (eA.key H))
  let s2 : Store := s1.putRel H "p" eA [1] 1
  let s3 : Store := { s2 with data := kvDel s2.data (eA.key H) }
  have hedge : kvGet ((w1Store H).edges "p") (eA.key H) = some eA := by simp [w1Store, Store.putRel, kvGet_put]
  have hset : ∀ s : Store, s.policies = wStore.policies → serve (wEnv H) (.setRelationship 1 "p" (some rA) [1]) s =
      (.ok (.overwritten (kvGet (s.edges "p") (eA.key H)).isSome), s.putRel H "p" eA [1] 1) :=
    fun s hs => w_set H hs (.inl rfl) (.inl ⟨rfl, rfl⟩) 1 [1]
  have hpres : ∀ s : Store, kvGet (s.edges "p") (eA.key H) = some eA → Present s "p" rA := by
    intro s hs
    exact List.mem_map.2 ⟨_, kvGet_mem hs, rfl⟩
  refine ⟨s3, ?_, hpres s3 ?_, ?_, ?_, ?_⟩
  · have h1 := Sys.Path.arrive (A := fun d => d = .deleteRelationship "p" (some rA) ∨ d = .setRelationship 1 "p" (some rA) [1]) _ (.inl rfl)
      (Sys.Path.refl (env := wEnv H) (x := ⟨[], w1Store H⟩))
    have h2 := Sys.Path.arrive _ (.inr rfl) h1
    have hd : (Call.deleteRelationship "p" (some rA)).prog (wEnv H) =
        ((do let opt ← Prog.edgeGet "p" (eA.key H)
             Prog.edgeDel "p" (eA.key H)
             return opt.isSome : Prog Bool) >>= fun b => do
          Prog.dataDel (eA.key H)
          return Answer.found b) := by
      show (Repo.deleteRelationship H "p" (some rA) >>= fun x => pure (Answer.found x)) = _
      unfold Repo.deleteRelationship
      rw [Res.deref_some, lift_ok_bind, eA_of, lift_ok_bind]
      simp only [Prog.bind_assoc]
      rfl
    rw [hd] at h2
    have h3 := Sys.Path.run_bind (ts₁ := []) (s' := s1) (a := true) h2 (by
      rw [run_bind, run_edgeGet, andThen_ok, hedge]
      rfl)
    have h4 := Sys.Path.run_done (ts₁ := [_]) (ts₂ := []) h3
    have hs : serve (wEnv H) (.setRelationship 1 "p" (some rA) [1]) s1 = (.ok (.overwritten false), s2) := by
      rw [hset s1 rfl]
      have : kvGet (s1.edges "p") (eA.key H) = none := by
        show kvGet (((w1Store H).setEdges "p" _).edges "p") _ = none
        rw [setEdges_edges, if_pos rfl, kvGet_del, if_pos rfl]
      rw [this]
      rfl
    rw [show Prog.run _ s1 = _ from hs] at h4
    exact Sys.Path.run_done (ts₁ := []) h4
  · show kvGet (if "p" = "p" then kvPut edgeLt (s1.edges "p") (eA.key H) eA else s1.edges "p") (eA.key H) = _
    rw [if_pos rfl, kvGet_put, if_pos rfl]
  · rw [serve_get eA_of]
    have : kvGet s3.data (eA.key H) = none := by
      show kvGet (kvDel s2.data (eA.key H)) _ = none
      rw [kvGet_del, if_pos rfl]
    show (Res.ok (Answer.relationship ((kvGet s3.data (eA.key H)).map _)), s3) = _
    rw [this]
    rfl
  · rw [hset (w1Store H) rfl]
    obtain ⟨b, s', h, h1, _⟩ := C17_deleted_is_gone (wEnv H) ((w1Store H).putRel H "p" eA [1] 1) "p" rA (by
      have := (w1_wf H).run (.setRelationship 1 "p" (some rA) [1])
      rw [show Prog.run _ _ = _ from hset (w1Store H) rfl] at this
      exact this) (toInternal_complete.1 ⟨_, eA_of⟩)
    rw [h]
    exact h1
  · rw [serve_delete eA_of]
    dsimp only
    rw [show (wEnv H).H = H from rfl, hset ((w1Store H).delRels "p" [eA.key H]) rfl, serve_get eA_of]
    show Res.ok (Answer.relationship ((kvGet (kvPut edgeLt _ (eA.key H) _) (eA.key H)).map _)) = _
    rw [kvGet_put, if_pos rfl]
    rfl

/-- C65 is violated: two SetRelationship of the same new relationship overlap, and both report that it is new. -/
theorem C65_double_created_violated (H : String → Nat) : ∃ s : Store, ¬ Present wStore "p" rA ∧
    Sys.Path (wEnv H) (fun d => ∃ now a, d = .setRelationship now "p" (some rA) a) ⟨[], wStore⟩
      ⟨[.done (.ok (.overwritten false)), .done (.ok (.overwritten false))], s⟩ := by
  have ha : allowedRelationship (some rA) (newLut (docPolicy "p")) = .ok () := by decide +kernel
  have hp : ∀ now a, ∃ k : Bool → Prog Answer, (Call.setRelationship now "p" (some rA) a).prog (wEnv H) =
      ((do let rec ← Prog.polGet "p"
           match rec with
           | none => Prog.lift (.err .policyNotFound)
           | some rec => do
             Prog.lift (allowedRelationship (some rA) (newLut rec.policy))
             let opt ← Prog.edgeGet "p" (eA.key H)
             return opt.isSome : Prog Bool) >>= k) ∧ ∀ b s, ((k b).run s).1 = .ok (.overwritten b) := by
    intro now a
    refine ⟨fun b => do
      Prog.edgeSet "p" (eA.key H) eA
      Prog.dataSet { relationshipId := eA.key H, appData := a, createdAt := now }
      return Answer.overwritten b, ?_, fun b s => rfl⟩
    show (Service.setRelationship (wEnv H) now "p" (some rA) a >>= fun x => pure (Answer.overwritten x)) = _
    unfold Service.setRelationship
    rw [Prog.bind_assoc, Prog.bind_assoc]
    congr 1
    funext rec
    cases rec with
    | none => rfl
    | some rec =>
      dsimp only
      cases allowedRelationship (some rA) (newLut rec.policy) with
      | err => rfl
      | panic => rfl
      | fuel => rfl
      | ok _ =>
        rw [lift_ok_bind, lift_ok_bind, Res.deref_some, lift_ok_bind]
        unfold Repo.setRelationship
        dsimp only
        rw [eA_of, lift_ok_bind]
        simp only [Prog.bind_assoc]
        rfl
  obtain ⟨k1, e1, r1⟩ := hp 1 [1]
  obtain ⟨k2, e2, r2⟩ := hp 2 [2]
  have h1 := Sys.Path.arrive (A := fun d => ∃ now a, d = .setRelationship now "p" (some rA) a) _ ⟨1, [1], rfl⟩
    (Sys.Path.refl (env := wEnv H) (x := ⟨[], wStore⟩))
  have h2 := Sys.Path.arrive _ ⟨2, [2], rfl⟩ h1
  rw [e1, e2] at h2
  have hrun : (do let rec ← Prog.polGet "p"
                  match rec with
                  | none => Prog.lift (.err .policyNotFound)
                  | some rec => do
                    Prog.lift (allowedRelationship (some rA) (newLut rec.policy))
                    let opt ← Prog.edgeGet "p" (eA.key H)
                    return opt.isSome : Prog Bool).run wStore = (.ok false, wStore) := by
    rw [run_bind]
    have : (Prog.polGet "p").run wStore = (.ok (some ⟨docPolicy "p", [], 0⟩), wStore) := by
      show (Res.ok (kvGet wStore.policies "p"), wStore) = _
      rw [wStore_pol "p" (.inl rfl)]
    rw [this, andThen_ok]
    dsimp only
    rw [ha, lift_ok_bind]
    rfl
  have h3 := Sys.Path.run_bind (ts₁ := []) h2 hrun
  have h4 := Sys.Path.run_bind (ts₁ := [_]) (ts₂ := []) h3 hrun
  have h5 := Sys.Path.run_done (ts₁ := []) h4
  rw [r1] at h5
  have h6 := Sys.Path.run_done (ts₁ := [_]) (ts₂ := []) h5
  rw [r2] at h6
  exact ⟨_, fun h => by simp [Present, relationships, wStore, Store.putPolicy, Store.empty] at h, h6⟩

/-- Full claim: overlapping writes of one relationship leave what some order of them leaves.  Proved for any number of overlapping SetRelationship of the relationship among reads, and for any number of overlapping
DeleteRelationship of it among reads: once one of them has answered, the relationship is stored with the data of one of them, respectively gone.  Missing: mixtures of both, and the reported flags (violated). -/
theorem C65_overlapping_writes_partial (env : Env) (x : Sys) (hx : Sys.Reachable env x) (hidle : x.threads = []) (pid : String) (r : Relationship)
    (hr : RelationshipComplete r) :
    (∀ (S : Timestamp → Bytes → Prop) (now : Timestamp) (b : Bytes) (hist : List Store) (y : Sys) (a : Answer), S now b →
      Sys.Flight env (fun d => d.isRead = true ∨ ∃ now' b', S now' b' ∧ d = .setRelationship now' pid (some r) b') x
        (.setRelationship now pid (some r) b) hist y (.done (.ok a)) →
      Present y.store pid r ∧ ∃ now' b', S now' b' ∧
        serve env (.getRelationship pid (some r)) y.store = (.ok (.relationship (some ⟨pid, r, now', b'⟩)), y.store)) ∧
    (∀ (hist : List Store) (y : Sys) (a : Answer),
      Sys.Flight env (fun d => d.isRead = true ∨ d = .deleteRelationship pid (some r)) x (.deleteRelationship pid (some r)) hist y (.done (.ok a)) →
      ¬ Present y.store pid r ∧ serve env (.getRelationship pid (some r)) y.store = (.ok (.relationship none), y.store)) := by
  refine ⟨fun S now b hist y a hS h => ?_, fun hist y a h => ?_⟩
  · have hA : ∀ d : Call, (d.isRead = true ∨ ∃ now' b', S now' b' ∧ d = .setRelationship now' pid (some r) b') →
        (∀ q r', d.mayDelete q r' → RelationshipComplete r' → relKey env.H r' ≠ relKey env.H r) ∧
        ∀ now' q r' b', d = .setRelationship now' q (some r') b' → RelationshipComplete r' → relKey env.H r' = relKey env.H r → (q = pid → r' = r) ∧ S now' b' := by
      intro d hd
      refine ⟨fun q r' hm => ?_, fun now' q r' b' he => ?_⟩
      · rcases hd with hd | ⟨_, _, _, rfl⟩
        · cases d <;> first | exact hm.elim | cases hd
        · cases hm
      · rcases hd with hd | ⟨t, u, hW, rfl⟩
        · subst he; cases hd
        · obtain ⟨rfl, rfl, h3, rfl⟩ := Call.setRelationship.inj he
          cases h3
          exact fun _ _ => ⟨fun _ => rfl, hW⟩
    obtain ⟨h1, now', b', h2, h3⟩ := C64_set_in_effect_partial env x hx hidle now pid r hr b S hist y a (h.mono hA)
    refine ⟨h1, now', b', ?_, h3⟩
    rcases h2 with ⟨rfl, rfl⟩ | h2
    · exact hS
    · exact h2
  · refine C64_delete_in_effect_partial env x hx hidle pid r hist y a (h.mono (fun d hd now q r' b he => ?_))
    subst he
    rcases hd with hd | hd
    · cases hd
    · exact nomatch hd

example : Sys.Reachable gEnv ⟨[], aStore⟩ ∧ RelationshipComplete relA ∧
    ∃ hist y, Sys.Flight gEnv (fun d => d.isRead = true ∨ ∃ now' b', (now' = 1 ∨ now' = 2) ∧ d = .setRelationship now' "p" (some relA) b') ⟨[], aStore⟩
      (.setRelationship 1 "p" (some relA) [1]) hist y (.done (.ok (.overwritten true))) := by
  refine ⟨gStore_reachable _ _ _, toInternal_complete.1 ⟨_, rfl⟩, ?_⟩
  have f0 : Sys.Flight gEnv (fun d => d.isRead = true ∨ ∃ now' b', (now' = 1 ∨ now' = 2) ∧ d = .setRelationship now' "p" (some relA) b') ⟨[], aStore⟩
    (.setRelationship 1 "p" (some relA) [1]) [aStore] ⟨[], aStore⟩ _ := .start (y := ⟨[], aStore⟩) .refl
  obtain ⟨h1, f1⟩ := f0.served (.setRelationship 2 "p" (some relA) [2]) (.inr ⟨2, [2], .inr rfl, rfl⟩)
  obtain ⟨h2, f2⟩ := f1.own_run
  have he : (serve gEnv (.setRelationship 1 "p" (some relA) [1]) (serve gEnv (.setRelationship 2 "p" (some relA) [2]) aStore).2).1 = .ok (.overwritten true) := by rfl
  rw [show (Prog.run _ _).1 = _ from he] at f2
  exact ⟨h2, _, f2⟩

end Zanzi
