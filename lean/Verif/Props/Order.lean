import Verif.Lemmas.Parallel
import Verif.Props.Isolation
import Verif.Props.Interference

/-
C96: writes of different relationships can be made in any order.  C97: and at the same time.
-/

namespace Zanzi

open Spec

/-- C96 for relationships with different storage keys: requests setting or deleting them, accepted or not, each get the same answer in whatever order they are made, and no
later requests tell the order. -/
theorem C96_order_partial (env : Env) (x : Sys) (hx : Sys.Reachable env x) (cs ds : List Call) (hp : cs.Perm ds) (hw : ∀ c ∈ cs, IsRelWrite c)
    (ha : cs.Pairwise (fun c d => ∀ r r', WritesRel c r → WritesRel d r' → RelationshipComplete r → RelationshipComplete r' → relKey env.H r ≠ relKey env.H r')) :
    (cs.zip (runCalls env cs x.store).1).Perm (ds.zip (runCalls env ds x.store).1) ∧
    ∀ later, (runCalls env later (runCalls env cs x.store).2).1 = (runCalls env later (runCalls env ds x.store).2).1 := by
  obtain ⟨h1, h2⟩ := relWrites_perm env hp (s := x.store) (fun q => ⟨hx.wf.1.edgeNodup q, hx.wf.1.edgeSorted q⟩) hw ha
  exact ⟨h1, fun later => (SameMaps.runCalls env later h2).1⟩

/-- C96 for names and ids in the style of `IdStyle` and a hash without collisions on the texts at hand: it is enough that the relationships differ. -/
theorem C96_order_id_style (env : Env) (P : Char → Bool) (x : Sys) (hx : Sys.Reachable env x) (cs ds : List Call) (hp : cs.Perm ds) (hw : ∀ c ∈ cs, IsRelWrite c)
    (hs : ∀ c ∈ cs, ∀ r e, WritesRel c r → toInternal r = .ok e → IdStyle P e.source ∧ IdStyle P e.dest)
    (hH : CollisionFree env.H (fun t => ∃ c ∈ cs, ∃ r e, WritesRel c r ∧ toInternal r = .ok e ∧ (t = nodeText e.source ∨ t = nodeText e.dest)))
    (ha : cs.Pairwise (fun c d => ∀ r r', WritesRel c r → WritesRel d r' → r ≠ r')) :
    (cs.zip (runCalls env cs x.store).1).Perm (ds.zip (runCalls env ds x.store).1) ∧
    ∀ later, (runCalls env later (runCalls env cs x.store).2).1 = (runCalls env later (runCalls env ds x.store).2).1 := by
  refine C96_order_partial env x hx cs ds hp hw (List.Pairwise.imp_of_mem (fun {c d} hc hd h r r' h1 h2 h3 h4 hk => ?_) ha)
  obtain ⟨e, he⟩ := toInternal_complete.2 h3
  obtain ⟨e', he'⟩ := toInternal_complete.2 h4
  refine h r r' h1 h2 (C21_id_style_suffices env.H P r r' e e' ?_ he he' (hs c hc r e h1 he) (hs d hd r' e' h2 he') hk)
  have hT : ∀ t, (∃ n ∈ [e.source, e.dest, e'.source, e'.dest], t = nodeText n) →
      ∃ c ∈ cs, ∃ r e, WritesRel c r ∧ toInternal r = .ok e ∧ (t = nodeText e.source ∨ t = nodeText e.dest) := by
    rintro t ⟨n, hn, rfl⟩
    simp only [List.mem_cons, List.not_mem_nil, or_false] at hn
    rcases hn with rfl | rfl | rfl | rfl
    · exact ⟨c, hc, r, e, h1, he, .inl rfl⟩
    · exact ⟨c, hc, r, e, h1, he, .inr rfl⟩
    · exact ⟨d, hd, r', e', h2, he', .inl rfl⟩
    · exact ⟨d, hd, r', e', h2, he', .inr rfl⟩
  exact fun a b h h' => hH a b (hT a h) (hT b h')

/-- C96 is violated, whatever the hash: of two different relationships whose names run together, the one set last is the only one left; and of the data given for one relationship in two policies,
both read what was given last. -/
theorem C96_order_violated (H : String → Nat) : ∃ (pre : List Call) (s : Store), (runCalls (wEnv H) pre Store.empty).2 = s ∧ rA ≠ rB ∧
    ¬ Present (runCalls (wEnv H) [.setRelationship 1 "p" (some rA) [], .setRelationship 1 "p" (some rB) []] s).2 "p" rA ∧
    Present (runCalls (wEnv H) [.setRelationship 1 "p" (some rB) [], .setRelationship 1 "p" (some rA) []] s).2 "p" rA ∧
    (serve (wEnv H) (.getRelationship "p" (some rA)) (runCalls (wEnv H) [.setRelationship 1 "p" (some rA) [1], .setRelationship 1 "q" (some rA) [2]] s).2).1 =
      .ok (.relationship (some ⟨"p", rA, 1, [2]⟩)) ∧
    (serve (wEnv H) (.getRelationship "p" (some rA)) (runCalls (wEnv H) [.setRelationship 1 "q" (some rA) [2], .setRelationship 1 "p" (some rA) [1]] s).2).1 =
      .ok (.relationship (some ⟨"p", rA, 1, [1]⟩)) := by
  have hH : (wEnv H).H = H := rfl
  have hed : ∀ e e', e.key H = e'.key H → ((wStore.putRel H "p" e [] 1).putRel H "p" e' [] 1).edges "p" = [(e'.key H, e')] := by
    intro e e' hk
    simp [Store.putRel, wStore, Store.putPolicy, Store.empty, kvPut, kvGet, kvInsert, hk]
  refine ⟨_, wStore, (w_reach H []).trans (by rw [runCalls_nil]), by decide, ?_, ?_, ?_, ?_⟩
  · rw [runCalls_cons, w_set H rfl (.inl rfl) (.inl ⟨rfl, rfl⟩), runCalls_cons, w_set H (s := wStore.putRel H "p" eA [] 1) rfl (.inl rfl) (.inr ⟨rfl, rfl⟩), runCalls_nil]
    unfold Present relationships
    rw [hed _ _ (key_alias H)]
    simp [eB, rA, fromInternal, subjectFromInternal]
  · rw [runCalls_cons, w_set H rfl (.inl rfl) (.inr ⟨rfl, rfl⟩), runCalls_cons, w_set H (s := wStore.putRel H "p" eB [] 1) rfl (.inl rfl) (.inl ⟨rfl, rfl⟩), runCalls_nil]
    unfold Present relationships
    rw [hed _ _ (key_alias H).symm]
    simp [eA, rA, fromInternal, subjectFromInternal]
  · rw [runCalls_cons, w_set H rfl (.inl rfl) (.inl ⟨rfl, rfl⟩), runCalls_cons, w_set H (s := wStore.putRel H "p" eA [1] 1) rfl (.inr rfl) (.inl ⟨rfl, rfl⟩), runCalls_nil, serve_get eA_of, hH]
    simp [Store.putRel, kvGet_put]
  · rw [runCalls_cons, w_set H rfl (.inr rfl) (.inl ⟨rfl, rfl⟩), runCalls_cons, w_set H (s := wStore.putRel H "q" eA [2] 1) rfl (.inl rfl) (.inl ⟨rfl, rfl⟩), runCalls_nil, serve_get eA_of, hH]
    simp [Store.putRel, kvGet_put]

/-- Two writes and the deletion of a third relationship. -/
def threeWrites : List Call :=
  [.setRelationship 1 "p" (some ⟨some ⟨"doc", "1"⟩, "owner", some (.entity ⟨"user", "5"⟩)⟩) [], .setRelationship 2 "p" (some ⟨some ⟨"doc", "2"⟩, "owner", some (.entity ⟨"user", "5"⟩)⟩) [],
    .deleteRelationship "q" (some ⟨some ⟨"doc", "3"⟩, "owner", some (.entity ⟨"user", "5"⟩)⟩)]

/-- The hypotheses of both theorems are met by them. -/
example : ∃ x, Sys.Reachable (wEnv Hx) x ∧
    (∀ c ∈ threeWrites, IsRelWrite c) ∧ (∀ c ∈ threeWrites, ∀ r e, WritesRel c r → toInternal r = .ok e → IdStyle Char.isDigit e.source ∧ IdStyle Char.isDigit e.dest) ∧
    CollisionFree Hx (fun t => ∃ c ∈ threeWrites, ∃ r e, WritesRel c r ∧ toInternal r = .ok e ∧ (t = nodeText e.source ∨ t = nodeText e.dest)) ∧
    threeWrites.Pairwise (fun c d => ∀ r r', WritesRel c r → WritesRel d r' → r ≠ r') ∧
    threeWrites.Pairwise (fun c d => ∀ r r', WritesRel c r → WritesRel d r' → RelationshipComplete r → RelationshipComplete r' → relKey Hx r ≠ relKey Hx r') := by
  have hx : Sys.Reachable (wEnv Hx) ⟨[], wStore⟩ := by
    have := (Sys.Path.runCalls (A := fun _ => True) (.refl (env := wEnv Hx) (x := ⟨[], Store.empty⟩))
      [.createPolicy 0 (some (.policy (docPolicy "p"))) [], .createPolicy 0 (some (.policy (docPolicy "q"))) []] (fun _ _ => trivial)).reachable .init
    rw [wStore_reached] at this
    exact this
  have hw : ∀ c r, c ∈ threeWrites → WritesRel c r → ∃ i, (i = "1" ∨ i = "2" ∨ i = "3") ∧ r = ⟨some ⟨"doc", i⟩, "owner", some (.entity ⟨"user", "5"⟩)⟩ := by
    intro c r hc hr
    simp only [threeWrites, List.mem_cons, List.not_mem_nil, or_false] at hc
    rcases hc with rfl | rfl | rfl <;> rcases hr with ⟨_, _, _, h⟩ | ⟨_, h⟩ <;> cases h
    · exact ⟨_, .inl rfl, rfl⟩
    · exact ⟨_, .inr (.inl rfl), rfl⟩
    · exact ⟨_, .inr (.inr rfl), rfl⟩
  refine ⟨_, hx, ?_, ?_, ?_, ?_, ?_⟩
  · intro c hc
    simp only [threeWrites, List.mem_cons, List.not_mem_nil, or_false] at hc
    rcases hc with rfl | rfl | rfl
    · exact .inl ⟨_, _, _, _, rfl⟩
    · exact .inl ⟨_, _, _, _, rfl⟩
    · exact .inr ⟨_, _, rfl⟩
  · intro c hc r e hr he
    obtain ⟨i, hi, rfl⟩ := hw c r hc hr
    cases he
    rcases hi with rfl | rfl | rfl <;>
      exact ⟨⟨by decide, by decide, by decide, ⟨_, rfl, by decide⟩, ⟨_, rfl, by decide⟩⟩, ⟨by decide, by decide, by decide, ⟨_, rfl, by decide⟩, ⟨_, rfl, by decide⟩⟩⟩
  · have hl : ∀ t, (∃ c ∈ threeWrites, ∃ r e, WritesRel c r ∧ toInternal r = .ok e ∧ (t = nodeText e.source ∨ t = nodeText e.dest)) → t ∈ ["doc1owner", "doc2owner", "doc3owner", "user5"] := by
      rintro t ⟨c, hc, r, e, hr, he, ht⟩
      obtain ⟨i, hi, rfl⟩ := hw c r hc hr
      cases he
      rcases hi with rfl | rfl | rfl <;> rcases ht with rfl | rfl <;> decide
    intro a b ha hb
    exact (by decide +kernel : ∀ a ∈ ["doc1owner", "doc2owner", "doc3owner", "user5"], ∀ b ∈ ["doc1owner", "doc2owner", "doc3owner", "user5"], Hx a = Hx b → a = b) a (hl a ha) b (hl b hb)
  all_goals
    simp only [threeWrites, List.pairwise_cons, List.mem_cons, List.not_mem_nil, or_false, forall_eq_or_imp, forall_eq, false_imp_iff, implies_true, List.Pairwise.nil, and_true]
    refine ⟨⟨?_, ?_⟩, ?_⟩ <;> intro r r' h h' <;> rcases h with ⟨_, _, _, h⟩ | ⟨_, h⟩ <;> cases h <;> rcases h' with ⟨_, _, _, h'⟩ | ⟨_, h'⟩ <;> cases h' <;>
      first | decide | exact fun _ _ => by decide +kernel

/-! ### C97 -/

/-- C97 for relationships with different storage keys: requests setting or deleting them at the same time, their storage calls interleaving in whatever way, are answered as if they were made one after the other, and no
later requests tell the difference. -/
theorem C97_parallel_partial (env : Env) (x : Sys) (hx : Sys.Reachable env x) (cs : List Call) (hw : ∀ c ∈ cs, IsRelWrite c)
    (ha : cs.Pairwise (fun c d => ∀ r r', WritesRel c r → WritesRel d r' → RelationshipComplete r → RelationshipComplete r' → relKey env.H r ≠ relKey env.H r'))
    (rs : List (Res Answer)) (s : Store) (h : Interleaved (cs.map (·.prog env)) x.store (rs.map .done) s) :
    rs = (runCalls env cs x.store).1 ∧ ∀ later, (runCalls env later s).1 = (runCalls env later (runCalls env cs x.store).2).1 := by
  have hk : Keyed env (cs.map (fun c => (c, c.prog env))) := by
    refine ⟨fun y hy => ?_, ?_⟩
    · obtain ⟨c, hc, rfl⟩ := List.mem_map.1 hy
      exact relWrite_touch env (hw c hc)
    · rw [List.pairwise_map]
      exact ha
  have hm : (cs.map (fun c => (c, c.prog env))).map (·.2) = cs.map (·.prog env) := by
    rw [List.map_map]
    rfl
  rw [← hm] at h
  obtain ⟨_, _, h1, h2⟩ := interleaved_seq hk (fun q => ⟨hx.wf.1.edgeNodup q, hx.wf.1.edgeSorted q⟩) h
  rw [hm, seqRun_calls, seqRun_done] at h1 h2
  exact ⟨h1.symm, fun later => (SameMaps.runCalls env later h2.symm).1⟩

theorem Interleaved.run_bind {ts₀ ts₁ ts₂ : List (Prog Answer)} {s₀ s s' : Store} {α : Type} {p : Prog α} {k : α → Prog Answer} {a : α}
    (h : Interleaved ts₀ s₀ (ts₁ ++ (p >>= k) :: ts₂) s) (hp : p.run s = (.ok a, s')) : Interleaved ts₀ s₀ (ts₁ ++ k a :: ts₂) s' := by
  induction p generalizing s with
  | done r =>
    cases hp
    exact h
  | call o f ih => exact ih _ (Interleaved.op (k := fun r => (f r).bind k) h) hp

theorem Interleaved.run_done {ts₀ ts₁ ts₂ : List (Prog Answer)} {s₀ s : Store} {p : Prog Answer} (h : Interleaved ts₀ s₀ (ts₁ ++ p :: ts₂) s) :
    Interleaved ts₀ s₀ (ts₁ ++ .done (p.run s).1 :: ts₂) (p.run s).2 := by
  induction p generalizing s with
  | done r => exact h
  | call o f ih => exact ih _ (Interleaved.op h)

/-- C97 is violated, whatever the hash: two different relationships whose names run together, neither stored, are set at the same time; both requests report that nothing was overwritten, but only one
relationship is stored.  Made one after the other in either order, the second would report an overwriting. -/
theorem C97_parallel_violated (H : String → Nat) : ∃ s : Store, rA ≠ rB ∧ Sys.Reachable (wEnv H) ⟨[], wStore⟩ ∧
    Interleaved ([Call.setRelationship 1 "p" (some rA) [], .setRelationship 1 "p" (some rB) []].map (·.prog (wEnv H))) wStore
      [.done (.ok (.overwritten false)), .done (.ok (.overwritten false))] s ∧ ¬ Present s "p" rA ∧
    (runCalls (wEnv H) [.setRelationship 1 "p" (some rA) [], .setRelationship 1 "p" (some rB) []] wStore).1 = [.ok (.overwritten false), .ok (.overwritten true)] ∧
    (runCalls (wEnv H) [.setRelationship 1 "p" (some rB) [], .setRelationship 1 "p" (some rA) []] wStore).1 = [.ok (.overwritten false), .ok (.overwritten true)] := by
  have hH : (wEnv H).H = H := rfl
  have hx : Sys.Reachable (wEnv H) ⟨[], wStore⟩ := by
    have := (Sys.Path.runCalls (A := fun _ => True) (.refl (env := wEnv H) (x := ⟨[], Store.empty⟩))
      [.createPolicy 0 (some (.policy (docPolicy "p"))) [], .createPolicy 0 (some (.policy (docPolicy "q"))) []] (fun _ _ => trivial)).reachable .init
    rw [wStore_reached] at this
    exact this
  have hp : ∀ r e, toInternal r = .ok e → (Call.setRelationship 1 "p" (some r) []).prog (wEnv H) =
      ((do let rec ← Prog.polGet "p"
           match rec with
           | none => Prog.lift (.err .policyNotFound)
           | some rec => do
             Prog.lift (allowedRelationship (some r) (newLut rec.policy))
             let opt ← Prog.edgeGet "p" (e.key H)
             return opt.isSome : Prog Bool) >>= fun b => do
        Prog.edgeSet "p" (e.key H) e
        Prog.dataSet { relationshipId := e.key H, appData := [], createdAt := 1 }
        return Answer.overwritten b) := by
    intro r e he
    show (Service.setRelationship (wEnv H) 1 "p" (some r) [] >>= fun x => pure (Answer.overwritten x)) = _
    unfold Service.setRelationship
    rw [Prog.bind_assoc, Prog.bind_assoc]
    congr 1
    funext rec
    cases rec with
    | none => rfl
    | some rec =>
      dsimp only
      cases allowedRelationship (some r) (newLut rec.policy) with
      | err => rfl
      | panic => rfl
      | fuel => rfl
      | ok _ =>
        rw [lift_ok_bind, lift_ok_bind, Res.deref_some, lift_ok_bind]
        unfold Repo.setRelationship
        dsimp only
        rw [he, lift_ok_bind]
        simp only [Prog.bind_assoc]
        rfl
  have hrun : ∀ r e, allowedRelationship (some r) (newLut (docPolicy "p")) = .ok () →
      (do let rec ← Prog.polGet "p"
          match rec with
          | none => Prog.lift (.err .policyNotFound)
          | some rec => do
            Prog.lift (allowedRelationship (some r) (newLut rec.policy))
            let opt ← Prog.edgeGet "p" (IRel.key H e)
            return opt.isSome : Prog Bool).run wStore = (.ok false, wStore) := by
    intro r e ha
    rw [Prog.run_bind]
    have : (Prog.polGet "p").run wStore = (.ok (some ⟨docPolicy "p", [], 0⟩), wStore) := by
      show (Res.ok (kvGet wStore.policies "p"), wStore) = _
      rw [wStore_pol "p" (.inl rfl)]
    rw [this, andThen_ok]
    dsimp only
    rw [ha, lift_ok_bind]
    rfl
  have h2 := Interleaved.refl (ts₀ := [Call.setRelationship 1 "p" (some rA) [], .setRelationship 1 "p" (some rB) []].map (·.prog (wEnv H))) (s₀ := wStore)
  have e : [Call.setRelationship 1 "p" (some rA) [], .setRelationship 1 "p" (some rB) []].map (·.prog (wEnv H)) =
    [(Call.setRelationship 1 "p" (some rA) []).prog (wEnv H), (Call.setRelationship 1 "p" (some rB) []).prog (wEnv H)] := rfl
  rw [e, hp rA eA eA_of, hp rB eB eB_of] at h2 ⊢
  have h3 := Interleaved.run_bind (ts₁ := []) h2 (hrun rA eA (by decide +kernel))
  have h4 := Interleaved.run_bind (ts₁ := [_]) (ts₂ := []) h3 (hrun rB eB (by decide +kernel))
  have h5 := Interleaved.run_done (ts₁ := []) h4
  have h6 := Interleaved.run_done (ts₁ := [_]) (ts₂ := []) h5
  refine ⟨_, by decide, hx, h6, ?_, ?_, ?_⟩
  · show ¬ Present ((wStore.putRel H "p" eA [] 1).putRel H "p" eB [] 1) "p" rA
    unfold Present relationships
    have : ((wStore.putRel H "p" eA [] 1).putRel H "p" eB [] 1).edges "p" = [(eB.key H, eB)] := by
      simp [Store.putRel, wStore, Store.putPolicy, Store.empty, kvPut, kvGet, kvInsert, key_alias]
    rw [this]
    simp [eB, rA, fromInternal, subjectFromInternal]
  · rw [runCalls_cons, w_set H rfl (.inl rfl) (.inl ⟨rfl, rfl⟩), runCalls_cons, w_set H (s := wStore.putRel H "p" eA [] 1) rfl (.inl rfl) (.inr ⟨rfl, rfl⟩), runCalls_nil]
    simp [Store.putRel, kvGet_put, key_alias, wStore, Store.putPolicy, Store.empty, kvGet]
  · rw [runCalls_cons, w_set H rfl (.inl rfl) (.inr ⟨rfl, rfl⟩), runCalls_cons, w_set H (s := wStore.putRel H "p" eB [] 1) rfl (.inl rfl) (.inl ⟨rfl, rfl⟩), runCalls_nil]
    simp [Store.putRel, kvGet_put, key_alias, wStore, Store.putPolicy, Store.empty, kvGet]

/-- Requests at the same time can always all be finished, so `threeWrites`, which meets the other hypotheses as shown above, meets those of `C97_parallel_partial`. -/
example (ps : List (Prog Answer)) (s : Store) : ∃ (rs : List (Res Answer)) (s' : Store), Interleaved ps s (rs.map .done) s' := by
  have h : ∀ (qs : List (Prog Answer)) (rs : List (Res Answer)) (t : Store), Interleaved ps s (rs.map .done ++ qs) t → ∃ (rs' : List (Res Answer)) (s' : Store), Interleaved ps s (rs'.map .done) s' := by
    intro qs
    induction qs with
    | nil => exact fun rs t h => ⟨rs, t, by simpa using h⟩
    | cons q qs ih => exact fun rs t h => ih (rs ++ [(q.run t).1]) _ (by simpa using Interleaved.run_done h)
  exact h ps [] s .refl

end Zanzi
