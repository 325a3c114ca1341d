import Verif.Lemmas.Updates
import Verif.Props.Order
import Verif.Props.Concurrency

/-
C98: overlapping policy updates and reads take effect one after the other.
-/

namespace Zanzi

open Spec Prog

/-- C98 for requests that create, update or read: whatever UpdatePolicy and reading requests and CreatePolicy requests for different ids run at the same time, their storage calls interleaving
in any way without failing, some order of them explains every answer and the resulting store.  Missing: CreatePolicy requests for one id, and requests that delete policies or write relationships. -/
theorem C98_policy_writes_partial (env : Env) (s : Store) (cs : List Call)
    (hc : ∀ c ∈ cs, c.isRead = true ∨ (∃ d a, c = .updatePolicy d a) ∨ ∃ now d a, c = .createPolicy now d a)
    (hn : cs.Pairwise (fun c c' => ∀ p p', CreatesPolicy env c p → CreatesPolicy env c' p' → p.id ≠ p'.id))
    (rs : List (Res Answer)) (s' : Store) (h : Interleaved (cs.map (·.prog env)) s (rs.map .done) s') :
    ∃ served : List (Call × Res Answer), served.Perm (cs.zip rs) ∧ runCalls env (served.map (·.1)) s = (served.map (·.2), s') := by
  obtain ⟨_, l, h1, h2, h3, p, h4, h5⟩ := updates_inv hc hn h
  rw [flying_done h3 h2, h1] at h4
  exact ⟨p, h4, h5⟩

/-- Two creations, two updates and two reads, which meet the hypotheses of `C98_policy_writes_partial`: requests running at the same time can always all be finished, as shown for C97. -/
def sixRequests : List Call :=
  [.createPolicy 1 (some (.policy (docPolicy "r"))) [], .createPolicy 1 (some (.policy (docPolicy "t"))) [], .updatePolicy (some (.policy (docPolicy "p"))) [1],
   .updatePolicy (some (.policy (docPolicy "p"))) [2], .getPolicy "p", .check 9 "p" none]

example (env : Env) : (∀ c ∈ sixRequests, c.isRead = true ∨ (∃ d a, c = .updatePolicy d a) ∨ ∃ now d a, c = .createPolicy now d a) ∧
    sixRequests.Pairwise (fun c c' => ∀ p p', CreatesPolicy env c p → CreatesPolicy env c' p' → p.id ≠ p'.id) := by
  constructor
  · simp [sixRequests, Call.isRead]
  · have h : ∀ c p, CreatesPolicy env c p → ∀ now q a, c = .createPolicy now (some (.policy q)) a → p = q := by
      rintro c p ⟨now, d, a, rfl, hd⟩ now' q a' he
      cases he
      exact (Res.ok.inj hd).symm
    have h' : ∀ c p, CreatesPolicy env c p → ∃ now d a, c = .createPolicy now d a := fun c p ⟨now, d, a, h, _⟩ => ⟨now, d, a, h⟩
    have hn : ∀ c, (∀ now d a, c ≠ .createPolicy now d a) → ∀ p, ¬ CreatesPolicy env c p := fun c hc p ⟨now, d, a, h, _⟩ => hc now d a h
    unfold sixRequests
    refine List.Pairwise.cons ?_ (List.Pairwise.cons ?_ (List.Pairwise.cons ?_ (List.Pairwise.cons ?_ (List.Pairwise.cons ?_ (List.Pairwise.cons ?_ .nil))))) <;>
      intro c hc p p' h1 h2 <;> simp only [List.mem_cons, List.not_mem_nil, or_false] at hc
    · rcases hc with rfl | rfl | rfl | rfl | rfl
      · rw [h _ _ h1 _ _ _ rfl, h _ _ h2 _ _ _ rfl]
        decide
      all_goals exact absurd h2 (hn _ (by simp) _)
    · rcases hc with rfl | rfl | rfl | rfl <;> exact absurd h2 (hn _ (by simp) _)
    all_goals exact absurd h1 (hn _ (by simp) _)

/-- What is left of an UpdatePolicy of a valid policy once it has read the record. -/
theorem update_rest {env : Env} {p : Policy} (hv : verifyPolicy env.U p = .ok ()) (a : Bytes) :
    ∃ k : Option PolicyRecord → Prog Answer,
      (Call.updatePolicy (some (.policy p)) a).prog env = (Repo.getPolicy p.id >>= k) ∧
      ∀ s rec, (k (some rec)).run s = (.ok .updated, s.putPolicy ⟨p, a, rec.createdAt⟩) := by
  refine ⟨fun x => updRest env p a x >>= fun _ => pure Answer.updated, ?_, ?_⟩
  · show (Service.updatePolicy env (some (.policy p)) a >>= fun _ => pure Answer.updated) = _
    unfold Service.updatePolicy getPolicyFromDefinition
    simp only [Res.deref_some, Res.bind_ok, lift_ok_bind]
    rw [Prog.bind_assoc]
    rfl
  · intro s rec
    simp only [updRest, hv, lift_ok_bind, run_bind, run_setPolicy, andThen_ok, run_pure]

/-- C98 is violated once a policy is deleted meanwhile: an UpdatePolicy and a DeletePolicy running at the same time both report success, but the policy is stored afterwards.
Made one after the other they leave no policy, or the update fails. -/
theorem C98_delete_violated (H : String → Nat) : ∃ s : Store, Sys.Reachable (wEnv H) ⟨[], wStore⟩ ∧
    Interleaved ([Call.updatePolicy (some (.policy (docPolicy "p"))) [1], .deletePolicy "p"].map (·.prog (wEnv H))) wStore
      [.done (.ok .updated), .done (.ok (.deletedPolicy true 0))] s ∧ policyAt s "p" = some ⟨docPolicy "p", [1], 0⟩ ∧
    policyAt (runCalls (wEnv H) [.updatePolicy (some (.policy (docPolicy "p"))) [1], .deletePolicy "p"] wStore).2 "p" = none ∧
    (runCalls (wEnv H) [.deletePolicy "p", .updatePolicy (some (.policy (docPolicy "p"))) [1]] wStore).1 = [.ok (.deletedPolicy true 0), .err .policyNotFound] := by
  have hx : Sys.Reachable (wEnv H) ⟨[], wStore⟩ := by
    have := (Sys.Path.runCalls (A := fun _ => True) (.refl (env := wEnv H) (x := ⟨[], Store.empty⟩))
      [.createPolicy 0 (some (.policy (docPolicy "p"))) [], .createPolicy 0 (some (.policy (docPolicy "q"))) []] (fun _ _ => trivial)).reachable .init
    rw [wStore_reached] at this
    exact this
  have hv : verifyPolicy (wEnv H).U (docPolicy "p") = .ok () := by
    have : verifyPolicy U0 (docPolicy "p") = .ok () := by decide +kernel
    exact this
  have hd : getPolicyFromDefinition (wEnv H) (some (.policy (docPolicy "p"))) = .ok (docPolicy "p") := rfl
  have hpid : (docPolicy "p").id = "p" := rfl
  obtain ⟨k, e, hk⟩ := update_rest hv [1]
  have hg : kvGet wStore.policies "p" = some ⟨docPolicy "p", [], 0⟩ := wStore_pol "p" (.inl rfl)
  have hE : ∀ t : Store, t.edges = wStore.edges → relationships t "p" = [] := by
    intro t ht
    unfold relationships
    rw [ht]
    rfl
  have h2 := Interleaved.refl (ts₀ := [Call.updatePolicy (some (.policy (docPolicy "p"))) [1], .deletePolicy "p"].map (·.prog (wEnv H))) (s₀ := wStore)
  have e2 : [Call.updatePolicy (some (.policy (docPolicy "p"))) [1], .deletePolicy "p"].map (·.prog (wEnv H)) =
    [(Call.updatePolicy (some (.policy (docPolicy "p"))) [1]).prog (wEnv H), (Call.deletePolicy "p").prog (wEnv H)] := rfl
  rw [e2, e] at h2 ⊢
  have h3 := Interleaved.run_bind (ts₁ := []) (a := some ⟨docPolicy "p", [], 0⟩) (s' := wStore) h2
    (by show (Res.ok (kvGet wStore.policies "p"), wStore) = _; rw [hg])
  have h4 := Interleaved.run_done (ts₁ := [_]) (ts₂ := []) h3
  have hdel : ∀ t : Store, t.edges = wStore.edges → (kvGet t.policies "p").isSome = true →
      ((Call.deletePolicy "p").prog (wEnv H)).run t = (.ok (.deletedPolicy true 0), { t with policies := kvDel t.policies "p" }) := by
    intro t ht hs
    show serve (wEnv H) (.deletePolicy "p") t = _
    rw [serve_deletePolicy, if_pos hs, hE t ht]
    rw [List.map_nil, delRels_nil]
    rfl
  rw [hdel wStore rfl (by rw [hg]; rfl)] at h4
  have h5 := Interleaved.run_done (ts₁ := []) h4
  rw [hk] at h5
  refine ⟨_, hx, h5, ?_, ?_, ?_⟩
  · rw [policyAt_eq]
    unfold Store.putPolicy
    dsimp only
    rw [kvGet_put, if_pos (show "p" = (docPolicy "p").id from rfl)]
  · have hu : serve (wEnv H) (.updatePolicy (some (.policy (docPolicy "p"))) [1]) wStore = (.ok .updated, wStore.putPolicy ⟨docPolicy "p", [1], 0⟩) := by
      rw [serve_update, hd]
      simp only [hpid, hg, hv]
    rw [runCalls_cons, hu, runCalls_cons]
    show policyAt (((Call.deletePolicy "p").prog (wEnv H)).run (wStore.putPolicy ⟨docPolicy "p", [1], 0⟩)).2 "p" = none
    rw [hdel (wStore.putPolicy ⟨docPolicy "p", [1], 0⟩) rfl (by unfold Store.putPolicy; dsimp only; rw [kvGet_put, if_pos hpid.symm]; rfl), policyAt_eq]
    dsimp only
    rw [kvGet_del, if_pos rfl]
  · have : serve (wEnv H) (.deletePolicy "p") wStore = (.ok (.deletedPolicy true 0), { wStore with policies := kvDel wStore.policies "p" }) := hdel wStore rfl (by rw [hg]; rfl)
    rw [runCalls_cons, this, runCalls_cons, serve_update, hd]
    simp only [hpid, kvGet_del, if_true]
    rfl

end Zanzi
