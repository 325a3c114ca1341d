import Verif.Lemmas.Apart
import Verif.Lemmas.Concrete

/-
C31, C33: what goes wrong only when requests overlap.
-/

namespace Zanzi

open Spec Prog

/-- Full claim: of several concurrent CreatePolicy calls for an id at most one succeeds.  Proved: of two that both succeed, on however busy a server — any other requests except DeletePolicy of that id, any
interleaving, storage failures — the later one arrived before the earlier one had answered.  Missing: calls that overlap (`C31_concurrent_create_violated`). -/
theorem C31_create_overlap_partial (env : Env) (x : Sys) (hidle : x.threads = []) (id : String) (now : Timestamp) (d : Option PolicyDefinition) (a : Bytes)
    (hist : List Store) (y : Sys) (rec : PolicyRecord) (hid : rec.policy.id = id)
    (h : Sys.Flight env (fun c => c ≠ .deletePolicy id) x (.createPolicy now d a) hist y (.done (.ok (.created rec))))
    (now' : Timestamp) (d' : Option PolicyDefinition) (a' : Bytes) (hist' : List Store) (z : Sys) (rec' : PolicyRecord)
    (h' : Sys.Flight env (fun c => c ≠ .deletePolicy id) y (.createPolicy now' d' a') hist' z (.done (.ok (.created rec')))) : rec'.policy.id ≠ id := by
  have hP : ∀ o s, keepsPol id o → StaysStored id s (o.exec s).2 := fun o s ho => keepsPol_exec ho s
  have hrefl : ∀ s, StaysStored id s s := fun _ => _root_.id
  have ht : ∀ a b c, StaysStored id a b → StaysStored id b c → StaysStored id a c := fun _ _ _ h1 h2 => h2 ∘ h1
  have h1 := h.wp (R := StaysStored id) (P := keepsPol id) hrefl ht hP (fun d hd => prog_keepsPol env hd) (by simp [hidle])
    (fun s => createPolicy_wp env id now d a s)
  have hy : (kvGet y.store.policies id).isSome = true := h1.1 y.store (hrefl _) rec rfl hid
  have h2 := h'.wp_from (R := StaysStored id) (P := keepsPol id) hrefl ht hP (fun d hd => prog_keepsPol env hd) h1.2
    (fun w hw => (prog_noCreate env (.createPolicy now' d' a') id).wp (prog_keepsPol env nofun) (hw.keeps (I := fun s => (kvGet s.policies id).isSome = true) (P := keepsPol id) (fun o s ho hs => keepsPol_exec ho s hs)
      (fun d hd => prog_keepsPol env hd) hy h1.2).1)
  exact h2.1 z.store (hrefl _) rec' rfl

/-- Policies p and q are created one after the other. -/
example (H : String → Nat) : ∃ hist y hist' z,
    Sys.Flight (wEnv H) (fun c => c ≠ .deletePolicy "p") ⟨[], Store.empty⟩ (.createPolicy 1 (some (.policy (docPolicy "p"))) [1]) hist y
      (.done (.ok (.created ⟨docPolicy "p", [1], 1⟩))) ∧
    Sys.Flight (wEnv H) (fun c => c ≠ .deletePolicy "p") y (.createPolicy 2 (some (.policy (docPolicy "q"))) [2]) hist' z
      (.done (.ok (.created ⟨docPolicy "q", [2], 2⟩))) := by
  have hv : ∀ id, id = "p" ∨ id = "q" → verifyPolicy (wEnv H).U (docPolicy id) = .ok () := by
    have : verifyPolicy U0 (docPolicy "p") = .ok () ∧ verifyPolicy U0 (docPolicy "q") = .ok () := by decide +kernel
    rintro id (rfl | rfl)
    · exact this.1
    · exact this.2
  obtain ⟨k1, e1, r1⟩ := create_rest (hv "p" (.inl rfl)) 1 [1]
  obtain ⟨k2, e2, r2⟩ := create_rest (hv "q" (.inr rfl)) 2 [2]
  have h0 : Sys.Flight (wEnv H) (fun c => c ≠ .deletePolicy "p") ⟨[], Store.empty⟩ (.createPolicy 1 (some (.policy (docPolicy "p"))) [1]) _ ⟨[], Store.empty⟩ _ :=
    .start .refl
  rw [e1] at h0
  obtain ⟨l1, h1⟩ := h0.own_bind (a := none) (s' := Store.empty) rfl
  obtain ⟨l2, h2⟩ := h1.own_run
  rw [r1] at h2
  have g0 : Sys.Flight (wEnv H) (fun c => c ≠ .deletePolicy "p") ⟨[], Store.empty.putPolicy ⟨docPolicy "p", [1], 1⟩⟩
      (.createPolicy 2 (some (.policy (docPolicy "q"))) [2]) _ ⟨[], Store.empty.putPolicy ⟨docPolicy "p", [1], 1⟩⟩ _ := .start .refl
  rw [e2] at g0
  obtain ⟨m1, g1⟩ := g0.own_bind (a := none) (s' := Store.empty.putPolicy ⟨docPolicy "p", [1], 1⟩) rfl
  obtain ⟨m2, g2⟩ := g1.own_run
  rw [r2] at g2
  exact ⟨_, _, _, _, h2, g2⟩

/-- Full claim: when SetRelationship and DeletePolicy run concurrently, in the end no relationship is stored for a policy that does not exist.  Proved: in every schedule — requests of every kind interleaving, storage
failures, crashes — in which no SetRelationship of the policy overlaps a DeletePolicy of it and none of these is interrupted or fails, whenever no DeletePolicy of it is in flight there is no such
relationship.  Missing: overlapping ones (`C33_orphan_violated`), interrupted ones (`C29_delete_policy_crash_violated`). -/
theorem C33_apart_partial {env : Env} {pid : String} {ts : List (Call × Prog Answer)} {s : Store} (h : Sys.Apart env pid ts s)
    (hd : ∀ x ∈ ts, x.1 ≠ .deletePolicy pid) : NoOrphans s pid := by
  rcases h.inv.whole with hw | ⟨x, hx, hxd, _⟩
  · exact hw
  · exact absurd hxd (hd x hx)

/-- A GetPolicy and a CreatePolicy in flight while the policy is created, a relationship set, the policy deleted. -/
example (env : Env) (now : Timestamp) (d : Option PolicyDefinition) (a : Bytes) (r : Option Relationship) : ∃ s,
    s = (runCalls env [.createPolicy now d a, .setRelationship now "p" r a, .deletePolicy "p"] Store.empty).2 ∧
    Sys.Apart env "p" [(.getPolicy "p", (Call.getPolicy "p").prog env), (.createPolicy now d a, (Call.createPolicy now d a).prog env)] s := by
  have h0 := Sys.Apart.init (env := env) (pid := "p")
  have h1 := h0.arrive (.getPolicy "p") (by simp) (by simp)
  have h2 := h1.arrive (.createPolicy now d a) (by simp) (by simp)
  have h3 := h2.served (.createPolicy now d a) (by simp) (by simp)
  have h4 := h3.served (.setRelationship now "p" r a) (by simp) (by simp)
  have h5 := h4.served (.deletePolicy "p") (by simp) (fun _ => ⟨by simp [Call.setsIn], by
    obtain ⟨g1, g2⟩ := C25_delete_policy env _ "p" h4.reachable.wf.1
    cases hp : policyAt (serve env (.setRelationship now "p" r a) (serve env (.createPolicy now d a) Store.empty).2).2 "p" with
    | none => exact ⟨_, congrArg Prod.fst (g1 hp)⟩
    | some rec =>
      obtain ⟨s', e, _⟩ := g2 (by rw [hp]; rfl)
      exact ⟨_, congrArg Prod.fst e⟩⟩)
  exact ⟨_, rfl, h5⟩

end Zanzi
