import Verif.Lemmas.Bulk
import Verif.Props.Writes
import Verif.Props.Crash

/-
Properties C30, C61, C64: bulk deletions among other requests.
Specification: Spec/Sched.lean.
-/

namespace Zanzi

open Spec Prog

/-- Full claim: when DeleteRelationships answers, no relationship it selects is stored, whatever else runs, until one is set again.  Proved, for schedules with any interleaving, storage failures
and crashes before the request arrives, of any kind `N` of relationships that no request sets: from the answer on none of them is both stored and selected, whatever the storage keys are.  Missing:
relationships that an overlapping request sets (`C65_set_delete_race_violated`). -/
theorem C64_bulk_delete_in_effect_partial (env : Env) (x : Sys) (hx : Sys.Reachable env x) (hidle : x.threads = []) (pid : String) (sel : Selector)
    (N : Relationship → Prop) (hist : List Store) (y : Sys) (a : Answer)
    (h : Sys.Flight env (fun d => ∀ now r b, d = .setRelationship now pid (some r) b → ¬ N r) x (.deleteRelationships pid (some sel)) hist y (.done (.ok a))) :
    ∀ r, Present y.store pid r → N r → ¬ Matches sel r := by
  have hw := h.wp_from (R := Fewer env N pid) (P := noneOf env N pid) Fewer.refl Fewer.trans (fun o s ho => noneOf_exec ho s) (fun d hd => prog_noneOf env hd)
    (by simp [hidle]) (fun y hy => deleteRelationships_wp (ownKeys_of (hy.reachable hx).wf.1))
  exact hw.1 y.store (Fewer.refl _) a rfl

/-- Full claim: when DeletePolicy answers, the policy and its relationships are gone, whatever else runs, until written again.  Proved, in such schedules: if no request creates or updates the policy it
is gone from the answer on; and if it was found, so is every relationship of a kind `N` that no request sets.  Missing: overlapping requests that set relationships of it, or write it. -/
theorem C64_delete_policy_in_effect_partial (env : Env) (x : Sys) (hx : Sys.Reachable env x) (hidle : x.threads = []) (pid : String) :
    (∀ hist y a, Sys.Flight env (fun d => d.writesPolicy = true → d.target env ≠ some pid) x (.deletePolicy pid) hist y (.done (.ok a)) → policyAt y.store pid = none) ∧
    ∀ (N : Relationship → Prop) hist y n, Sys.Flight env (fun d => ∀ now r b, d = .setRelationship now pid (some r) b → ¬ N r) x (.deletePolicy pid) hist y
      (.done (.ok (.deletedPolicy true n))) → ∀ r, Present y.store pid r → ¬ N r := by
  refine ⟨fun hist y a h => ?_, fun N hist y n h => ?_⟩
  · have hw := h.wp (R := PolicyGone pid) (P := notPolicy pid) (fun _ => id) (fun _ _ _ h1 h2 => h2 ∘ h1) (fun o s ho => notPolicy_exec ho s)
      (fun d hd => prog_notPolicy hd) (by simp [hidle]) (fun s => deletePolicy_gone_wp env pid s)
    rw [policyAt_eq]
    exact hw.1 y.store id a rfl
  · have hw := h.wp_from (R := Fewer env N pid) (P := noneOf env N pid) Fewer.refl Fewer.trans (fun o s ho => noneOf_exec ho s) (fun d hd => prog_noneOf env hd)
      (by simp [hidle]) (fun y hy => deletePolicy_wp (ownKeys_of (hy.reachable hx).wf.1))
    exact hw.1 y.store (Fewer.refl _) n rfl

/-- C61 on a busy server: while other requests run, none of which sets a relationship that names the user, DeleteRelationships with a selector that covers every relationship naming the user has answered.
No Check or ExplainCheck that arrives from then on grants the user anything, through any later requests, as long as none of them sets a relationship that names the user. -/
theorem C61_offboarding_busy (env : Env) (x : Sys) (hx : Sys.Reachable env x) (hidle : x.threads = []) (pid : String) (u : Entity) (sel : Selector)
    (hcover : ∀ r, Present x.store pid r → NamesUser u r → Matches sel r) (hist : List Store) (y : Sys) (d : Answer)
    (hd : Sys.Flight env (fun d => ∀ now r b, d = .setRelationship now pid (some r) b → ¬ NamesUser u r) x (.deleteRelationships pid (some sel)) hist y (.done (.ok d)))
    (c : Call) (hc : c.asks pid (some u)) (hist' : List Store) (z : Sys) (a : Answer)
    (h : Sys.Flight env (fun d => ∀ now r b, d = .setRelationship now pid (some r) b → ¬ NamesUser u r) y c hist' z (.done (.ok a))) : ¬ a.grants := by
  have hw := hd.wp_from (R := Fewer env (NamesUser u) pid) (P := noneOf env (NamesUser u) pid) Fewer.refl Fewer.trans (fun o s ho => noneOf_exec ho s)
    (fun d hd => prog_noneOf env hd) (by simp [hidle]) (fun y hy => deleteRelationships_wp (ownKeys_of (hy.reachable hx).wf.1))
  have h0 : ∀ r, Present y.store pid r → ¬ NamesUser u r := by
    intro r hr hn
    refine hw.1 y.store (Fewer.refl _) d rfl r hr hn (hcover r ?_ hn)
    have hk := hd.keeps (I := fun s => ∀ p ∈ s.edges pid, NamesUser u (fromInternal p.2) → p ∈ x.store.edges pid) (P := noneOf env (NamesUser u) pid)
      (fun o s ho hs p hp hn => hs p ((noneOf_exec ho s).2 p hp hn) hn) (fun d hd => prog_noneOf env hd) (prog_noneOf env (by simp)) (fun _ h _ => h) (by simp [hidle])
      y.store hd.hist.1
    obtain ⟨p, hp, rfl⟩ := List.mem_map.1 (show r ∈ (y.store.edges pid).map _ from hr)
    exact List.mem_map.2 ⟨p, hk p hp hn, rfl⟩
  have hy : Sys.Reachable env y := by
    obtain ⟨ts₁, ts₂, he, hp⟩ := hd.path
    have := (Sys.Path.leave hp).reachable hx
    rwa [← he] at this
  intro ha
  have h1 := h.reads (I := (· ∈ hist')) (fun _ h => h) .done
  obtain ⟨u', hu, s, r, hs, h2, h3⟩ := grants_named (h.wf hy) hc h1 ha
  obtain rfl := Option.some.inj hu
  exact h.keeps (I := fun s => ∀ r, Present s pid r → ¬ NamesUser _ r) (P := noNaming pid _) (fun o s ho hs => noNaming_exec ho hs)
    (fun d hd => prog_noNaming env hd) (prog_noNaming env (fun now r b he => by rw [he] at hc; exact hc.elim)) h0
    (fun t ht => (hw.2 t ht).mono (fun o ho k e he => (ho k e he).2)) s hs r h2 h3

/-- Bulk deletion and policy deletion of the examples, with `setV` served while they run. -/
example : Sys.Reachable gEnv ⟨[], abStore⟩ ∧ (∃ r, Present abStore "p" r ∧ NamesUser usr r) ∧ (∀ r, Present abStore "p" r → NamesUser usr r → Matches allSelector r) ∧
    (∃ hist y n, Sys.Flight gEnv (fun d => ∀ now r b, d = .setRelationship now "p" (some r) b → ¬ NamesUser usr r) ⟨[], abStore⟩
      (.deleteRelationships "p" (some allSelector)) hist y (.done (.ok (.affected n))) ∧
      ∃ hist' z, Sys.Flight gEnv (fun d => ∀ now r b, d = .setRelationship now "p" (some r) b → ¬ NamesUser usr r) y
        (.check 10 "p" (ask ⟨doc1, "any"⟩ usr)) hist' z (.done (.ok (.authorized false)))) ∧
    (∃ hist y n, Sys.Flight gEnv (fun d => ∀ now r b, d = .setRelationship now "p" (some r) b → ¬ NamesUser usr r) ⟨[], abStore⟩ (.deletePolicy "p") hist y
      (.done (.ok (.deletedPolicy true n)))) ∧
    ∃ hist y a, Sys.Flight gEnv (fun d => d.writesPolicy = true → d.target gEnv ≠ some "p") ⟨[], abStore⟩ (.deletePolicy "p") hist y (.done (.ok a)) := by
  have hv : ∀ now r b, setV = .setRelationship now "p" (some r) b → ¬ NamesUser usr r := by
    intro now r b h; cases h; rintro (h | h) <;> exact absurd h (by decide)
  refine ⟨gStore_reachable _ _ _, ⟨_, ab_present.2 (.inl rfl), .inl rfl⟩, fun r _ _ => matches_all r, ?_, ?_, ?_⟩
  · obtain ⟨h1, f1⟩ := Sys.Flight.served (.start (c := .deleteRelationships "p" (some allSelector)) (.refl (env := gEnv) (x := ⟨[], abStore⟩)
      (A := fun d => ∀ now r b, d = .setRelationship now "p" (some r) b → ¬ NamesUser usr r))) setV hv
    obtain ⟨h2, f2⟩ := f1.own_run
    have hwf : WF gEnv (serve gEnv setV abStore).2 := by
      have hp := Sys.Path.serve (A := fun _ => True) (.refl (env := gEnv) (x := ⟨[], abStore⟩)) setV trivial
      exact (hp.reachable (gStore_reachable _ _ _)).wf.1
    obtain ⟨l, s', hrun, _⟩ := C19_bulk_delete_partial gEnv _ "p" allSelector hwf allSelector_complete.1 allSelector_complete.2
    have hr : ((Call.deleteRelationships "p" (some allSelector)).prog gEnv).run (serve gEnv setV abStore).2 = (.ok (.affected l.length), s') := hrun
    have hs' : (serve gEnv (.deleteRelationships "p" (some allSelector)) (serve gEnv setV abStore).2).2 = s' := by rw [hrun]
    rw [hr] at f2
    refine ⟨h2, _, _, f2, ?_⟩
    obtain ⟨h3, f3⟩ := Sys.Flight.own_run (.start (c := .check 10 "p" (ask ⟨doc1, "any"⟩ usr)) (.refl (env := gEnv) (x := ⟨[], s'⟩)
      (A := fun d => ∀ now r b, d = .setRelationship now "p" (some r) b → ¬ NamesUser usr r)))
    have he : (((Call.check 10 "p" (ask ⟨doc1, "any"⟩ usr)).prog gEnv).run s').1 = .ok (.authorized false) := by
      rw [← hs']
      exact checks_of (by decide +kernel)
    rw [he] at f3
    exact ⟨h3, _, f3⟩
  · obtain ⟨h1, f1⟩ := Sys.Flight.served (.start (c := .deletePolicy "p") (.refl (env := gEnv) (x := ⟨[], abStore⟩)
      (A := fun d => ∀ now r b, d = .setRelationship now "p" (some r) b → ¬ NamesUser usr r))) setV hv
    obtain ⟨h2, f2⟩ := f1.own_run
    rw [show (((Call.deletePolicy "p").prog gEnv).run (serve gEnv setV abStore).2).1 = .ok (.deletedPolicy true 3) from rfl] at f2
    exact ⟨h2, _, _, f2⟩
  · obtain ⟨h1, f1⟩ := Sys.Flight.served (.start (c := .deletePolicy "p") (.refl (env := gEnv) (x := ⟨[], abStore⟩)
      (A := fun d => d.writesPolicy = true → d.target gEnv ≠ some "p"))) setV (fun h => by cases h)
    obtain ⟨h2, f2⟩ := f1.own_run
    rw [show (((Call.deletePolicy "p").prog gEnv).run (serve gEnv setV abStore).2).1 = .ok (.deletedPolicy true 3) from rfl] at f2
    exact ⟨h2, _, _, f2⟩

/-! ### C30: refused bulk deletions -/

/-- C30 for requests that are refused (a selector that lacks a part): whatever interrupts them, nothing changes, so running them again is refused again. -/
theorem C30_refused_changes_nothing (env : Env) (s t : Store) (pid : String) (sel : Option Selector)
    (hrun : ∀ ans, (serve env (.deleteRelationships pid sel) s).1 ≠ .ok ans) (ht : Leaves env (.deleteRelationships pid sel) s t) : t = s := by
  have hno : ∀ sp, newSelectorSpec sel ≠ .ok sp := by
    intro sp hn
    obtain ⟨x, rfl, hc, hset⟩ := newSelectorSpec_complete hn
    exact hrun _ (by rw [serve_deleteMatching hc hset])
  have hi := ht.interrupted
  replace hi : ((Repo.deleteRelationships env.H pid sel >>= fun x => pure (Answer.affected x) : Prog Answer)).Interrupted s t := hi
  unfold Repo.deleteRelationships Repo.findRelationships at hi
  rw [Prog.bind_assoc, Prog.bind_assoc] at hi
  rcases interrupted_bind hi with h | ⟨a, s', h, h'⟩
  · exact interrupted_read_op rfl h
  · have hs : s' = s := by cases h; rfl
    subst hs
    rw [Prog.bind_assoc] at h'
    cases hn : newSelectorSpec sel with
    | ok sp => exact absurd hn (hno sp)
    | err => rw [hn] at h'; exact interrupted_done h'
    | panic => rw [hn] at h'; exact interrupted_done h'
    | fuel => rw [hn] at h'; exact interrupted_done h'

example : (∀ ans, (serve gEnv (.deleteRelationships "p" none) abStore).1 ≠ .ok ans) ∧ Leaves gEnv (.deleteRelationships "p" none) abStore abStore :=
  ⟨(fun _ h => by cases h), .inl ⟨0, rfl⟩⟩

end Zanzi
