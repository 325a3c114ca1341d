import Verif.Lemmas.OneWay
import Verif.Props.Interference

/-
Property C63, continued: checks that overlap only removals, or only additions, answer as at some moment while they ran.
Specification: Spec/Sched.lean, Spec/Graph.lean.
-/

namespace Zanzi

open Spec Prog

section
variable {env : Env} {A : Call → Prop} {x : Sys} {fuel : Nat} {pid : String} {g : USet} {u : Entity} {hist : List Store} {y : Sys} {b : Bool} {p : Policy}

/-- A smallest and a largest store of the history decide. -/
theorem one_way (hx : Sys.Reachable env x) (h : Sys.Flight env A x (.check fuel pid (ask g u)) hist y (.done (.ok (.authorized b))))
    (hp : ∀ s ∈ hist, ∃ rec, policyAt s pid = some rec ∧ rec.policy = p) (hk : KeysClear env.U env.H p (StoredOnce hist pid) g)
    (hi : IdsClear env.U env.H p (StoredOnce hist pid) g) (hun : ExprsFrom env.U p (StoredOnce hist pid) g UnionOnly) {lo hi' : Store} (hlo : lo ∈ hist)
    (hhi : hi' ∈ hist) (hall : ∀ s ∈ hist, ∀ r, (Present lo pid r → Present s pid r) ∧ (Present s pid r → Present hi' pid r)) :
    ∃ s ∈ hist, (b = true ↔ Granted env.U p (Present s pid) u g) ∧ ∀ fuel' b', Checks env s fuel' pid g u b' → b' = b := by
  have hwf := h.wf hx
  have exact_at : ∀ s ∈ hist, (b = true ↔ Granted env.U p (Present s pid) u g) → ∀ fuel' b', Checks env s fuel' pid g u b' → b' = b := by
    intro s hs hb fuel' b' hc
    obtain ⟨rec, h1, rfl⟩ := hp s hs
    have hsub : ∀ r, Present s pid r → StoredOnce hist pid r := fun r hr => ⟨s, hs, hr⟩
    have := C37_union_exact_partial (hwf s hs) h1 (KeysClear.mono hsub hk) (IdsClear.mono hsub hi) (ExprsFrom.mono hsub hun) hc
    exact Bool.eq_iff_iff.2 (this.trans hb.symm)
  cases b with
  | false =>
    have := C63_denied_partial hx h hp hk hi hun
    have hg : StoredThroughout hist pid = Present lo pid := by
      funext r
      exact propext ⟨fun hr => hr lo hlo, fun hr s hs => (hall s hs r).1 hr⟩
    rw [hg] at this
    have hb : false = true ↔ Granted env.U p (Present lo pid) u g := ⟨nofun, fun hg => absurd hg this⟩
    exact ⟨lo, hlo, hb, exact_at lo hlo hb⟩
  | true =>
    obtain ⟨s, rec, q, t, seen, hs, h1, hq, hev, hb⟩ := check_reads (h.reads (I := (· ∈ hist)) (fun _ h => h) .done)
    cases hq
    obtain ⟨rec', h2, rfl⟩ := hp s hs
    rw [h1] at h2
    cases h2
    have := ev_above_plain hwf ⟨s, hs⟩ ((hwf s hs).policy_id h1) ((hwf s hs).policy_valid h1).1 (fun s r hs hr => ⟨s, hs, hr⟩) hk
      (fun y t hr hd => unionOnly_diffFree (hun y t hr hd)) hev (by simpa using hb.symm)
    have hg : StoredOnce hist pid = Present hi' pid := by
      funext r
      exact propext ⟨fun ⟨s, hs, hr⟩ => (hall s hs r).2 hr, fun hr => ⟨hi', hhi, hr⟩⟩
    rw [hg] at this
    have hb : true = true ↔ Granted env.U rec.policy (Present hi' pid) u g := ⟨fun _ => this, fun _ => rfl⟩
    exact ⟨hi', hhi, hb, exact_at hi' hhi hb⟩

/-- Full claim: as for `C63_granted_partial`.  It holds when the other requests only take relationships of the policy away, or leave them alone, for requests that meet only unions: the Check answers what
the rules give for the relationships stored at one moment while it ran, and what any Check made at that moment would answer. -/
theorem C63_only_removed_partial (hx : Sys.Reachable env x) (hidle : x.threads = [])
    (h : Sys.Flight env A x (.check fuel pid (ask g u)) hist y (.done (.ok (.authorized b))))
    (hA : ∀ d, A d → ∀ now r a, d ≠ .setRelationship now pid (some r) a)
    (hp : ∀ s ∈ hist, ∃ rec, policyAt s pid = some rec ∧ rec.policy = p) (hk : KeysClear env.U env.H p (Present x.store pid) g)
    (hi : IdsClear env.U env.H p (Present x.store pid) g) (hun : ExprsFrom env.U p (Present x.store pid) g UnionOnly) :
    ∃ s ∈ hist, (b = true ↔ Granted env.U p (Present s pid) u g) ∧ ∀ fuel' b', Checks env s fuel' pid g u b' → b' = b := by
  have hprog : ∀ d, A d → (d.prog env).AllOps (noneOf env (fun _ => True) pid) := fun d hd => prog_noneOf env (fun now r a he => absurd he (hA d hd now r a))
  have hc : ((Call.check fuel pid (ask g u)).prog env).AllOps (noneOf env (fun _ => True) pid) := prog_noneOf env (fun _ _ _ => nofun)
  have sub : ∀ {s s' : Store}, Fewer env (fun _ => True) pid s s' → ∀ r, Present s' pid r → Present s pid r := by
    intro s s' hf r hr
    obtain ⟨q, hq, rfl⟩ := List.mem_map.1 (show r ∈ (s'.edges pid).map _ from hr)
    exact List.mem_map.2 ⟨q, hf.2 q hq trivial, rfl⟩
  obtain ⟨⟨e, he, hall⟩, _⟩ := h.along (P := noneOf env (fun _ => True) pid) Fewer.refl Fewer.trans (fun o s ho => noneOf_exec ho s) hprog hc (by simp [hidle])
  have h0 := h.keeps (I := fun s => Fewer env (fun _ => True) pid x.store s) (P := noneOf env (fun _ => True) pid)
    (fun o s ho hs => Fewer.trans _ _ _ hs (noneOf_exec ho s)) hprog hc (Fewer.refl _) (by simp [hidle])
  have hon : ∀ r, StoredOnce hist pid r → Present x.store pid r := fun r ⟨s, hs, hr⟩ => sub (h0 s hs) r hr
  exact one_way hx h hp (KeysClear.mono hon hk) (IdsClear.mono hon hi) (ExprsFrom.mono hon hun) (h.hist.1) he
    (fun s hs r => ⟨sub (hall s hs).2 r, sub (hall s hs).1 r⟩)

/-- The same when the other requests take no relationship of the policy away: they may store relationships of `S`, with the ones stored at first no two of which share a storage key. -/
theorem C63_only_added_partial {S : Relationship → Prop} (hx : Sys.Reachable env x) (hidle : x.threads = [])
    (h : Sys.Flight env A x (.check fuel pid (ask g u)) hist y (.done (.ok (.authorized b))))
    (hA : ∀ d, A d → ∀ r, ¬ d.mayDelete pid r) (hS0 : ∀ r, Present x.store pid r → S r) (hS1 : ∀ now r a, A (.setRelationship now pid (some r) a) → S r)
    (hkey : ∀ r r', S r → S r' → relKey env.H r = relKey env.H r' → r = r')
    (hp : ∀ s ∈ hist, ∃ rec, policyAt s pid = some rec ∧ rec.policy = p) (hk : KeysClear env.U env.H p S g)
    (hi : IdsClear env.U env.H p S g) (hun : ExprsFrom env.U p S g UnionOnly) :
    ∃ s ∈ hist, (b = true ↔ Granted env.U p (Present s pid) u g) ∧ ∀ fuel' b', Checks env s fuel' pid g u b' → b' = b := by
  have hprog : ∀ d, A d → (d.prog env).AllOps (onlyAdds env S pid) := fun d hd => prog_onlyAdds env (fun now r a he => hS1 now r a (he ▸ hd)) (hA d hd)
  have hc : ((Call.check fuel pid (ask g u)).prog env).AllOps (onlyAdds env S pid) := prog_onlyAdds env (fun _ _ _ => nofun) (fun _ => id)
  obtain ⟨⟨e, he, hall⟩, _⟩ := h.along (P := onlyAdds env S pid) More.refl More.trans (fun o s ho => onlyAdds_exec hkey ho s) hprog hc (by simp [hidle])
  have h0 := h.keeps (I := Inside env S pid) (P := onlyAdds env S pid) (fun o s ho hs => (onlyAdds_exec hkey ho s hs).1) hprog hc
    ⟨ownKeys_of hx.wf.1, hS0⟩ (by simp [hidle])
  have hon : ∀ r, StoredOnce hist pid r → S r := fun r ⟨s, hs, hr⟩ => (h0 s hs).2 r hr
  exact one_way hx h hp (KeysClear.mono hon hk) (IdsClear.mono hon hi) (ExprsFrom.mono hon hun) he h.hist.1
    (fun s hs r => ⟨((hall s hs).1 (h0 e he)).2 r, ((hall s hs).2 (h0 s hs)).2 r⟩)

end

/-- A check of `any` that arrives before user:u gets relation b and answers after. -/
example : ∃ hist y, Sys.Flight gEnv (fun d => d = setB) ⟨[], aStore⟩ (.check 10 "p" (ask ⟨doc1, "any"⟩ usr)) hist y (.done (.ok (.authorized true))) ∧
    ∃ s ∈ hist, (true = true ↔ Granted U0 (gPolicy opRels) (Present s "p") usr ⟨doc1, "any"⟩) ∧
      ∀ fuel' b', Checks gEnv s fuel' "p" ⟨doc1, "any"⟩ usr b' → b' = true := by
  obtain ⟨hist, y, f, hp, hS⟩ := ab_overlap usr true ab_checks_any
  refine ⟨hist, y, f, C63_only_added_partial (env := gEnv) (S := Present abStore "p") (gStore_reachable _ _ _) rfl f ?_ ?_ ?_ ?_ hp
    (ab_clear _ (.inr (.inr rfl))).1 (ab_clear _ (.inr (.inr rfl))).2 ?_⟩
  · rintro d rfl r h
    exact h
  · intro r hr
    have := List.all_eq_true.1 (show (relationships aStore "p").all (fun r => decide (r ∈ abRels)) = true by decide +kernel) r hr
    unfold Present
    rw [abStore_rels]
    simpa using this
  · intro now r a he
    cases he
    exact ab_present.2 (.inr rfl)
  · intro r r' hr hr' he
    unfold Present at hr hr'
    rw [abStore_rels] at hr hr'
    have := List.all_eq_true.1 (List.all_eq_true.1 (show abRels.all (fun r => abRels.all (fun r' => decide (relKey gEnv.H r = relKey gEnv.H r' → r = r'))) = true by
      decide +kernel) r hr) r' hr'
    exact of_decide_eq_true this he
  · exact exprs_of (env := gEnv) (f := unionOnlyB) (fun _ => unionOnly_of) (gStore_wf _ _ _) abStore_pol (L := abNodes "any")
      (by simp [abNodes, USet.node]) (by decide +kernel) (by decide +kernel)

/-- Taking relation b away from user:u. -/
def dropB : Call := .deleteRelationship "p" (some ⟨some doc1, "b", some (.entity usr)⟩)

/-- A check of `any` that overlaps the removal of relation b. -/
example : ∃ hist y b, Sys.Flight gEnv (fun d => d = dropB) ⟨[], abStore⟩ (.check 10 "p" (ask ⟨doc1, "any"⟩ usr)) hist y (.done (.ok (.authorized b))) ∧
    (∃ s ∈ hist, ¬ Present s "p" ⟨some doc1, "b", some (.entity usr)⟩) ∧
    ∃ s ∈ hist, (b = true ↔ Granted U0 (gPolicy opRels) (Present s "p") usr ⟨doc1, "any"⟩) ∧
      ∀ fuel' b', Checks gEnv s fuel' "p" ⟨doc1, "any"⟩ usr b' → b' = b := by
  have f0 : Sys.Flight gEnv (fun d => d = dropB) ⟨[], abStore⟩ (.check 10 "p" (ask ⟨doc1, "any"⟩ usr)) [abStore] _ _ := .start (y := ⟨[], abStore⟩) .refl
  obtain ⟨h1, f1, g1⟩ := f0.served_trace dropB rfl
  obtain ⟨h2, f2, g2⟩ := f1.own_reads (Call.prog_read _ rfl)
  have hb : (((Call.check 10 "p" (ask ⟨doc1, "any"⟩ usr)).prog gEnv).run (serve gEnv dropB abStore).2).1 = .ok (.authorized true) := checks_of (by decide +kernel)
  rw [hb] at f2
  have key : ∀ s ∈ abStore :: (serve gEnv dropB abStore).2 :: (dropB.prog gEnv).trace abStore, policyAt s "p" = some ⟨gPolicy opRels, [], 0⟩ := by
    intro s hs
    have h := List.all_eq_true.1 (show (abStore :: (serve gEnv dropB abStore).2 :: (dropB.prog gEnv).trace abStore).all
      (fun s => decide (policyAt s "p" = some ⟨gPolicy opRels, [], 0⟩)) = true by decide +kernel) s hs
    simpa using h
  have hall : ∀ s ∈ h2, s ∈ abStore :: (serve gEnv dropB abStore).2 :: (dropB.prog gEnv).trace abStore := by
    intro s hs
    rcases g2 s hs with hs | rfl
    · rcases g1 s hs with hs | hs
      · rw [List.mem_singleton.1 hs]; exact List.mem_cons_self
      · exact List.mem_cons_of_mem _ (List.mem_cons_of_mem _ hs)
    · exact List.mem_cons_of_mem _ List.mem_cons_self
  refine ⟨h2, _, true, f2, ⟨_, f2.hist.1, by unfold Present; decide +kernel⟩,
    C63_only_removed_partial (env := gEnv) (gStore_reachable _ _ _) rfl f2 ?_ (fun s hs => ⟨_, key s (hall s hs), rfl⟩) (ab_clear _ (.inr (.inr rfl))).1
      (ab_clear _ (.inr (.inr rfl))).2 ?_⟩
  · rintro d rfl now r a h
    cases h
  · exact exprs_of (env := gEnv) (f := unionOnlyB) (fun _ => unionOnly_of) (gStore_wf _ _ _) abStore_pol (L := abNodes "any")
      (by simp [abNodes, USet.node]) (by decide +kernel) (by decide +kernel)

end Zanzi
