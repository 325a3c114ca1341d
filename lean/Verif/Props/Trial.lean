import Verif.Lemmas.Trial
import Verif.Props.Undo

/-
C121: a policy can be tried out and put back.
-/

namespace Zanzi

open Spec

/-- C121: update a stored policy, let requests come in between, then update it again with the policy and application data read before.  The update back is always accepted; requests in between other
than mere reads are answered as if the policy had never been updated; and so is everything afterwards, creation times included.  In between the policy itself is left alone, and only relationships
that both policies allow are set in it. -/
theorem C121_put_back (env : Env) (x : Sys) (hx : Sys.Reachable env x) (pid : String) (rec : PolicyRecord) (hget : (serve env (.getPolicy pid) x.store).1 = .ok (.policy (some rec)))
    (d : Option PolicyDefinition) (p : Policy) (hd : Defines env d p) (hpid : p.id = pid) (a : Bytes) (hup : (serve env (.updatePolicy d a) x.store).1 = .ok .updated) (cs : List Call)
    (hcs : ∀ c ∈ cs, Indifferent env pid rec.policy p c) :
    (∃ mid, (runCalls env (.updatePolicy d a :: (cs ++ [.updatePolicy (some (.policy rec.policy)) rec.appData])) x.store).1 = .ok .updated :: (mid ++ [.ok .updated]) ∧
      SameButReads cs (runCalls env cs x.store).1 mid) ∧
    ∀ later, (runCalls env later (runCalls env (.updatePolicy d a :: (cs ++ [.updatePolicy (some (.policy rec.policy)) rec.appData])) x.store).2).1 =
      (runCalls env later (runCalls env cs x.store).2).1 := by
  have hp : kvGet x.store.policies pid = some rec := Answer.policy.inj (Res.ok.inj hget)
  have hid : rec.policy.id = pid := hx.wf.1.polKey _ _ (kvGet_mem hp)
  have hv : verifyPolicy env.U rec.policy = .ok () := hx.wf.1.polValid _ _ (kvGet_mem hp)
  have hupd : serve env (.updatePolicy d a) x.store = (.ok .updated, x.store.putPolicy ⟨p, a, rec.createdAt⟩) ∧ verifyPolicy env.U p = .ok () := by
    rw [serve_update, getPolicyFromDefinition_ok_iff.2 hd] at hup ⊢
    dsimp only at hup ⊢
    rw [hpid, hp] at hup ⊢
    dsimp only at hup ⊢
    cases h : verifyPolicy env.U p with
    | ok u => exact ⟨rfl, rfl⟩
    | _ => rw [h] at hup; exact nomatch hup
  have hs : Swapped pid rec ⟨p, a, rec.createdAt⟩ x.store (x.store.putPolicy ⟨p, a, rec.createdAt⟩) := by
    refine ⟨rfl, rfl, hp, ?_, fun q hq => ?_, ⟨hx.wf.1.polNodup, kvPut_nodup hx.wf.1.polNodup⟩, ⟨hx.wf.1.polSorted, strPut_sorted hx.wf.1.polSorted _ _⟩⟩
    · show kvGet (kvPut strLt x.store.policies p.id _) pid = _
      rw [kvGet_put, hpid, if_pos rfl]
    · show _ = kvGet (kvPut strLt x.store.policies p.id _) q
      rw [kvGet_put, hpid, if_neg hq]
  obtain ⟨h1, h2⟩ := hs.runCalls ((C07_names_unique env.U _).1 hv) ((C07_names_unique env.U _).1 hupd.2) cs hcs
  have hback : serve env (.updatePolicy (some (.policy rec.policy)) rec.appData) (runCalls env cs (x.store.putPolicy ⟨p, a, rec.createdAt⟩)).2 = (.ok .updated, (runCalls env cs x.store).2) := by
    rw [serve_update_ok (.inl rfl) (by rw [hid]; exact h2.there) hv]
    dsimp only
    rw [h2.back hid]
  rw [runCalls_cons, hupd.1, runCalls_append, runCalls_cons, hback, runCalls_nil]
  exact ⟨⟨_, rfl, h1⟩, fun _ => rfl⟩

/-- `docPolicy "p"` with a relation for readers. -/
def readerPolicy : Policy :=
  { id := "p"
    resources := [
      { name := "user", relations := [] },
      { name := "doc", relations := [
        { name := "owner", relationExpression := some (.expr "_this"), subjectRestriction := some (.restrictionSet [.entity "user"]) },
        { name := "reader", relationExpression := some (.expr "_this + owner"), subjectRestriction := some (.restrictionSet [.entity "user"]) },
        { name := "super_owner", relationExpression := some (.expr "_this"), subjectRestriction := some (.restrictionSet [.entity "user"]) }] }] }

/-- The hypotheses of `C121_put_back` met: the policy is extended, a relationship of it is set, another policy is deleted, and the policies are listed in between. -/
example : Sys.Reachable (wEnv Hx) ⟨[], wStore⟩ ∧ (serve (wEnv Hx) (.getPolicy "p") wStore).1 = .ok (.policy (some ⟨docPolicy "p", [], 0⟩)) ∧
    Defines (wEnv Hx) (some (.policy readerPolicy)) readerPolicy ∧ readerPolicy.id = "p" ∧ (serve (wEnv Hx) (.updatePolicy (some (.policy readerPolicy)) [1]) wStore).1 = .ok .updated ∧
    ∀ c ∈ [Call.setRelationship 4 "p" (some rA) [], .listPolicyIds, .deletePolicy "q"], Indifferent (wEnv Hx) "p" (docPolicy "p") readerPolicy c := by
  have hv : verifyPolicy U0 readerPolicy = .ok () := by decide +kernel
  have hv' : verifyPolicy U0 (docPolicy "p") = .ok () := by decide +kernel
  have hp := wStore_pol "p" (.inl rfl)
  refine ⟨wStore_reachable Hx [], congrArg (fun o => Res.ok (Answer.policy o)) hp, .inl rfl, rfl, ?_, fun c hc => ?_⟩
  · exact congrArg Prod.fst (serve_update_ok (env := wEnv Hx) (s := wStore) (a := [1]) (p := readerPolicy) (.inl rfl) hp hv)
  · simp only [List.mem_cons, List.not_mem_nil, or_false] at hc
    rcases hc with rfl | rfl | rfl
    · exact fun _ => ⟨(C12_admission_exact _ ((C07_names_unique U0 _).1 hv') rA).1 (by decide +kernel), (C12_admission_exact _ ((C07_names_unique U0 _).1 hv) rA).1 (by decide +kernel)⟩
    · exact trivial
    · exact (by decide : "q" ≠ "p")

end Zanzi
