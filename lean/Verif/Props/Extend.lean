import Verif.Lemmas.Extend
import Verif.Props.Rewording
import Verif.Props.Grants

/-
C102: adding to a policy changes no answer; taking away at worst turns answers into errors.
-/

namespace Zanzi

open Spec Prog

/-- The store after policy `pid` was stored as one that says more. -/
theorem extended_le {env : Env} {s : Store} {pid : String} {rec rec' : PolicyRecord} (hp : kvGet s.policies pid = some rec) (hid : rec.policy.id = pid)
    (hle : PolLe env.U rec.policy rec'.policy) : StoreLe env.U pid s (s.putPolicy rec') := by
  have he : rec'.policy.id = pid := hle.id.trans hid
  refine ⟨rfl, rfl, ?_, fun q hq => ?_, ?_⟩
  · exact put_ids hp he
  · show kvGet (kvPut strLt s.policies rec'.policy.id rec') q = _
    rw [kvGet_put, he, if_neg hq]
  · show RecLe env.U (kvGet s.policies pid) (kvGet (kvPut strLt s.policies rec'.policy.id rec') pid)
    rw [kvGet_put, he, if_pos rfl, hp]
    exact hle

/-- The store after policy `pid` was stored as one that says less. -/
theorem shrunk_le {env : Env} {s : Store} {pid : String} {rec rec' : PolicyRecord} (hp : kvGet s.policies pid = some rec) (he : rec'.policy.id = pid)
    (hle : PolLe env.U rec'.policy rec.policy) : StoreLe env.U pid (s.putPolicy rec') s := by
  refine ⟨rfl, rfl, (put_ids hp he).symm, fun q hq => ?_, ?_⟩
  · show _ = kvGet (kvPut strLt s.policies rec'.policy.id rec') q
    rw [kvGet_put, he, if_neg hq]
  · show RecLe env.U (kvGet (kvPut strLt s.policies rec'.policy.id rec') pid) (kvGet s.policies pid)
    rw [kvGet_put, he, if_pos rfl, hp]
    exact hle

/-- UpdatePolicy to a valid policy. -/
theorem update_valid {env : Env} {s : Store} {pid : String} {rec : PolicyRecord} (hp : kvGet s.policies pid = some rec) {p' : Policy} (he : p'.id = pid) (hv : ValidPolicy env.U p')
    {d : Option PolicyDefinition} (hd : Defines env d p') (a : Bytes) : serve env (.updatePolicy d a) s = (.ok .updated, s.putPolicy ⟨p', a, rec.createdAt⟩) := by
  rw [serve_update, getPolicyFromDefinition_ok_iff.2 hd]
  dsimp only
  rw [he, hp]
  dsimp only
  rw [(C09_validation_exact _ _).2 hv]

section
variable (env : Env) (x : Sys) (hx : Sys.Reachable env x) (pid : String) (rec : PolicyRecord) (hp : policyAt x.store pid = some rec) (p' : Policy) (hv : ValidPolicy env.U p')
  (d : Option PolicyDefinition) (hd : Defines env d p') (a : Bytes)
include hx hp hv hd

/-- C102, adding: in every reachable store, UpdatePolicy to a valid policy that has all the stored one has — resources, relations with their expressions and allowed subjects — and perhaps more is
accepted, and in every later sequence of requests that does not fetch the policy itself, each request that would have been answered without the update is answered the same with it, trees and records
included.  (Up to the first write the old policy would have turned down: from there on the contents may differ.) -/
theorem C102_adding (hext : Extends env.U rec.policy p') :
    ∃ s', serve env (.updatePolicy d a) x.store = (.ok .updated, s') ∧ policyAt s' pid = some ⟨p', a, rec.createdAt⟩ ∧
      ∀ cs, Call.getPolicy pid ∉ cs → WritesDone cs (runCalls env cs x.store).1 → PlaceByPlace Kept (runCalls env cs x.store).1 (runCalls env cs s').1 := by
  have hv' := hx.wf.1.policy_valid hp
  rw [policyAt_eq] at hp
  have hid := hx.wf.1.polKey _ _ (kvGet_mem hp)
  have he : p'.id = pid := hext.id.trans hid
  refine ⟨_, update_valid hp he hv hd a, ?_, fun cs hcs hw => runCalls_le cs hcs (extended_le hp hid (Extends.le hext hv.1 hv'.1)) hw⟩
  rw [policyAt_eq]
  show kvGet (kvPut strLt x.store.policies p'.id _) pid = _
  rw [kvGet_put, he, if_pos rfl]

/-- C102, taking away: in every reachable store, UpdatePolicy to a valid policy of which the stored one has everything is accepted, and in every later sequence of requests that does not fetch the
policy itself and whose writes are all done, each request that is answered is answered as it would have been without the update: what was taken away turns answers into errors, never into other
answers. -/
theorem C102_taking_away (hext : Extends env.U p' rec.policy) :
    ∃ s', serve env (.updatePolicy d a) x.store = (.ok .updated, s') ∧ policyAt s' pid = some ⟨p', a, rec.createdAt⟩ ∧
      ∀ cs, Call.getPolicy pid ∉ cs → WritesDone cs (runCalls env cs s').1 → PlaceByPlace Kept (runCalls env cs s').1 (runCalls env cs x.store).1 := by
  have hv' := hx.wf.1.policy_valid hp
  rw [policyAt_eq] at hp
  have hid := hx.wf.1.polKey _ _ (kvGet_mem hp)
  have he : p'.id = pid := hext.id.symm.trans hid
  refine ⟨_, update_valid hp he hv hd a, ?_, fun cs hcs hw => runCalls_le cs hcs (shrunk_le hp he (Extends.le hext hv'.1 hv.1)) hw⟩
  rw [policyAt_eq]
  show kvGet (kvPut strLt x.store.policies p'.id _) pid = _
  rw [kvGet_put, he, if_pos rfl]

/-- C102 on a busy server: whatever other requests (none fetching the policy itself) arrive, interleave, fail or are cut off by crashes, an answer that can be had without the addition can be had with
it. -/
theorem C102_adding_busy (hext : Extends env.U rec.policy p') :
    ∃ s', serve env (.updatePolicy d a) x.store = (.ok .updated, s') ∧
      ∀ (A : Call → Prop) (c : Call) (b : Answer), ¬ A (.getPolicy pid) → c ≠ .getPolicy pid →
        (∃ hist y, Sys.Flight env A ⟨[], x.store⟩ c hist y (.done (.ok b))) → ∃ hist y, Sys.Flight env A ⟨[], s'⟩ c hist y (.done (.ok b)) := by
  have hv' := hx.wf.1.policy_valid hp
  rw [policyAt_eq] at hp
  have hid := hx.wf.1.polKey _ _ (kvGet_mem hp)
  have he : p'.id = pid := hext.id.trans hid
  refine ⟨_, update_valid hp he hv hd a, ?_⟩
  rintro A c b hA hc ⟨hist, y, hf⟩
  obtain ⟨hist', y', t', h2, h3, _⟩ := hf.le hA hc (x' := ⟨[], _⟩) ⟨.nil, extended_le hp hid (rec' := ⟨p', a, rec.createdAt⟩) (Extends.le hext hv.1 hv'.1)⟩
  cases h3 with
  | done => exact ⟨hist', y', h2⟩
  | fail _ hr => exact absurd rfl (hr b)

/-- C102 on a busy server: an answer that can be had after something was taken away can be had if it was not. -/
theorem C102_taking_away_busy (hext : Extends env.U p' rec.policy) :
    ∃ s', serve env (.updatePolicy d a) x.store = (.ok .updated, s') ∧
      ∀ (A : Call → Prop) (c : Call) (b : Answer), ¬ A (.getPolicy pid) → c ≠ .getPolicy pid →
        (∃ hist y, Sys.Flight env A ⟨[], s'⟩ c hist y (.done (.ok b))) → ∃ hist y, Sys.Flight env A ⟨[], x.store⟩ c hist y (.done (.ok b)) := by
  have hv' := hx.wf.1.policy_valid hp
  rw [policyAt_eq] at hp
  have hid := hx.wf.1.polKey _ _ (kvGet_mem hp)
  have he : p'.id = pid := hext.id.symm.trans hid
  refine ⟨_, update_valid hp he hv hd a, ?_⟩
  rintro A c b hA hc ⟨hist, y, hf⟩
  obtain ⟨hist', y', t', h2, h3, _⟩ := hf.le hA hc (x' := ⟨[], x.store⟩) ⟨.nil, shrunk_le hp he (rec' := ⟨p', a, rec.createdAt⟩) (Extends.le hext hv'.1 hv.1)⟩
  cases h3 with
  | done => exact ⟨hist', y', h2⟩
  | fail _ hr => exact absurd rfl (hr b)

end

/-- The policy of `opRels` and the same with a relation more. -/
theorem more_relations (rs more : List Relation) : Extends U0 (gPolicy rs) (gPolicy (rs ++ more)) := by
  refine ⟨rfl, fun n h => ?_, ?_⟩
  · obtain ⟨r, hr, rfl⟩ := h
    simp only [gPolicy, List.mem_cons, List.not_mem_nil, or_false] at hr
    rcases hr with rfl | rfl | rfl <;> first | exact ⟨⟨"user", "", []⟩, by simp [gPolicy], rfl⟩ | exact ⟨⟨"group", "", [rel "member" "_this"]⟩, by simp [gPolicy], rfl⟩ | exact ⟨⟨"doc", "", rs ++ more⟩, by simp [gPolicy], rfl⟩
  · rintro a b d ⟨r, hr, rfl, hd, rfl⟩
    have ok : ∀ {d : Relation} {a b : String}, Declares (gPolicy (rs ++ more)) a b d → ∃ d', Declares (gPolicy (rs ++ more)) a b d' ∧
        (∀ t, Denotes U0.isIdent whiteSpace d t → Denotes U0.isIdent whiteSpace d' t) ∧ AllowsMore d d' :=
      fun h => ⟨_, h, fun _ h => h, fun sr h => ⟨sr, h, fun _ h => h⟩⟩
    simp only [gPolicy, List.mem_cons, List.not_mem_nil, or_false] at hr
    rcases hr with rfl | rfl | rfl
    · cases hd
    · exact ok ⟨⟨"group", "", [rel "member" "_this"]⟩, by simp [gPolicy], rfl, hd, rfl⟩
    · exact ok ⟨⟨"doc", "", rs ++ more⟩, by simp [gPolicy], rfl, List.mem_append_left _ hd, rfl⟩

/-- Answered without error. -/
def okay (r : Res Answer) : Bool := match r with
  | .ok _ => true
  | _ => false

theorem okay_ok {r : Res Answer} (h : okay r = true) : ∃ a, r = .ok a := by
  cases r with
  | ok a => exact ⟨a, rfl⟩
  | _ => cases h

/-- The policy of `opRels` with a relation more. -/
def opMore : List Relation := opRels ++ [rel "third" "a + b"]

theorem opMore_valid : ValidPolicy U0 (gPolicy opMore) := by
  have h : verifyPolicy U0 (gPolicy opMore) = .ok () := by decide +kernel
  exact (C09_validation_exact U0 _).1 h

/-- The hypotheses of `C102_adding` and, read from right to left, of `C102_taking_away`; a question that is an error without the relation and answered with it; and a sequence, begun by that question,
whose write is done. -/
example : Sys.Reachable gEnv ⟨[], abStore⟩ ∧ policyAt abStore "p" = some ⟨gPolicy opRels, [], 0⟩ ∧ Extends gEnv.U (gPolicy opRels) (gPolicy opMore) ∧
    ValidPolicy gEnv.U (gPolicy opMore) ∧ ValidPolicy gEnv.U (gPolicy opRels) ∧ Defines gEnv (some (.policy (gPolicy opMore))) (gPolicy opMore) ∧
    (serve gEnv (.check 9 "p" (ask ⟨doc1, "third"⟩ usr)) abStore).1 = .err .relationNotFound ∧
    (∃ s', serve gEnv (.updatePolicy (some (.policy (gPolicy opMore))) []) abStore = (.ok .updated, s') ∧ Checks gEnv s' 9 "p" ⟨doc1, "third"⟩ usr true) ∧
    WritesDone [.check 9 "p" (ask ⟨doc1, "third"⟩ usr), .deleteRelationship "p" (some ⟨some doc1, "a", some (.entity usr)⟩), .listPolicyIds]
      (runCalls gEnv [.check 9 "p" (ask ⟨doc1, "third"⟩ usr), .deleteRelationship "p" (some ⟨some doc1, "a", some (.entity usr)⟩), .listPolicyIds] abStore).1 := by
  have hv : verifyPolicy U0 (gPolicy opRels) = .ok () := by decide +kernel
  refine ⟨gStore_reachable _ _ _, abStore_pol, more_relations _ _, opMore_valid, (C09_validation_exact U0 _).1 hv, .inl rfl, ?_, ?_, ?_⟩
  · exact errOf_some (by decide +kernel)
  · have hp := abStore_pol
    rw [policyAt_eq] at hp
    exact ⟨_, update_valid hp rfl opMore_valid (.inl rfl) [], checks_of (by decide +kernel)⟩
  · intro c r hm
    simp only [runCalls_cons, runCalls_nil, List.zip_cons_cons, List.mem_cons, Prod.mk.injEq] at hm
    rcases hm with ⟨rfl, _⟩ | ⟨rfl, rfl⟩ | ⟨rfl, _⟩ | hm
    · exact .inl trivial
    · right
      rw [LooksOnly.same (c := .check 9 "p" (ask ⟨doc1, "third"⟩ usr)) trivial]
      have h : okay (serve gEnv (.deleteRelationship "p" (some ⟨some doc1, "a", some (.entity usr)⟩)) abStore).1 = true := by decide +kernel
      exact okay_ok h
    · exact .inl trivial
    · cases hm

end Zanzi
