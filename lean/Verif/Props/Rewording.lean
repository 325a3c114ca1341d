import Verif.Lemmas.Rewording
import Verif.Props.Interference

/-
C92: only what a policy says matters, not how it is written.
-/

namespace Zanzi

open Spec Prog

/-- C92: of two policies that say the same and whose names are unique, either both are valid or neither is. -/
theorem C92_valid_alike (U : Unicode) (p p' : Policy) (h : SaysSame U p p') (hu : NamesUnique p) (hu' : NamesUnique p') : ValidPolicy U p ↔ ValidPolicy U p' := by
  have hs : SaysSame U p' p := by
    have hsub : ∀ {x y : Option SubjectRestriction}, SameSubjects x y → SameSubjects y x := by
      intro x y h
      unfold SameSubjects at h
      split at h
      · exact fun a => (h a).symm
      · subst h; exact SameSubjects.refl _
    have hm : ∀ {d d' : Relation}, SameMeaning U d d' → SameMeaning U d' d := fun h => ⟨fun t => (h.1 t).symm, hsub h.2⟩
    exact ⟨h.id.symm, fun n => (h.resources n).symm, fun a b d hd => by obtain ⟨d', h1, h2⟩ := h.nothingNew a b d hd; exact ⟨d', h1, hm h2⟩,
      fun a b d hd => by obtain ⟨d', h1, h2⟩ := h.kept a b d hd; exact ⟨d', h1, hm h2⟩⟩
  exact ⟨SaysSame.valid h hu', SaysSame.valid hs hu⟩

/-- Storing a policy again under its id leaves the list of ids. -/
theorem put_ids {s : Store} {pid : String} {rec rec' : PolicyRecord} (hp : kvGet s.policies pid = some rec) (he : rec'.policy.id = pid) :
    (kvPut strLt s.policies rec'.policy.id rec').map (·.1) = s.policies.map (·.1) := by
  unfold kvPut
  rw [he, hp]
  simp only [Option.isSome_some, if_true, List.map_map]
  apply List.map_congr_left
  intro x _
  by_cases hx : x.1 = pid <;> simp [hx]

/-- The store after a policy was stored again in other words. -/
theorem reworded_sim {env : Env} {s : Store} {pid : String} {rec rec' : PolicyRecord} (hp : kvGet s.policies pid = some rec) (hid : rec.policy.id = pid)
    (hsim : PolSim env.U rec.policy rec'.policy) : StoreSim env.U pid s (s.putPolicy rec') := by
  have he : rec'.policy.id = pid := hsim.id.trans hid
  refine ⟨rfl, rfl, ?_, fun q hq => ?_, ?_⟩
  · exact put_ids hp he
  · show kvGet (kvPut strLt s.policies rec'.policy.id rec') q = _
    rw [kvGet_put, he, if_neg hq]
  · show RecSim env.U (kvGet s.policies pid) (kvGet (kvPut strLt s.policies rec'.policy.id rec') pid)
    rw [kvGet_put, he, if_pos rfl, hp]
    exact hsim

/-- C92: in every reachable store, UpdatePolicy to a policy that says the same as the stored one — declarations reordered, names and descriptions changed, expressions spelled otherwise —
is accepted, and every later sequence of requests that does not fetch the policy itself is answered, errors and trees included, as if it had not been made. -/
theorem C92_rewording (env : Env) (x : Sys) (hx : Sys.Reachable env x) (pid : String) (rec : PolicyRecord) (hp : policyAt x.store pid = some rec) (p' : Policy)
    (hsame : SaysSame env.U rec.policy p') (hu : NamesUnique p') (d : Option PolicyDefinition) (hd : Defines env d p') (a : Bytes) :
    ∃ s', serve env (.updatePolicy d a) x.store = (.ok .updated, s') ∧ policyAt s' pid = some ⟨p', a, rec.createdAt⟩ ∧
      ∀ cs, Call.getPolicy pid ∉ cs → (runCalls env cs s').1 = (runCalls env cs x.store).1 := by
  have hv := hx.wf.1.policy_valid hp
  rw [policyAt_eq] at hp
  have hid := hx.wf.1.polKey _ _ (kvGet_mem hp)
  have he : p'.id = pid := hsame.id.trans hid
  refine ⟨x.store.putPolicy ⟨p', a, rec.createdAt⟩, ?_, ?_, fun cs hcs => ?_⟩
  · rw [serve_update, getPolicyFromDefinition_ok_iff.2 hd]
    dsimp only
    rw [he, hp]
    dsimp only
    rw [(C09_validation_exact _ _).2 (SaysSame.valid hsame hu hv)]
  · rw [policyAt_eq]
    show kvGet (kvPut strLt x.store.policies p'.id _) pid = _
    rw [kvGet_put, he, if_pos rfl]
  · exact runCalls_sim cs hcs (reworded_sim hp hid (SaysSame.sim hsame hu hv))

/-- C92 on a busy server: whatever other requests (none fetching the policy itself) arrive, interleave, fail or are cut off by crashes, a request can be answered `r` after the rewording
exactly when it can be answered `r` without it. -/
theorem C92_rewording_busy (env : Env) (x : Sys) (hx : Sys.Reachable env x) (pid : String) (rec : PolicyRecord) (hp : policyAt x.store pid = some rec) (p' : Policy)
    (hsame : SaysSame env.U rec.policy p') (hu : NamesUnique p') (d : Option PolicyDefinition) (hd : Defines env d p') (a : Bytes) :
    ∃ s', serve env (.updatePolicy d a) x.store = (.ok .updated, s') ∧
      ∀ (A : Call → Prop) (c : Call) (r : Res Answer), ¬ A (.getPolicy pid) → c ≠ .getPolicy pid →
        ((∃ hist y, Sys.Flight env A ⟨[], s'⟩ c hist y (.done r)) ↔ ∃ hist y, Sys.Flight env A ⟨[], x.store⟩ c hist y (.done r)) := by
  obtain ⟨s', h1, _, _⟩ := C92_rewording env x hx pid rec hp p' hsame hu d hd a
  have hv := hx.wf.1.policy_valid hp
  rw [policyAt_eq] at hp
  have hid := hx.wf.1.polKey _ _ (kvGet_mem hp)
  have he : p'.id = pid := hsame.id.trans hid
  have hs' : s' = x.store.putPolicy ⟨p', a, rec.createdAt⟩ := by
    rw [serve_update, getPolicyFromDefinition_ok_iff.2 hd] at h1
    dsimp only at h1
    rw [he, hp] at h1
    dsimp only at h1
    rw [(C09_validation_exact _ _).2 (SaysSame.valid hsame hu hv)] at h1
    exact (Prod.mk.inj h1).2.symm
  have hsim : StoreSim env.U pid x.store s' := hs' ▸ reworded_sim hp hid (SaysSame.sim hsame hu hv)
  have key : ∀ (A : Call → Prop) (c : Call) (r : Res Answer) (s s' : Store), ¬ A (.getPolicy pid) → c ≠ .getPolicy pid → StoreSim env.U pid s s' →
      (∃ hist y, Sys.Flight env A ⟨[], s⟩ c hist y (.done r)) → ∃ hist y, Sys.Flight env A ⟨[], s'⟩ c hist y (.done r) := by
    rintro A c r s s' hA hc hss ⟨hist, y, hf⟩
    obtain ⟨hist', y', t', h2, h3, _⟩ := hf.sim hA hc (x' := ⟨[], s'⟩) ⟨.nil, hss⟩
    cases h3
    exact ⟨hist', y', h2⟩
  exact ⟨s', h1, fun A c r hA hc => ⟨key A c r s' x.store hA hc hsim.symm, key A c r x.store s' hA hc hsim⟩⟩

/-- C92 at creation: in every reachable store where the id is free, it does not matter either in which words a policy is created. -/
theorem C92_creation (env : Env) (x : Sys) (hx : Sys.Reachable env x) (p p' : Policy) (hfree : policyAt x.store p.id = none) (hv : ValidPolicy env.U p)
    (hsame : SaysSame env.U p p') (hu : NamesUnique p') (d d' : Option PolicyDefinition) (hd : Defines env d p) (hd' : Defines env d' p') (now now' : Timestamp) (a a' : Bytes) :
    ∃ s s', serve env (.createPolicy now d a) x.store = (.ok (.created ⟨p, a, now⟩), s) ∧ serve env (.createPolicy now' d' a') x.store = (.ok (.created ⟨p', a', now'⟩), s') ∧
      ∀ cs, Call.getPolicy p.id ∉ cs → (runCalls env cs s').1 = (runCalls env cs s).1 := by
  rw [policyAt_eq] at hfree
  refine ⟨x.store.putPolicy ⟨p, a, now⟩, x.store.putPolicy ⟨p', a', now'⟩, ?_, ?_, fun cs hcs => runCalls_sim cs hcs ?_⟩
  · rw [serve_create, getPolicyFromDefinition_ok_iff.2 hd]
    dsimp only
    rw [hfree]
    dsimp only
    rw [(C09_validation_exact _ _).2 hv]
  · rw [serve_create, getPolicyFromDefinition_ok_iff.2 hd']
    dsimp only
    rw [hsame.id, hfree]
    dsimp only
    rw [(C09_validation_exact _ _).2 (SaysSame.valid hsame hu hv)]
  · refine ⟨rfl, rfl, ?_, fun q hq => ?_, ?_⟩
    · show (kvPut strLt x.store.policies p'.id _).map (·.1) = (kvPut strLt x.store.policies p.id _).map (·.1)
      rw [hsame.id]
      exact kvPut_keys rfl rfl
    · show kvGet (kvPut strLt x.store.policies p'.id _) q = kvGet (kvPut strLt x.store.policies p.id _) q
      rw [hsame.id, kvGet_put, kvGet_put, if_neg hq, if_neg hq]
    · show RecSim env.U (kvGet (kvPut strLt x.store.policies p.id _) p.id) (kvGet (kvPut strLt x.store.policies p'.id _) p.id)
      rw [hsame.id, kvGet_put, kvGet_put, if_pos rfl, if_pos rfl]
      exact SaysSame.sim hsame hu hv

/-- The policy of `opRels` in other words: resources and relations in another order, descriptions added, one expression spread out, one in brackets, one given as a tree. -/
def opReworded : Policy :=
  { id := "p", name := "Documents", description := "who may do what", attributes := [("owner", "legal")]
    resources := [
      { name := "doc", description := "a document", relations := [
        rel "any" "  a  +  b ",
        { rel "only" "" with relationExpression := some (.tree (.op (.rule (.cu "a")) .difference (.rule (.cu "b")))) },
        { rel "both" "(a & b)" with description := "on both lists" },
        rel "b" "_this",
        rel "a" "(_this)"] },
      { name := "group", relations := [rel "member" "_this"] },
      { name := "user", relations := [] }] }

theorem opReworded_same : SaysSame U0 (gPolicy opRels) opReworded := by
  have hm : ∀ (d d' : Relation) (t : ExprTree), getExpressionTree U0 d = .ok t → getExpressionTree U0 d' = .ok t →
      d.subjectRestriction = d'.subjectRestriction → SameMeaning U0 d d' := by
    intro d d' t h1 h2 h3
    refine ⟨fun t' => ?_, h3 ▸ SameSubjects.refl _⟩
    rw [← getExpressionTree_ok_iff, ← getExpressionTree_ok_iff, h1, h2]
  have m1 := hm (rel "a" "_this") (rel "a" "(_this)") (.rule .this) (by decide +kernel) (by decide +kernel) rfl
  have m2 := hm (rel "b" "_this") (rel "b" "_this") (.rule .this) (by decide +kernel) (by decide +kernel) rfl
  have m3 := hm (rel "both" "a & b") { rel "both" "(a & b)" with description := "on both lists" } (.op (.rule (.cu "a")) .intersection (.rule (.cu "b")))
    (by decide +kernel) (by decide +kernel) rfl
  have m4 := hm (rel "only" "a - b") { rel "only" "" with relationExpression := some (.tree (.op (.rule (.cu "a")) .difference (.rule (.cu "b")))) }
    (.op (.rule (.cu "a")) .difference (.rule (.cu "b"))) (by decide +kernel) (by decide +kernel) rfl
  have m5 := hm (rel "any" "a + b") (rel "any" "  a  +  b ") (.op (.rule (.cu "a")) .union (.rule (.cu "b"))) (by decide +kernel) (by decide +kernel) rfl
  have m6 := hm (rel "member" "_this") (rel "member" "_this") (.rule .this) (by decide +kernel) (by decide +kernel) rfl
  have mk : ∀ (d d' : Relation) (r' : Resource) (a : String), SameMeaning U0 d d' → r' ∈ opReworded.resources → d' ∈ r'.relations → r'.name = a → d'.name = d.name →
      ∃ d', Declares opReworded a d.name d' ∧ SameMeaning U0 d d' := fun d d' r' a h h1 h2 h3 h4 => ⟨d', ⟨r', h1, h3, h2, h4⟩, h⟩
  have mk' : ∀ (d d' : Relation) (r : Resource) (a : String), SameMeaning U0 d d' → r ∈ (gPolicy opRels).resources → d ∈ r.relations → r.name = a → d.name = d'.name →
      ∃ d, Declares (gPolicy opRels) a d'.name d ∧ SameMeaning U0 d d' := fun d d' r a h h1 h2 h3 h4 => ⟨d, ⟨r, h1, h3, h2, h4⟩, h⟩
  refine ⟨rfl, fun n => ?_, ?_, ?_⟩
  · simp only [HasResource, gPolicy, opReworded, List.mem_cons, List.not_mem_nil, or_false, exists_eq_or_imp, exists_eq_left]
    exact ⟨by rintro (h | h | h) <;> simp [h], by rintro (h | h | h) <;> simp [h]⟩
  · rintro a b d ⟨r, hr, rfl, hd, rfl⟩
    simp only [gPolicy, List.mem_cons, List.not_mem_nil, or_false] at hr
    rcases hr with rfl | rfl | rfl
    · cases hd
    · simp only [List.mem_cons, List.not_mem_nil, or_false] at hd
      subst hd
      exact ⟨_, ⟨_, List.mem_cons_of_mem _ (List.mem_cons_self ..), rfl, List.mem_cons_self .., rfl⟩, m6⟩
    · simp only [opRels, List.mem_cons, List.not_mem_nil, or_false] at hd
      rcases hd with rfl | rfl | rfl | rfl | rfl
      · exact mk _ _ _ _ m1 (List.mem_cons_self ..) (by simp) rfl rfl
      · exact mk _ _ _ _ m2 (List.mem_cons_self ..) (by simp) rfl rfl
      · exact mk _ _ _ _ m3 (List.mem_cons_self ..) (by simp) rfl rfl
      · exact mk _ _ _ _ m4 (List.mem_cons_self ..) (by simp) rfl rfl
      · exact mk _ _ _ _ m5 (List.mem_cons_self ..) (by simp) rfl rfl
  · rintro a b d ⟨r, hr, rfl, hd, rfl⟩
    simp only [opReworded, List.mem_cons, List.not_mem_nil, or_false] at hr
    rcases hr with rfl | rfl | rfl
    · simp only [List.mem_cons, List.not_mem_nil, or_false] at hd
      have hdoc : (⟨"doc", "", opRels⟩ : Resource) ∈ (gPolicy opRels).resources := by simp [gPolicy]
      rcases hd with rfl | rfl | rfl | rfl | rfl
      · exact mk' _ _ _ _ m5 hdoc (by simp [opRels]) rfl rfl
      · exact mk' _ _ _ _ m4 hdoc (by simp [opRels]) rfl rfl
      · exact mk' _ _ _ _ m3 hdoc (by simp [opRels]) rfl rfl
      · exact mk' _ _ _ _ m2 hdoc (by simp [opRels]) rfl rfl
      · exact mk' _ _ _ _ m1 hdoc (by simp [opRels]) rfl rfl
    · simp only [List.mem_cons, List.not_mem_nil, or_false] at hd
      subst hd
      exact ⟨_, ⟨_, List.mem_cons_of_mem _ (List.mem_cons_self ..), rfl, List.mem_cons_self .., rfl⟩, m6⟩
    · cases hd

/-- A stored policy and another that says the same without being the same; and an order of restriction entries that does not matter. -/
example : Sys.Reachable gEnv ⟨[], abStore⟩ ∧ policyAt abStore "p" = some ⟨gPolicy opRels, [], 0⟩ ∧ SaysSame gEnv.U (gPolicy opRels) opReworded ∧
    NamesUnique (gPolicy opRels) ∧ NamesUnique opReworded ∧ ValidPolicy gEnv.U (gPolicy opRels) ∧ Defines gEnv (some (.policy opReworded)) opReworded ∧ opReworded ≠ gPolicy opRels ∧
    SameSubjects (some (.restrictionSet [.entity "user", .entity "group"])) (some (.restrictionSet [.entity "group", .entity "user", .entity "group"])) := by
  have hv : verifyPolicy U0 opReworded = .ok () := by decide +kernel
  have hv' : verifyPolicy U0 (gPolicy opRels) = .ok () := by decide +kernel
  refine ⟨gStore_reachable _ _ _, abStore_pol, opReworded_same, op_unique, ((C09_validation_exact U0 _).1 hv).1, (C09_validation_exact U0 _).1 hv', .inl rfl, ?_, ?_⟩
  · intro h
    have := congrArg Policy.name h
    simp [opReworded, gPolicy] at this
  · intro y
    simp only [List.mem_cons, List.not_mem_nil, or_false]
    exact ⟨by rintro (h | h) <;> simp [h], by rintro (h | h | h) <;> simp [h]⟩

/-- The store with the reworded policy, as `C92_rewording` describes it: checks are answered as before. -/
example : ∃ s', serve gEnv (.updatePolicy (some (.policy opReworded)) [7]) abStore = (.ok .updated, s') ∧
    (runCalls gEnv [.check 9 "p" (ask ⟨doc1, "both"⟩ usr), .check 9 "p" (ask ⟨doc1, "only"⟩ usr), .listPolicyIds] s').1 =
    (runCalls gEnv [.check 9 "p" (ask ⟨doc1, "both"⟩ usr), .check 9 "p" (ask ⟨doc1, "only"⟩ usr), .listPolicyIds] abStore).1 := by
  have hv : verifyPolicy U0 opReworded = .ok () := by decide +kernel
  obtain ⟨s', h1, _, h2⟩ := C92_rewording gEnv ⟨[], abStore⟩ (gStore_reachable _ _ _) "p" _ abStore_pol opReworded opReworded_same ((C09_validation_exact U0 _).1 hv).1
    (some (.policy opReworded)) (.inl rfl) [7]
  exact ⟨s', h1, h2 _ (by simp)⟩

end Zanzi
