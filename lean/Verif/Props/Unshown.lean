import Verif.Lemmas.Unshown
import Verif.Lemmas.InvolvedSet
import Verif.Props.Steps

/-
Properties C76, without hypotheses, and C125: those whom the expansion does not show.
-/

namespace Zanzi

open Spec

section
variable {env : Env} {s : Store} {pid : String} {rec : PolicyRecord} {x : USet} {u : Entity}

/-- An expansion never succeeds. -/
theorem expansion_fails (hs : WF env s) (hp : policyAt s pid = some rec) {fuel : Nat} {t : GoalTree} {seen : List Nat}
    (h : pPath env.H (bld env rec.policy s) none fuel x.node "Request" [] = .ok (t, seen)) : t.result ≠ .success :=
  ((pPath_ev _ _ _ _ _ _ h).aimless (P := fun _ => True) (fun n t _ h2 h3 => by
    obtain ⟨_, _, _, _, h4⟩ := bld_node (hs.policy_valid hp).1 h2 h3
    exact ⟨(pBuild_formed h4).1, fun _ _ _ _ => trivial⟩) (fun _ _ => trivial) nofun).1

/-- C125: whom an expansion does not show, neither by name nor by a wildcard of their type, is denied, and the expansion is the explanation. -/
theorem C125_expansion_explains (hs : WF env s) (hp : policyAt s pid = some rec) {fuel : Nat} {t : GoalTree} (h : Expands env s fuel pid x.node t)
    (hu : ∀ n ∈ settled t, ¬ Names u n) {fuel' : Nat} (hf : fuel ≤ fuel') :
    Explains env s fuel' pid x u t false ∧ Checks env s fuel' pid x u false := by
  obtain ⟨seen, h1⟩ := expand_search hp h
  have h2 := pPath_shadows (goal' := userGoal u) (G := fun n => ¬ Names u n)
    (fun n id b hn hid hb => by cases goalFound_none n hb; exact goalFound_unnamed n id hn hid) fuel fuel' hf _ _ _ _ _ h1 hu
  have h3 : decide (t.result = .success) = false := decide_eq_false (expansion_fails hs hp h1)
  exact ⟨h3 ▸ search_explains hp h2, h3 ▸ search_checks hp h2⟩

/-- C125, the other way: an explanation that does not show the user is the expansion, and a denial. -/
theorem C125_explanation_expands (hs : WF env s) (hp : policyAt s pid = some rec) {fuel : Nat} {t : GoalTree} {b : Bool}
    (h : Explains env s fuel pid x u t b) (hu : ∀ n ∈ settled t, ¬ Names u n) {fuel' : Nat} (hf : fuel ≤ fuel') :
    Expands env s fuel' pid x.node t ∧ b = false := by
  obtain ⟨seen, h1, rfl⟩ := explain_search hp h
  have h2 := pPath_shadows (goal' := none) (G := fun n => ¬ Names u n)
    (fun n id b hn hid hb => by rw [goalFound_unnamed n id hn hid] at hb; cases hb; rfl) fuel fuel' hf _ _ _ _ _ h1 hu
  exact ⟨search_expands hp h2, decide_eq_false (expansion_fails hs hp h2)⟩

/-- C76 without hypotheses: whoever Check authorizes is shown by the expansion, for every operator and whatever names and keys collide. -/
theorem C76_authorized_shown (hs : WF env s) (hp : policyAt s pid = some rec) {fuel fuel' : Nat} {t : GoalTree} (h : Expands env s fuel pid x.node t)
    (h' : Checks env s fuel' pid x u true) : ∃ n ∈ settled t, Names u n := by
  refine Classical.byContradiction fun hn => ?_
  have hu : ∀ n ∈ settled t, ¬ Names u n := fun n hm hN => hn ⟨n, hm, hN⟩
  have h1 := (C125_expansion_explains hs hp h hu (Nat.le_max_left fuel fuel')).2
  obtain ⟨t', seen, h2, h3⟩ := check_search hp h'
  have h4 := search_checks hp (pPath_shadows (goal' := userGoal u) (G := fun _ => True) (fun _ _ _ _ _ h => h) fuel' (max fuel fuel')
    (Nat.le_max_right fuel fuel') _ _ _ _ _ h2 (fun _ _ => trivial))
  rw [← h3] at h4
  unfold Checks at h1 h4
  rw [h1] at h4
  cases h4

/-- C125: all whom an explanation does not show, its user among them, have the same explanation. -/
theorem C125_same_explanation (hs : WF env s) (hp : policyAt s pid = some rec) {fuel : Nat} {t : GoalTree} {b : Bool}
    (h : Explains env s fuel pid x u t b) (hu : ∀ n ∈ settled t, ¬ Names u n) {w : Entity} (hw : ∀ n ∈ settled t, ¬ Names w n) :
    Explains env s fuel pid x w t false :=
  (C125_expansion_explains hs hp (C125_explanation_expands hs hp h hu (Nat.le_refl fuel)).1 hw (Nat.le_refl fuel)).1

/-- C125 for policies of unions: the explanation of every denial is the expansion, whatever names and keys collide.  Not so for intersections and differences,
which deny whom they show (`C125_shown_denied`). -/
theorem C125_denial_of_unions (hs : WF env s) (hp : policyAt s pid = some rec) (hu : ∀ y e, DefinedBy env.U rec.policy y e → UnionOnly e)
    {fuel : Nat} {t : GoalTree} (h : Explains env s fuel pid x u t false) : Expands env s fuel pid x.node t := by
  obtain ⟨seen, h1, hb⟩ := explain_search hp h
  refine (C125_explanation_expands hs hp h ?_ (Nat.le_refl fuel)).1
  exact (pPath_ev _ _ _ _ _ _ h1).unshown (fun n t h2 h3 => by
    obtain ⟨_, _, _, h4, h5⟩ := bld_node (hs.policy_valid hp).1 h2 h3
    exact pBuild_unionOnly (hu _ _ h4) h5) (of_decide_eq_false hb.symm)

/-- C81 for policies of unions, whatever names and keys collide: Check authorizes exactly those in the set that Expand's tree stands for.  Missing: other
operators (`C81_wildcard_violated`). -/
theorem C81_union_policies_partial (hs : WF env s) (hp : policyAt s pid = some rec) (hu : ∀ y e, DefinedBy env.U rec.policy y e → UnionOnly e)
    {fuel fuel' : Nat} {b : Bool} {t : GoalTree} (h : Checks env s fuel pid x u b) (h' : Expands env s fuel' pid x.node t) : b = inSet u t := by
  obtain ⟨s2, h2⟩ := expand_search hp h'
  have hpl : ∀ n t, n.isTerminal = false → bld env rec.policy s n = .ok t → t.Plain false ∧ Shaped t := fun n t h2 h3 => by
    obtain ⟨_, _, _, h4, h5⟩ := bld_node (hs.policy_valid hp).1 h2 h3
    exact ⟨pBuild_unionOnly (hu _ _ h4) h5, (pBuild_shaped h5).2⟩
  have hsh : OrShape t := pPath_orShape (P := fun _ => True) (fun n t _ ht hb =>
    ⟨orShape_of t (hpl n t ht hb).2 (hpl n t ht hb).1, fun _ _ _ _ => trivial⟩) fuel' _ _ _ _ _ (fun _ _ => trivial) h2
  rw [Bool.eq_iff_iff, inSet_settled t hsh]
  constructor
  · rintro rfl
    exact C76_authorized_shown hs hp h' h
  · rintro ⟨n, hn, hN⟩
    refine Classical.byContradiction fun hb => ?_
    rw [Bool.not_eq_true] at hb
    subst hb
    obtain ⟨t1, s1, h1, hb1⟩ := check_search hp h
    have hun : ∀ m ∈ settled t1, ¬ Names u m := (pPath_ev _ _ _ _ _ _ h1).unshown (fun n t h2 h3 => (hpl n t h2 h3).1) (of_decide_eq_false hb1.symm)
    have e1 := pPath_shadows (goal' := none) (G := fun n => ¬ Names u n)
      (fun n id b hn hid hb => by rw [goalFound_unnamed n id hn hid] at hb; cases hb; rfl) fuel (max fuel fuel') (Nat.le_max_left _ _) _ _ _ _ _ h1 hun
    have e2 := pPath_shadows (goal' := none) (G := fun _ => True) (fun _ _ _ _ _ h => h) fuel' (max fuel fuel')
      (Nat.le_max_right fuel fuel') _ _ _ _ _ h2 (fun _ _ => trivial)
    rw [e1] at e2
    cases e2
    exact hun n hn hN

end

/-- An intersection denies a user whom its expansion shows, and explains it by another tree. -/
theorem C125_shown_denied : ∃ t t', Expands gEnv abStore 10 "p" (USet.node ⟨doc1, "both"⟩) t ∧ Explains gEnv abStore 10 "p" ⟨doc1, "both"⟩ usr t' false ∧
    (∃ n ∈ settled t, Names usr n) ∧ t ≠ t' := by
  obtain ⟨t, h1, h2⟩ := expands_of (env := gEnv) (s := abStore) (pid := "p") (root := USet.node ⟨doc1, "both"⟩) (fuel := 10)
    (f := fun t => decide (RelationNode.entity (some usr) ∈ settled t) && stepB (USet.node ⟨doc1, "a"⟩) .failure (fun _ => true) t
      && !stepB (USet.node ⟨doc1, "a"⟩) .success (fun _ => true) t) (by decide +kernel)
  obtain ⟨t', b, h3, h4⟩ := explains_of (env := gEnv) (s := abStore) (pid := "p") (x := ⟨doc1, "both"⟩) (u := usr) (fuel := 10)
    (f := fun t b => stepB (USet.node ⟨doc1, "a"⟩) .success (fun _ => true) t && !b) (by decide +kernel)
  simp only [Bool.and_eq_true, Bool.not_eq_true', decide_eq_true_eq] at h2 h4
  obtain ⟨h4, rfl⟩ := h4
  refine ⟨t, t', h1, h3, ⟨_, h2.1.1, .inl rfl⟩, ?_⟩
  rintro rfl
  rw [h2.2] at h4
  cases h4

/-- Nobody but user:u is shown by the expansion of `only = a - b`: others are denied, with that explanation. -/
example : ∃ t, Expands gEnv abStore 10 "p" (USet.node ⟨doc1, "only"⟩) t ∧ Explains gEnv abStore 10 "p" ⟨doc1, "only"⟩ ⟨"user", "w"⟩ t false ∧
    ∀ fuel u, Checks gEnv abStore fuel "p" ⟨doc1, "only"⟩ u true → u = usr := by
  obtain ⟨t, h1, h2⟩ := expands_of (env := gEnv) (s := abStore) (pid := "p") (root := USet.node ⟨doc1, "only"⟩) (fuel := 10)
    (f := fun t => (settled t).all (fun n => decide (n ∈ abNodes "only"))) (by decide +kernel)
  have h3 : ∀ n ∈ settled t, ∀ u, Names u n → u = usr := by
    intro n hn u hu
    have := List.all_eq_true.1 h2 n hn
    simp only [abNodes, decide_eq_true_eq, List.mem_cons, List.not_mem_nil, or_false] at this
    rcases hu with rfl | rfl <;> simpa using this
  refine ⟨t, h1, (C125_expansion_explains (gStore_wf _ _ _) abStore_pol h1 (fun n hn hN => ?_) (Nat.le_refl 10)).1, fun fuel u h => ?_⟩
  · exact absurd (h3 n hn _ hN) (by decide)
  · obtain ⟨n, hn, hN⟩ := C76_authorized_shown (gStore_wf _ _ _) abStore_pol h1 h
    exact h3 n hn u hN

/-- The explanation for one stranger is that for another, and the expansion. -/
example : ∃ t, Explains gEnv wbStore 10 "p" ⟨doc1, "both"⟩ ⟨"group", "g"⟩ t false ∧ Explains gEnv wbStore 10 "p" ⟨doc1, "both"⟩ doc1 t false ∧
    Expands gEnv wbStore 10 "p" (USet.node ⟨doc1, "both"⟩) t := by
  obtain ⟨t, b, h1, h2⟩ := explains_of (env := gEnv) (s := wbStore) (pid := "p") (x := ⟨doc1, "both"⟩) (u := ⟨"group", "g"⟩) (fuel := 10)
    (f := fun t b => (settled t).all (fun n => decide (n ∈ RelationNode.wildcard "user" :: abNodes "both")) && !b) (by decide +kernel)
  simp only [Bool.and_eq_true, Bool.not_eq_true'] at h2
  obtain ⟨h2, rfl⟩ := h2
  have h3 : ∀ n ∈ settled t, ∀ u, Names u n → u.resource = "user" := by
    intro n hn u hu
    have := List.all_eq_true.1 h2 n hn
    simp only [abNodes, decide_eq_true_eq, List.mem_cons, List.not_mem_nil, or_false] at this
    rcases hu with rfl | rfl
    · have h : u = usr := by simpa using this
      rw [h]
      rfl
    · simpa using this
  have h4 : ∀ n ∈ settled t, ¬ Names ⟨"group", "g"⟩ n := fun n hn hN => absurd (h3 n hn _ hN) (by decide)
  exact ⟨t, h1, C125_same_explanation (gStore_wf _ _ _) wbStore_pol h1 h4 (fun n hn hN => absurd (h3 n hn _ hN) (by decide)),
    (C125_explanation_expands (gStore_wf _ _ _) wbStore_pol h1 h4 (Nat.le_refl 10)).1⟩

theorem step_unions {y : USet} {e : ExprTree} (h : DefinedBy U0 (gPolicy stepRels) y e) : UnionOnly e := by
  obtain ⟨d, ⟨r, hr, _, hd, _⟩, he⟩ := h
  rw [← getExpressionTree_ok_iff] at he
  have hall : ∀ r ∈ (gPolicy stepRels).resources, ∀ d ∈ r.relations, d ∈ rel "member" "_this" :: stepRels := by
    simpa [gPolicy] using fun d hd => Or.inr hd
  have key : ∀ d ∈ rel "member" "_this" :: stepRels, (match getExpressionTree U0 d with | .ok e => unionOnlyB e | _ => false) = true := by
    decide +kernel
  have h3 := key d (hall r hr d hd)
  rw [show getExpressionTree U0 d = .ok e from he] at h3
  exact unionOnly_of h3

/-- The hypotheses of the theorem on unions, with a cycle. -/
example : ∃ t, Explains gEnv stepStore 10 "p" ⟨doc1, "v"⟩ ⟨"user", "w"⟩ t false ∧ Expands gEnv stepStore 10 "p" (USet.node ⟨doc1, "v"⟩) t := by
  obtain ⟨t, b, h1, h2⟩ := explains_of (env := gEnv) (s := stepStore) (pid := "p") (x := ⟨doc1, "v"⟩) (u := ⟨"user", "w"⟩) (fuel := 10)
    (f := fun _ b => !b) (by decide +kernel)
  simp only [Bool.not_eq_true'] at h2
  subst h2
  exact ⟨t, h1, C125_denial_of_unions (env := gEnv) (gStore_wf _ _ _) stepStore_pol (fun _ _ => step_unions) h1⟩

/-- Users in the set the expansion stands for, in the same policy. -/
example : ∃ t, Expands gEnv stepStore 10 "p" (USet.node ⟨doc1, "v"⟩) t ∧ inSet usr t = true ∧ ∀ u b, Checks gEnv stepStore 10 "p" ⟨doc1, "v"⟩ u b → b = inSet u t := by
  obtain ⟨t, h1, h2⟩ := expands_of (env := gEnv) (s := stepStore) (pid := "p") (root := USet.node ⟨doc1, "v"⟩) (fuel := 10)
    (f := fun t => inSet usr t) (by decide +kernel)
  exact ⟨t, h1, h2, fun u b h => C81_union_policies_partial (env := gEnv) (gStore_wf _ _ _) stepStore_pol (fun _ _ => step_unions) h h1⟩

end Zanzi
