import Verif.Lemmas.Expansion
import Verif.Props.Explain
import Verif.Props.Grants

/-
Property C81: Expand's tree, read as a set, has the users Check authorizes.
-/

namespace Zanzi

open Spec

section
variable {env : Env} {s : Store} {pid : String} {rec : PolicyRecord} {x : USet} {u : Entity}

theorem expand_search (hp : policyAt s pid = some rec) {fuel : Nat} {t : GoalTree} (h : Expands env s fuel pid x.node t) :
    ∃ seen, pPath env.H (bld env rec.policy s) none fuel x.node "Request" [] = .ok (t, seen) := by
  unfold Expands at h
  rw [serve_expand hp] at h
  obtain ⟨_, _, h⟩ := Res.bind_eq_ok.1 h
  obtain ⟨t', h1, h⟩ := Res.bind_eq_ok.1 h
  cases h
  have h1 : (pPath env.H (bld env rec.policy s) none fuel x.node "Request" [] >>= fun q => .ok q.1) = .ok t := h1
  obtain ⟨⟨t1, seen⟩, h2, h3⟩ := Res.bind_eq_ok.1 h1
  cases h3
  exact ⟨seen, h2⟩

theorem check_search (hp : policyAt s pid = some rec) {fuel : Nat} {b : Bool} (h : Checks env s fuel pid x u b) :
    ∃ t seen, pPath env.H (bld env rec.policy s) (userGoal u) fuel x.node "Request" [] = .ok (t, seen) ∧ b = decide (t.result = .success) := by
  obtain ⟨t, _, h1, _, hb⟩ := check_ev hp h
  have h1 : (pPath env.H (bld env rec.policy s) (userGoal u) fuel x.node "Request" [] >>= fun q => .ok q.1) = .ok t := h1
  obtain ⟨⟨t1, seen⟩, h2, h3⟩ := Res.bind_eq_ok.1 h1
  cases h3
  exact ⟨_, seen, h2, hb⟩

/-- C81 for every operator, when no wildcard covers the user and no other node of the request has their visit identifier: Check authorizes exactly those
in the set that Expand's tree stands for.  Missing: users covered by a wildcard, when operators other than union are met. -/
theorem C81_expand_partial (hs : WF env s) (hp : policyAt s pid = some rec) (hk : KeysClear env.U env.H rec.policy (Present s pid) x)
    (hi : ∀ n, Reaches env.U rec.policy (Present s pid) x n → n.nodeId env.H = (RelationNode.entity (some u)).nodeId env.H → n = .entity (some u))
    (hw : NoWildcardFor env.U rec.policy (Present s pid) x u) {fuel fuel' : Nat} {b : Bool} {t : GoalTree} (h : Checks env s fuel pid x u b)
    (h' : Expands env s fuel' pid x.node t) : b = inSet u t := by
  obtain ⟨t1, s1, h1, rfl⟩ := check_search hp h
  obtain ⟨s2, h2⟩ := expand_search hp h'
  have hb : ∀ n t, Reaches env.U rec.policy (Present s pid) x n → n.isTerminal = false → bld env rec.policy s n = .ok t →
      Shaped t ∧ ∀ m ∈ t.tops, Ok env.H (Reaches env.U rec.policy (Present s pid) x) m := by
    intro n t hn ht hb
    obtain ⟨_, _, _, _, h, _, _, _, h'⟩ := expand_facts hs hp hk hn ht hb
    exact ⟨(pBuild_shaped h).2, h'⟩
  obtain ⟨e1, e2⟩ := pPath_meets (u := u) hw rfl (fun n hn he => hi n hn (he.trans rfl)) hb fuel fuel' x.node "Request" [] _ _ (fun _ _ => .start)
    List.not_mem_nil h1 h2
  rw [Bool.eq_iff_iff, decide_eq_true_eq]
  rcases e2 with ⟨e, _, e4⟩ | ⟨_, _, e5⟩
  · cases e
    rw [e4]
    exact ⟨fun h => absurd h e1, nofun⟩
  · exact e5

/-- Whoever a request of unions reaches is granted. -/
theorem reached_granted {U : Unicode} {p : Policy} {R : Relationship → Prop} (hu : ExprsFrom U p R x UnionOnly) {n : RelationNode}
    (hn : Reaches U p R x n) (hN : Names u n) : Granted U p R u x := by
  intro V hV
  have key : ∀ m, Reaches U p R x m → NodeIn V u m → V x := by
    intro m hm
    induction hm with
    | start => exact id
    | @step y m hy hw ih =>
      intro hV'
      refine ih (hV y ?_)
      cases hw with
      | this a b c => exact ⟨_, a, unionOnly_leaf (hu y _ hy a) b ⟨_, c, (nodeIn_subject V u _).1 hV'⟩⟩
      | cu a b => exact ⟨_, a, unionOnly_leaf (hu y _ hy a) b hV'⟩
      | arrow a b c d => exact ⟨_, a, unionOnly_leaf (hu y _ hy a) b ⟨_, _, c, d, hV'⟩⟩
  refine key n hn ?_
  rcases hN with rfl | rfl
  · exact rfl
  · exact rfl

theorem unionOnly_andFree {e : ExprTree} (h : UnionOnly e) : AndFree e := by
  induction e with
  | op l o r ihl ihr =>
    cases o
    · exact ⟨ihl h.1, ihr h.2⟩
    all_goals exact h.elim
  | nil => trivial
  | unset => trivial
  | rule r => trivial

/-- C81 for requests that meet only unions, wildcards included. -/
theorem C81_unions_partial (hs : WF env s) (hp : policyAt s pid = some rec) (hk : KeysClear env.U env.H rec.policy (Present s pid) x)
    (hi : IdsClear env.U env.H rec.policy (Present s pid) x) (hu : ExprsFrom env.U rec.policy (Present s pid) x UnionOnly)
    {fuel fuel' : Nat} {b : Bool} {t : GoalTree} (h : Checks env s fuel pid x u b) (h' : Expands env s fuel' pid x.node t) : b = inSet u t := by
  obtain ⟨s2, h2⟩ := expand_search hp h'
  have hsh : OrShape t := pPath_orShape (P := Reaches env.U rec.policy (Present s pid) x) (fun n t hn ht hb => by
    obtain ⟨y, e, rfl, hd, h, _, _, _, h'⟩ := expand_facts hs hp hk hn ht hb
    exact ⟨orShape_of t (pBuild_shaped h).2 (pBuild_unionOnly (hu y e hn hd) h), h'⟩) fuel' _ _ _ _ _ (fun _ _ => .start) h2
  rw [Bool.eq_iff_iff, inSet_settled t hsh]
  constructor
  · rintro rfl
    exact C76_expand_shows_authorized hs hp hk hi h h'
  · rintro ⟨n, h3, h4⟩
    exact C37_complete_partial hs hp hk hi hu h (reached_granted hu ((C47_expand_partial hs hp hk hi (fun y e hr hd => unionOnly_andFree (hu y e hr hd)) h' n).1 h3) h4)

end

/-! ### Cases -/

/-- doc relations a, b and `rest = (a + b) - b`. -/
def restRels : List Relation := [rel "a" "_this", rel "b" "_this", rel "rest" "(a + b) - b"]

/-- What Expand returns for `both` when everybody has a. -/
def bothTree : GoalTree :=
  .path .failure (.entitySet (some doc1) "both") "Request" (.and .failure
    [.or .failure [.path .failure (.entitySet (some doc1) "a") "Rule Computed Userset: a" (.or .failure [.leaf .failure (.wildcard "user") "Rule This"])],
     .or .unknown [.leaf .unknown (.entitySet (some doc1) "b") "Rule Computed Userset: b"]])

/-- C81 is false under wildcards.  Everybody has a and user:u has b: Check authorizes user:u for `both = a & b`, but Expand's tree of it has nobody; Check denies them
`rest = (a + b) - b`, but Expand's tree of it has them. -/
theorem C81_wildcard_violated :
    (∃ t, Checks gEnv wbStore 10 "p" ⟨doc1, "both"⟩ usr true ∧ Expands gEnv wbStore 10 "p" (.entitySet (some doc1) "both") t ∧ ∀ u, inSet u t = false) ∧
    (∃ t, Checks gEnv (gStore gEnv restRels wbRels) 10 "p" ⟨doc1, "rest"⟩ usr false ∧
      Expands gEnv (gStore gEnv restRels wbRels) 10 "p" (.entitySet (some doc1) "rest") t ∧ inSet usr t = true) := by
  constructor
  · obtain ⟨t, h1, h2⟩ := expands_of (env := gEnv) (s := wbStore) (pid := "p") (root := .entitySet (some doc1) "both") (fuel := 10)
      (f := fun t => sameTree t bothTree) (by decide +kernel)
    cases sameTree_eq h2
    exact ⟨_, checks_of (by decide +kernel), h1, fun u => by simp [bothTree, inSet, inAll, inAny]⟩
  · obtain ⟨t, h1, h2⟩ := expands_of (env := gEnv) (s := gStore gEnv restRels wbRels) (pid := "p") (root := .entitySet (some doc1) "rest") (fuel := 10)
      (f := fun t => inSet usr t) (by decide +kernel)
    exact ⟨t, checks_of (by decide +kernel), h1, h2⟩

/-- The hypotheses of `C81_expand_partial` hold for a difference, and the user is in the set. -/
example : ∃ t, Expands gEnv abStore 10 "p" (USet.node ⟨doc1, "only"⟩) t ∧ Checks gEnv abStore 10 "p" ⟨doc1, "only"⟩ usr (inSet usr t) ∧ inSet usr t = true := by
  obtain ⟨t, h1, h2⟩ := expands_of (env := gEnv) (s := abStore) (pid := "p") (root := USet.node ⟨doc1, "only"⟩) (fuel := 10)
    (f := fun t => inSet usr t) (by decide +kernel)
  have hc : Checks gEnv abStore 10 "p" ⟨doc1, "only"⟩ usr true := checks_of (by decide +kernel)
  have hl : ∀ n, Reaches U0 (gPolicy opRels) (Present abStore "p") ⟨doc1, "only"⟩ n → n ∈ abNodes "only" := fun n h =>
    reaches_list (env := gEnv) (gStore_wf _ _ _) abStore_pol (L := abNodes "only") (by simp [abNodes, USet.node]) (by decide +kernel) h
  have := C81_expand_partial (env := gEnv) (u := usr) (gStore_wf _ _ _) abStore_pol (ab_clear _ (.inr (.inl rfl))).1 (fun n hn he => ?_) (fun h => ?_) hc h1
  · exact ⟨t, h1, this ▸ hc, h2⟩
  · exact (ab_clear _ (.inr (.inl rfl))).2 _ _ _ hn (.step (y := ⟨doc1, "a"⟩) (.step (y := ⟨doc1, "only"⟩) .start (.cu (op_defs "1").2.2.2.1 (by simp [leaves])))
      (.this (sub := .entity usr) (op_defs "1").1 (by simp [leaves]) (ab_present.2 (.inl rfl)))) he rfl
  · have := hl _ h
    simp [abNodes] at this

/-- And those of `C81_unions_partial` for a union. -/
example : ∃ t, Expands gEnv abStore 10 "p" (USet.node ⟨doc1, "any"⟩) t ∧ Checks gEnv abStore 10 "p" ⟨doc1, "any"⟩ usr (inSet usr t) ∧ inSet usr t = true := by
  obtain ⟨t, h1, h2⟩ := expands_of (env := gEnv) (s := abStore) (pid := "p") (root := USet.node ⟨doc1, "any"⟩) (fuel := 10)
    (f := fun t => inSet usr t) (by decide +kernel)
  have hc : Checks gEnv abStore 10 "p" ⟨doc1, "any"⟩ usr true := checks_of (by decide +kernel)
  have := C81_unions_partial (env := gEnv) (gStore_wf _ _ _) abStore_pol (ab_clear _ (.inr (.inr rfl))).1 (ab_clear _ (.inr (.inr rfl))).2
    (exprs_of (env := gEnv) (f := unionOnlyB) (fun _ => unionOnly_of) (gStore_wf _ _ _) abStore_pol (L := abNodes "any")
      (by simp [abNodes, USet.node]) (by decide +kernel) (by decide +kernel)) hc h1
  exact ⟨t, h1, this ▸ hc, h2⟩

end Zanzi
