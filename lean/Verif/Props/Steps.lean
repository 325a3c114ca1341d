import Verif.Lemmas.Agree
import Verif.Lemmas.Steps
import Verif.Props.Expansion

/-
Property C124: the steps of an explanation are answers themselves.
-/

namespace Zanzi

open Spec

section
variable {env : Env} {s : Store} {pid : String} {rec : PolicyRecord} {x y : USet} {u : Entity}

theorem bld_fresh (hu : NamesUnique rec.policy) (n : RelationNode) (t : GoalTree) (ht : n.isTerminal = false) (h : bld env rec.policy s n = .ok t) :
    t.Fresh := by
  obtain ⟨_, _, _, _, h⟩ := bld_node hu ht h
  exact pBuild_fresh h

theorem explain_search (hp : policyAt s pid = some rec) {fuel : Nat} {t : GoalTree} {b : Bool} (h : Explains env s fuel pid x u t b) :
    ∃ seen, pPath env.H (bld env rec.policy s) (userGoal u) fuel x.node "Request" [] = .ok (t, seen) ∧ b = decide (t.result = .success) := by
  obtain ⟨_, h1, _, hb⟩ := explain_ev hp h
  have h1 : (pPath env.H (bld env rec.policy s) (userGoal u) fuel x.node "Request" [] >>= fun q => .ok q.1) = .ok t := h1
  obtain ⟨⟨t1, seen⟩, h2, h3⟩ := Res.bind_eq_ok.1 h1
  cases h3
  exact ⟨seen, h2, hb⟩

theorem search_explains (hp : policyAt s pid = some rec) {fuel : Nat} {t : GoalTree} {seen : List Nat}
    (h : pPath env.H (bld env rec.policy s) (userGoal u) fuel x.node "Request" [] = .ok (t, seen)) :
    Explains env s fuel pid x u t (decide (t.result = .success)) := by
  show (serve env (.explainCheck fuel pid (ask x u) .spew) s).1 = _
  rw [serve_explainCheck hp]
  have h1 : pSearch env rec.policy s fuel (some x.node) (userGoal u) = .ok t := by
    show (pPath env.H (bld env rec.policy s) (userGoal u) fuel x.node "Request" [] >>= fun q => .ok q.1) = .ok t
    rw [h]
    rfl
  simp only [h1]
  rfl

theorem search_checks (hp : policyAt s pid = some rec) {fuel : Nat} {t : GoalTree} {seen : List Nat}
    (h : pPath env.H (bld env rec.policy s) (userGoal u) fuel x.node "Request" [] = .ok (t, seen)) :
    Checks env s fuel pid x u (decide (t.result = .success)) := by
  show (serve env (.check fuel pid (ask x u)) s).1 = _
  rw [serve_check hp]
  have h1 : pSearch env rec.policy s fuel (some x.node) (userGoal u) = .ok t := by
    show (pPath env.H (bld env rec.policy s) (userGoal u) fuel x.node "Request" [] >>= fun q => .ok q.1) = .ok t
    rw [h]
    rfl
  simp only [h1]
  rfl

theorem search_expands (hp : policyAt s pid = some rec) {fuel : Nat} {n : RelationNode} {t : GoalTree} {seen : List Nat}
    (h : pPath env.H (bld env rec.policy s) none fuel n "Request" [] = .ok (t, seen)) : Expands env s fuel pid n t := by
  unfold Expands
  rw [serve_expand hp]
  have h1 : pSearch env rec.policy s fuel (some n) none = .ok t := by
    show (pPath env.H (bld env rec.policy s) none fuel n "Request" [] >>= fun q => .ok q.1) = .ok t
    rw [h]
    rfl
  simp only [h1]
  rfl

/-- What a request of unions reaches has is had by where it starts. -/
theorem union_upward {U : Unicode} {p : Policy} {R : Relationship → Prop} (hu : ExprsFrom U p R x UnionOnly) (hn : Reaches U p R x y.node)
    (hg : Granted U p R u y) : Granted U p R u x := by
  intro V hV
  have key : ∀ m, Reaches U p R x m → NodeIn V u m → V x := by
    intro m hm
    induction hm with
    | start => exact id
    | @step y m hy hw ih =>
      intro hV'
      refine ih (hV y ?_)
      cases hw with
      | this a b c => exact ⟨_, a, unionOnly_leaf (hu y _ hy a) b ⟨_, c, (nodeIn_subject V u _).1 hV'⟩⟩
      | cu a b => exact ⟨_, a, unionOnly_leaf (hu y _ hy a) b hV'⟩
      | arrow a b c d => exact ⟨_, a, unionOnly_leaf (hu y _ hy a) b ⟨_, _, c, d, hV'⟩⟩
  exact key _ hn (hg V hV)

/-- A step that decides what it stops at, searched by itself. -/
theorem step_search (hu : NamesUnique rec.policy) {goal : Option RelationNode} {fuel : Nat} {n : RelationNode} {r : String} {s0 s1 : List Nat} {t : GoalTree}
    (h : pPath env.H (bld env rec.policy s) goal fuel n r s0 = .ok (t, s1)) {m : RelationNode} {v : SearchResult} {c : GoalTree}
    (hm : (m, v, c) ∈ steps t) (hc : OwnCuts env.H m c) :
    ∃ seen, pPath env.H (bld env rec.policy s) goal fuel m "Request" [] = .ok (.path v m "Request" c, seen) := by
  obtain ⟨j, r', s2, s3, hj, h1⟩ := pPath_steps (bld_fresh hu) fuel _ _ _ _ _ h _ hm
  have hnew := (pPath_ev _ _ _ _ _ _ h1).settled_new (fun n t h1 h2 => (bld_fresh hu n t h1 h2).settled) trivial
  obtain ⟨s4, h2, _⟩ := pPath_retraces s2 j fuel hj _ _ _ _ _ (pPath_reason (r' := "Request") h1)
    (fun m1 hm1 id hid => by
      rw [cuts] at hm1
      obtain ⟨m', hm', he⟩ := hc m1 hm1
      obtain ⟨id', e1, e2⟩ := hnew m' hm'
      rw [he, hid] at e1
      cases e1
      exact e2) [] (List.nil_subset _) (fun _ h => h)
  exact ⟨s4, h2⟩

/-- A search started afresh decides what it stops at. -/
theorem search_ownCuts {goal : Option RelationNode} {fuel : Nat} {n : RelationNode} {r : String} {v : SearchResult} {c : GoalTree} {seen : List Nat}
    (h : pPath env.H (bld env rec.policy s) goal fuel n r [] = .ok (.path v n r c, seen)) : OwnCuts env.H n c := by
  intro m hm
  have hev := pPath_ev _ _ _ _ _ _ h
  obtain ⟨id, h1, h2⟩ := hev.cut_seen m (show m ∈ cuts (.path v n r c) by rw [cuts]; exact hm)
  rcases hev.seen_settled id h2 with h3 | ⟨m', h3, h4⟩
  · cases h3
  · exact ⟨m', h3, h4.trans h1.symm⟩

theorem clean_ownCuts {H : String → Nat} {n : RelationNode} {c : GoalTree} (h : Clean c) : OwnCuts H n c := by
  intro m hm
  rw [clean_cuts h] at hm
  cases hm

/-- C124, exactly: a userset an explanation expands is explained by itself with the same tree below and the result shown if and only if every node at which the
search stopped below it, as visited before, is that userset or decided below it. -/
theorem C124_step_exact (hs : WF env s) (hp : policyAt s pid = some rec) {fuel : Nat} {t : GoalTree} {b : Bool} (h : Explains env s fuel pid x u t b)
    {v : SearchResult} {c : GoalTree} (hy : (y.node, v, c) ∈ steps t) :
    Explains env s fuel pid y u (.path v y.node "Request" c) (decide (v = .success)) ↔ OwnCuts env.H y.node c := by
  constructor
  · intro h'
    obtain ⟨s1, h1, _⟩ := explain_search hp h'
    exact search_ownCuts h1
  · intro hc
    obtain ⟨s1, h1, _⟩ := explain_search hp h
    obtain ⟨s2, h2⟩ := step_search (hs.policy_valid hp).1 h1 hy hc
    exact search_explains hp h2

/-- C124 for Expand, exactly. -/
theorem C124_expand_step_exact (hs : WF env s) (hp : policyAt s pid = some rec) {fuel : Nat} {t : GoalTree} (h : Expands env s fuel pid x.node t)
    {v : SearchResult} {c : GoalTree} (hy : (y.node, v, c) ∈ steps t) :
    Expands env s fuel pid y.node (.path v y.node "Request" c) ↔ OwnCuts env.H y.node c := by
  constructor
  · intro h'
    obtain ⟨s1, h1⟩ := expand_search hp h'
    exact search_ownCuts h1
  · intro hc
    obtain ⟨s1, h1⟩ := expand_search hp h
    obtain ⟨s2, h2⟩ := step_search (hs.policy_valid hp).1 h1 hy hc
    exact search_expands hp h2

/-- C124: Check agrees with every step that decides what it stops at.  Missing: other steps (`C124_cut_violated`). -/
theorem C124_step_partial (hs : WF env s) (hp : policyAt s pid = some rec) {fuel : Nat} {t : GoalTree} {b : Bool} (h : Explains env s fuel pid x u t b)
    {v : SearchResult} {c : GoalTree} (hy : (y.node, v, c) ∈ steps t) (hc : OwnCuts env.H y.node c) {fuel' : Nat} (hf : fuel ≤ fuel') :
    Checks env s fuel' pid y u (decide (v = .success)) := by
  obtain ⟨s1, h1, _⟩ := explain_search hp h
  obtain ⟨s2, h2⟩ := step_search (hs.policy_valid hp).1 h1 hy hc
  obtain ⟨s3, h3, _⟩ := pPath_retraces [] fuel fuel' hf _ _ _ _ _ h2 (fun _ _ _ _ => List.not_mem_nil) [] (List.nil_subset _) (fun _ h => h)
  exact search_checks hp h3

mutual
theorem steps_settled {t : GoalTree} {p : RelationNode × SearchResult × GoalTree} (h : p ∈ steps t) : p.1 ∈ settled t := by
  match t with
  | .or _ ps => rw [steps] at h; rw [settled]; exact stepsList_settled h
  | .and _ ps => rw [steps] at h; rw [settled]; exact stepsList_settled h
  | .diff _ a b =>
    rw [steps] at h
    rw [settled]
    rcases List.mem_append.1 h with h | h
    · exact List.mem_append_left _ (steps_settled h)
    · exact List.mem_append_right _ (steps_settled h)
  | .leaf _ _ _ => rw [steps] at h; cases h
  | .path _ _ _ _ =>
    rw [steps] at h
    rw [settled]
    rcases List.mem_cons.1 h with rfl | h
    · exact List.mem_cons_self
    · exact List.mem_cons_of_mem _ (steps_settled h)
theorem stepsList_settled {ts : List GoalTree} {p : RelationNode × SearchResult × GoalTree} (h : p ∈ stepsList ts) : p.1 ∈ settledList ts := by
  match ts with
  | [] => rw [stepsList] at h; cases h
  | t :: ts =>
    rw [stepsList] at h
    rw [settledList]
    rcases List.mem_append.1 h with h | h
    · exact List.mem_append_left _ (steps_settled h)
    · exact List.mem_append_right _ (stepsList_settled h)
end

theorem settled_reached (hs : WF env s) (hp : policyAt s pid = some rec) (hk : KeysClear env.U env.H rec.policy (Present s pid) x)
    {fuel : Nat} {t : GoalTree} {b : Bool} (h : Explains env s fuel pid x u t b) : ∀ m ∈ settled t, Reaches env.U rec.policy (Present s pid) x m := by
  obtain ⟨_, _, h1, _⟩ := explain_ev hp h
  exact h1.settled_ok (P := Reaches env.U rec.policy (Present s pid) x)
      (fun n t hr hterm hb => by
        obtain ⟨y, e, rfl, h1, h2, k1, k2, hfm, htops⟩ := expand_facts hs hp hk hr hterm hb
        exact ⟨(pBuild_fresh h2).settled, htops⟩) (fun _ _ => .start) trivial

/-- C124 without difference: a userset an explanation shows with success is granted, whatever was cut off below it. -/
theorem C124_success_granted (hs : WF env s) (hp : policyAt s pid = some rec) (hk : KeysClear env.U env.H rec.policy (Present s pid) x)
    (hd : ExprsFrom env.U rec.policy (Present s pid) x DiffFree) {fuel : Nat} {t : GoalTree} {b : Bool} (h : Explains env s fuel pid x u t b)
    {c : GoalTree} (hy : (y.node, .success, c) ∈ steps t) : Granted env.U rec.policy (Present s pid) u y := by
  obtain ⟨s1, h1, _⟩ := explain_search hp h
  have hr := settled_reached hs hp hk h _ (steps_settled hy)
  obtain ⟨j, r', s2, s3, _, h2⟩ := pPath_steps (bld_fresh (hs.policy_valid hp).1) fuel _ _ _ _ _ h1 _ hy
  intro V hV
  have := (pPath_ev _ _ _ _ _ _ h2).sound (N := NodeIn V u) (P := Reaches env.U rec.policy (Present s pid) x)
    (fun n _ hf => (goalFound_user hf rfl).2 rfl)
    (fun n t hr hterm hb => by
      obtain ⟨z, e, rfl, h1, h2, k1, k2, hfm, htops⟩ := expand_facts hs hp hk hr hterm hb
      refine ⟨hfm, htops, fun hsem => hV z ⟨e, h1, ?_⟩⟩
      have h5 := ((pBuild_sem hs V u k1 k2 h2).2).1 hsem
      rwa [positive_of_diffFree (hd z e hr h1)] at h5)
  exact this (fun _ _ => hr) rfl

/-- C124 for unions: a userset an explanation shows with success is authorized when asked about by itself, whatever was cut off below it.
Missing: intersections and differences. -/
theorem C124_success_partial (hs : WF env s) (hp : policyAt s pid = some rec) (hk : KeysClear env.U env.H rec.policy (Present s pid) x)
    (hi : IdsClear env.U env.H rec.policy (Present s pid) x) (hu : ExprsFrom env.U rec.policy (Present s pid) x UnionOnly)
    {fuel : Nat} {t : GoalTree} {b : Bool} (h : Explains env s fuel pid x u t b) {c : GoalTree} (hy : (y.node, .success, c) ∈ steps t)
    {fuel' : Nat} {b' : Bool} (h' : Checks env s fuel' pid y u b') : b' = true := by
  have hr := settled_reached hs hp hk h _ (steps_settled hy)
  exact C37_complete_partial hs hp (fun z w hz => hk z w (reaches_trans hr hz)) (fun m n id hm hn => hi m n id (reaches_trans hr hm) (reaches_trans hr hn))
    (fun z t hz => hu z t (reaches_trans hr hz)) h'
    (C124_success_granted hs hp hk (fun z t hz hd => unionOnly_diffFree (hu z t hz hd)) h hy)

/-- C124 for unions: in an explanation of a denial every userset expanded is denied when asked about by itself.  Missing: intersections and
differences; failed steps of an explanation that authorizes (`C124_cut_violated`). -/
theorem C124_denied_partial (hs : WF env s) (hp : policyAt s pid = some rec) (hk : KeysClear env.U env.H rec.policy (Present s pid) x)
    (hi : IdsClear env.U env.H rec.policy (Present s pid) x) (hu : ExprsFrom env.U rec.policy (Present s pid) x UnionOnly)
    {fuel : Nat} {t : GoalTree} (h : Explains env s fuel pid x u t false) {v : SearchResult} {c : GoalTree} (hy : (y.node, v, c) ∈ steps t)
    {fuel' : Nat} {b' : Bool} (h' : Checks env s fuel' pid y u b') : b' = false := by
  have hr := settled_reached hs hp hk h _ (steps_settled hy)
  rw [← Bool.not_eq_true]
  rintro rfl
  have hg := C36_sound_no_difference_partial hs hp (fun z w hz => hk z w (reaches_trans hr hz))
    (fun z t hz hd => unionOnly_diffFree (hu z t (reaches_trans hr hz) hd)) h'
  obtain ⟨s1, h1, hb⟩ := explain_search hp h
  have hx := C37_complete_partial hs hp hk hi hu (search_checks hp h1) (union_upward hu hr hg)
  rw [hx] at hb
  cases hb

end

/-- The tree has a step for `n` with result `v` and a tree below it passing `g`. -/
def stepB (n : RelationNode) (v : SearchResult) (g : GoalTree → Bool) (t : GoalTree) : Bool :=
  (steps t).any (fun p => decide (p.1 = n) && decide (p.2.1 = v) && g p.2.2)

theorem step_of {n : RelationNode} {v : SearchResult} {g : GoalTree → Bool} {t : GoalTree} (h : stepB n v g t = true) :
    ∃ c, (n, v, c) ∈ steps t ∧ g c = true := by
  obtain ⟨⟨n', v', c⟩, hm, h1⟩ := List.any_eq_true.1 h
  simp only [Bool.and_eq_true, decide_eq_true_eq] at h1
  obtain ⟨⟨rfl, rfl⟩, h1⟩ := h1
  exact ⟨c, hm, h1⟩

/-- Relations `v = a + _this` and `a = v + b`; user:u has v on doc:1. -/
def stepRels : List Relation := [rel "v" "a + _this", rel "a" "v + b", rel "b" "_this"]
def stepStore : Store := gStore gEnv stepRels [⟨some doc1, "v", some (.entity usr)⟩]
theorem stepStore_pol : policyAt stepStore "p" = some ⟨gPolicy stepRels, [], 0⟩ := by decide +kernel

/-- C124 is false for steps with a branch cut off below: the explanation of v shows a as failed, yet a is authorized when asked about by itself. -/
theorem C124_cut_violated : ∃ t c, Explains gEnv stepStore 10 "p" ⟨doc1, "v"⟩ usr t true ∧ (USet.node ⟨doc1, "a"⟩, .failure, c) ∈ steps t ∧
    Checks gEnv stepStore 10 "p" ⟨doc1, "a"⟩ usr true := by
  obtain ⟨t, b, h1, h2⟩ := explains_of (env := gEnv) (s := stepStore) (pid := "p") (x := ⟨doc1, "v"⟩) (u := usr) (fuel := 10)
    (f := fun t b => stepB (USet.node ⟨doc1, "a"⟩) .failure (fun _ => true) t && b) (by decide +kernel)
  simp only [Bool.and_eq_true] at h2
  obtain ⟨h2, rfl⟩ := h2
  obtain ⟨c, h3, _⟩ := step_of h2
  exact ⟨t, c, h1, h3, checks_of (by decide +kernel)⟩

/-- Everything reached in that store. -/
def stepNodes : List RelationNode :=
  [.entitySet (some doc1) "v", .entitySet (some doc1) "a", .entitySet (some doc1) "b", .entity (some usr)]

theorem step_clear (r : String) (hr : r = "v" ∨ r = "a") :
    KeysClear U0 Hx (gPolicy stepRels) (Present stepStore "p") ⟨doc1, r⟩ ∧ IdsClear U0 Hx (gPolicy stepRels) (Present stepStore "p") ⟨doc1, r⟩ ∧
      ExprsFrom U0 (gPolicy stepRels) (Present stepStore "p") ⟨doc1, r⟩ UnionOnly := by
  have hm : (USet.node ⟨doc1, r⟩) ∈ stepNodes := by rcases hr with rfl | rfl <;> simp [stepNodes, USet.node]
  have h := clear_of (env := gEnv) (rec := ⟨gPolicy stepRels, [], 0⟩) (L := stepNodes) (gStore_wf _ _ _) stepStore_pol hm (by decide +kernel)
  exact ⟨h.1, h.2, exprs_of (env := gEnv) (f := unionOnlyB) (fun _ => unionOnly_of) (gStore_wf _ _ _) stepStore_pol (L := stepNodes) hm
    (by decide +kernel) (by decide +kernel)⟩

/-- Steps below which nothing was cut off, in an intersection that authorizes and in one that denies: the steps themselves are authorized. -/
example : (∃ t c b, Explains gEnv wbStore 10 "p" ⟨doc1, "both"⟩ usr t b ∧ (USet.node ⟨doc1, "b"⟩, .success, c) ∈ steps t ∧ Clean c ∧
      Explains gEnv wbStore 10 "p" ⟨doc1, "b"⟩ usr (.path .success (USet.node ⟨doc1, "b"⟩) "Request" c) true) ∧
    ∃ t c b, Explains gEnv abStore 10 "p" ⟨doc1, "both"⟩ usr t b ∧ (USet.node ⟨doc1, "a"⟩, .success, c) ∈ steps t ∧ Clean c ∧ b = false ∧
      Checks gEnv abStore 10 "p" ⟨doc1, "a"⟩ usr true := by
  constructor
  · obtain ⟨t, b, h1, h2⟩ := explains_of (env := gEnv) (s := wbStore) (pid := "p") (x := ⟨doc1, "both"⟩) (u := usr) (fuel := 10)
      (f := fun t _ => stepB (USet.node ⟨doc1, "b"⟩) .success cleanB t) (by decide +kernel)
    obtain ⟨c, h3, h4⟩ := step_of h2
    exact ⟨t, c, b, h1, h3, clean_of h4, (C124_step_exact (gStore_wf _ _ _) wbStore_pol h1 h3).2 (clean_ownCuts (clean_of h4))⟩
  · obtain ⟨t, b, h1, h2⟩ := explains_of (env := gEnv) (s := abStore) (pid := "p") (x := ⟨doc1, "both"⟩) (u := usr) (fuel := 10)
      (f := fun t b => stepB (USet.node ⟨doc1, "a"⟩) .success cleanB t && !b) (by decide +kernel)
    simp only [Bool.and_eq_true, Bool.not_eq_true'] at h2
    obtain ⟨c, h3, h4⟩ := step_of h2.1
    exact ⟨t, c, b, h1, h3, clean_of h4, h2.2, C124_step_partial (gStore_wf _ _ _) abStore_pol h1 h3 (clean_ownCuts (clean_of h4)) (Nat.le_refl 10)⟩

/-- Expand of `only` has the step a with nothing cut off below. -/
example : ∃ t c v, Expands gEnv abStore 10 "p" (USet.node ⟨doc1, "only"⟩) t ∧ (USet.node ⟨doc1, "a"⟩, v, c) ∈ steps t ∧ Clean c ∧
    Expands gEnv abStore 10 "p" (USet.node ⟨doc1, "a"⟩) (.path v (USet.node ⟨doc1, "a"⟩) "Request" c) := by
  obtain ⟨t, h1, h2⟩ := expands_of (env := gEnv) (s := abStore) (pid := "p") (root := USet.node ⟨doc1, "only"⟩) (fuel := 10)
    (f := fun t => stepB (USet.node ⟨doc1, "a"⟩) .failure cleanB t) (by decide +kernel)
  obtain ⟨c, h3, h4⟩ := step_of h2
  exact ⟨t, c, _, h1, h3, clean_of h4, (C124_expand_step_exact (gStore_wf _ _ _) abStore_pol h1 h3).2 (clean_ownCuts (clean_of h4))⟩

/-- Every node the search stopped at is `n` or decided below it. -/
def ownB (n : RelationNode) (c : GoalTree) : Bool := (cuts c).all (fun m => decide (m ∈ n :: settled c))

theorem own_of {H : String → Nat} {n : RelationNode} {c : GoalTree} (h : ownB n c = true) : OwnCuts H n c :=
  fun m hm => ⟨m, of_decide_eq_true (List.all_eq_true.1 h m hm), rfl⟩

/-- The same with `w = v`. -/
def aboveStore : Store := gStore gEnv (rel "w" "v" :: stepRels) [⟨some doc1, "v", some (.entity usr)⟩]

/-- The explanation of w expands v, where the search stops at v again: nothing from outside, so v is explained by itself the same way. -/
example : ∃ t c, Explains gEnv aboveStore 10 "p" ⟨doc1, "w"⟩ usr t true ∧ (USet.node ⟨doc1, "v"⟩, .success, c) ∈ steps t ∧ cleanB c = false ∧
    Explains gEnv aboveStore 10 "p" ⟨doc1, "v"⟩ usr (.path .success (USet.node ⟨doc1, "v"⟩) "Request" c) true := by
  have hp : policyAt aboveStore "p" = some ⟨gPolicy (rel "w" "v" :: stepRels), [], 0⟩ := by decide +kernel
  obtain ⟨t, b, h1, h2⟩ := explains_of (env := gEnv) (s := aboveStore) (pid := "p") (x := ⟨doc1, "w"⟩) (u := usr) (fuel := 10)
    (f := fun t b => stepB (USet.node ⟨doc1, "v"⟩) .success (fun c => !cleanB c && ownB (USet.node ⟨doc1, "v"⟩) c) t && b) (by decide +kernel)
  simp only [Bool.and_eq_true] at h2
  obtain ⟨h2, rfl⟩ := h2
  obtain ⟨c, h3, h4⟩ := step_of h2
  simp only [Bool.and_eq_true, Bool.not_eq_true'] at h4
  exact ⟨t, c, h1, h3, h4.1, (C124_step_exact (gStore_wf _ _ _) hp h1 h3).2 (own_of h4.2)⟩

/-- The explanation of a shows v with success, a branch being cut off below it: v is granted, and authorized by itself. -/
example : ∃ t c, Explains gEnv stepStore 10 "p" ⟨doc1, "a"⟩ usr t true ∧ (USet.node ⟨doc1, "v"⟩, .success, c) ∈ steps t ∧ cleanB c = false ∧
    Granted U0 (gPolicy stepRels) (Present stepStore "p") usr ⟨doc1, "v"⟩ ∧ ∀ fuel b, Checks gEnv stepStore fuel "p" ⟨doc1, "v"⟩ usr b → b = true := by
  obtain ⟨t, b, h1, h2⟩ := explains_of (env := gEnv) (s := stepStore) (pid := "p") (x := ⟨doc1, "a"⟩) (u := usr) (fuel := 10)
    (f := fun t b => stepB (USet.node ⟨doc1, "v"⟩) .success (fun c => !cleanB c) t && b) (by decide +kernel)
  simp only [Bool.and_eq_true] at h2
  obtain ⟨h2, rfl⟩ := h2
  obtain ⟨c, h3, h4⟩ := step_of h2
  obtain ⟨hk, hi, hu⟩ := step_clear "a" (.inr rfl)
  exact ⟨t, c, h1, h3, by simpa using h4,
    C124_success_granted (env := gEnv) (gStore_wf _ _ _) stepStore_pol hk (fun z t hz hd => unionOnly_diffFree (hu z t hz hd)) h1 h3,
    fun _ _ h => C124_success_partial (env := gEnv) (gStore_wf _ _ _) stepStore_pol hk hi hu h1 h3 h⟩

/-- The explanation of a denial of v shows a and b; both are denied. -/
example : ∃ t c v, Explains gEnv stepStore 10 "p" ⟨doc1, "v"⟩ ⟨"user", "w"⟩ t false ∧ (USet.node ⟨doc1, "a"⟩, v, c) ∈ steps t ∧
    ∀ fuel b, Checks gEnv stepStore fuel "p" ⟨doc1, "a"⟩ ⟨"user", "w"⟩ b → b = false := by
  obtain ⟨t, b, h1, h2⟩ := explains_of (env := gEnv) (s := stepStore) (pid := "p") (x := ⟨doc1, "v"⟩) (u := ⟨"user", "w"⟩) (fuel := 10)
    (f := fun t b => stepB (USet.node ⟨doc1, "a"⟩) .failure (fun _ => true) t && !b) (by decide +kernel)
  simp only [Bool.and_eq_true, Bool.not_eq_true'] at h2
  obtain ⟨h2, rfl⟩ := h2
  obtain ⟨c, h3, _⟩ := step_of h2
  obtain ⟨hk, hi, hu⟩ := step_clear "v" (.inl rfl)
  exact ⟨t, c, _, h1, h3, fun _ _ h => C124_denied_partial (env := gEnv) (gStore_wf _ _ _) stepStore_pol hk hi hu h1 h3 h⟩

end Zanzi
