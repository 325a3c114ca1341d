import Verif.Spec.Rewrite
import Verif.Props.Involved

/-
Property C105: access passes along: whoever is authorized for a userset is authorized wherever that userset is given access.
-/

namespace Zanzi

open Spec

section
variable {env : Env} {s : Store} {pid : String} {rec : PolicyRecord} {x y : USet} {u : Entity}

theorem alternative_leaf {r : Rule} {e : ExprTree} (h : r ∈ alternatives e) : r ∈ leaves e := by
  induction e with
  | nil => cases h
  | unset => cases h
  | rule r' => exact h
  | op l o r' ihl ihr =>
    cases o
    · simp only [alternatives, List.mem_append] at h
      simp only [leaves, List.mem_append]
      exact h.imp ihl ihr
    all_goals cases h

theorem alternative_in {R : Relationship → Prop} {V : USet → Prop} {r : Rule} {e : ExprTree} (h : r ∈ alternatives e) (hr : RuleIn R u V x r) :
    ExprIn R u V x e := by
  induction e with
  | nil => cases h
  | unset => cases h
  | rule r' => obtain rfl := List.mem_singleton.1 h; exact hr
  | op l o r' ihl ihr =>
    cases o
    · simp only [alternatives, List.mem_append] at h
      exact h.imp ihl ihr
    all_goals cases h

theorem ruleLeads_in {R : Relationship → Prop} {V : USet → Prop} {r : Rule} (h : RuleLeads R x r y.node) (hy : V y) : RuleIn R u V x r := by
  obtain ⟨o, c⟩ := y
  generalize hn : USet.node ⟨o, c⟩ = n at h
  cases h with
  | @this sub h =>
    refine ⟨sub, h, ?_⟩
    cases sub <;> cases hn
    exact hy
  | cu => cases hn; exact hy
  | arrow h hp => cases hn; exact ⟨_, _, h, hp, hy⟩

theorem ruleLeads_rewrites {U : Unicode} {p : Policy} {R : Relationship → Prop} {r : Rule} {e : ExprTree} {n : RelationNode} (hd : DefinedBy U p x e)
    (hl : r ∈ leaves e) (h : RuleLeads R x r n) : Rewrites U p R x n := by
  cases h with
  | this h => exact .this hd hl h
  | cu => exact .cu hd hl
  | arrow h hp => exact .arrow hd hl h hp

/-- C105 for requests that meet only unions. -/
theorem C105_union_partial (hs : WF env s) (hp : policyAt s pid = some rec)
    (hk : KeysClear env.U env.H rec.policy (Present s pid) x) (hi : IdsClear env.U env.H rec.policy (Present s pid) x)
    (hu : ExprsFrom env.U rec.policy (Present s pid) x UnionOnly) {e : ExprTree} {r : Rule} (hd : DefinedBy env.U rec.policy x e)
    (hr : r ∈ alternatives e) (hl : RuleLeads (Present s pid) x r y.node) {fuel fuel' : Nat} {b : Bool} (hc : Checks env s fuel pid y u true)
    (h : Checks env s fuel' pid x u b) : b = true := by
  have hy : Reaches env.U rec.policy (Present s pid) x y.node := .step .start (ruleLeads_rewrites hd (alternative_leaf hr) hl)
  refine C37_complete_partial hs hp hk hi hu h (fun V hV => hV x ⟨e, hd, alternative_in hr (ruleLeads_in hl ?_)⟩)
  exact C36_sound_no_difference_partial hs hp (fun z z' hz => hk z z' (reaches_trans hy hz))
    (fun z t hz hd => unionOnly_diffFree (hu z t (reaches_trans hy hz) hd)) hc V hV

/-- C105 for users whom no intersection and no subtraction met by the request concerns, wherever in the expression the rule stands. -/
theorem C105_unconcerned_partial (hs : WF env s) (hp : policyAt s pid = some rec) (hk : KeysClear env.U env.H rec.policy (Present s pid) x)
    (hi : IdsClear env.U env.H rec.policy (Present s pid) x) (hc : Unconcerned env.U rec.policy (Present s pid) x u) {e : ExprTree} {r : Rule}
    (hd : DefinedBy env.U rec.policy x e) (hr : r ∈ leaves e) (hl : RuleLeads (Present s pid) x r y.node) {fuel fuel' : Nat} {b : Bool}
    (ha : Checks env s fuel pid y u true) (h : Checks env s fuel' pid x u b) : b = true := by
  have hw : Rewrites env.U rec.policy (Present s pid) x y.node := ruleLeads_rewrites hd hr hl
  have hy : Reaches env.U rec.policy (Present s pid) x y.node := .step .start hw
  refine (checks_involved hs hp hk hi hc h).2 (involves_step hw ?_)
  exact (checks_involved hs hp (fun z z' hz => hk z z' (reaches_trans hy hz)) (fun m n id hm hn => hi m n id (reaches_trans hy hm) (reaches_trans hy hn))
    (fun z t r n hz => hc z t r n (reaches_trans hy hz)) ha).1 rfl

/-- C105 without differences, when the explanation of the request for the relation shows no branch cut off. -/
theorem C105_clean_partial (hs : WF env s) (hp : policyAt s pid = some rec) (hk : KeysClear env.U env.H rec.policy (Present s pid) x)
    (hf : ∀ z t, DefinedBy env.U rec.policy z t → DiffFree t) {e : ExprTree} {r : Rule} (hd : DefinedBy env.U rec.policy x e)
    (hr : r ∈ alternatives e) (hl : RuleLeads (Present s pid) x r y.node) {fuel fuel' : Nat} {t : GoalTree} {b : Bool}
    (ha : Checks env s fuel pid y u true) (h : Explains env s fuel' pid x u t b) (hc : Clean t) : b = true := by
  have hy : Reaches env.U rec.policy (Present s pid) x y.node := .step .start (ruleLeads_rewrites hd (alternative_leaf hr) hl)
  have hg := C36_sound_no_difference_partial hs hp (fun z z' hz => hk z z' (reaches_trans hy hz)) (fun z t _ h => hf z t h) ha
  exact (C37_clean_exact_partial hs hp hk hf h hc).2 ((granted_solution hf x).2 ⟨e, hd, alternative_in hr (ruleLeads_in hl hg)⟩)

/-- C105 with differences, when the explanations of both requests show no branch cut off and the rules have a solution. -/
theorem C105_difference_clean_partial (hs : WF env s) (hp : policyAt s pid = some rec) (hk : KeysClear env.U env.H rec.policy (Present s pid) x)
    {V : USet → Prop} (hV : Solution env.U rec.policy (Present s pid) u V) {e : ExprTree} {r : Rule} (hd : DefinedBy env.U rec.policy x e)
    (hr : r ∈ alternatives e) (hl : RuleLeads (Present s pid) x r y.node) {fuel fuel' : Nat} {t t' : GoalTree} {b : Bool}
    (ha : Explains env s fuel pid y u t true) (hc : Clean t) (h : Explains env s fuel' pid x u t' b) (hc' : Clean t') : b = true := by
  have hy : Reaches env.U rec.policy (Present s pid) x y.node := .step .start (ruleLeads_rewrites hd (alternative_leaf hr) hl)
  refine (C36_exact_partial hs hp hk h hc' hV).2 ((hV x).2 ⟨e, hd, alternative_in hr (ruleLeads_in hl ?_)⟩)
  exact (C36_exact_partial hs hp (fun z z' hz => hk z z' (reaches_trans hy hz)) ha hc hV).1 rfl

theorem first_rule_result {H : String → Nat} {build : RelationNode → GoalTree → Prop} {goal : Option RelationNode} {r : Rule} {n : RelationNode} {e : ExprTree}
    (hf : First r e) (hns : ∀ ns, ruleNodes H s pid x r = .ok ns → ∃ m l, ns = m :: l ∧ (m = n ∨ ∃ c, m = .entitySet none c)) :
    ∀ {t t' : GoalTree} {S S' : List Nat}, pBuild H s pid x e = .ok t → Ev H build goal (.tree t) S (.tree t') S' →
    ∃ w t1 S1, Ev H build goal (.path n w) S (.tree t1) S1 ∧ (t1.result = .success → t'.result = .success) := by
  induction e with
  | nil => cases hf
  | unset => cases hf
  | rule r' =>
    intro t t' S S' hb h
    cases hf
    unfold pBuild at hb
    obtain ⟨ns, h1, hb⟩ := Res.bind_eq_ok.1 hb
    obtain ⟨m, l, rfl, hm⟩ := hns ns h1
    cases hb
    have hm : ∀ {w : String} {t1 : GoalTree} {S1 : List Nat}, Ev H build goal (.path m w) S (.tree t1) S1 → m = n := by
      intro w t1 S1 h1
      rcases hm with rfl | ⟨c, rfl⟩
      · rfl
      · cases h1 with
        | repeated h => cases h
        | ended h => cases h
        | expanded h => cases h
    cases h with
    | or h =>
      cases h with
      | orStop h1 hr =>
        cases h1 with
        | leaf h1 => exact ⟨_, _, _, hm h1 ▸ h1, fun _ => rfl⟩
      | orGo h1 hr h2 =>
        cases h1 with
        | leaf h1 => exact ⟨_, _, _, hm h1 ▸ h1, fun hs => absurd hs hr⟩
  | op l o r' ihl _ =>
    intro t t' S S' hb h
    cases o
    · unfold pBuild at hb
      obtain ⟨a, ha, hb⟩ := Res.bind_eq_ok.1 hb
      obtain ⟨b, _, hb⟩ := Res.bind_eq_ok.1 hb
      cases hb
      cases h with
      | or h =>
        cases h with
        | orStop h1 hr =>
          obtain ⟨r, t1, S1, h3, h4⟩ := ihl hf ha h1
          exact ⟨r, t1, S1, h3, fun _ => rfl⟩
        | orGo h1 hr h2 =>
          obtain ⟨r, t1, S1, h3, h4⟩ := ihl hf ha h1
          exact ⟨r, t1, S1, h3, fun hs => absurd (h4 hs) hr⟩
    all_goals exact hf.elim

/-- C105 for the first alternative when it leads nowhere else, whatever operators are met: unless the userset leads back. -/
theorem C105_first_partial (hs : WF env s) (hp : policyAt s pid = some rec)
    (hk : KeysClear env.U env.H rec.policy (Present s pid) x) (hi : IdsClear env.U env.H rec.policy (Present s pid) x)
    {e : ExprTree} {r : Rule} (hd : DefinedBy env.U rec.policy x e) (hf : First r e) (hl : RuleLeads (Present s pid) x r y.node)
    (ho : ∀ n, RuleLeads (Present s pid) x r n → n = y.node)
    (hn : ¬ Reaches env.U rec.policy (Present s pid) y x.node) {fuel fuel' : Nat} {b : Bool}
    (hc : Checks env s fuel pid y u true) (h : Checks env s fuel' pid x u b) : b = true := by
  have hr : Reaches env.U rec.policy (Present s pid) x y.node := .step .start (ruleLeads_rewrites hd (first_leaf hf) hl)
  obtain ⟨t, seen, _, hev, rfl⟩ := check_ev hp h
  obtain ⟨tc, seenc, _, hevc, hb⟩ := check_ev hp hc
  rw [decide_eq_true_eq]
  have hb : tc.result = .success := by simpa using hb.symm
  cases hev with
  | repeated _ hin => cases hin
  | ended _ _ h1 h2 => cases h1; cases h2
  | expanded hid _ _ _ hbd hev =>
    obtain ⟨e', hd', hbe⟩ := bld_ok (hs.policy_valid hp).1 hbd
    obtain rfl := DefinedBy.unique (hs.policy_valid hp).1 hd hd'
    have hns : ∀ ns, ruleNodes env.H s pid x r = .ok ns → ∃ m l, ns = m :: l ∧ (m = y.node ∨ ∃ c, m = .entitySet none c) := by
      intro ns hns
      have hm := ruleNodes_leads hs (hk x x .start (.inl rfl)) (fun a c h => hk x _ .start (.inr ⟨e, a, c, hd, h ▸ first_leaf hf, rfl⟩)) hns
      cases ns with
      | nil => cases (hm _).2 hl
      | cons m l => exact ⟨m, l, rfl, ((hm m).1 List.mem_cons_self).imp_left (ho m)⟩
    have hid0 : rec.policy.id = pid := hs.policy_id hp
    rw [hid0] at hbe
    obtain ⟨w, t1, S1, h1, h2⟩ := first_rule_result hf hns hbe hev
    refine h2 (hb ▸ search_agree hs hp (fun z z' hz => hk z z' (reaches_trans hr hz)) (fun n id hrn hnid hin => ?_) hevc h1)
    rw [List.mem_singleton] at hin
    subst hin
    obtain rfl := hi _ _ _ (reaches_trans hr hrn) .start hnid hid
    exact hn hrn

end

/-! ### Examples -/

/-- doc relations a, b, `both = a & b`, v, parent, `see = parent->both`, `seen = parent->v`, `w = _this + both`. -/
def passRels : List Relation :=
  [rel "a" "_this", rel "b" "_this", rel "both" "a & b", rel "v" "_this", rel "parent" "_this", rel "see" "parent->both", rel "seen" "parent->v",
    rel "w" "_this + both"]

/-- Relation `n` on doc:`i` is given to `sub`. -/
def gives (i n : String) (sub : Subject) : Relationship := ⟨some ⟨"doc", i⟩, n, some sub⟩

/-- Members of group:1. -/
def members : USet := ⟨⟨"group", "1"⟩, "member"⟩

/-- v and w on doc:1 are given to the members of group:1, v to whoever is in both as well; user:`i` is a member and has relation `n` on doc:1. -/
def passGroup (n i : String) : Store := gStore gEnv passRels [gives "1" n (.entity ⟨"user", i⟩), gives "1" "v" (.entitySet (some doc1) "both"),
  gives "1" "v" (.entitySet (some members.object) "member"), gives "1" "w" (.entitySet (some members.object) "member"),
  ⟨some members.object, "member", some (.entity ⟨"user", "u"⟩)⟩]

/-- doc:1 is in doc:2 and in doc:3.  user:u has a on doc:2 and b on doc:3, on which everybody has a. -/
def passParents : Store := gStore gEnv passRels [gives "1" "parent" (.entity ⟨"doc", "2"⟩), gives "1" "parent" (.entity ⟨"doc", "3"⟩),
  gives "2" "a" (.entity usr), gives "3" "a" (.resourceSet "user"), gives "3" "b" (.entity usr), gives "3" "v" (.entity usr)]

/-- C105 is false.  v is given to the members of group:1 and user:u is authorized as a member, yet not for v: v is given to both = a & b as well, which is tried first,
fails, and uses up the visit of the user.  Likewise `see = parent->both`: user:u is authorized for both on doc:3, in which doc:1 is, yet not for see on doc:1, because
they have a on doc:2. -/
theorem C105_passing_violated :
    ((∃ e, DefinedBy U0 (gPolicy passRels) ⟨doc1, "v"⟩ e ∧ .this ∈ alternatives e) ∧
      RuleLeads (Present (passGroup "a" "u") "p") ⟨doc1, "v"⟩ .this members.node ∧
      Checks gEnv (passGroup "a" "u") 10 "p" members usr true ∧ Checks gEnv (passGroup "a" "u") 10 "p" ⟨doc1, "v"⟩ usr false) ∧
    (∃ e, DefinedBy U0 (gPolicy passRels) ⟨doc1, "see"⟩ e ∧ .ttu "parent" "both" ∈ alternatives e) ∧
      RuleLeads (Present passParents "p") ⟨doc1, "see"⟩ (.ttu "parent" "both") (USet.node ⟨⟨"doc", "3"⟩, "both"⟩) ∧
      Checks gEnv passParents 10 "p" ⟨⟨"doc", "3"⟩, "both"⟩ usr true ∧ Checks gEnv passParents 10 "p" ⟨doc1, "see"⟩ usr false := by
  refine ⟨⟨⟨.rule .this, doc_def (rel "v" "_this") (by simp [passRels]) (by decide +kernel) "1", by simp [alternatives]⟩,
    .this (sub := .entitySet (some members.object) "member") ?_, checks_of (by decide +kernel), checks_of (by decide +kernel)⟩,
    ⟨.rule (.ttu "parent" "both"), doc_def (rel "see" "parent->both") (by simp [passRels]) (by decide +kernel) "1", by simp [alternatives]⟩,
    .arrow (sub := .entity ⟨"doc", "3"⟩) ?_ rfl, checks_of (by decide +kernel), checks_of (by decide +kernel)⟩
  · show _ ∈ relationships _ _
    decide +kernel
  · show _ ∈ relationships _ _
    decide +kernel

/-- The hypotheses of `C105_union_partial` hold for `seen = parent->v`. -/
example : WF gEnv passParents ∧ policyAt passParents "p" = some ⟨gPolicy passRels, [], 0⟩ ∧
    KeysClear U0 Hx (gPolicy passRels) (Present passParents "p") ⟨doc1, "seen"⟩ ∧ IdsClear U0 Hx (gPolicy passRels) (Present passParents "p") ⟨doc1, "seen"⟩ ∧
    ExprsFrom U0 (gPolicy passRels) (Present passParents "p") ⟨doc1, "seen"⟩ UnionOnly ∧
    (∃ e, DefinedBy U0 (gPolicy passRels) ⟨doc1, "seen"⟩ e ∧ .ttu "parent" "v" ∈ alternatives e) ∧
    RuleLeads (Present passParents "p") ⟨doc1, "seen"⟩ (.ttu "parent" "v") (USet.node ⟨⟨"doc", "3"⟩, "v"⟩) ∧
    Checks gEnv passParents 10 "p" ⟨⟨"doc", "3"⟩, "v"⟩ usr true ∧ Checks gEnv passParents 10 "p" ⟨doc1, "seen"⟩ usr true := by
  have hpol : policyAt passParents "p" = some ⟨gPolicy passRels, [], 0⟩ := by decide +kernel
  have hcl := clear_of (env := gEnv) (rec := ⟨gPolicy passRels, [], 0⟩) (x := ⟨doc1, "seen"⟩)
    (L := [.entitySet (some doc1) "seen", .entitySet (some ⟨"doc", "2"⟩) "v", .entitySet (some ⟨"doc", "3"⟩) "v", .entity (some usr)])
    (gStore_wf _ _ _) hpol (by simp [USet.node]) (by decide +kernel)
  refine ⟨gStore_wf _ _ _, hpol, hcl.1, hcl.2, ?_,
    ⟨.rule (.ttu "parent" "v"), doc_def (rel "seen" "parent->v") (by simp [passRels]) (by decide +kernel) "1", by simp [alternatives]⟩,
    .arrow (sub := .entity ⟨"doc", "3"⟩) ?_ rfl, checks_of (by decide +kernel), checks_of (by decide +kernel)⟩
  · exact exprs_of (env := gEnv) (rec := ⟨gPolicy passRels, [], 0⟩) (x := ⟨doc1, "seen"⟩) (f := unionOnlyB) (fun _ h => unionOnly_of h)
      (L := [.entitySet (some doc1) "seen", .entitySet (some ⟨"doc", "2"⟩) "v", .entitySet (some ⟨"doc", "3"⟩) "v", .entity (some usr)])
      (gStore_wf _ _ _) hpol (by simp [USet.node]) (by decide +kernel) (by decide +kernel)
  · show _ ∈ relationships _ _
    decide +kernel

/-- Nodes of the request for v on doc:1. -/
def passNodes (n i : String) : List RelationNode :=
  [.entitySet (some doc1) n, .entitySet (some doc1) "both", members.node, .entitySet (some doc1) "a", .entitySet (some doc1) "b", .entity (some usr),
    .entity (some ⟨"user", i⟩)]

/-- The hypotheses of `C105_unconcerned_partial` and `C105_clean_partial` hold for v and user:u when it is user:w who has a on doc:1. -/
example : KeysClear U0 Hx (gPolicy passRels) (Present (passGroup "a" "w") "p") ⟨doc1, "v"⟩ ∧
    IdsClear U0 Hx (gPolicy passRels) (Present (passGroup "a" "w") "p") ⟨doc1, "v"⟩ ∧
    Unconcerned U0 (gPolicy passRels) (Present (passGroup "a" "w") "p") ⟨doc1, "v"⟩ usr ∧
    RuleLeads (Present (passGroup "a" "w") "p") ⟨doc1, "v"⟩ .this members.node ∧ Checks gEnv (passGroup "a" "w") 10 "p" members usr true ∧
    ∃ t, Explains gEnv (passGroup "a" "w") 10 "p" ⟨doc1, "v"⟩ usr t true ∧ Clean t := by
  have hpol : policyAt (passGroup "a" "w") "p" = some ⟨gPolicy passRels, [], 0⟩ := by decide +kernel
  have hcl := clear_of (env := gEnv) (rec := ⟨gPolicy passRels, [], 0⟩) (x := ⟨doc1, "v"⟩) (L := passNodes "v" "w")
    (gStore_wf _ _ _) hpol (by simp [passNodes, USet.node]) (by decide +kernel)
  refine ⟨hcl.1, hcl.2, ?_, .this (sub := .entitySet (some members.object) "member") ?_, checks_of (by decide +kernel), ?_⟩
  · exact unconcerned_of (env := gEnv) (rec := ⟨gPolicy passRels, [], 0⟩) (L := passNodes "v" "w")
      (K := [.entitySet (some doc1) "a", .entitySet (some doc1) "b", .entity (some ⟨"user", "w"⟩)])
      (gStore_wf _ _ _) hpol (by simp [passNodes, USet.node]) (by decide +kernel)
  · show _ ∈ relationships _ _
    decide +kernel
  · obtain ⟨t, b, h1, h2⟩ := explains_of (env := gEnv) (s := passGroup "a" "w") (pid := "p") (x := ⟨doc1, "v"⟩) (u := usr)
      (fuel := 10) (f := fun t b => cleanB t && b) (by decide +kernel)
    simp only [Bool.and_eq_true] at h2
    obtain ⟨h2, rfl⟩ := h2
    exact ⟨t, h1, clean_of h2⟩

/-- The hypotheses of `C105_difference_clean_partial` hold for `any = a + b` beside `only = a - b`. -/
example : Solution U0 (gPolicy opRels) (Present abStore "p") usr abSolution ∧
    RuleLeads (Present abStore "p") ⟨doc1, "any"⟩ (.cu "a") (USet.node ⟨doc1, "a"⟩) ∧
    (∃ t, Explains gEnv abStore 10 "p" ⟨doc1, "a"⟩ usr t true ∧ Clean t) ∧ ∃ t, Explains gEnv abStore 10 "p" ⟨doc1, "any"⟩ usr t true ∧ Clean t := by
  refine ⟨abSolution_is, .cu, ?_, ?_⟩
  · obtain ⟨t, b, h1, h2⟩ := explains_of (env := gEnv) (s := abStore) (pid := "p") (x := ⟨doc1, "a"⟩) (u := usr)
      (fuel := 10) (f := fun t b => cleanB t && b) (by decide +kernel)
    simp only [Bool.and_eq_true] at h2
    obtain ⟨h2, rfl⟩ := h2
    exact ⟨t, h1, clean_of h2⟩
  · obtain ⟨t, b, h1, h2⟩ := explains_of (env := gEnv) (s := abStore) (pid := "p") (x := ⟨doc1, "any"⟩) (u := usr)
      (fuel := 10) (f := fun t b => cleanB t && b) (by decide +kernel)
    simp only [Bool.and_eq_true] at h2
    obtain ⟨h2, rfl⟩ := h2
    exact ⟨t, h1, clean_of h2⟩

/-- The hypotheses of `C105_first_partial` hold for `w = _this + both`, given to the members of group:1 alone, and user:u, who has a too. -/
example : KeysClear U0 Hx (gPolicy passRels) (Present (passGroup "a" "u") "p") ⟨doc1, "w"⟩ ∧
    IdsClear U0 Hx (gPolicy passRels) (Present (passGroup "a" "u") "p") ⟨doc1, "w"⟩ ∧
    (∃ e, DefinedBy U0 (gPolicy passRels) ⟨doc1, "w"⟩ e ∧ First .this e) ∧ RuleLeads (Present (passGroup "a" "u") "p") ⟨doc1, "w"⟩ .this members.node ∧
    (∀ n, RuleLeads (Present (passGroup "a" "u") "p") ⟨doc1, "w"⟩ .this n → n = members.node) ∧
    ¬ Reaches U0 (gPolicy passRels) (Present (passGroup "a" "u") "p") members (USet.node ⟨doc1, "w"⟩) ∧
    Checks gEnv (passGroup "a" "u") 10 "p" members usr true ∧ Checks gEnv (passGroup "a" "u") 10 "p" ⟨doc1, "w"⟩ usr true := by
  have hpol : policyAt (passGroup "a" "u") "p" = some ⟨gPolicy passRels, [], 0⟩ := by decide +kernel
  have hcl := clear_of (env := gEnv) (rec := ⟨gPolicy passRels, [], 0⟩) (x := ⟨doc1, "w"⟩) (L := passNodes "w" "u")
    (gStore_wf _ _ _) hpol (by simp [passNodes, USet.node]) (by decide +kernel)
  refine ⟨hcl.1, hcl.2, ⟨_, doc_def (rel "w" "_this + both") (by simp [passRels]) (t := .op (.rule .this) .union (.rule (.cu "both"))) (by decide +kernel) "1", rfl⟩,
    .this (sub := .entitySet (some members.object) "member") ?_, fun n hn => ?_, fun h => ?_, checks_of (by decide +kernel), checks_of (by decide +kernel)⟩
  · show _ ∈ relationships _ _
    decide +kernel
  · cases hn with
    | @this sub h =>
      have key : ∀ r ∈ relationships (passGroup "a" "u") "p", r.object = some doc1 → r.relation = "w" → r.subject = some (.entitySet (some members.object) "member") := by
        decide +kernel
      have := key _ h rfl rfl
      simp only [Option.some.injEq] at this
      subst this
      rfl
  · have := reaches_list (env := gEnv) (gStore_wf _ _ _) hpol (L := [members.node, .entity (some usr)]) (by simp) (by decide +kernel) h
    simp [USet.node, members] at this

end Zanzi
