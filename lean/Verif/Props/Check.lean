import Verif.Lemmas.Concrete
import Verif.Lemmas.Bare
import Verif.Props.Isolation

/-
Properties C36–C39: what Check answers.
Specification: Spec/Graph.lean.
-/

namespace Zanzi

open Spec

/-! ### Concrete servers -/

/-- A relation without subject restrictions. -/
def rel (name expr : String) : Relation :=
  { name := name, relationExpression := some (.expr expr), subjectRestriction := some .universalSet }

/-- A policy over users, groups and documents. -/
def gPolicy (rels : List Relation) : Policy :=
  { id := "p"
    resources := [
      { name := "user", relations := [] },
      { name := "group", relations := [rel "member" "_this"] },
      { name := "doc", relations := rels }] }

/-- object doc:1 -/
def doc1 : Entity := ⟨"doc", "1"⟩
/-- user:u -/
def usr : Entity := ⟨"user", "u"⟩

/-- Create the policy, then store the relationships. -/
def setup (rels : List Relation) (rs : List Relationship) : List Call :=
  .createPolicy 0 (some (.policy (gPolicy rels))) [] :: rs.map (fun r => .setRelationship 0 "p" (some r) [])

/-- The store after `setup`. -/
def gStore (env : Env) (rels : List Relation) (rs : List Relationship) : Store := (runCalls env (setup rels rs) Store.empty).2

/-- ASCII identifiers and an injective hash. -/
def gEnv : Env := wEnv Hx

theorem gStore_wf (env : Env) (rels : List Relation) (rs : List Relationship) : WF env (gStore env rels rs) :=
  (WF.empty env).runCalls _

/-- doc relations a, b, `both = a & b`, `only = a - b`, `any = a + b`. -/
def opRels : List Relation := [rel "a" "_this", rel "b" "_this", rel "both" "a & b", rel "only" "a - b", rel "any" "a + b"]

/-- user:u has a and b on doc:1. -/
def abRels : List Relationship := [⟨some doc1, "a", some (.entity usr)⟩, ⟨some doc1, "b", some (.entity usr)⟩]

def abStore : Store := gStore gEnv opRels abRels

theorem abStore_pol : policyAt abStore "p" = some ⟨gPolicy opRels, [], 0⟩ := by decide +kernel
theorem abStore_rels : relationships abStore "p" = abRels := by decide +kernel
theorem op_unique : NamesUnique (gPolicy opRels) := by
  have h : verifyPolicy U0 (gPolicy opRels) = .ok () := by decide +kernel
  exact ((C09_validation_exact U0 _).1 h).1

/-- The relations of `opRels` and their expressions. -/
theorem op_defined {x : USet} {t : ExprTree} (h : DefinedBy U0 (gPolicy opRels) x t) :
    (x.object.resource = "group" ∧ x.relation = "member" ∧ t = .rule .this) ∨
    (x.object.resource = "doc" ∧ ((x.relation = "a" ∧ t = .rule .this) ∨ (x.relation = "b" ∧ t = .rule .this) ∨
      (x.relation = "both" ∧ t = .op (.rule (.cu "a")) .intersection (.rule (.cu "b"))) ∨
      (x.relation = "only" ∧ t = .op (.rule (.cu "a")) .difference (.rule (.cu "b"))) ∨
      (x.relation = "any" ∧ t = .op (.rule (.cu "a")) .union (.rule (.cu "b"))))) := by
  obtain ⟨d, ⟨r, hr, h1, h2, h3⟩, h4⟩ := h
  rw [← getExpressionTree_ok_iff] at h4
  have p1 : getExpressionTree U0 (rel "member" "_this") = .ok (.rule .this) := by decide +kernel
  have p2 : getExpressionTree U0 (rel "a" "_this") = .ok (.rule .this) := by decide +kernel
  have p3 : getExpressionTree U0 (rel "b" "_this") = .ok (.rule .this) := by decide +kernel
  have p4 : getExpressionTree U0 (rel "both" "a & b") = .ok (.op (.rule (.cu "a")) .intersection (.rule (.cu "b"))) := by decide +kernel
  have p5 : getExpressionTree U0 (rel "only" "a - b") = .ok (.op (.rule (.cu "a")) .difference (.rule (.cu "b"))) := by decide +kernel
  have p6 : getExpressionTree U0 (rel "any" "a + b") = .ok (.op (.rule (.cu "a")) .union (.rule (.cu "b"))) := by decide +kernel
  simp only [gPolicy, List.mem_cons, List.not_mem_nil, or_false] at hr
  rw [← h1, ← h3]
  rcases hr with rfl | rfl | rfl
  · simp at h2
  · simp only [List.mem_cons, List.not_mem_nil, or_false] at h2
    subst h2
    rw [p1] at h4
    cases h4
    exact .inl ⟨rfl, rfl, rfl⟩
  · simp only [opRels, List.mem_cons, List.not_mem_nil, or_false] at h2
    rcases h2 with rfl | rfl | rfl | rfl | rfl
    · rw [p2] at h4; cases h4; exact .inr ⟨rfl, .inl ⟨rfl, rfl⟩⟩
    · rw [p3] at h4; cases h4; exact .inr ⟨rfl, .inr (.inl ⟨rfl, rfl⟩)⟩
    · rw [p4] at h4; cases h4; exact .inr ⟨rfl, .inr (.inr (.inl ⟨rfl, rfl⟩))⟩
    · rw [p5] at h4; cases h4; exact .inr ⟨rfl, .inr (.inr (.inr (.inl ⟨rfl, rfl⟩)))⟩
    · rw [p6] at h4; cases h4; exact .inr ⟨rfl, .inr (.inr (.inr (.inr ⟨rfl, rfl⟩)))⟩

theorem op_defs (i : String) :
    DefinedBy U0 (gPolicy opRels) ⟨⟨"doc", i⟩, "a"⟩ (.rule .this) ∧ DefinedBy U0 (gPolicy opRels) ⟨⟨"doc", i⟩, "b"⟩ (.rule .this) ∧
    DefinedBy U0 (gPolicy opRels) ⟨⟨"doc", i⟩, "both"⟩ (.op (.rule (.cu "a")) .intersection (.rule (.cu "b"))) ∧
    DefinedBy U0 (gPolicy opRels) ⟨⟨"doc", i⟩, "only"⟩ (.op (.rule (.cu "a")) .difference (.rule (.cu "b"))) ∧
    DefinedBy U0 (gPolicy opRels) ⟨⟨"doc", i⟩, "any"⟩ (.op (.rule (.cu "a")) .union (.rule (.cu "b"))) := by
  have p2 : getExpressionTree U0 (rel "a" "_this") = .ok (.rule .this) := by decide +kernel
  have p3 : getExpressionTree U0 (rel "b" "_this") = .ok (.rule .this) := by decide +kernel
  have p4 : getExpressionTree U0 (rel "both" "a & b") = .ok (.op (.rule (.cu "a")) .intersection (.rule (.cu "b"))) := by decide +kernel
  have p5 : getExpressionTree U0 (rel "only" "a - b") = .ok (.op (.rule (.cu "a")) .difference (.rule (.cu "b"))) := by decide +kernel
  have p6 : getExpressionTree U0 (rel "any" "a + b") = .ok (.op (.rule (.cu "a")) .union (.rule (.cu "b"))) := by decide +kernel
  have key : ∀ d ∈ opRels, ∀ t, getExpressionTree U0 d = .ok t → DefinedBy U0 (gPolicy opRels) ⟨⟨"doc", i⟩, d.name⟩ t :=
    fun d hd t ht => ⟨d, ⟨_, List.mem_cons_of_mem _ (List.mem_cons_of_mem _ List.mem_cons_self), rfl, hd, rfl⟩, (getExpressionTree_ok_iff _ _ _).1 ht⟩
  exact ⟨key _ (by simp [opRels]) _ p2, key _ (by simp [opRels]) _ p3, key _ (by simp [opRels]) _ p4, key _ (by simp [opRels]) _ p5,
    key _ (by simp [opRels]) _ p6⟩

/-- The usersets of user:u under `opRels` and `abRels`: a, b, both and any on doc:1. -/
def abSolution (x : USet) : Prop := x.object = doc1 ∧ (x.relation = "a" ∨ x.relation = "b" ∨ x.relation = "both" ∨ x.relation = "any")

theorem ab_present {r : Relationship} : Present abStore "p" r ↔ r = ⟨some doc1, "a", some (.entity usr)⟩ ∨ r = ⟨some doc1, "b", some (.entity usr)⟩ := by
  unfold Present
  rw [abStore_rels]
  simp [abRels]

theorem abSolution_is : Solution U0 (gPolicy opRels) (Present abStore "p") usr abSolution := by
  rintro ⟨o, rl⟩
  constructor
  · rintro ⟨h1, h2⟩
    dsimp only at h1 h2
    subst h1
    obtain ⟨d1, d2, d3, d4, d5⟩ := op_defs "1"
    rcases h2 with rfl | rfl | rfl | rfl
    · exact ⟨_, d1, .entity usr, ab_present.2 (.inl rfl), rfl⟩
    · exact ⟨_, d2, .entity usr, ab_present.2 (.inr rfl), rfl⟩
    · exact ⟨_, d3, ⟨rfl, .inl rfl⟩, rfl, .inr (.inl rfl)⟩
    · exact ⟨_, d5, .inl ⟨rfl, .inl rfl⟩⟩
  · rintro ⟨t, hd, he⟩
    rcases op_defined hd with ⟨_, h, rfl⟩ | ⟨_, ⟨h, rfl⟩ | ⟨h, rfl⟩ | ⟨h, rfl⟩ | ⟨h, rfl⟩ | ⟨h, rfl⟩⟩ <;> dsimp only at h <;> subst h
    · obtain ⟨sub, hr, _⟩ := he
      rcases ab_present.1 hr with hr | hr <;> simp at hr
    · obtain ⟨sub, hr, _⟩ := he
      rcases ab_present.1 hr with hr | hr <;> simp at hr
      exact ⟨hr.1, .inl rfl⟩
    · obtain ⟨sub, hr, _⟩ := he
      rcases ab_present.1 hr with hr | hr <;> simp at hr
      exact ⟨hr.1, .inr (.inl rfl)⟩
    · exact ⟨he.1.1, .inr (.inr (.inl rfl))⟩
    · exact absurd ⟨he.1.1, .inr (.inl rfl)⟩ he.2
    · rcases he with he | he
      · exact ⟨he.1, .inr (.inr (.inr rfl))⟩
      · exact ⟨he.1, .inr (.inr (.inr rfl))⟩

/-- Nodes reachable in the example. -/
def abNodes (r : String) : List RelationNode :=
  [.entitySet (some doc1) r, .entitySet (some doc1) "a", .entitySet (some doc1) "b", .entity (some usr)]

theorem ab_clear (r : String) (hr : r = "both" ∨ r = "only" ∨ r = "any") :
    KeysClear U0 Hx (gPolicy opRels) (Present abStore "p") ⟨doc1, r⟩ ∧ IdsClear U0 Hx (gPolicy opRels) (Present abStore "p") ⟨doc1, r⟩ := by
  refine clear_of (env := gEnv) (rec := ⟨gPolicy opRels, [], 0⟩) (L := abNodes r) (gStore_wf _ _ _) abStore_pol (by simp [abNodes, USet.node]) ?_
  rcases hr with rfl | rfl | rfl <;> decide +kernel

section
variable {env : Env} {s : Store} {pid : String} {rec : PolicyRecord} {x : USet} {u : Entity}

/-! ### C36: no over-granting -/

/-- C36 is false: with `only = a - b` and a user holding a and b, Check authorizes `only`, though the rules exclude the
user (the rules have a solution, and no solution contains the user).  Reached by creating the policy
and storing two relationships. -/
theorem C36_overgrant_violated :
    Checks gEnv abStore 10 "p" ⟨doc1, "only"⟩ usr true ∧
    (∃ V, Solution U0 (gPolicy opRels) (Present abStore "p") usr V) ∧
    (∀ V, Solution U0 (gPolicy opRels) (Present abStore "p") usr V → ¬ V ⟨doc1, "only"⟩) := by
  refine ⟨checks_of (by decide +kernel), ⟨abSolution, abSolution_is⟩, fun V hV hx => ?_⟩
  obtain ⟨t, hd, he⟩ := (hV _).1 hx
  obtain ⟨d1, d2, d3, d4, d5⟩ := op_defs "1"
  obtain rfl := DefinedBy.unique op_unique hd d4
  exact he.2 ((hV ⟨doc1, "b"⟩).2 ⟨_, d2, .entity usr, ab_present.2 (.inr rfl), rfl⟩)

/-- C36, for every policy: an authorized user is derivable when differences exclude nobody.  Missing: the
exclusions themselves (`C36_overgrant_violated`). -/
theorem C36_sound_partial (hs : WF env s) (hp : policyAt s pid = some rec)
    (hk : KeysClear env.U env.H rec.policy (Present s pid) x) {fuel : Nat} (h : Checks env s fuel pid x u true) :
    GrantedAtMost env.U rec.policy (Present s pid) u x := by
  intro V hV
  obtain ⟨t, seen, _, hev, hb⟩ := check_ev hp h
  exact check_sound hs hp hk (fun y t _ hd he => hV y t hd he) hev (by simpa using hb.symm)

/-- C36 for requests that meet no difference: an authorized user is derivable from the rules. -/
theorem C36_sound_no_difference_partial (hs : WF env s) (hp : policyAt s pid = some rec)
    (hk : KeysClear env.U env.H rec.policy (Present s pid) x) (hd : ExprsFrom env.U rec.policy (Present s pid) x DiffFree)
    {fuel : Nat} (h : Checks env s fuel pid x u true) : Granted env.U rec.policy (Present s pid) u x := by
  intro V hV
  obtain ⟨t, seen, _, hev, hb⟩ := check_ev hp h
  refine check_sound hs hp hk (fun y t hr hd' he => hV y ⟨t, hd', ?_⟩) hev (by simpa using hb.symm)
  rwa [positive_of_diffFree (hd y t hr hd')] at he

/-- C36 and C37 for every operator: when the explanation shows no branch cut off as already visited, the
answer is the one the rules give. -/
theorem C36_exact_partial (hs : WF env s) (hp : policyAt s pid = some rec)
    (hk : KeysClear env.U env.H rec.policy (Present s pid) x) {fuel : Nat} {t : GoalTree} {b : Bool}
    (h : Explains env s fuel pid x u t b) (hc : Clean t) {V : USet → Prop} (hV : Solution env.U rec.policy (Present s pid) u V) :
    b = true ↔ V x := by
  obtain ⟨seen, _, hev, rfl⟩ := explain_ev hp h
  rw [decide_eq_true_eq]
  exact check_exact hs hp hk hV hev hc

/-! ### C37: no under-granting -/

/-- C37 is false: with `both = a & b` and a user holding a and b, Check denies `both`. -/
theorem C37_undergrant_violated :
    Checks gEnv abStore 10 "p" ⟨doc1, "both"⟩ usr false ∧
    Granted U0 (gPolicy opRels) (Present abStore "p") usr ⟨doc1, "both"⟩ := by
  refine ⟨checks_of (by decide +kernel), fun V hV => ?_⟩
  obtain ⟨d1, d2, d3, d4, d5⟩ := op_defs "1"
  have ha : V ⟨doc1, "a"⟩ := hV _ ⟨_, d1, .entity usr, ab_present.2 (.inl rfl), rfl⟩
  have hb : V ⟨doc1, "b"⟩ := hV _ ⟨_, d2, .entity usr, ab_present.2 (.inr rfl), rfl⟩
  exact hV _ ⟨_, d3, ha, hb⟩

/-- C37 for requests that meet only unions: a derivable user is authorized.  Missing: intersection and difference. -/
theorem C37_complete_partial (hs : WF env s) (hp : policyAt s pid = some rec)
    (hk : KeysClear env.U env.H rec.policy (Present s pid) x) (hi : IdsClear env.U env.H rec.policy (Present s pid) x)
    (hu : ExprsFrom env.U rec.policy (Present s pid) x UnionOnly) {fuel : Nat} {b : Bool} (h : Checks env s fuel pid x u b)
    (hg : Granted env.U rec.policy (Present s pid) u x) : b = true := by
  obtain ⟨t, seen, _, hev, rfl⟩ := check_ev hp h
  rw [decide_eq_true_eq]
  exact check_complete hs hp hk hi hu hev hg

/-- C36 and C37 together for requests that meet only unions. -/
theorem C37_union_exact_partial (hs : WF env s) (hp : policyAt s pid = some rec)
    (hk : KeysClear env.U env.H rec.policy (Present s pid) x) (hi : IdsClear env.U env.H rec.policy (Present s pid) x)
    (hu : ExprsFrom env.U rec.policy (Present s pid) x UnionOnly) {fuel : Nat} {b : Bool} (h : Checks env s fuel pid x u b) :
    b = true ↔ Granted env.U rec.policy (Present s pid) u x := by
  constructor
  · rintro rfl
    exact C36_sound_no_difference_partial hs hp hk (fun y t hr hd => unionOnly_diffFree (hu y t hr hd)) h
  · exact C37_complete_partial hs hp hk hi hu h

/-- The hypotheses hold for `any = a + b`, and the user is authorized. -/
example : ∃ b, Checks gEnv abStore 10 "p" ⟨doc1, "any"⟩ usr b ∧
    (b = true ↔ Granted U0 (gPolicy opRels) (Present abStore "p") usr ⟨doc1, "any"⟩) ∧ b = true := by
  have hc : Checks gEnv abStore 10 "p" ⟨doc1, "any"⟩ usr true := checks_of (by decide +kernel)
  refine ⟨true, hc, ?_, rfl⟩
  refine C37_union_exact_partial (env := gEnv) (gStore_wf _ _ _) abStore_pol (ab_clear _ (.inr (.inr rfl))).1 (ab_clear _ (.inr (.inr rfl))).2 ?_ hc
  exact exprs_of (env := gEnv) (f := unionOnlyB) (fun _ => unionOnly_of) (gStore_wf _ _ _) abStore_pol (L := abNodes "any")
    (by simp [abNodes, USet.node]) (by decide +kernel) (by decide +kernel)

/-! ### C38: intersection -/

/-- C38 is false: a user holding a and b on doc:1 is denied `both = a & b`. -/
theorem C38_intersection_violated :
    Checks gEnv abStore 10 "p" ⟨doc1, "a"⟩ usr true ∧ Checks gEnv abStore 10 "p" ⟨doc1, "b"⟩ usr true ∧
    DefinedBy U0 (gPolicy opRels) ⟨doc1, "both"⟩ (.op (.rule (.cu "a")) .intersection (.rule (.cu "b"))) ∧
    Checks gEnv abStore 10 "p" ⟨doc1, "both"⟩ usr false :=
  ⟨checks_of (by decide +kernel), checks_of (by decide +kernel), (op_defs "1").2.2.1, checks_of (by decide +kernel)⟩

theorem ev_path_inv {H build goal x' reason t seen} (h : Ev H build goal (.path x' reason) [] (.tree t) seen) (hr : t.result = .success)
    (hx : x'.isTerminal = false) (hg : goalFound x' goal = .ok false) :
    ∃ t0 t1, build x' t0 ∧ t = .path t1.result x' reason t1 ∧ (∃ s0, Ev H build goal (.tree t0) s0 (.tree t1) seen) := by
  cases h with
  | repeated _ h => cases h
  | ended _ _ h1 h2 => rw [hg] at h1; cases h1; rw [hx] at h2; cases h2
  | expanded _ _ _ _ hb h => exact ⟨_, _, hb, rfl, _, h⟩

/-- How far C38 fails: in every policy and store, a relation defined as an intersection is denied to every user not
covered by a wildcard, whatever relationships are stored. -/
theorem C38_intersection_never (hs : WF env s) (hp : policyAt s pid = some rec)
    (hk : KeysClear env.U env.H rec.policy (Present s pid) x) (hw : NoWildcardFor env.U rec.policy (Present s pid) x u)
    {l r : ExprTree} (hd : DefinedBy env.U rec.policy x (.op l .intersection r)) {fuel : Nat} {b : Bool}
    (h : Checks env s fuel pid x u b) : b = false := by
  obtain ⟨t, seen, _, hev, rfl⟩ := check_ev hp h
  rw [decide_eq_false_iff_not]
  intro hr
  obtain ⟨t0, t1, hb, rfl, s0, hev1⟩ := ev_path_inv hev hr rfl rfl
  have htl := check_toothless hs hp hk hw hev
  rw [Toothless] at htl
  obtain ⟨e, hd', hbe⟩ := bld_ok (hs.policy_valid hp).1 hb
  obtain rfl := DefinedBy.unique (hs.policy_valid hp).1 hd hd'
  unfold pBuild at hbe
  obtain ⟨a, _, hbe⟩ := Res.bind_eq_ok.1 hbe
  obtain ⟨b, _, hbe⟩ := Res.bind_eq_ok.1 hbe
  cases hbe
  cases hev1 with
  | and _ =>
    rw [Toothless] at htl
    exact htl.1 hr

/-- How far C36 and C38 fail, anywhere in a request: whoever is authorized without a wildcard covering them has it through unions and left operands of
differences alone; no intersection on the way ever held. -/
theorem C38_grants_without_intersection (hs : WF env s) (hp : policyAt s pid = some rec)
    (hk : KeysClear env.U env.H rec.policy (Present s pid) x) (hw : NoWildcardFor env.U rec.policy (Present s pid) x u)
    {fuel : Nat} (h : Checks env s fuel pid x u true) : GrantedByUnion env.U rec.policy (Present s pid) u x := by
  intro V hV
  obtain ⟨t, seen, _, hev, hb⟩ := check_ev hp h
  exact check_bare hs hp hk hV hev (check_toothless hs hp hk hw hev) (by simpa using hb.symm)

/-- The hypotheses of `C38_grants_without_intersection` hold for a granted request of the example, and its conclusion fails for the intersection,
whose two operands the user holds. -/
example : Checks gEnv abStore 10 "p" ⟨doc1, "only"⟩ usr true ∧
    KeysClear U0 Hx (gPolicy opRels) (Present abStore "p") ⟨doc1, "only"⟩ ∧
    NoWildcardFor U0 (gPolicy opRels) (Present abStore "p") ⟨doc1, "only"⟩ usr ∧
    ¬ GrantedByUnion U0 (gPolicy opRels) (Present abStore "p") usr ⟨doc1, "both"⟩ := by
  refine ⟨checks_of (by decide +kernel), (ab_clear _ (.inr (.inl rfl))).1, fun h => ?_, fun h => ?_⟩
  · have := reaches_list (env := gEnv) (gStore_wf _ _ _) abStore_pol (L := abNodes "only") (by simp [abNodes, USet.node]) (by decide +kernel) h
    simp [abNodes] at this
  · refine h (fun y => y ≠ ⟨doc1, "both"⟩) (fun y t hd he hy => ?_) rfl
    subst hy
    obtain rfl := DefinedBy.unique ((gStore_wf gEnv _ _).policy_valid abStore_pol).1 hd (op_defs "1").2.2.1
    exact he

/-- The hypotheses of `C38_intersection_never` hold for the example. -/
example : (∃ l r, DefinedBy U0 (gPolicy opRels) ⟨doc1, "both"⟩ (.op l .intersection r)) ∧
    NoWildcardFor U0 (gPolicy opRels) (Present abStore "p") ⟨doc1, "both"⟩ usr ∧
    KeysClear U0 Hx (gPolicy opRels) (Present abStore "p") ⟨doc1, "both"⟩ := by
  refine ⟨⟨_, _, (op_defs "1").2.2.1⟩, fun h => ?_, (ab_clear _ (.inl rfl)).1⟩
  have := reaches_list (env := gEnv) (gStore_wf _ _ _) abStore_pol (L := abNodes "both") (by simp [abNodes, USet.node]) (by decide +kernel) h
  simp [abNodes] at this

/-- C38 for explanations without cut branches: a user in both operands is authorized; and without that restriction an
authorized user is in both operands when differences exclude nobody.  Missing: requests in which a node is
visited twice. -/
theorem C38_intersection_partial (hs : WF env s) (hp : policyAt s pid = some rec)
    (hk : KeysClear env.U env.H rec.policy (Present s pid) x)
    {l r : ExprTree} (hd : DefinedBy env.U rec.policy x (.op l .intersection r)) {fuel : Nat} {t : GoalTree} {b : Bool}
    (h : Explains env s fuel pid x u t b) :
    (Clean t → ∀ V, Solution env.U rec.policy (Present s pid) u V → ExprIn (Present s pid) u V x l → ExprIn (Present s pid) u V x r → b = true) ∧
    (b = true → ∀ V : USet → Prop, (∀ y t, DefinedBy env.U rec.policy y t → ExprIn (Present s pid) u V y (positive t) → V y) →
      (∀ y t, DefinedBy env.U rec.policy y t → V y → ExprIn (Present s pid) u V y (positive t)) →
      ExprIn (Present s pid) u V x (positive l) ∧ ExprIn (Present s pid) u V x (positive r)) := by
  obtain ⟨seen, _, hev, hb⟩ := explain_ev hp h
  refine ⟨fun hc V hV hl hr => ?_, fun hbt V hV1 hV2 => ?_⟩
  · exact (C36_exact_partial hs hp hk h hc hV).2 ((hV x).2 ⟨_, hd, hl, hr⟩)
  · have hx : V x := check_sound hs hp hk (fun y t _ hd he => hV1 y t hd he) hev (by rw [hbt] at hb; simpa using hb.symm)
    exact hV2 x _ hd hx

/-! ### C39: difference -/

/-- C39 is false: a user holding b on doc:1 is authorized for `only = a - b`. -/
theorem C39_difference_violated :
    Checks gEnv abStore 10 "p" ⟨doc1, "b"⟩ usr true ∧
    DefinedBy U0 (gPolicy opRels) ⟨doc1, "only"⟩ (.op (.rule (.cu "a")) .difference (.rule (.cu "b"))) ∧
    Checks gEnv abStore 10 "p" ⟨doc1, "only"⟩ usr true :=
  ⟨checks_of (by decide +kernel), (op_defs "1").2.2.2.1, checks_of (by decide +kernel)⟩

/-- How far C39 fails: in every policy and store, and for every user not covered by a wildcard, no difference of the
explanation excludes anybody: its result is that of its left operand. -/
theorem C39_difference_ignored (hs : WF env s) (hp : policyAt s pid = some rec)
    (hk : KeysClear env.U env.H rec.policy (Present s pid) x) (hw : NoWildcardFor env.U rec.policy (Present s pid) x u)
    {fuel : Nat} {t : GoalTree} {b : Bool} (h : Explains env s fuel pid x u t b) : Toothless t := by
  obtain ⟨seen, _, hev, rfl⟩ := explain_ev hp h
  exact check_toothless hs hp hk hw hev

/-- C39 for explanations without cut branches: a user in the right operand is denied. -/
theorem C39_difference_partial (hs : WF env s) (hp : policyAt s pid = some rec)
    (hk : KeysClear env.U env.H rec.policy (Present s pid) x)
    {l r : ExprTree} (hd : DefinedBy env.U rec.policy x (.op l .difference r)) {fuel : Nat} {t : GoalTree} {b : Bool}
    (h : Explains env s fuel pid x u t b) (hc : Clean t) {V : USet → Prop} (hV : Solution env.U rec.policy (Present s pid) u V)
    (hr : ExprIn (Present s pid) u V x r) : b = false := by
  rw [← Bool.not_eq_true]
  intro hb
  obtain ⟨e, hd', he⟩ := (hV x).1 ((C36_exact_partial hs hp hk h hc hV).1 hb)
  obtain rfl := DefinedBy.unique (hs.policy_valid hp).1 hd hd'
  exact he.2 hr

/-- Every user has a, user:u has b. -/
def wbRels : List Relationship := [⟨some doc1, "a", some (.resourceSet "user")⟩, ⟨some doc1, "b", some (.entity usr)⟩]
def wbStore : Store := gStore gEnv opRels wbRels
theorem wbStore_pol : policyAt wbStore "p" = some ⟨gPolicy opRels, [], 0⟩ := by decide +kernel

/-- Explanations without cut branches exist for intersection (authorized) and difference (denied). -/
example : (∃ t b, Explains gEnv wbStore 10 "p" ⟨doc1, "both"⟩ usr t b ∧ Clean t ∧ b = true) ∧
    (∃ t b, Explains gEnv wbStore 10 "p" ⟨doc1, "only"⟩ usr t b ∧ Clean t ∧ b = false) := by
  constructor
  · obtain ⟨t, b, h1, h2⟩ := explains_of (env := gEnv) (s := wbStore) (pid := "p") (x := ⟨doc1, "both"⟩) (u := usr) (fuel := 10)
      (f := fun t b => cleanB t && b) (by decide +kernel)
    simp only [Bool.and_eq_true] at h2
    exact ⟨t, b, h1, clean_of h2.1, h2.2⟩
  · obtain ⟨t, b, h1, h2⟩ := explains_of (env := gEnv) (s := wbStore) (pid := "p") (x := ⟨doc1, "only"⟩) (u := usr) (fuel := 10)
      (f := fun t b => cleanB t && !b) (by decide +kernel)
    simp only [Bool.and_eq_true, Bool.not_eq_true'] at h2
    exact ⟨t, b, h1, clean_of h2.1, h2.2⟩

example : KeysClear U0 Hx (gPolicy opRels) (Present wbStore "p") ⟨doc1, "only"⟩ :=
  (clear_of (env := gEnv) (rec := ⟨gPolicy opRels, [], 0⟩) (gStore_wf _ _ _) wbStore_pol
    (L := [.entitySet (some doc1) "only", .entitySet (some doc1) "a", .entitySet (some doc1) "b", .wildcard "user", .entity (some usr)])
    (by simp [USet.node]) (by decide +kernel)).1

end

end Zanzi
