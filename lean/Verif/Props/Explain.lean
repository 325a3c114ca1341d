import Verif.Lemmas.Dot
import Verif.Lemmas.Walk
import Verif.Props.Search

/-
Properties C44–C47: explanations, serialized trees, Expand.
-/

namespace Zanzi

open Spec

mutual
/-- Equality of goal trees, computably. -/
def sameTree : GoalTree → GoalTree → Bool
  | .or r ps, .or r' ps' => decide (r = r') && sameTrees ps ps'
  | .and r ps, .and r' ps' => decide (r = r') && sameTrees ps ps'
  | .diff r a b, .diff r' a' b' => decide (r = r') && sameTree a a' && sameTree b b'
  | .leaf r n e, .leaf r' n' e' => decide (r = r') && decide (n = n') && decide (e = e')
  | .path r n e c, .path r' n' e' c' => decide (r = r') && decide (n = n') && decide (e = e') && sameTree c c'
  | _, _ => false
def sameTrees : List GoalTree → List GoalTree → Bool
  | [], [] => true
  | t :: ts, t' :: ts' => sameTree t t' && sameTrees ts ts'
  | _, _ => false
end

mutual
theorem sameTree_eq {t t' : GoalTree} (h : sameTree t t' = true) : t = t' := by
  match t, t' with
  | .or r ps, .or r' ps' =>
    simp only [sameTree, Bool.and_eq_true, decide_eq_true_eq] at h
    rw [h.1, sameTrees_eq h.2]
  | .and r ps, .and r' ps' =>
    simp only [sameTree, Bool.and_eq_true, decide_eq_true_eq] at h
    rw [h.1, sameTrees_eq h.2]
  | .diff r a b, .diff r' a' b' =>
    simp only [sameTree, Bool.and_eq_true, decide_eq_true_eq] at h
    rw [h.1.1, sameTree_eq h.1.2, sameTree_eq h.2]
  | .leaf r n e, .leaf r' n' e' =>
    simp only [sameTree, Bool.and_eq_true, decide_eq_true_eq] at h
    rw [h.1.1, h.1.2, h.2]
  | .path r n e c, .path r' n' e' c' =>
    simp only [sameTree, Bool.and_eq_true, decide_eq_true_eq] at h
    rw [h.1.1.1, h.1.1.2, h.1.2, sameTree_eq h.2]
  | .or _ _, .and _ _ | .or _ _, .diff _ _ _ | .or _ _, .leaf _ _ _ | .or _ _, .path _ _ _ _ => cases h
  | .and _ _, .or _ _ | .and _ _, .diff _ _ _ | .and _ _, .leaf _ _ _ | .and _ _, .path _ _ _ _ => cases h
  | .diff _ _ _, .or _ _ | .diff _ _ _, .and _ _ | .diff _ _ _, .leaf _ _ _ | .diff _ _ _, .path _ _ _ _ => cases h
  | .leaf _ _ _, .or _ _ | .leaf _ _ _, .and _ _ | .leaf _ _ _, .diff _ _ _ | .leaf _ _ _, .path _ _ _ _ => cases h
  | .path _ _ _ _, .or _ _ | .path _ _ _ _, .and _ _ | .path _ _ _ _, .diff _ _ _ | .path _ _ _ _, .leaf _ _ _ => cases h
theorem sameTrees_eq {ts ts' : List GoalTree} (h : sameTrees ts ts' = true) : ts = ts' := by
  match ts, ts' with
  | [], [] => rfl
  | t :: ts, t' :: ts' =>
    simp only [sameTrees, Bool.and_eq_true] at h
    rw [sameTree_eq h.1, sameTrees_eq h.2]
  | [], _ :: _ | _ :: _, [] => cases h
end

section
variable {env : Env} {s : Store} {pid : String} {rec : PolicyRecord} {x : USet} {u : Entity}

/-! ### C44: explanations -/

/-- C44, agreement: on every store and for every request, an explanation in any format reports the answer of Check; whatever Check reports is
explained (in the spew format); and an error of Check is an error of ExplainCheck in every known format. -/
theorem C44_agreement (env : Env) (s : Store) (fuel : Nat) (pid : String) (req : Option AccessRequest) :
    (∀ f o b g, (serve env (.explainCheck fuel pid req f) s).1 = .ok (.explained o b g) → (serve env (.check fuel pid req) s).1 = .ok (.authorized b)) ∧
    (∀ b, (serve env (.check fuel pid req) s).1 = .ok (.authorized b) → ∃ t, (serve env (.explainCheck fuel pid req .spew) s).1 = .ok (.explained (.spew t) b .spew)) ∧
    (∀ f e, f ≠ .unknown → (serve env (.check fuel pid req) s).1 = .err e → (serve env (.explainCheck fuel pid req f) s).1 = .err e) := by
  have hc : (serve env (.check fuel pid req) s).1 = _ := congrArg Prod.fst (check_yields' env fuel pid req s)
  have he : ∀ f, (serve env (.explainCheck fuel pid req f) s).1 = _ := fun f => congrArg Prod.fst (explainCheck_yields' env fuel pid req f s)
  rw [hc]
  simp only [he]
  refine ⟨fun f o b g h => ?_, fun b h => ?_, fun f e hf h => ?_⟩
  · obtain ⟨q, hq, h'⟩ := Res.bind_eq_ok.1 h
    cases h'
    obtain ⟨_, h0, h⟩ := Res.bind_eq_ok.1 hq
    obtain ⟨rec, h1, h⟩ := Res.bind_eq_ok.1 h
    obtain ⟨t, h2, h⟩ := Res.bind_eq_ok.1 h
    obtain ⟨o', h3, h⟩ := Res.bind_eq_ok.1 h
    cases h
    rw [h1, Res.bind_ok, h2]
    rfl
  · obtain ⟨b', h, h'⟩ := Res.bind_eq_ok.1 h
    cases h'
    obtain ⟨rec, h1, h⟩ := Res.bind_eq_ok.1 h
    obtain ⟨t, h2, h⟩ := Res.bind_eq_ok.1 h
    cases h
    refine ⟨t, ?_⟩
    rw [h1, Res.bind_ok, h2]
    rfl
  · have hfac : serializerFactory f = .ok () := by cases f <;> first | rfl | exact absurd rfl hf
    rw [hfac]
    cases h1 : policyRes s pid with
    | ok rec =>
      rw [h1] at h
      simp only [Res.bind_ok] at h ⊢
      revert h
      cases (Res.deref req >>= fun r => pSearch env rec.policy s fuel (some (.entitySet r.object r.relation)) (some (.entity r.subject))) with
      | ok t => intro h; cases h
      | err e' => intro h; cases h; rfl
      | panic => intro h; cases h
      | fuel => intro h; cases h
    | err e' => rw [h1] at h; cases h; rfl
    | panic => rw [h1] at h; cases h
    | fuel => rw [h1] at h; cases h

theorem goalFound_names {n : RelationNode} {b : Bool} (h : goalFound n (userGoal u) = .ok b) : b = true ↔ Names u n := by
  unfold goalFound userGoal at h
  unfold Names
  cases n with
  | entity o =>
    cases o with
    | none => cases h
    | some o =>
      cases h
      obtain ⟨r, i⟩ := u
      obtain ⟨r', i'⟩ := o
      simp only [Bool.and_eq_true, decide_eq_true_eq, RelationNode.entity.injEq, Option.some.injEq, Entity.mk.injEq, reduceCtorEq, or_false]
      exact ⟨fun h => ⟨h.1.symm, h.2.symm⟩, fun h => ⟨h.1.symm, h.2.symm⟩⟩
  | wildcard r =>
    cases h
    simp
  | entitySet o rel => cases h; simp
  | unset => cases h; simp

theorem bld_node (hu : NamesUnique rec.policy) {n : RelationNode} {t : GoalTree} (ht : n.isTerminal = false) (h : bld env rec.policy s n = .ok t) :
    ∃ y : USet, n = y.node ∧ ∃ e, DefinedBy env.U rec.policy y e ∧ pBuild env.H s rec.policy.id y e = .ok t := by
  obtain ⟨o, rel, rfl⟩ := isTerminal_false ht
  cases o with
  | none => cases h
  | some o => exact ⟨⟨o, rel⟩, rfl, bld_ok hu h⟩

/-- C44, results: in the tree ExplainCheck returns, every visited result is justified by its children, a node left open is decided elsewhere in the tree (up to the visit identifier), and the answer is the
result of the tree, whose root is the userset asked about. -/
theorem C44_results_justified (hs : WF env s) (hp : policyAt s pid = some rec) {fuel : Nat} {t : GoalTree} {b : Bool}
    (h : Explains env s fuel pid x u t b) :
    Justified (Names u) (fun _ _ => True) (fun n => ∃ m ∈ settled t, ∃ id, m.nodeId env.H = .ok id ∧ n.nodeId env.H = .ok id) t ∧
    (b = true ↔ t.result = .success) ∧ topNode t = some x.node ∧ topReason t = some "Request" := by
  obtain ⟨seen, h1, h2, h3⟩ := explain_ev hp h
  have hv := hs.policy_valid hp
  refine ⟨?_, by rw [h3]; simp, ?_, ?_⟩
  · have := h2.justified (T := Names u) (X := fun _ _ => True) (P := fun _ => True)
      (fun n t _ ht hb => by
        obtain ⟨y, rfl, e, _, he⟩ := bld_node hv.1 ht hb
        exact ⟨fun _ _ => trivial, pBuild_fresh he, (pBuild_formed he).1, y, rfl, fun _ _ => trivial⟩)
      (fun n b _ hg => goalFound_names hg) seen (fun _ h => h) trivial
    refine Justified.mono (fun _ _ h => h) (fun n _ hn => ?_) this
    obtain ⟨id, h4, h5⟩ := hn
    rcases h2.seen_settled id h5 with h6 | ⟨m, h6, h7⟩
    · cases h6
    · exact ⟨m, h6, id, h7, h4⟩
  · have := h2.outline
    rw [← topNode_outline, show outline t = _ from this]
    rfl
  · have := h2.outline
    rw [← topReason_outline, show outline t = _ from this]
    rfl

theorem ruleNodes_prescribed (hs : WF env s) {y : USet} (hy : KeyClear env.H (Present s pid) y) {r : Rule}
    (hk : ∀ a b, r = .ttu a b → KeyClear env.H (Present s pid) ⟨y.object, a⟩)
    (hw : ∀ a b, r = .ttu a b → ∀ n, ¬ Present s pid ⟨some y.object, a, some (.resourceSet n)⟩)
    {ns : List RelationNode} (h : ruleNodes env.H s pid y r = .ok ns) (n : RelationNode) : n ∈ ns ↔ RuleNode (Present s pid) y n r := by
  rw [mem_ruleNodes hs hy hk h n]
  constructor
  · rintro (⟨rfl, sub, hpr, rfl⟩ | ⟨c, rfl, rfl⟩ | ⟨a, b, sub, rfl, hpr, rfl⟩)
    · exact ⟨sub, hpr, rfl⟩
    · rfl
    · obtain ⟨sub', h3, h4⟩ := hs.subject_proper hpr
      cases h3
      cases sub with
      | unset => exact h4.elim
      | entity o => exact ⟨_, o, hpr, rfl, rfl⟩
      | entitySet o rel => cases o with | none => exact h4.elim | some o => exact ⟨_, o, hpr, rfl, rfl⟩
      | resourceSet n => exact absurd hpr (hw a b rfl n)
  · intro h
    cases r with
    | unset => exact h.elim
    | this => obtain ⟨sub, h1, h2⟩ := h; exact .inl ⟨rfl, sub, h1, h2⟩
    | cu t => exact .inr (.inl ⟨t, rfl, h⟩)
    | ttu a b =>
      obtain ⟨sub, e, h1, h2, h3⟩ := h
      exact .inr (.inr ⟨a, b, sub, rfl, h1, by rw [h2]; exact h3⟩)

theorem pBuild_prescribed (hs : WF env s) {y : USet} (hy : KeyClear env.H (Present s pid) y) : ∀ {e : ExprTree} {t : GoalTree},
    (∀ a b, .ttu a b ∈ leaves e → KeyClear env.H (Present s pid) ⟨y.object, a⟩) →
    (∀ a b, .ttu a b ∈ leaves e → ∀ n, ¬ Present s pid ⟨some y.object, a, some (.resourceSet n)⟩) →
    pBuild env.H s pid y e = .ok t → Prescribed (Present s pid) y e t := by
  intro e
  induction e with
  | nil => intro t _ _ h; cases h
  | unset => intro t _ _ h; cases h
  | rule r =>
    intro t hk hw h
    unfold pBuild at h
    obtain ⟨ns, hns, h⟩ := Res.bind_eq_ok.1 h
    cases h
    rw [Prescribed]
    simp only [List.mem_map]
    refine ⟨?_, fun n => ?_⟩
    · rintro p ⟨n, _, rfl⟩
      exact ⟨⟨n, rfl⟩, by cases r <;> rfl⟩
    · rw [← ruleNodes_prescribed hs hy (fun a b h => hk a b (by simp [leaves, h])) (fun a b h => hw a b (by simp [leaves, h])) hns n]
      constructor
      · rintro ⟨p, ⟨m, hm, rfl⟩, h⟩
        cases h
        exact hm
      · intro hm
        exact ⟨_, ⟨n, hm, rfl⟩, rfl⟩
  | op l o r ihl ihr =>
    intro t hk hw h
    unfold pBuild at h
    obtain ⟨a, ha, h⟩ := Res.bind_eq_ok.1 h
    obtain ⟨b, hb, h⟩ := Res.bind_eq_ok.1 h
    have h1 := ihl (fun a b h => hk a b (by simp [leaves, h])) (fun a b h => hw a b (by simp [leaves, h])) ha
    have h2 := ihr (fun a b h => hk a b (by simp [leaves, h])) (fun a b h => hw a b (by simp [leaves, h])) hb
    cases o <;> cases h <;> rw [Prescribed] <;> exact ⟨h1, h2⟩

/-- C44, expansions: when consulted usersets have no storage key collision and tuplesets hold no wildcard, each expansion in the tree is the one the policy and the stored relationships
prescribe; when reachable nodes have distinct identifiers, a node left open is decided elsewhere in the tree.  Missing: key collisions (`C44_expansion_violated`), wildcards in
tuplesets. -/
theorem C44_expansions_partial (hs : WF env s) (hp : policyAt s pid = some rec) (hk : KeysClear env.U env.H rec.policy (Present s pid) x)
    (hw : TuplesetsConcrete env.U rec.policy (Present s pid) x) {fuel : Nat} {t : GoalTree} {b : Bool}
    (h : Explains env s fuel pid x u t b) :
    Justified (Names u) (Expansion env.U rec.policy (Present s pid))
      (fun n => ∃ m ∈ settled t, ∃ id, m.nodeId env.H = .ok id ∧ n.nodeId env.H = .ok id) t ∧
    (IdsClear env.U env.H rec.policy (Present s pid) x →
      Justified (Names u) (Expansion env.U rec.policy (Present s pid)) (fun n => n ∈ settled t) t) := by
  obtain ⟨seen, h1, h2, h3⟩ := explain_ev hp h
  have hv := hs.policy_valid hp
  have hid := hs.policy_id hp
  have key : Justified (Names u) (Expansion env.U rec.policy (Present s pid))
      (fun n => ∃ m ∈ settled t, ∃ id, m.nodeId env.H = .ok id ∧ n.nodeId env.H = .ok id) t := by
    have := h2.justified (T := Names u) (X := Expansion env.U rec.policy (Present s pid)) (P := Reaches env.U rec.policy (Present s pid) x)
      (fun n t hn ht hb => by
        obtain ⟨y, rfl, e, hde, he⟩ := bld_node hv.1 ht hb
        refine ⟨?_, pBuild_fresh he, (pBuild_formed he).1, y, rfl, fun t' ht' => ⟨e, hde, ?_⟩⟩
        · rcases build_outcome hs hp hk hw hn with ⟨t', h4, h5⟩ | ⟨_, er, h4⟩
          · rw [hb] at h4
            cases h4
            exact h5
          · rw [hb] at h4
            cases h4
        · rw [← prescribed_outline, ht', prescribed_outline]
          rw [hid] at he
          exact pBuild_prescribed hs (hk y y hn (.inl rfl)) (fun a b hab => hk y ⟨y.object, a⟩ hn (.inr ⟨e, a, b, hde, hab, rfl⟩))
            (fun a b hab n => hw y e a b n hn hde hab) he)
      (fun n b _ hg => goalFound_names hg) seen (fun _ h => h) .start
    refine Justified.mono (fun _ _ h => h) (fun n _ hn => ?_) this
    obtain ⟨id, h4, h5⟩ := hn
    rcases h2.seen_settled id h5 with h6 | ⟨m, h6, h7⟩
    · cases h6
    · exact ⟨m, h6, id, h7, h4⟩
  refine ⟨key, fun hi => ?_⟩
  have hreach : ∀ m ∈ mentions t, Reaches env.U rec.policy (Present s pid) x m := by
    rcases search_outcome hs hp hk hw (goal := userGoal u) trivial (E := True) (fun _ _ _ => trivial) fuel with h4 | ⟨t', h4, h5⟩ | ⟨_, e, h4⟩
    · rw [h1] at h4; cases h4
    · rw [h1] at h4; cases h4; exact h5
    · rw [h1] at h4; cases h4
  refine Justified.mono (fun _ _ h => h) (fun n hn => ?_) key
  rintro ⟨m, hm, id, h4, h5⟩
  rw [← hi m n id (hreach m (settled_mentions hm)) (hreach n hn) h4 h5]
  exact hm

/-- Relations whose names collide with an id in the storage key: `doc:1#aa` and `doc:1a#a`. -/
def aaStore : Store := gStore gEnv [rel "a" "_this", rel "aa" "_this"] [⟨some ⟨"doc", "1a"⟩, "a", some (.entity usr)⟩]

/-- The tree for doc:1#aa. -/
def aaTree : GoalTree :=
  .path .success (.entitySet (some doc1) "aa") "Request" (.or .success [.leaf .success (.entity (some usr)) "Rule This"])

/-- C44 is false for expansions: only doc:1a#a@user:u is stored, yet the tree expands doc:1#aa to user:u. -/
theorem C44_expansion_violated :
    relationships aaStore "p" = [⟨some ⟨"doc", "1a"⟩, "a", some (.entity usr)⟩] ∧
    Explains gEnv aaStore 10 "p" ⟨doc1, "aa"⟩ usr aaTree true ∧
    ∀ C, ¬ Justified (Names usr) (Expansion U0 (gPolicy [rel "a" "_this", rel "aa" "_this"]) (Present aaStore "p")) C aaTree := by
  have hrel : relationships aaStore "p" = [⟨some ⟨"doc", "1a"⟩, "a", some (.entity usr)⟩] := by decide +kernel
  refine ⟨hrel, ?_, ?_⟩
  · obtain ⟨t, b, h1, h2⟩ := explains_of (env := gEnv) (s := aaStore) (pid := "p") (x := ⟨doc1, "aa"⟩) (u := usr) (fuel := 10)
      (f := fun t b => sameTree t aaTree && b) (by decide +kernel)
    simp only [Bool.and_eq_true] at h2
    obtain ⟨h2, rfl⟩ := h2
    cases sameTree_eq h2
    exact h1
  · intro C h
    unfold aaTree at h
    rw [Justified] at h
    obtain ⟨_, _, ⟨y, hy, e, hde, hpr⟩, _⟩ := h
    obtain ⟨o, r⟩ := y
    cases hy
    have hnames : NamesUnique (gPolicy [rel "a" "_this", rel "aa" "_this"]) := by simp [NamesUnique, gPolicy, rel]
    obtain ⟨d, h1, h2⟩ := hde
    have h3 : (newLut (gPolicy [rel "a" "_this", rel "aa" "_this"])).getRelation "doc" "aa" = some d := ((C11_lookup_exact _ hnames _ _).1 d).2 h1
    have h4 : (newLut (gPolicy [rel "a" "_this", rel "aa" "_this"])).getRelation "doc" "aa" = some (rel "aa" "_this") := by decide +kernel
    rw [h4] at h3
    cases h3
    have h5 := (getExpressionTree_ok_iff U0 (rel "aa" "_this") e).2 h2
    have h6 : getExpressionTree U0 (rel "aa" "_this") = .ok (.rule .this) := by decide +kernel
    rw [h6] at h5
    cases h5
    rw [Prescribed] at hpr
    obtain ⟨sub, h7, h8⟩ := (hpr.2 (.entity (some usr))).1 ⟨_, List.mem_cons_self, rfl⟩
    unfold Present at h7
    rw [hrel] at h7
    simp [doc1] at h7

/-- A tree with an AND, a cut node and a success: hypotheses and conclusion of the C44 theorems on it. -/
example : ∃ t, Explains gEnv abStore 10 "p" ⟨doc1, "any"⟩ usr t true ∧
    Justified (Names usr) (Expansion U0 (gPolicy opRels) (Present abStore "p")) (fun n => n ∈ settled t) t := by
  obtain ⟨t, b, h1, h2⟩ := explains_of (env := gEnv) (s := abStore) (pid := "p") (x := ⟨doc1, "any"⟩) (u := usr) (fuel := 10)
      (f := fun _ b => b) (by decide +kernel)
  cases h2
  refine ⟨t, h1, (C44_expansions_partial (env := gEnv) (gStore_wf _ _ _) abStore_pol (ab_clear _ (.inr (.inr rfl))).1 ?_ h1).2 (ab_clear _ (.inr (.inr rfl))).2⟩
  intro y e a b n _ _ _ hr
  have hr : _ ∈ relationships abStore "p" := hr
  rw [abStore_rels] at hr
  simp [abRels] at hr

/-! ### C45: JSON -/

/-- The root of a tree for a userset has a child. -/
theorem search_root {goal : Option RelationNode} (hs : goal = none ∨ ∃ o, goal = some (.entity o)) {env : Env} {p : Policy} {fuel : Nat} {o : Option Entity} {r : String} {t : GoalTree}
    (h : pSearch env p s fuel (some (.entitySet o r)) goal = .ok t) : t.hasChild = true := by
  obtain ⟨n, seen, h1, h2⟩ := pSearch_ev h
  clear h
  cases h1
  cases h2 with
  | repeated _ h => cases h
  | @ended n reason id b s h3 h4 h5 h6 =>
    have : b = false := by
      rcases hs with rfl | ⟨_, rfl⟩
      · cases h5; rfl
      · cases h5; rfl
    subst this
    cases h6
  | expanded => rfl

/-- C45 is false: no ExplainCheck request at all returns JSON, and no Expand of a userset does; with a concrete request that Check grants. -/
theorem C45_json_violated :
    (∀ (env : Env) (s : Store) (fuel : Nat) (pid : String) (req : Option AccessRequest) (a : Answer),
      (serve env (.explainCheck fuel pid req .json) s).1 ≠ .ok a) ∧
    (∀ (env : Env) (s : Store) (fuel : Nat) (pid : String) (o : Option Entity) (r : String) (a : Answer),
      (serve env (.expand fuel pid (some (.entitySet o r)) .json) s).1 ≠ .ok a) ∧
    Checks gEnv abStore 10 "p" ⟨doc1, "a"⟩ usr true ∧
    (serve gEnv (.explainCheck 10 "p" (ask ⟨doc1, "a"⟩ usr) .json) abStore).1 = .err .json := by
  refine ⟨fun env s fuel pid req a h => ?_, fun env s fuel pid o r a h => ?_, checks_of (by decide +kernel), errOf_some (by decide +kernel)⟩
  · rw [show serve env (.explainCheck fuel pid req .json) s = _ from explainCheck_yields' env fuel pid req .json s] at h
    obtain ⟨q, h, _⟩ := Res.bind_eq_ok.1 h
    obtain ⟨_, _, h⟩ := Res.bind_eq_ok.1 h
    obtain ⟨rec, _, h⟩ := Res.bind_eq_ok.1 h
    obtain ⟨t, h1, h⟩ := Res.bind_eq_ok.1 h
    obtain ⟨o, h2, h⟩ := Res.bind_eq_ok.1 h
    obtain ⟨rq, h3, h4⟩ := Res.bind_eq_ok.1 h1
    have := search_root (.inr ⟨_, rfl⟩) h4
    simp [serialize, jsonSerialize, this] at h2
  · rw [show serve env (.expand fuel pid (some (.entitySet o r)) .json) s = _ from expand_yields' env fuel pid _ .json s] at h
    obtain ⟨q, h, _⟩ := Res.bind_eq_ok.1 h
    obtain ⟨_, _, h⟩ := Res.bind_eq_ok.1 h
    obtain ⟨rec, _, h⟩ := Res.bind_eq_ok.1 h
    obtain ⟨t, h1, h⟩ := Res.bind_eq_ok.1 h
    obtain ⟨o, h2, h⟩ := Res.bind_eq_ok.1 h
    have := search_root (.inl rfl) h1
    simp [serialize, jsonSerialize, this] at h2

/-- C45 for Expand from an entity or a wildcard: the JSON of the single tree node is returned.  Missing: every other request (`C45_json_violated`). -/
theorem C45_json_partial (hp : policyAt s pid = some rec) {n : RelationNode} (hn : Proper n) (ht : n.isTerminal = true) (fuel : Nat) :
    (serve env (.expand (fuel + 1) pid (some n) .json) s).1 = .ok (.expanded (.json (.leaf .failure n "Request")) .json) := by
  rw [serve_expand hp]
  obtain ⟨⟨id, hid⟩, _⟩ := proper_known (H := env.H) hn (goal := none) trivial
  simp only [pSearch, Res.deref_some, Res.bind_ok, pPath, hid, goalFound, ht, Bool.or_true]
  rfl

example : Proper (.entity (some usr)) ∧ (RelationNode.entity (some usr)).isTerminal = true := ⟨trivial, rfl⟩

/-! ### C46: drawings -/

/-- C46: whatever the DOT serializer returns draws the goal tree exactly; and it returns for every tree whose nodes have their parts, in particular
for every explanation and expansion of `C14_graph_partial`. -/
theorem C46_dot_exact (t : GoalTree) :
    (∀ cs, dotSerialize t = .ok cs → Draws t cs) ∧ ((∀ m ∈ mentions t, Proper m) → ∃ cs, dotSerialize t = .ok cs) := by
  refine ⟨fun cs h => dotSerialize_draws h, fun h => ?_⟩
  obtain ⟨q, hq⟩ := dotTree_ok .root t 0 h
  exact ⟨.node .root "" :: q.1, by rw [dotSerialize, hq]; rfl⟩

/-- What ExplainCheck and Expand return in the DOT format draws the tree they return in the spew format. -/
theorem C46_dot_requests (env : Env) (s : Store) (fuel : Nat) (pid : String) :
    (∀ req cs b g, (serve env (.explainCheck fuel pid req .dot) s).1 = .ok (.explained (.dot cs) b g) →
      ∃ t, (serve env (.explainCheck fuel pid req .spew) s).1 = .ok (.explained (.spew t) b .spew) ∧ Draws t cs) ∧
    (∀ root cs f, (serve env (.expand fuel pid root .dot) s).1 = .ok (.expanded (.dot cs) f) →
      ∃ t, (serve env (.expand fuel pid root .spew) s).1 = .ok (.expanded (.spew t) .spew) ∧ Draws t cs) := by
  refine ⟨fun req cs b g h => ?_, fun root cs f h => ?_⟩
  · rw [show serve env (.explainCheck fuel pid req .dot) s = _ from explainCheck_yields' env fuel pid req .dot s] at h
    obtain ⟨⟨_, _, _⟩, h', hq⟩ := Res.bind_eq_ok.1 h
    clear h
    have h := h'
    clear h'
    cases hq
    obtain ⟨_, _, h⟩ := Res.bind_eq_ok.1 h
    obtain ⟨rec, hrec, h⟩ := Res.bind_eq_ok.1 h
    obtain ⟨t, h1, h⟩ := Res.bind_eq_ok.1 h
    obtain ⟨o, h2, h⟩ := Res.bind_eq_ok.1 h
    cases h
    obtain ⟨cs', h3, h4⟩ := Res.bind_eq_ok.1 h2
    cases h4
    refine ⟨t, ?_, dotSerialize_draws h3⟩
    rw [show serve env (.explainCheck fuel pid req .spew) s = _ from explainCheck_yields' env fuel pid req .spew s, hrec, Res.bind_ok, h1]
    rfl
  · rw [show serve env (.expand fuel pid root .dot) s = _ from expand_yields' env fuel pid root .dot s] at h
    obtain ⟨⟨_, _⟩, h', hq⟩ := Res.bind_eq_ok.1 h
    clear h
    have h := h'
    clear h'
    cases hq
    obtain ⟨_, _, h⟩ := Res.bind_eq_ok.1 h
    obtain ⟨rec, hrec, h⟩ := Res.bind_eq_ok.1 h
    obtain ⟨t, h1, h⟩ := Res.bind_eq_ok.1 h
    obtain ⟨o, h2, h⟩ := Res.bind_eq_ok.1 h
    cases h
    obtain ⟨cs', h3, h4⟩ := Res.bind_eq_ok.1 h2
    cases h4
    refine ⟨t, ?_, dotSerialize_draws h3⟩
    rw [show serve env (.expand fuel pid root .spew) s = _ from expand_yields' env fuel pid root .spew s, hrec, Res.bind_ok, h1]
    rfl

/-- The serializer's calls for `aaTree`: three vertices below the root. -/
example : dotSerialize aaTree = .ok [.node .root "",
    .node (.num 0) "PathNode\nrelation node: (doc:1, aa)\nreason: Request\nresult: SUCCESS", .edge .root (.num 0),
    .node (.num 1) "ORNode\nresult: SUCCESS", .edge (.num 0) (.num 1),
    .node (.num 2) "PathNode\nrelation node: (user:u)\nreason: Rule This\nresult: SUCCESS", .edge (.num 1) (.num 2)] := by
  decide +kernel

/-! ### C47: Expand -/

/-- Expand answers with goal tree `t`. -/
def Expands (env : Env) (s : Store) (fuel : Nat) (pid : String) (root : RelationNode) (t : GoalTree) : Prop :=
  (serve env (.expand fuel pid (some root) .spew) s).1 = .ok (.expanded (.spew t) .spew)

theorem expands_ev (hp : policyAt s pid = some rec) {fuel : Nat} {root : RelationNode} {t : GoalTree} (h : Expands env s fuel pid root t) :
    ∃ seen, Ev env.H (Builds (bld env rec.policy s)) none (.path root "Request") [] (.tree t) seen := by
  unfold Expands at h
  rw [serve_expand hp] at h
  obtain ⟨_, _, h⟩ := Res.bind_eq_ok.1 h
  obtain ⟨t', h1, h⟩ := Res.bind_eq_ok.1 h
  cases h
  obtain ⟨n, seen, h2, h3⟩ := pSearch_ev h1
  cases h2
  exact ⟨seen, h3⟩

/-- C47 for rules without intersection: the nodes settled in Expand's tree are exactly the nodes reachable from the root.  Missing: intersections
(`C47_expand_violated`), storage key and visit identifier collisions. -/
theorem C47_expand_partial (hs : WF env s) (hp : policyAt s pid = some rec) (hk : KeysClear env.U env.H rec.policy (Present s pid) x)
    (hi : IdsClear env.U env.H rec.policy (Present s pid) x) (ha : ExprsFrom env.U rec.policy (Present s pid) x AndFree)
    {fuel : Nat} {t : GoalTree} (h : Expands env s fuel pid x.node t) (n : RelationNode) :
    n ∈ settled t ↔ Reaches env.U rec.policy (Present s pid) x n := by
  obtain ⟨seen, h1⟩ := expands_ev hp h
  have hset : ∀ m ∈ settled t, Reaches env.U rec.policy (Present s pid) x m :=
    h1.settled_ok (P := Reaches env.U rec.policy (Present s pid) x)
      (fun n t hr hterm hb => by
        obtain ⟨y, e, rfl, h1, h2, k1, k2, hfm, htops⟩ := expand_facts hs hp hk hr hterm hb
        exact ⟨(pBuild_fresh h2).settled, htops⟩) (fun _ _ => .start) trivial
  refine ⟨hset n, fun hn => ?_⟩
  classical
  let bld' : RelationNode → Res GoalTree := fun n => if Reaches env.U rec.policy (Present s pid) x n ∧ n.isTerminal = false then bld env rec.policy s n else .err .json
  have h2 : Ev env.H (Builds bld') none (.path x.node "Request") [] (.tree t) seen :=
    h1.congr (P := Reaches env.U rec.policy (Present s pid) x)
      (fun n t hr hterm hb => by
        obtain ⟨y, e, rfl, h1, h2, k1, k2, hfm, htops⟩ := expand_facts hs hp hk hr hterm hb
        refine ⟨?_, htops⟩
        show (if _ then _ else _) = _
        rw [if_pos ⟨hr, hterm⟩, hb]) (fun _ _ => .start)
  have hb' : ∀ n t, bld' n = .ok t → Reaches env.U rec.policy (Present s pid) x n ∧ n.isTerminal = false ∧ bld env rec.policy s n = .ok t := by
    intro n t hn
    have hn : (if _ then _ else _) = _ := hn
    split at hn
    · next hc => exact ⟨hc.1, hc.2, hn⟩
    · cases hn
  have hplain : ∀ n t, bld' n = .ok t → t.Plain true := by
    intro n t hn
    obtain ⟨hr, hterm, hb⟩ := hb' n t hn
    obtain ⟨y, e, rfl, h1, h2, k1, k2, hfm, htops⟩ := expand_facts hs hp hk hr hterm hb
    exact pBuild_andFree (ha y e hr h1) h2
  have hc := h2.closed (P := Reaches env.U rec.policy (Present s pid) x) (d := true) (fun _ => ⟨rfl, hplain⟩)
    (fun n t hr hterm hb => by
      refine ⟨hplain n t hb, ?_⟩
      obtain ⟨_, _, hb⟩ := hb' n t hb
      obtain ⟨y, e, rfl, h1, h2, k1, k2, hfm, htops⟩ := expand_facts hs hp hk hr hterm hb
      exact htops)
  obtain ⟨hv, hnew⟩ := hc (fun _ _ => .start) (h2.none_fails hplain)
  have hvis : ∀ n, Reaches env.U rec.policy (Present s pid) x n → Visited env.H seen n := by
    intro n hn
    induction hn with
    | start => exact hv
    | @step y n hy hw ih =>
      obtain ⟨id, hid, hyid⟩ := ih
      obtain ⟨m, hm, hmr, hcl⟩ := hnew id hid (by simp)
      obtain rfl := hi _ _ _ hy hmr hyid hm
      obtain ⟨t', hb, htv⟩ := hcl.2 rfl
      exact htv n (rewrites_tops hs hp (hb' _ _ hb).2.2 hw)
  obtain ⟨id, hid, hnid⟩ := hvis n hn
  rcases h2.seen_settled id hid with h3 | ⟨m, hm, hmid⟩
  · cases h3
  · rw [hi n m id hn (hset m hm) hnid hmid]
    exact hm

/-- Only doc:1#b@user:u is stored, where `both = a & b`. -/
def bStore : Store := gStore gEnv opRels [⟨some doc1, "b", some (.entity usr)⟩]

/-- What Expand shows for doc:1#both. -/
def bTree : GoalTree :=
  .path .failure (.entitySet (some doc1) "both") "Request" (.and .failure
    [.or .failure [.path .failure (.entitySet (some doc1) "a") "Rule Computed Userset: a" (.or .failure [])],
     .or .unknown [.leaf .unknown (.entitySet (some doc1) "b") "Rule Computed Userset: b"]])

theorem expands_of {f : GoalTree → Bool} {fuel : Nat} {root : RelationNode}
    (h : (match (serve env (.expand fuel pid (some root) .spew) s).1 with
      | .ok (.expanded (.spew t) .spew) => f t
      | _ => false) = true) : ∃ t, Expands env s fuel pid root t ∧ f t = true := by
  unfold Expands
  split at h
  · next t h1 => exact ⟨t, h1, h⟩
  · cases h

/-- C47 is false: user:u is reachable from doc:1#both, but Expand stops at the empty left operand and does not show them. -/
theorem C47_expand_violated :
    Expands gEnv bStore 10 "p" (.entitySet (some doc1) "both") bTree ∧
    Reaches U0 (gPolicy opRels) (Present bStore "p") ⟨doc1, "both"⟩ (.entity (some usr)) ∧ RelationNode.entity (some usr) ∉ mentions bTree := by
  refine ⟨?_, ?_, by decide +kernel⟩
  · obtain ⟨t, h1, h2⟩ := expands_of (env := gEnv) (s := bStore) (pid := "p") (root := .entitySet (some doc1) "both") (fuel := 10)
      (f := fun t => sameTree t bTree) (by decide +kernel)
    cases sameTree_eq h2
    exact h1
  · have hd : ∀ n e t, rel n e ∈ opRels → getExpressionTree U0 (rel n e) = .ok t → DefinedBy U0 (gPolicy opRels) ⟨doc1, n⟩ t :=
      fun n e t h1 h2 => ⟨rel n e, ⟨_, by simp [gPolicy]; exact .inr (.inr rfl), rfl, h1, rfl⟩, (getExpressionTree_ok_iff U0 _ _).1 h2⟩
    have h1 : Reaches U0 (gPolicy opRels) (Present bStore "p") ⟨doc1, "both"⟩ (USet.node ⟨doc1, "b"⟩) :=
      .step (y := ⟨doc1, "both"⟩) .start (.cu (hd "both" "a & b" (.op (.rule (.cu "a")) .intersection (.rule (.cu "b"))) (by decide +kernel) (by decide +kernel))
        (by simp [leaves]))
    have h2 : (⟨some doc1, "b", some (.entity usr)⟩ : Relationship) ∈ relationships bStore "p" := by decide +kernel
    exact .step h1 (.this (sub := .entity usr) (hd "b" "_this" (.rule .this) (by decide +kernel) (by decide +kernel)) (by simp [leaves]) h2)

/-- A difference: the hypotheses of `C47_expand_partial` hold, Expand answers, and user:u is settled. -/
example : ∃ t, Expands gEnv abStore 10 "p" (.entitySet (some doc1) "only") t ∧ RelationNode.entity (some usr) ∈ settled t ∧
    ∀ n, n ∈ settled t ↔ Reaches U0 (gPolicy opRels) (Present abStore "p") ⟨doc1, "only"⟩ n := by
  obtain ⟨t, h1, h2⟩ := expands_of (env := gEnv) (s := abStore) (pid := "p") (root := .entitySet (some doc1) "only") (fuel := 10)
      (f := fun t => (RelationNode.entity (some usr)) ∈ settled t) (by decide +kernel)
  refine ⟨t, h1, by simpa using h2, C47_expand_partial (env := gEnv) (gStore_wf _ _ _) abStore_pol (ab_clear _ (.inr (.inl rfl))).1
    (ab_clear _ (.inr (.inl rfl))).2 ?_ h1⟩
  intro y e hr hd
  have hm := reaches_list (env := gEnv) (gStore_wf _ _ _) abStore_pol (L := abNodes "only") (by simp [abNodes, USet.node]) (by decide +kernel) hr
  rcases op_defined hd with ⟨_, _, rfl⟩ | ⟨_, ⟨_, rfl⟩ | ⟨_, rfl⟩ | ⟨h, rfl⟩ | ⟨_, rfl⟩ | ⟨_, rfl⟩⟩
  · trivial
  · trivial
  · trivial
  · simp [abNodes, USet.node, h] at hm
  · exact ⟨trivial, trivial⟩
  · exact ⟨trivial, trivial⟩

/-- C47 for every operator: the nodes settled in Expand's tree are exactly those reachable without passing through a right operand of an intersection. -/
theorem C47_expand_exact (hs : WF env s) (hp : policyAt s pid = some rec) (hk : KeysClear env.U env.H rec.policy (Present s pid) x)
    (hi : IdsClear env.U env.H rec.policy (Present s pid) x) {fuel : Nat} {t : GoalTree} (h : Expands env s fuel pid x.node t) (n : RelationNode) :
    n ∈ settled t ↔ Shown env.U rec.policy (Present s pid) x n := by
  obtain ⟨seen, h1⟩ := expands_ev hp h
  exact walk_settled hs hp hk hi h1 n

/-- The hypotheses hold for an intersection, and its first operand is settled. -/
example : ∃ t, Expands gEnv abStore 10 "p" (.entitySet (some doc1) "both") t ∧ RelationNode.entitySet (some doc1) "a" ∈ settled t ∧
    RelationNode.entitySet (some doc1) "b" ∉ settled t ∧
    ∀ n, n ∈ settled t ↔ Shown U0 (gPolicy opRels) (Present abStore "p") ⟨doc1, "both"⟩ n := by
  obtain ⟨t, h1, h2⟩ := expands_of (env := gEnv) (s := abStore) (pid := "p") (root := .entitySet (some doc1) "both") (fuel := 10)
      (f := fun t => decide (RelationNode.entitySet (some doc1) "a" ∈ settled t ∧ RelationNode.entitySet (some doc1) "b" ∉ settled t)) (by decide +kernel)
  rw [decide_eq_true_eq] at h2
  exact ⟨t, h1, h2.1, h2.2, C47_expand_exact (env := gEnv) (gStore_wf _ _ _) abStore_pol (ab_clear _ (.inl rfl)).1 (ab_clear _ (.inl rfl)).2 h1⟩

/-! ### C76: Expand shows whoever Check authorizes -/

theorem positive_first {R : Relationship → Prop} {V : USet → Prop} {y : USet} {e : ExprTree} (h : ExprIn R u V y (positive e)) :
    ∃ r ∈ firstLeaves e, RuleIn R u V y r := by
  induction e with
  | nil => exact h.elim
  | unset => exact h.elim
  | rule r => exact ⟨r, by simp [firstLeaves], h⟩
  | op l o r ihl ihr =>
    cases o
    · rcases h with h | h
      · obtain ⟨q, h1, h2⟩ := ihl h
        exact ⟨q, by simp [firstLeaves, h1], h2⟩
      · obtain ⟨q, h1, h2⟩ := ihr h
        exact ⟨q, by simp [firstLeaves, h1], h2⟩
    · obtain ⟨q, h1, h2⟩ := ihl h.1
      exact ⟨q, by simp [firstLeaves, h1], h2⟩
    · obtain ⟨q, h1, h2⟩ := ihl h
      exact ⟨q, by simp [firstLeaves, h1], h2⟩
    · exact h.elim

/-- C76: whoever Check authorizes is among the settled nodes of Expand's tree, by themself or by a wildcard. -/
theorem C76_expand_shows_authorized (hs : WF env s) (hp : policyAt s pid = some rec) (hk : KeysClear env.U env.H rec.policy (Present s pid) x)
    (hi : IdsClear env.U env.H rec.policy (Present s pid) x) {fuel fuel' : Nat} {t : GoalTree} (h : Checks env s fuel pid x u true)
    (h' : Expands env s fuel' pid x.node t) : ∃ n ∈ settled t, Names u n := by
  suffices hsh : ∃ n, Shown env.U rec.policy (Present s pid) x n ∧ Names u n by
    obtain ⟨n, h1, h2⟩ := hsh
    exact ⟨n, (C47_expand_exact hs hp hk hi h' n).2 h1, h2⟩
  obtain ⟨t0, seen, _, hev, hb⟩ := check_ev hp h
  refine check_sound (V := fun y => ∃ n, Shown env.U rec.policy (Present s pid) y n ∧ Names u n) hs hp hk (fun y e hr hd he => ?_) hev (by simpa using hb.symm)
  obtain ⟨r, hr1, hr2⟩ := positive_first he
  have direct : ∀ z : USet, RuleNode (Present s pid) y z.node r → (∃ n, Shown env.U rec.policy (Present s pid) z n ∧ Names u n) →
      ∃ n, Shown env.U rec.policy (Present s pid) y n ∧ Names u n :=
    fun z hz ⟨n, h1, h2⟩ => ⟨n, shown_trans (.step .start hd hr1 hz) h1, h2⟩
  cases r with
  | unset => exact hr2.elim
  | this =>
    obtain ⟨sub, h1, h2⟩ := hr2
    cases sub with
    | unset => exact h2.elim
    | entity e => exact ⟨_, .step .start hd hr1 ⟨_, h1, rfl⟩, .inl (by rw [show e = u from h2]; rfl)⟩
    | resourceSet n => exact ⟨_, .step .start hd hr1 ⟨_, h1, rfl⟩, .inr (by rw [show u.resource = n from h2]; rfl)⟩
    | entitySet e rel =>
      cases e with
      | none => exact h2.elim
      | some e => exact direct ⟨e, rel⟩ ⟨_, h1, rfl⟩ h2
  | cu c => exact direct ⟨y.object, c⟩ rfl hr2
  | ttu a b =>
    obtain ⟨sub, e, h1, h2, h3⟩ := hr2
    exact direct ⟨e, b⟩ ⟨sub, e, h1, h2, rfl⟩ h3

/-- The hypotheses hold for a difference the user is (wrongly) authorized for. -/
example : Checks gEnv abStore 10 "p" ⟨doc1, "only"⟩ usr true ∧ (∃ t, Expands gEnv abStore 10 "p" (USet.node ⟨doc1, "only"⟩) t) ∧
    KeysClear U0 Hx (gPolicy opRels) (Present abStore "p") ⟨doc1, "only"⟩ ∧ IdsClear U0 Hx (gPolicy opRels) (Present abStore "p") ⟨doc1, "only"⟩ := by
  refine ⟨checks_of (by decide +kernel), ?_, (ab_clear _ (.inr (.inl rfl))).1, (ab_clear _ (.inr (.inl rfl))).2⟩
  obtain ⟨t, h1, _⟩ := expands_of (env := gEnv) (s := abStore) (pid := "p") (root := USet.node ⟨doc1, "only"⟩) (fuel := 10) (f := fun _ => true) (by decide +kernel)
  exact ⟨t, h1⟩

end

end Zanzi
