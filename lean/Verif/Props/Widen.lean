import Verif.Lemmas.Widen
import Verif.Props.Rewrite
import Verif.Props.Involved
import Verif.Props.Extend

/-
C103: widening a relation takes no access away.
-/

namespace Zanzi

open Spec

section
variable {env : Env} {s s' : Store} {pid : String} {rec rec' : PolicyRecord} {x : USet} {u : Entity}

/-- Whoever the rules grant a userset is granted it by rules that grant more. -/
theorem granted_widens {U : Unicode} {p p' : Policy} {R : Relationship → Prop} (h : Widens U R p p') (hg : Granted U p R u x) : Granted U p' R u x := by
  intro V hV
  refine hg V (fun y ⟨e, hd, he⟩ => ?_)
  obtain ⟨e', hd', hw⟩ := h y e hd
  exact hV y ⟨e', hd', hw u V he⟩

/-- C103 for requests that meet no difference before and only unions after: whoever is authorized before is not denied after.  Missing: intersections after, see
`C103_widening_violated`. -/
theorem C103_union_partial (hs : WF env s) (hs' : WF env s') (hp : policyAt s pid = some rec) (hp' : policyAt s' pid = some rec')
    (hR : ∀ r, Present s pid r ↔ Present s' pid r) (hw : Widens env.U (Present s pid) rec.policy rec'.policy)
    (hk : KeysClear env.U env.H rec.policy (Present s pid) x) (hk' : KeysClear env.U env.H rec'.policy (Present s' pid) x)
    (hi' : IdsClear env.U env.H rec'.policy (Present s' pid) x) (hd : ExprsFrom env.U rec.policy (Present s pid) x DiffFree)
    (hu' : ExprsFrom env.U rec'.policy (Present s' pid) x UnionOnly) {fuel fuel' : Nat} {b : Bool} (h : Checks env s fuel pid x u true)
    (h' : Checks env s' fuel' pid x u b) : b = true := by
  have hR : Present s pid = Present s' pid := funext fun r => propext (hR r)
  exact C37_complete_partial hs' hp' hk' hi' hu' h' (hR ▸ granted_widens hw (C36_sound_no_difference_partial hs hp hk hd h))

/-- C103 for policies without differences, when the explanation after shows no branch cut off as already visited. -/
theorem C103_clean_partial (hs : WF env s) (hs' : WF env s') (hp : policyAt s pid = some rec) (hp' : policyAt s' pid = some rec')
    (hR : ∀ r, Present s pid r ↔ Present s' pid r) (hw : Widens env.U (Present s pid) rec.policy rec'.policy)
    (hk : KeysClear env.U env.H rec.policy (Present s pid) x) (hk' : KeysClear env.U env.H rec'.policy (Present s' pid) x)
    (hd : ExprsFrom env.U rec.policy (Present s pid) x DiffFree) (hd' : ∀ y t, DefinedBy env.U rec'.policy y t → DiffFree t)
    {fuel fuel' : Nat} {t : GoalTree} {b : Bool} (h : Checks env s fuel pid x u true) (h' : Explains env s' fuel' pid x u t b) (hc : Clean t) : b = true := by
  have hR : Present s pid = Present s' pid := funext fun r => propext (hR r)
  exact (C37_clean_exact_partial hs' hp' hk' hd' h' hc).2 (hR ▸ granted_widens hw (C36_sound_no_difference_partial hs hp hk hd h))

/-- C103 for requests that meet no difference, when no operand of an intersection met after involves the user. -/
theorem C103_unconcerned_partial (hs : WF env s) (hs' : WF env s') (hp : policyAt s pid = some rec) (hp' : policyAt s' pid = some rec')
    (hR : ∀ r, Present s pid r ↔ Present s' pid r) (hw : Widens env.U (Present s pid) rec.policy rec'.policy)
    (hk : KeysClear env.U env.H rec.policy (Present s pid) x) (hk' : KeysClear env.U env.H rec'.policy (Present s' pid) x)
    (hi' : IdsClear env.U env.H rec'.policy (Present s' pid) x) (hd : ExprsFrom env.U rec.policy (Present s pid) x DiffFree)
    (hd' : ExprsFrom env.U rec'.policy (Present s' pid) x DiffFree) (hc : Unconcerned env.U rec'.policy (Present s' pid) x u)
    {fuel fuel' : Nat} {b : Bool} (h : Checks env s fuel pid x u true) (h' : Checks env s' fuel' pid x u b) : b = true := by
  have hR : Present s pid = Present s' pid := funext fun r => propext (hR r)
  exact (C90_granted_exact hs' hp' hk' hi' hc hd' h').2 (hR ▸ granted_widens hw (C36_sound_no_difference_partial hs hp hk hd h))

/-- What a valid policy does not define it does not declare. -/
theorem undefined_lut {U : Unicode} {q : Policy} {y : USet} (hv : ValidPolicy U q) (h : ¬ ∃ t, DefinedBy U q y t) :
    (newLut q).getRelation y.object.resource y.relation = none := by
  cases hc : (newLut q).getRelation y.object.resource y.relation with
  | none => rfl
  | some c =>
    have hdec := ((C11_lookup_exact q hv.1 _ _).1 c).1 hc
    obtain ⟨r, hr, h1, h2, h3⟩ := hdec
    obtain ⟨t, ht, _⟩ := hv.2.2 r hr c h2
    exact absurd ⟨t, c, ⟨r, hr, h1, h2, h3⟩, ht⟩ h

/-- C103 for every operator: when UpdatePolicy adds an alternative at the end of a relation's expression, and the request meets that relation on one object only, with everything else it meets
defined as before, whoever was authorized still is.  Missing: an alternative added elsewhere, see `C103_widening_violated`, or met again on another object, see `C103_appended_violated`. -/
theorem C103_appended_partial (hs : WF env s) (hp : policyAt s pid = some rec) {d : Option PolicyDefinition} {a : Bytes} {p : Policy} (hdef : Defines env d p)
    (hpid : p.id = pid) (hv : ValidPolicy env.U p) (hk : KeysClear env.U env.H rec.policy (Present s pid) x) {e f : ExprTree}
    (he : DefinedBy env.U rec.policy x e) (he' : DefinedBy env.U p x (.op e .union f)) (hf : Whole f)
    (hsame : ∀ y : USet, y ≠ x → Reaches env.U rec.policy (Present s pid) x y.node → ∀ t, DefinedBy env.U rec.policy y t ↔ DefinedBy env.U p y t) :
    (serve env (.updatePolicy d a) s).1 = .ok .updated ∧
      ∀ fuel u, Checks env s fuel pid x u true → Checks env (serve env (.updatePolicy d a) s).2 fuel pid x u true := by
  subst hpid
  obtain ⟨s', h1, h2, _, h4, _⟩ := (C24_update env s d a p hdef).2.1 rec hp hv
  have hp' : policyAt s' p.id = some ⟨p, a, rec.createdAt⟩ := by
    rw [serve_getPolicy] at h2
    rw [policyAt_eq]
    exact Answer.policy.inj (Res.ok.inj (Prod.mk.inj h2).1)
  rw [h1]
  refine ⟨rfl, fun fuel u h => ?_⟩
  dsimp only
  have hid := hs.policy_id hp
  have hsu : ∀ y, succs env.H s' p.id y = succs env.H s p.id y := fun y => by unfold succs; rw [h4]
  have hpb : ∀ y t, pBuild env.H s' p.id y t = pBuild env.H s p.id y t := fun y t => pBuild_congr (hsu y) (fun _ _ _ => hsu _)
  have hbl : ∀ {q : Policy} {s : Store} {y : USet} {t : ExprTree}, NamesUnique q → DefinedBy env.U q y t → bld env q s y.node = pBuild env.H s q.id y t := by
    rintro q s y t hq ⟨d, h1, h2⟩
    rw [bld_set, ((C11_lookup_exact q hq _ _).1 d).2 h1]
    dsimp only
    rw [(getExpressionTree_ok_iff env.U d t).2 h2]
    rfl
  have hvo := hs.policy_valid hp
  have hun : ∀ r ∈ leaves f, r ≠ .unset := by
    rintro r hr rfl
    obtain ⟨c, ⟨q, hq, _, h6, _⟩, h7⟩ := he'
    obtain ⟨t, h8, _, h9⟩ := hv.2.2 q hq c h6
    rw [← getExpressionTree_ok_iff] at h7 h8
    rw [h7] at h8
    cases h8
    exact h9 _ (List.mem_append_right _ hr)
  obtain ⟨tf, htf⟩ := pBuild_of_whole (pid := p.id) hs (x := x) hf hun
  rw [Checks, show ((Call.check fuel p.id (ask x u)).prog env).run s = serve env (.check fuel p.id (ask x u)) s from rfl, serve_check hp] at h
  rw [Checks, show ((Call.check fuel p.id (ask x u)).prog env).run s' = serve env (.check fuel p.id (ask x u)) s' from rfl, serve_check hp']
  dsimp only at h ⊢
  obtain ⟨t, h, ht⟩ := Res.bind_eq_ok.1 h
  have ht : t.result = .success := by simpa using ht
  unfold pSearch userGoal at h ⊢
  simp only [Res.deref_some, Res.bind_ok] at h ⊢
  cases fuel with
  | zero => cases h
  | succ k =>
    obtain ⟨i, hi⟩ : ∃ i, x.node.nodeId env.H = .ok i := ⟨_, rfl⟩
    have hg : ∀ g, goalFound x.node (some (.entity g)) = .ok false := fun _ => rfl
    have hxt : x.node.isTerminal = false := rfl
    unfold pPath at h ⊢
    simp only [hi, hg, hxt, Res.bind_ok, List.not_mem_nil, if_false, Bool.or_self, Bool.false_eq_true] at h ⊢
    rw [hbl hvo.1 he, hid] at h
    rw [hbl hv.1 he', hpb]
    obtain ⟨_, h10, h11⟩ := Res.bind_eq_ok.1 h
    obtain ⟨t0, h6, h12⟩ := Res.bind_eq_ok.1 h10
    obtain ⟨⟨t2, seen2⟩, h7, h13⟩ := Res.bind_eq_ok.1 h12
    cases h13
    cases h11
    have hfol := pPath_follow (H := env.H) (i := i) (build := bld env rec.policy s) (build' := bld env p s') (goal := some (.entity (some u)))
      (P := Reaches env.U rec.policy (Present s p.id) x) (fun n id hn hnt hid' => ?_) k
    · obtain ⟨h8, _⟩ := pTree_follow hfol t0 [i] List.mem_cons_self (by
        obtain ⟨_, _, _, _, _, _, _, _, h⟩ := expand_facts hs hp hk (n := x.node) .start hxt (t := t0) (by rw [hbl hvo.1 he, hid]; exact h6)
        exact h)
      have h9 : pBuild env.H s p.id x (.op e .union f) = .ok (.or .unknown [t0, tf]) := by
        unfold pBuild
        rw [h6, htf]
        rfl
      rw [h9]
      simp only [Res.bind_ok]
      rw [pTree, pOr, ← h8, h7]
      have ht : t2.result = .success := ht
      simp only [Res.bind_ok, ht, if_true]
      rfl
    · obtain ⟨o, rel, rfl⟩ := isTerminal_false hnt
      cases o with
      | none => cases hid'
      | some o =>
        refine ⟨fun hne => ?_, fun t hbt => ?_⟩
        · have hyx : (⟨o, rel⟩ : USet) ≠ x := by rintro rfl; rw [show (RelationNode.entitySet (some o) rel) = (USet.node ⟨o, rel⟩) from rfl, hi] at hid'; exact hne (Res.ok.inj hid').symm
          show bld env rec.policy s (USet.node ⟨o, rel⟩) = bld env p s' (USet.node ⟨o, rel⟩)
          have hsa := hsame ⟨o, rel⟩ hyx hn
          by_cases hdf : ∃ t, DefinedBy env.U rec.policy ⟨o, rel⟩ t
          · obtain ⟨t, hdt⟩ := hdf
            rw [hbl hvo.1 hdt, hbl hv.1 ((hsa t).1 hdt), hpb, hid]
          · rw [bld_set, bld_set, undefined_lut hvo hdf, undefined_lut hv (fun ⟨t, h⟩ => hdf ⟨t, (hsa t).2 h⟩)]
        · obtain ⟨_, _, _, _, _, _, _, _, h⟩ := expand_facts hs hp hk hn hnt hbt
          exact h

end

/-! ### Concrete policies -/

/-- Policies that differ in the expression of the last relation of doc only. -/
theorem last_widens {R : Relationship → Prop} {rs : List Relation} {n e e' : String} {E E' : ExprTree} (hE : getExpressionTree U0 (rel n e) = .ok E)
    (hE' : getExpressionTree U0 (rel n e') = .ok E') (hw : ∀ y : USet, Within R y E E') : Widens U0 R (gPolicy (rs ++ [rel n e])) (gPolicy (rs ++ [rel n e'])) := by
  rintro ⟨⟨a, i⟩, b⟩ t ⟨d, ⟨r, hr, h1, hd, h2⟩, ht⟩
  dsimp only at h1 h2
  subst h1 h2
  simp only [gPolicy, List.mem_cons, List.not_mem_nil, or_false] at hr
  rcases hr with rfl | rfl | rfl
  · cases hd
  · exact ⟨t, ⟨d, ⟨⟨"group", "", [rel "member" "_this"]⟩, by simp [gPolicy], rfl, hd, rfl⟩, ht⟩, fun _ _ h => h⟩
  · rcases List.mem_append.1 hd with hd | hd
    · exact ⟨t, ⟨d, ⟨⟨"doc", "", rs ++ [rel n e']⟩, by simp [gPolicy], rfl, List.mem_append_left _ hd, rfl⟩, ht⟩, fun _ _ h => h⟩
    · simp only [List.mem_singleton] at hd
      subst hd
      rw [← getExpressionTree_ok_iff, hE] at ht
      cases ht
      exact ⟨E', ⟨rel n e', ⟨⟨"doc", "", rs ++ [rel n e']⟩, by simp [gPolicy], rfl, List.mem_append_right _ List.mem_cons_self, rfl⟩,
        (getExpressionTree_ok_iff _ _ _).1 hE'⟩, hw _⟩

/-- Everything else is defined alike. -/
theorem last_same {rs : List Relation} {n e e' : String} {y : USet} (hy : y.relation ≠ n) {t : ExprTree}
    (h : DefinedBy U0 (gPolicy (rs ++ [rel n e])) y t) : DefinedBy U0 (gPolicy (rs ++ [rel n e'])) y t := by
  obtain ⟨d, ⟨r, hr, h1, hd, h2⟩, ht⟩ := h
  simp only [gPolicy, List.mem_cons, List.not_mem_nil, or_false] at hr
  rcases hr with rfl | rfl | rfl
  · cases hd
  · exact ⟨d, ⟨⟨"group", "", [rel "member" "_this"]⟩, by simp [gPolicy], h1, hd, h2⟩, ht⟩
  · rcases List.mem_append.1 hd with hd | hd
    · exact ⟨d, ⟨⟨"doc", "", rs ++ [rel n e']⟩, by simp [gPolicy], h1, List.mem_append_left _ hd, h2⟩, ht⟩
    · simp only [List.mem_singleton] at hd
      subst hd
      exact absurd h2.symm hy

/-- doc relations a, b, c, and v defined by `e`. -/
def vRels (e : String) : List Relation := [rel "a" "_this", rel "b" "_this", rel "c" "_this"] ++ [rel "v" e]

/-- user:u has a and c on doc:1. -/
def narrowStore (e : String) : Store := gStore gEnv (vRels e) [hold "a" "u", hold "c" "u"]

/-- The store after UpdatePolicy defined v by `e'`. -/
def widened (e e' : String) : Store := (serve gEnv (.updatePolicy (some (.policy (gPolicy (vRels e')))) []) (narrowStore e)).2

/-- doc relations parent, up, owner, never, and view defined by `e`. -/
def upRels (e : String) : List Relation := [rel "parent" "_this", rel "up" "_this", rel "owner" "_this", rel "never" "_this"] ++ [rel "view" e]

/-- doc:2 is the parent of doc:1, doc:1 is up from doc:2, and user:u owns doc:1. -/
def upStore (e : String) : Store :=
  gStore gEnv (upRels e) [hold "owner" "u", ⟨some doc1, "parent", some (.entity ⟨"doc", "2"⟩)⟩, ⟨some ⟨"doc", "2"⟩, "up", some (.entity doc1)⟩]

/-- C103 is false: when UpdatePolicy changes `v = c` to `v = (a & b) + c`, a user holding a and c loses v. -/
theorem C103_widening_violated :
    (∀ R, Widens U0 R (gPolicy (vRels "c")) (gPolicy (vRels "(a & b) + c"))) ∧
    policyAt (narrowStore "c") "p" = some ⟨gPolicy (vRels "c"), [], 0⟩ ∧
    policyAt (widened "c" "(a & b) + c") "p" = some ⟨gPolicy (vRels "(a & b) + c"), [], 0⟩ ∧
    relationships (narrowStore "c") "p" = relationships (widened "c" "(a & b) + c") "p" ∧
    Checks gEnv (narrowStore "c") 10 "p" ⟨doc1, "v"⟩ usr true ∧ Checks gEnv (widened "c" "(a & b) + c") 10 "p" ⟨doc1, "v"⟩ usr false := by
  refine ⟨fun R => last_widens (E := .rule (.cu "c")) (E' := .op (.op (.rule (.cu "a")) .intersection (.rule (.cu "b"))) .union (.rule (.cu "c")))
    (by decide +kernel) (by decide +kernel) (fun y u V h => .inr h), by decide +kernel, by decide +kernel, by decide +kernel, checks_of (by decide +kernel), checks_of (by decide +kernel)⟩

/-- The expressions of view in `C103_appended_violated`. -/
def upTree : ExprTree := .op (.rule (.ttu "parent" "view")) .union (.rule (.cu "owner"))
def upMore : ExprTree := .op (.rule (.ttu "up" "owner")) .intersection (.rule (.cu "never"))

/-- C103 is false even for an alternative added at the end: when `view = parent->view + owner` becomes `view = parent->view + owner + (up->owner & never)`, the owner of doc:1 loses view. -/
theorem C103_appended_violated :
    DefinedBy U0 (gPolicy (upRels "parent->view + owner")) ⟨doc1, "view"⟩ upTree ∧
    DefinedBy U0 (gPolicy (upRels "parent->view + owner + (up->owner & never)")) ⟨doc1, "view"⟩ (.op upTree .union upMore) ∧
    relationships (upStore "parent->view + owner") "p" = relationships (upStore "parent->view + owner + (up->owner & never)") "p" ∧
    Checks gEnv (upStore "parent->view + owner") 10 "p" ⟨doc1, "view"⟩ usr true ∧
    Checks gEnv (upStore "parent->view + owner + (up->owner & never)") 10 "p" ⟨doc1, "view"⟩ usr false := by
  refine ⟨doc_def (rel "view" "parent->view + owner") (by simp [upRels]) (by decide +kernel) "1",
    doc_def (rel "view" "parent->view + owner + (up->owner & never)") (by simp [upRels]) (by decide +kernel) "1",
    by decide +kernel, checks_of (by decide +kernel), checks_of (by decide +kernel)⟩

/-- Nodes reached from v on doc:1. -/
def vNodes : List RelationNode :=
  [.entitySet (some doc1) "v", .entitySet (some doc1) "a", .entitySet (some doc1) "b", .entitySet (some doc1) "c", .entity (some usr)]

/-- The hypotheses of `C103_union_partial`: `v = c` becomes `v = a + c`. -/
example : WF gEnv (narrowStore "c") ∧ WF gEnv (widened "c" "a + c") ∧ (∀ r, Present (narrowStore "c") "p" r ↔ Present (widened "c" "a + c") "p" r) ∧
    Widens U0 (Present (narrowStore "c") "p") (gPolicy (vRels "c")) (gPolicy (vRels "a + c")) ∧
    KeysClear U0 Hx (gPolicy (vRels "c")) (Present (narrowStore "c") "p") ⟨doc1, "v"⟩ ∧
    KeysClear U0 Hx (gPolicy (vRels "a + c")) (Present (widened "c" "a + c") "p") ⟨doc1, "v"⟩ ∧
    IdsClear U0 Hx (gPolicy (vRels "a + c")) (Present (widened "c" "a + c") "p") ⟨doc1, "v"⟩ ∧
    ExprsFrom U0 (gPolicy (vRels "c")) (Present (narrowStore "c") "p") ⟨doc1, "v"⟩ UnionOnly ∧
    ExprsFrom U0 (gPolicy (vRels "a + c")) (Present (widened "c" "a + c") "p") ⟨doc1, "v"⟩ UnionOnly ∧
    Checks gEnv (narrowStore "c") 10 "p" ⟨doc1, "v"⟩ usr true ∧ Checks gEnv (widened "c" "a + c") 10 "p" ⟨doc1, "v"⟩ usr true := by
  have hs := gStore_wf gEnv (vRels "c") [hold "a" "u", hold "c" "u"]
  have hs' : WF gEnv (widened "c" "a + c") := hs.run (.updatePolicy (some (.policy (gPolicy (vRels "a + c")))) [])
  have hr : relationships (narrowStore "c") "p" = relationships (widened "c" "a + c") "p" := by decide +kernel
  have k := clear_of (env := gEnv) (s := narrowStore "c") (pid := "p") (rec := ⟨gPolicy (vRels "c"), [], 0⟩) (x := ⟨doc1, "v"⟩) (L := vNodes) hs (by decide +kernel) (by simp [USet.node, vNodes]) (by decide +kernel)
  have k' := clear_of (env := gEnv) (s := widened "c" "a + c") (pid := "p") (rec := ⟨gPolicy (vRels "a + c"), [], 0⟩) (x := ⟨doc1, "v"⟩) (L := vNodes) hs' (by decide +kernel) (by simp [USet.node, vNodes]) (by decide +kernel)
  refine ⟨hs, hs', fun r => by unfold Present; rw [hr], ?_, k.1, k'.1, k'.2, ?_, ?_, checks_of (by decide +kernel), checks_of (by decide +kernel)⟩
  · exact last_widens (E := .rule (.cu "c")) (E' := .op (.rule (.cu "a")) .union (.rule (.cu "c"))) (by decide +kernel) (by decide +kernel) (fun y u V h => .inr h)
  · exact exprs_of (env := gEnv) (s := narrowStore "c") (pid := "p") (rec := ⟨gPolicy (vRels "c"), [], 0⟩) (x := ⟨doc1, "v"⟩) (L := vNodes) (f := unionOnlyB) (fun _ h => unionOnly_of h) hs (by decide +kernel) (by simp [USet.node, vNodes]) (by decide +kernel) (by decide +kernel)
  · exact exprs_of (env := gEnv) (s := widened "c" "a + c") (pid := "p") (rec := ⟨gPolicy (vRels "a + c"), [], 0⟩) (x := ⟨doc1, "v"⟩) (L := vNodes) (f := unionOnlyB) (fun _ h => unionOnly_of h) hs' (by decide +kernel) (by simp [USet.node, vNodes]) (by decide +kernel) (by decide +kernel)

/-- The hypotheses of `C103_appended_partial`: `v = c` becomes `v = c + (a - b)`. -/
example : policyAt (narrowStore "c") "p" = some ⟨gPolicy (vRels "c"), [], 0⟩ ∧ ValidPolicy U0 (gPolicy (vRels "c + (a - b)")) ∧
    KeysClear U0 Hx (gPolicy (vRels "c")) (Present (narrowStore "c") "p") ⟨doc1, "v"⟩ ∧
    DefinedBy U0 (gPolicy (vRels "c")) ⟨doc1, "v"⟩ (.rule (.cu "c")) ∧
    DefinedBy U0 (gPolicy (vRels "c + (a - b)")) ⟨doc1, "v"⟩ (.op (.rule (.cu "c")) .union (.op (.rule (.cu "a")) .difference (.rule (.cu "b")))) ∧
    Whole (.op (.rule (.cu "a")) .difference (.rule (.cu "b"))) ∧
    (∀ y : USet, y ≠ ⟨doc1, "v"⟩ → Reaches U0 (gPolicy (vRels "c")) (Present (narrowStore "c") "p") ⟨doc1, "v"⟩ y.node →
      ∀ t, DefinedBy U0 (gPolicy (vRels "c")) y t ↔ DefinedBy U0 (gPolicy (vRels "c + (a - b)")) y t) ∧
    Checks gEnv (narrowStore "c") 10 "p" ⟨doc1, "v"⟩ usr true := by
  have hs := gStore_wf gEnv (vRels "c") [hold "a" "u", hold "c" "u"]
  have hv : verifyPolicy U0 (gPolicy (vRels "c + (a - b)")) = .ok () := by decide +kernel
  have hp : policyAt (narrowStore "c") "p" = some ⟨gPolicy (vRels "c"), [], 0⟩ := by decide +kernel
  have hx : (⟨doc1, "v"⟩ : USet).node ∈ vNodes := by simp [USet.node, vNodes]
  refine ⟨hp, (C09_validation_exact U0 _).1 hv, (clear_of (env := gEnv) (L := vNodes) hs hp hx (by decide +kernel)).1,
    doc_def (rel "v" "c") (by simp [vRels]) (by decide +kernel) "1", doc_def (rel "v" "c + (a - b)") (by simp [vRels]) (by decide +kernel) "1",
    ⟨by simp, trivial, trivial⟩, fun y hy hr t => ?_, checks_of (by decide +kernel)⟩
  have hm := reaches_list (env := gEnv) hs hp hx (L := vNodes) (by decide +kernel) hr
  have hne : y.relation ≠ "v" := by
    obtain ⟨o, r⟩ := y
    simp only [vNodes, USet.node, List.mem_cons, RelationNode.entitySet.injEq, Option.some.injEq, List.not_mem_nil, or_false, reduceCtorEq] at hm
    rintro rfl
    rcases hm with ⟨rfl, _⟩ | ⟨_, h⟩ | ⟨_, h⟩ | ⟨_, h⟩
    · exact hy rfl
    · exact absurd h (by decide)
    · exact absurd h (by decide)
    · exact absurd h (by decide)
  exact ⟨last_same hne, last_same hne⟩

/-- `altRels` with `alt = c` instead. -/
def altBefore : List Relation := [rel "a" "_this", rel "b" "_this", rel "c" "_this"] ++ [rel "alt" "c"]

/-- Nodes of the request for alt. -/
def altNodes : List RelationNode :=
  [.entitySet (some doc1) "alt", .entitySet (some doc1) "a", .entitySet (some doc1) "b", .entitySet (some doc1) "c", .entity (some usr), .entity (some ⟨"user", "v"⟩)]

/-- The hypotheses of `C103_clean_partial` and `C103_unconcerned_partial`: `alt = c` becomes `alt = (a & b) + c`, for a user holding c but not a. -/
example : Widens U0 (Present (gStore gEnv altBefore [hold "c" "u", hold "a" "v"]) "p") (gPolicy altBefore) (gPolicy altRels) ∧
    relationships (gStore gEnv altBefore [hold "c" "u", hold "a" "v"]) "p" = relationships (gStore gEnv altRels [hold "c" "u", hold "a" "v"]) "p" ∧
    KeysClear U0 Hx (gPolicy altBefore) (Present (gStore gEnv altBefore [hold "c" "u", hold "a" "v"]) "p") ⟨doc1, "alt"⟩ ∧
    KeysClear U0 Hx (gPolicy altRels) (Present (gStore gEnv altRels [hold "c" "u", hold "a" "v"]) "p") ⟨doc1, "alt"⟩ ∧
    IdsClear U0 Hx (gPolicy altRels) (Present (gStore gEnv altRels [hold "c" "u", hold "a" "v"]) "p") ⟨doc1, "alt"⟩ ∧
    ExprsFrom U0 (gPolicy altBefore) (Present (gStore gEnv altBefore [hold "c" "u", hold "a" "v"]) "p") ⟨doc1, "alt"⟩ UnionOnly ∧
    (∀ y t, DefinedBy U0 (gPolicy altRels) y t → DiffFree t) ∧
    Unconcerned U0 (gPolicy altRels) (Present (gStore gEnv altRels [hold "c" "u", hold "a" "v"]) "p") ⟨doc1, "alt"⟩ usr ∧
    Checks gEnv (gStore gEnv altBefore [hold "c" "u", hold "a" "v"]) 10 "p" ⟨doc1, "alt"⟩ usr true ∧
    ∃ t, Explains gEnv (gStore gEnv altRels [hold "c" "u", hold "a" "v"]) 10 "p" ⟨doc1, "alt"⟩ usr t true ∧ Clean t := by
  have hx : (⟨doc1, "alt"⟩ : USet).node ∈ altNodes := by simp [USet.node, altNodes]
  have hp : policyAt (gStore gEnv altBefore [hold "c" "u", hold "a" "v"]) "p" = some ⟨gPolicy altBefore, [], 0⟩ := by decide +kernel
  have hp' : policyAt (gStore gEnv altRels [hold "c" "u", hold "a" "v"]) "p" = some ⟨gPolicy altRels, [], 0⟩ := by decide +kernel
  have k' := clear_of (env := gEnv) (L := altNodes) (gStore_wf _ _ _) hp' hx (by decide +kernel)
  refine ⟨?_, by decide +kernel, (clear_of (env := gEnv) (L := altNodes) (gStore_wf _ _ _) hp hx (by decide +kernel)).1, k'.1, k'.2,
    exprs_of (env := gEnv) (L := altNodes) (f := unionOnlyB) (fun _ h => unionOnly_of h) (gStore_wf _ _ _) hp hx (by decide +kernel) (by decide +kernel),
    fun _ _ => alt_diffFree, ?_, checks_of (by decide +kernel), ?_⟩
  · exact last_widens (rs := [rel "a" "_this", rel "b" "_this", rel "c" "_this"]) (E := .rule (.cu "c")) (E' := altTree) (by decide +kernel) (by decide +kernel) (fun y u V h => .inr h)
  · exact unconcerned_of (env := gEnv) (L := altNodes) (K := [.entitySet (some doc1) "a", .entitySet (some doc1) "b", .entity (some ⟨"user", "v"⟩)])
      (gStore_wf _ _ _) hp' hx (by decide +kernel)
  · obtain ⟨t, b, h1, h2⟩ := explains_of (env := gEnv) (s := gStore gEnv altRels [hold "c" "u", hold "a" "v"]) (pid := "p") (x := ⟨doc1, "alt"⟩) (u := usr)
      (fuel := 10) (f := fun t b => cleanB t && b) (by decide +kernel)
    simp only [Bool.and_eq_true] at h2
    obtain ⟨h2, rfl⟩ := h2
    exact ⟨t, h1, clean_of h2⟩

end Zanzi
