import Verif.Spec.Elsewhere
import Verif.Props.Locality
import Verif.Props.Rewrite

/-
Property C113: definitions a request does not come across do not matter.
Specification: Spec/Elsewhere.lean.
-/

namespace Zanzi

open Spec

section
variable {env : Env} {s s' : Store} {pid : String} {rec rec' : PolicyRecord} {x : USet}

theorem succs_looked (hs : WF env s) {z : USet} {n : RelationNode} (h : n ∈ succs env.H s pid z) :
    ∃ sub, Looked env.H (Present s pid) ⟨some z.object, z.relation, some sub⟩ ∧ n = subjectNode sub := by
  unfold succs at h
  simp only [List.mem_map, List.mem_filter, decide_eq_true_eq] at h
  obtain ⟨e, ⟨⟨k, e'⟩, ⟨hm, hkey⟩, rfl⟩, rfl⟩ := h
  rw [hs.edgeKey _ _ _ hm] at hkey
  exact ⟨subjectFromInternal e'.dest, ⟨fromInternal e', ⟨e'.source.resource, e'.source.id⟩, z.object, List.mem_map.2 ⟨_, hm, rfl⟩, rfl, rfl, rfl, hkey⟩, (subjectNode_fromInternal _).symm⟩

theorem tops_looked (hs : WF env s) {y : USet} {p : Policy} {e0 : ExprTree} (hd : DefinedBy env.U p y e0) : ∀ {e : ExprTree} {t : GoalTree}, (∀ r ∈ leaves e, r ∈ leaves e0) →
    pBuild env.H s pid y e = .ok t → ∀ n ∈ t.tops, Rewrites env.U p (Looked env.H (Present s pid)) y n ∨ ∃ c, n = .entitySet none c := by
  intro e
  induction e with
  | nil => intro t _ h; cases h
  | unset => intro t _ h; cases h
  | rule r =>
    intro t hl h n hn
    unfold pBuild at h
    obtain ⟨ns, hns, h⟩ := Res.bind_eq_ok.1 h
    cases h
    rw [GoalTree.tops, mem_topsList] at hn
    obtain ⟨t, ht, hn⟩ := hn
    obtain ⟨m, hm, rfl⟩ := List.mem_map.1 ht
    rw [GoalTree.tops, List.mem_singleton] at hn
    subst hn
    have hr : r ∈ leaves e0 := hl r (by simp [leaves])
    cases r with
    | unset => cases hns
    | this =>
      cases hns
      obtain ⟨sub, h1, rfl⟩ := succs_looked hs hm
      exact .inl (.this hd hr h1)
    | cu c =>
      cases hns
      cases List.mem_singleton.1 hm
      exact .inl (.cu hd hr)
    | ttu a b =>
      obtain ⟨m, hm', he⟩ := (mapSliceErr_mem hns).1 _ hm
      obtain ⟨sub, h1, rfl⟩ := succs_looked hs hm'
      cases sub with
      | entity e => cases he; exact .inl (.arrow hd hr h1 rfl)
      | entitySet o rel =>
        cases he
        cases o with
        | none => exact .inr ⟨b, rfl⟩
        | some o => exact .inl (.arrow hd hr h1 rfl)
      | resourceSet w => cases he; exact .inr ⟨b, rfl⟩
      | unset => cases he
  | op l o r ihl ihr =>
    intro t hl h n hn
    unfold pBuild at h
    obtain ⟨a, ha, h⟩ := Res.bind_eq_ok.1 h
    obtain ⟨b, hb, h⟩ := Res.bind_eq_ok.1 h
    have key : n ∈ a.tops ∨ n ∈ b.tops := by
      cases o <;> cases h <;> simpa [GoalTree.tops, topsList] using hn
    rcases key with hn | hn
    · exact ihl (fun r h => hl r (by simp [leaves, h])) ha n hn
    · exact ihr (fun r h => hl r (by simp [leaves, h])) hb n hn

/-- Searches over stores and policies that are alike for them. -/
theorem pSearch_alike (hs : WF env s) (hs' : WF env s') (hid : rec.policy.id = pid) (hid' : rec'.policy.id = pid) (hv : ValidPolicy env.U rec.policy)
    (hv' : ValidPolicy env.U rec'.policy) (hd : AlikeFrom env.U env.H rec.policy rec'.policy (Present s pid) x)
    (ha : ∀ y z r o, Reaches env.U rec.policy (Looked env.H (Present s pid)) x y.node → Consulted env.U rec.policy y z → r.object = some o →
      env.H (o.resource ++ o.id ++ r.relation) = env.H (z.object.resource ++ z.object.id ++ z.relation) → (Present s pid r ↔ Present s' pid r)) (fuel : Nat) (g : Option RelationNode) :
    pSearch env rec.policy s fuel (some x.node) g = pSearch env rec'.policy s' fuel (some x.node) g := by
  have hb : ∀ y : USet, Reaches env.U rec.policy (Looked env.H (Present s pid)) x y.node → bld env rec.policy s y.node = bld env rec'.policy s' y.node := by
    intro y hy
    by_cases he : ∃ e, DefinedBy env.U rec.policy y e
    · obtain ⟨e, he⟩ := he
      rw [bld_defined hv.1 he, bld_defined hv'.1 ((hd y e hy).1 he), hid, hid']
      exact pBuild_congr (succs_of_agree hs hs' (fun r o => ha y y r o hy (.inl rfl)))
        (fun a b hl => succs_of_agree hs hs' (fun r o => ha y ⟨y.object, a⟩ r o hy (.inr ⟨e, a, b, he, hl, rfl⟩)))
    · rw [bld_undefined hv (fun e h => he ⟨e, h⟩), bld_undefined hv' (fun e h => he ⟨e, (hd y e hy).2 h⟩)]
  unfold pSearch
  rw [Res.deref_some]
  simp only [Res.bind_ok]
  rw [pPath_congr (build' := bld env rec'.policy s') (P := Reaches env.U rec.policy (Looked env.H (Present s pid)) x) (fun n hn ht => ?_) fuel _ _ _ (fun _ _ => .start)]
  obtain ⟨o, rel, rfl⟩ := isTerminal_false ht
  cases o with
  | none => exact ⟨rfl, fun t h => by cases h⟩
  | some o =>
    refine ⟨hb ⟨o, rel⟩ hn, fun t hbt m hm id hmid => ?_⟩
    obtain ⟨e, h1, h2⟩ := bld_ok (x := ⟨o, rel⟩) hv.1 hbt
    rw [hid] at h2
    rcases tops_looked hs h1 (fun _ h => h) h2 m hm with hw | ⟨c, rfl⟩
    · exact .step (y := ⟨o, rel⟩) hn hw
    · cases hmid

/-- C113: two stores whose policies define what the request comes across alike, and that hold the same relationships under the keys it reads, give the same answers, errors and explanations included.  No
assumption on keys, and none on the operators. -/
theorem C113_elsewhere (hs : WF env s) (hs' : WF env s') (hp : policyAt s pid = some rec) (hp' : policyAt s' pid = some rec')
    (hd : AlikeFrom env.U env.H rec.policy rec'.policy (Present s pid) x)
    (ha : ∀ y z r o, Reaches env.U rec.policy (Looked env.H (Present s pid)) x y.node → Consulted env.U rec.policy y z → r.object = some o →
      env.H (o.resource ++ o.id ++ r.relation) = env.H (z.object.resource ++ z.object.id ++ z.relation) → (Present s pid r ↔ Present s' pid r)) : SameAnswers env s s' pid x := by
  intro fuel
  have hq := pSearch_alike hs hs' (hs.policy_id hp) (hs'.policy_id hp') (hs.policy_valid hp) (hs'.policy_valid hp') hd ha fuel
  refine ⟨fun u => ?_, fun u f => ?_, fun f => ?_⟩
  · rw [serve_check hp, serve_check hp', hq]
  · rw [serve_explainCheck hp, serve_explainCheck hp', hq]
  · rw [serve_expand hp, serve_expand hp', hq]

/-- C113 for UpdatePolicy: an update to a valid policy that defines what the request comes across as before is accepted, and the answers stay the same. -/
theorem C113_update (hs : WF env s) (hp : policyAt s pid = some rec) {d : Option PolicyDefinition} {a : Bytes} {p : Policy} (hdef : Defines env d p)
    (hpid : p.id = pid) (hv : ValidPolicy env.U p) (hd : AlikeFrom env.U env.H rec.policy p (Present s pid) x) :
    (serve env (.updatePolicy d a) s).1 = .ok .updated ∧ SameAnswers env s (serve env (.updatePolicy d a) s).2 pid x := by
  subst hpid
  obtain ⟨s', h1, h2, _, h4, _⟩ := (C24_update env s d a p hdef).2.1 rec hp hv
  have hs' : WF env s' := by have := hs.run (.updatePolicy d a); rwa [show ((Call.updatePolicy d a).prog env).run s = serve env (.updatePolicy d a) s from rfl, h1] at this
  have hp' : policyAt s' p.id = some ⟨p, a, rec.createdAt⟩ := by
    rw [serve_getPolicy] at h2
    rw [policyAt_eq]
    exact Answer.policy.inj (Res.ok.inj (Prod.mk.inj h2).1)
  rw [h1]
  refine ⟨rfl, C113_elsewhere hs hs' hp hp' hd (fun y z r o _ _ _ _ => ?_)⟩
  unfold Present relationships
  rw [h4]

/-- When no storage keys collide, what storage shows of the usersets the request consults is what is stored. -/
theorem reaches_looked {p : Policy} {R : Relationship → Prop} (hk : KeysClear env.U env.H p R x) {n : RelationNode} (h : Reaches env.U p (Looked env.H R) x n) :
    Reaches env.U p R x n := by
  have key : ∀ {y z : USet} {sub : Subject}, Reaches env.U p R x y.node → Consulted env.U p y z → Looked env.H R ⟨some z.object, z.relation, some sub⟩ →
      R ⟨some z.object, z.relation, some sub⟩ := by
    rintro y z sub hy hz ⟨⟨qo, qr, qs⟩, o, o', hq, ho, ho', hsub, hkey⟩
    cases ho'
    dsimp only at ho hsub hkey
    subst ho hsub
    obtain ⟨h1, h2⟩ := hk y z hy hz _ o hq rfl hkey
    dsimp only at h2
    subst h1 h2
    exact hq
  induction h with
  | start => exact .start
  | @step y n _ h2 ih =>
    refine .step ih ?_
    rcases h2 with ⟨a, b, c⟩ | ⟨a, b⟩ | ⟨a, b, c, d⟩
    · exact .this a b (key ih (.inl rfl) c)
    · exact .cu a b
    · exact .arrow a b (key (z := ⟨y.object, _⟩) ih (.inr ⟨_, _, _, a, b, rfl⟩) c) d

end

/-! ### Concrete policies -/

/-- `opRels` with a relation c, `only = c`, and without `both`. -/
def onlyRels : List Relation := [rel "a" "_this", rel "b" "_this", rel "c" "_this", rel "only" "c", rel "any" "a + b"]

theorem only_valid : ValidPolicy U0 (gPolicy onlyRels) := by
  have h : verifyPolicy U0 (gPolicy onlyRels) = .ok () := by decide +kernel
  exact (C09_validation_exact U0 _).1 h

theorem only_alike : AlikeFrom U0 Hx (gPolicy opRels) (gPolicy onlyRels) (Present abStore "p") ⟨doc1, "any"⟩ := by
  intro y t hy
  have hm := reaches_list (env := gEnv) (s := abStore) (rec := ⟨gPolicy opRels, [], 0⟩) (L := abNodes "any") (gStore_wf _ _ _) abStore_pol
    (by simp [abNodes, USet.node]) (by decide +kernel) (reaches_looked (env := gEnv) (ab_clear "any" (.inr (.inr rfl))).1 hy)
  have p2 : getExpressionTree U0 (rel "a" "_this") = .ok (.rule .this) := by decide +kernel
  have p3 : getExpressionTree U0 (rel "b" "_this") = .ok (.rule .this) := by decide +kernel
  have p6 : getExpressionTree U0 (rel "any" "a + b") = .ok (.op (.rule (.cu "a")) .union (.rule (.cu "b"))) := by decide +kernel
  have key : ∀ {y : USet} {e : ExprTree}, DefinedBy U0 (gPolicy opRels) y e → DefinedBy U0 (gPolicy onlyRels) y e →
      (DefinedBy U0 (gPolicy opRels) y t ↔ DefinedBy U0 (gPolicy onlyRels) y t) := by
    intro y e h h'
    exact ⟨fun k => DefinedBy.unique op_unique h k ▸ h', fun k => DefinedBy.unique only_valid.1 h' k ▸ h⟩
  obtain ⟨o, r⟩ := y
  simp only [abNodes, USet.node, List.mem_cons, List.not_mem_nil, or_false, RelationNode.entitySet.injEq, Option.some.injEq, reduceCtorEq] at hm
  rcases hm with ⟨rfl, rfl⟩ | ⟨rfl, rfl⟩ | ⟨rfl, rfl⟩
  · exact key (op_defs "1").2.2.2.2 (doc_def _ (by simp [onlyRels]) p6 "1")
  · exact key (op_defs "1").1 (doc_def _ (by simp [onlyRels]) p2 "1")
  · exact key (op_defs "1").2.1 (doc_def _ (by simp [onlyRels]) p3 "1")

/-- The hypotheses of `C113_update`: redefining `only` and dropping `both` changes no answer about `any`. -/
example : (serve gEnv (.updatePolicy (some (.policy (gPolicy onlyRels))) []) abStore).1 = .ok .updated ∧
    SameAnswers gEnv abStore (serve gEnv (.updatePolicy (some (.policy (gPolicy onlyRels))) []) abStore).2 "p" ⟨doc1, "any"⟩ :=
  C113_update (env := gEnv) (s := abStore) (rec := ⟨gPolicy opRels, [], 0⟩) (gStore_wf _ _ _) abStore_pol (.inl rfl) rfl only_valid only_alike

/-- The update does change answers: user:u is no longer granted `only`. -/
example : Checks gEnv abStore 9 "p" ⟨doc1, "only"⟩ usr true ∧
    Checks gEnv (serve gEnv (.updatePolicy (some (.policy (gPolicy onlyRels))) []) abStore).2 9 "p" ⟨doc1, "only"⟩ usr false :=
  ⟨checks_of (by decide +kernel), checks_of (by decide +kernel)⟩

end Zanzi
