import Verif.Lemmas.RenameSearch
import Verif.Props.Bystanders
import Verif.Props.Unions
import Verif.Props.Explain

/-
Property C89: names of objects and users do not matter.
-/

namespace Zanzi

open Spec

section
variable {env : Env} {s s' : Store} {pid : String} {rec rec' : PolicyRecord} {x : USet} {u : Entity} {ρ : Entity → Entity}

/-- Whatever is reached under the other names is reached under the first names. -/
theorem renamed_reaches (hρ : Renaming ρ) {U : Unicode} {p : Policy} {R R' : Relationship → Prop} (hR : Renamed ρ R R') {n' : RelationNode}
    (h : Reaches U p R' (renameUSet ρ x) n') : ∃ n, renameNode ρ n = n' ∧ Reaches U p R x n := by
  induction h with
  | start => exact ⟨x.node, rfl, .start⟩
  | @step y' n' _ h2 ih =>
    obtain ⟨n, h3, h4⟩ := ih
    obtain ⟨y, rfl, rfl⟩ : ∃ y : USet, n = y.node ∧ y' = renameUSet ρ y := by
      cases n with
      | entitySet o rel =>
        cases o with
        | none => cases h3
        | some o =>
          refine ⟨⟨o, rel⟩, rfl, ?_⟩
          obtain ⟨o', r'⟩ := y'
          simp only [USet.node, renameNode, Option.map, RelationNode.entitySet.injEq, Option.some.injEq] at h3
          rw [← h3.1, ← h3.2]
          rfl
      | _ => cases h3
    cases h2 with
    | @this t sub' a b c =>
      obtain ⟨sub, h5, rfl⟩ := (renamed_at hρ hR _ _ _).1 c
      exact ⟨subjectNode sub, (subjectNode_rename sub).symm, .step h4 (.this ((definedBy_rename hρ).1 a) b h5)⟩
    | @cu t target a b => exact ⟨.entitySet (some y.object) target, rfl, .step h4 (.cu ((definedBy_rename hρ).1 a) b)⟩
    | @arrow t tupleset computed sub' e' a b c d =>
      obtain ⟨sub, h5, rfl⟩ := (renamed_at hρ hR _ _ _).1 c
      rw [pointsTo_rename] at d
      cases he : pointsTo sub with
      | none => rw [he] at d; cases d
      | some e =>
        rw [he] at d
        cases d
        exact ⟨.entitySet (some e) computed, rfl, .step h4 (.arrow ((definedBy_rename hρ).1 a) b h5 he)⟩

/-- **C89** for requests that meet only unions: a store holding the same relationships under other names gives the same answers under the other names. -/
theorem C89_union_partial (hρ : Renaming ρ) (hs : WF env s) (hs' : WF env s') (hp : policyAt s pid = some rec) (hp' : policyAt s' pid = some rec')
    (hpol : rec'.policy = rec.policy) (hR : Renamed ρ (Present s pid) (Present s' pid))
    (hk : KeysClear env.U env.H rec.policy (Present s pid) x) (hk' : KeysClear env.U env.H rec.policy (Present s' pid) (renameUSet ρ x))
    (hi : IdsClear env.U env.H rec.policy (Present s pid) x) (hi' : IdsClear env.U env.H rec.policy (Present s' pid) (renameUSet ρ x))
    (hu : ExprsFrom env.U rec.policy (Present s pid) x UnionOnly) {fuel fuel' : Nat} {b b' : Bool}
    (h : Checks env s fuel pid x u b) (h' : Checks env s' fuel' pid (renameUSet ρ x) (ρ u) b') : b = b' := by
  have e1 := C37_union_exact_partial hs hp hk hi hu h
  have hu' : ExprsFrom env.U rec.policy (Present s' pid) (renameUSet ρ x) UnionOnly := by
    intro y' t hy hd
    obtain ⟨n, h1, h2⟩ := renamed_reaches hρ hR hy
    cases n with
    | entitySet o rel =>
      cases o with
      | none => cases h1
      | some o =>
        refine hu ⟨o, rel⟩ t h2 ((definedBy_rename (y := ⟨o, rel⟩) hρ).1 ?_)
        obtain ⟨o', r'⟩ := y'
        simp only [USet.node, renameNode, Option.map, RelationNode.entitySet.injEq, Option.some.injEq] at h1
        rw [← h1.1, ← h1.2] at hd
        exact hd
    | _ => cases h1
  rw [← hpol] at hk' hi' hu'
  have e2 := C37_union_exact_partial hs' hp' hk' hi' hu' h'
  rw [hpol, granted_rename hρ hR] at e2
  rw [Bool.eq_iff_iff, e1, e2]

/-- **C89** for all operators, when the explanations show no branch cut off. -/
theorem C89_clean_partial (hρ : Renaming ρ) (hs : WF env s) (hs' : WF env s') (hp : policyAt s pid = some rec) (hp' : policyAt s' pid = some rec')
    (hpol : rec'.policy = rec.policy) (hR : Renamed ρ (Present s pid) (Present s' pid))
    (hk : KeysClear env.U env.H rec.policy (Present s pid) x) (hk' : KeysClear env.U env.H rec.policy (Present s' pid) (renameUSet ρ x))
    {V : USet → Prop} (hV : Solution env.U rec.policy (Present s pid) u V) {fuel fuel' : Nat} {t t' : GoalTree} {b b' : Bool}
    (h : Explains env s fuel pid x u t b) (hc : Clean t) (h' : Explains env s' fuel' pid (renameUSet ρ x) (ρ u) t' b') (hc' : Clean t') : b = b' := by
  have e1 := C36_exact_partial hs hp hk h hc hV
  have hV' := solution_rename hρ hR hV
  rw [← hpol] at hk' hV'
  have e2 := C36_exact_partial hs' hp' hk' h' hc' hV'
  rw [Bool.eq_iff_iff, e1, e2]
  exact imageV_iff hρ V x

theorem inOrder_present {U : Unicode} {p : Policy} (h : RenamedInOrder U p ρ pid s s' x) {y z : USet}
    (hy : Reaches U p (Present s pid) x y.node) (hz : Consulted U p y z) (sub' : Subject) :
    Present s' pid ⟨some (ρ z.object), z.relation, some sub'⟩ ↔ ∃ sub, Present s pid ⟨some z.object, z.relation, some sub⟩ ∧ renameSubject ρ sub = sub' := by
  have mem : ∀ {s : Store} {z : USet} {sub : Subject}, sub ∈ subjectsOf s pid z ↔ Present s pid ⟨some z.object, z.relation, some sub⟩ := by
    intro s z sub
    unfold subjectsOf
    rw [List.mem_filterMap]
    constructor
    · rintro ⟨⟨o, r, su⟩, h1, h2⟩
      split at h2
      · next hc =>
        obtain ⟨h3, h4⟩ := hc
        dsimp only at h2 h3 h4
        subst h2 h3 h4
        exact h1
      · cases h2
    · intro h
      exact ⟨_, h, by simp⟩
  rw [← mem (z := ⟨ρ z.object, z.relation⟩), show subjectsOf s' pid ⟨ρ z.object, z.relation⟩ = _ from h y z hy hz, List.mem_map]
  simp only [mem]

theorem inOrder_rewrites (hρ : Renaming ρ) {U : Unicode} {p : Policy} (h : RenamedInOrder U p ρ pid s s' x) {y : USet}
    (hy : Reaches U p (Present s pid) x y.node) {n : RelationNode} (hn : Rewrites U p (Present s pid) y n) :
    Rewrites U p (Present s' pid) (renameUSet ρ y) (renameNode ρ n) := by
  cases hn with
  | @this t sub a b c =>
    rw [← subjectNode_rename]
    exact .this ((definedBy_rename hρ).2 a) b ((inOrder_present h hy (.inl rfl) _).2 ⟨sub, c, rfl⟩)
  | cu a b => exact .cu ((definedBy_rename hρ).2 a) b
  | @arrow t tupleset computed sub e a b c d =>
    refine .arrow (e := ρ e) ((definedBy_rename hρ).2 a) b ((inOrder_present h hy (z := ⟨y.object, tupleset⟩) (.inr ⟨t, tupleset, computed, a, b, rfl⟩) _).2 ⟨sub, c, rfl⟩) ?_
    rw [pointsTo_rename, d]
    rfl

theorem inOrder_reaches (hρ : Renaming ρ) {U : Unicode} {p : Policy} (h : RenamedInOrder U p ρ pid s s' x) {n : RelationNode}
    (hn : Reaches U p (Present s pid) x n) : Reaches U p (Present s' pid) (renameUSet ρ x) (renameNode ρ n) := by
  induction hn with
  | start => exact .start
  | @step y n h1 h2 ih => exact .step (y := renameUSet ρ y) ih (inOrder_rewrites hρ h h1 h2)

/-- The searches of a store and of the same store under other names. -/
theorem search_rename (hρ : Renaming ρ) (hs : WF env s) (hs' : WF env s') (hp : policyAt s pid = some rec) (hp' : policyAt s' pid = some rec')
    (hpol : rec'.policy = rec.policy) (ho : RenamedInOrder env.U rec.policy ρ pid s s' x)
    (hk : KeysClear env.U env.H rec.policy (Present s pid) x) (hk' : KeysClear env.U env.H rec.policy (Present s' pid) (renameUSet ρ x))
    (hi : IdsClear env.U env.H rec.policy (Present s pid) x) (hi' : IdsClear env.U env.H rec.policy (Present s' pid) (renameUSet ρ x))
    {goal goal' : Option RelationNode} (hg : ∀ n, goalFound (renameNode ρ n) goal' = goalFound n goal) (fuel : Nat) :
    Follows (RenR env.H (Reaches env.U rec.policy (Present s pid) x) ρ) (pPath env.H (bld env rec.policy s) goal fuel x.node "Request" [])
      (pPath env.H (bld env rec'.policy s') goal' fuel (renameUSet ρ x).node "Request" []) := by
  have hid := hs.policy_id hp
  rw [hpol]
  refine pPath_rename hρ hi (fun m n id hm hn => hi' _ _ id (inOrder_reaches hρ ho hm) (inOrder_reaches hρ ho hn)) hg (fun n hn ht => ?_) fuel x.node "Request" [] []
    (fun _ _ => .start) (fun _ _ _ _ _ _ => by simp)
  obtain ⟨o, rel, rfl⟩ := isTerminal_false ht
  cases o with
  | none => exact .inr (.inr (.inr ⟨rfl, rfl⟩))
  | some o =>
    have hn' := inOrder_reaches hρ ho hn
    have e : bld env rec.policy s' (renameNode ρ (.entitySet (some o) rel)) =
        (bld env rec.policy s (.entitySet (some o) rel) >>= fun t => .ok (renameTree ρ t)) := by
      show bld env rec.policy s' (USet.node ⟨ρ o, rel⟩) = (bld env rec.policy s (USet.node ⟨o, rel⟩) >>= fun t => .ok (renameTree ρ t))
      rw [bld_set, bld_set]
      dsimp only
      rw [hρ.resource]
      split
      · rfl
      · next d hd =>
        cases he : getExpressionTree env.U d with
        | ok e =>
          have hde : DefinedBy env.U rec.policy ⟨o, rel⟩ e :=
            ⟨d, ((C11_lookup_exact rec.policy (hs.policy_valid hp).1 _ _).1 d).1 hd, (getExpressionTree_ok_iff env.U d e).1 he⟩
          simp only [Res.bind_ok]
          have hsucc : ∀ z : USet, Consulted env.U rec.policy ⟨o, rel⟩ z → Consulted env.U rec.policy (renameUSet ρ ⟨o, rel⟩) (renameUSet ρ z) →
              succs env.H s' rec.policy.id (renameUSet ρ z) = (succs env.H s rec.policy.id z).map (renameNode ρ) := by
            intro z hz hz'
            rw [hid, succs_subjectsOf hs' (hk' (renameUSet ρ ⟨o, rel⟩) _ hn' hz'), succs_subjectsOf hs (hk ⟨o, rel⟩ _ hn hz), ho ⟨o, rel⟩ _ hn hz, List.map_map, List.map_map]
            exact List.map_congr_left (fun sub _ => subjectNode_rename sub)
          refine pBuild_rename (y := ⟨o, rel⟩) (hsucc _ (.inl rfl) (.inl rfl)) (fun a b hl => ?_)
          exact hsucc ⟨o, a⟩ (.inr ⟨e, a, b, hde, hl, rfl⟩) (.inr ⟨e, a, b, (definedBy_rename (y := ⟨o, rel⟩) hρ).2 hde, hl, rfl⟩)
        | _ => rfl
    rw [e]
    cases hb : bld env rec.policy s (.entitySet (some o) rel) with
    | ok t =>
      obtain ⟨_, _, _, _, _, _, _, _, h'⟩ := expand_facts hs hp hk hn ht hb
      exact .ok ⟨rfl, h'⟩
    | err e => exact .inr (.inr (.inl ⟨e, rfl, rfl⟩))
    | panic => exact .inr (.inr (.inr ⟨rfl, rfl⟩))
    | fuel => exact .inl rfl

/-- **C89** for all operators: names matter through the storage order alone.  When the relationships a request consults are stored under the other names in the same order, Check
gives the same answer, errors included, and the explanation and Expand's tree are those of the first store under the other names. -/
theorem C89_order_partial (hρ : Renaming ρ) (hs : WF env s) (hs' : WF env s') (hp : policyAt s pid = some rec) (hp' : policyAt s' pid = some rec')
    (hpol : rec'.policy = rec.policy) (ho : RenamedInOrder env.U rec.policy ρ pid s s' x)
    (hk : KeysClear env.U env.H rec.policy (Present s pid) x) (hk' : KeysClear env.U env.H rec.policy (Present s' pid) (renameUSet ρ x))
    (hi : IdsClear env.U env.H rec.policy (Present s pid) x) (hi' : IdsClear env.U env.H rec.policy (Present s' pid) (renameUSet ρ x)) :
    ∃ N, ∀ fuel, N ≤ fuel →
      (serve env (.check fuel pid (ask (renameUSet ρ x) (ρ u))) s').1 = (serve env (.check fuel pid (ask x u)) s).1 ∧
      (serve env (.check fuel pid (ask x u)) s).1 ≠ .fuel ∧
      (∀ t b, Explains env s fuel pid x u t b → Explains env s' fuel pid (renameUSet ρ x) (ρ u) (renameTree ρ t) b) ∧
      (∀ t, Expands env s fuel pid x.node t → Expands env s' fuel pid (renameUSet ρ x).node (renameTree ρ t)) := by
  refine ⟨searchBound env rec.policy s (some x.node), fun fuel hf => ?_⟩
  have n1 := (pSearch_stable env rec.policy s (some x.node) (userGoal u) fuel hf).2
  have n2 := (pSearch_stable env rec.policy s (some x.node) none fuel hf).2
  have f1 := search_rename hρ hs hs' hp hp' hpol ho hk hk' hi hi' (fun n => goalFound_rename hρ n u) fuel
  have f2 := search_rename hρ hs hs' hp hp' hpol ho hk hk' hi hi' (goal := none) (goal' := none) (fun n => rfl) fuel
  have g1 : Follows (fun t t' => renameTree ρ t = t') (pSearch env rec.policy s fuel (some x.node) (userGoal u))
      (pSearch env rec'.policy s' fuel (some (renameUSet ρ x).node) (userGoal (ρ u))) := f1.bind (fun a b h => .ok h.1)
  have g2 : Follows (fun t t' => renameTree ρ t = t') (pSearch env rec.policy s fuel (some x.node) none)
      (pSearch env rec'.policy s' fuel (some (renameUSet ρ x).node) none) := f2.bind (fun a b h => .ok h.1)
  have e1 := serve_check (env := env) hp fuel x u
  have e2 := serve_check (env := env) hp' fuel (renameUSet ρ x) (ρ u)
  have e3 := serve_explainCheck (env := env) hp fuel x u .spew
  have e4 := serve_explainCheck (env := env) hp' fuel (renameUSet ρ x) (ρ u) .spew
  have e5 := serve_expand (env := env) hp fuel (some x.node) .spew
  have e6 := serve_expand (env := env) hp' fuel (some (renameUSet ρ x).node) .spew
  refine ⟨?_, ?_, fun t b h => ?_, fun t h => ?_⟩
  · rw [e1, e2]
    rcases g1 with h | ⟨a, b, h1, h2, h3⟩ | ⟨e, h1, h2⟩ | ⟨h1, h2⟩
    · exact absurd h n1
    · rw [h1, h2]
      subst h3
      show Res.ok _ = Res.ok _
      rw [renameTree_result]
    · rw [h1, h2]
    · rw [h1, h2]
  · rw [e1]
    cases hq : pSearch env rec.policy s fuel (some x.node) (userGoal u) with
    | fuel => exact absurd hq n1
    | _ => nofun
  · have h0 : (serve env (.explainCheck fuel pid (ask x u) .spew) s).1 = .ok (.explained (.spew t) b .spew) := h
    show (serve env (.explainCheck fuel pid (ask (renameUSet ρ x) (ρ u)) .spew) s').1 = _
    rw [e3] at h0
    rw [e4]
    rcases g1 with h | ⟨a, b', h1, h2, h3⟩ | ⟨e, h1, h2⟩ | ⟨h1, h2⟩
    · exact absurd h n1
    · rw [h1] at h0
      rw [h2]
      subst h3
      cases h0
      show Res.ok (Answer.explained _ _ _) = _
      rw [renameTree_result]
    · rw [h1] at h0; cases h0
    · rw [h1] at h0; cases h0
  · unfold Expands at h ⊢
    rw [e5] at h
    rw [e6]
    rcases g2 with h' | ⟨a, b', h1, h2, h3⟩ | ⟨e, h1, h2⟩ | ⟨h1, h2⟩
    · exact absurd h' n2
    · rw [h1] at h
      rw [h2]
      subst h3
      cases h
      rfl
    · rw [h1] at h; cases h
    · rw [h1] at h; cases h

end

/-- user:u and user:v change names. -/
def swapUV (e : Entity) : Entity := if e = usr then ⟨"user", "v"⟩ else if e = ⟨"user", "v"⟩ then usr else e

theorem swapUV_renaming : Renaming swapUV := by
  have h1 : ∀ e, swapUV (swapUV e) = e := by
    intro e
    unfold swapUV
    repeat' split
    all_goals simp_all [usr]
  refine ⟨fun a b h => by rw [← h1 a, h, h1], fun a => ?_⟩
  unfold swapUV
  repeat' split
  all_goals simp_all [usr]

/-- The relationships of a store under other names, decided on its list. -/
theorem renamed_of {ρ : Entity → Entity} {s s' : Store} {pid : String} (h1 : ∀ r ∈ relationships s pid, renameRelationship ρ r ∈ relationships s' pid)
    (h2 : ∀ r' ∈ relationships s' pid, r' ∈ (relationships s pid).map (renameRelationship ρ)) : Renamed ρ (Present s pid) (Present s' pid) := by
  intro r'
  constructor
  · intro h
    obtain ⟨r, h3, h4⟩ := List.mem_map.1 (h2 r' h)
    exact ⟨r, h3, h4⟩
  · rintro ⟨r, h3, rfl⟩
    exact h1 r h3

/-- `abRels` for user:v. -/
def abRelsV : List Relationship := [⟨some doc1, "a", some (.entity ⟨"user", "v"⟩)⟩, ⟨some doc1, "b", some (.entity ⟨"user", "v"⟩)⟩]
def abStoreV : Store := gStore gEnv opRels abRelsV
theorem abStoreV_pol : policyAt abStoreV "p" = some ⟨gPolicy opRels, [], 0⟩ := by decide +kernel

theorem abV_clear (r : String) (hr : r = "both" ∨ r = "any") :
    KeysClear U0 Hx (gPolicy opRels) (Present abStoreV "p") (renameUSet swapUV ⟨doc1, r⟩) ∧ IdsClear U0 Hx (gPolicy opRels) (Present abStoreV "p") (renameUSet swapUV ⟨doc1, r⟩) := by
  refine clear_of (env := gEnv) (rec := ⟨gPolicy opRels, [], 0⟩) (L := (abNodes r).map (renameNode swapUV)) (gStore_wf _ _ _) abStoreV_pol (by simp [abNodes, USet.node, renameUSet, renameNode]) ?_
  rcases hr with rfl | rfl <;> decide +kernel

/-- The hypotheses of `C89_union_partial`, for stores where user:u and user:v are granted `any = a + b`. -/
example : Renaming swapUV ∧ Renamed swapUV (Present abStore "p") (Present abStoreV "p") ∧
    KeysClear U0 Hx (gPolicy opRels) (Present abStore "p") ⟨doc1, "any"⟩ ∧ KeysClear U0 Hx (gPolicy opRels) (Present abStoreV "p") (renameUSet swapUV ⟨doc1, "any"⟩) ∧
    IdsClear U0 Hx (gPolicy opRels) (Present abStore "p") ⟨doc1, "any"⟩ ∧ IdsClear U0 Hx (gPolicy opRels) (Present abStoreV "p") (renameUSet swapUV ⟨doc1, "any"⟩) ∧
    ExprsFrom U0 (gPolicy opRels) (Present abStore "p") ⟨doc1, "any"⟩ UnionOnly ∧
    Checks gEnv abStore 10 "p" ⟨doc1, "any"⟩ usr true ∧ Checks gEnv abStoreV 10 "p" (renameUSet swapUV ⟨doc1, "any"⟩) (swapUV usr) true ∧
    Checks gEnv abStoreV 10 "p" (renameUSet swapUV ⟨doc1, "any"⟩) usr false :=
  ⟨swapUV_renaming, renamed_of (by decide +kernel) (by decide +kernel), (ab_clear _ (.inr (.inr rfl))).1, (abV_clear _ (.inr rfl)).1, (ab_clear _ (.inr (.inr rfl))).2,
    (abV_clear _ (.inr rfl)).2,
    exprs_of (env := gEnv) (f := unionOnlyB) (fun _ => unionOnly_of) (gStore_wf _ _ _) abStore_pol (L := abNodes "any") (by simp [abNodes, USet.node]) (by decide +kernel) (by decide +kernel),
    checks_of (by decide +kernel), checks_of (by decide +kernel), checks_of (by decide +kernel)⟩

/-- The hypotheses of `C89_clean_partial` that are not among the above. -/
example : (∃ V, Solution U0 (gPolicy opRels) (Present abStore "p") usr V) ∧ (∃ t, Explains gEnv abStore 10 "p" ⟨doc1, "any"⟩ usr t true ∧ Clean t) ∧
    (∃ t, Explains gEnv abStoreV 10 "p" (renameUSet swapUV ⟨doc1, "any"⟩) (swapUV usr) t true ∧ Clean t) := by
  refine ⟨⟨_, abSolution_is⟩, ?_, ?_⟩
  · obtain ⟨t, b, h1, h2⟩ := explains_of (env := gEnv) (s := abStore) (pid := "p") (x := ⟨doc1, "any"⟩) (u := usr) (fuel := 10)
      (f := fun t b => cleanB t && b) (by decide +kernel)
    simp only [Bool.and_eq_true] at h2
    obtain ⟨h2, rfl⟩ := h2
    exact ⟨t, h1, clean_of h2⟩
  · obtain ⟨t, b, h1, h2⟩ := explains_of (env := gEnv) (s := abStoreV) (pid := "p") (x := renameUSet swapUV ⟨doc1, "any"⟩) (u := swapUV usr) (fuel := 10)
      (f := fun t b => cleanB t && b) (by decide +kernel)
    simp only [Bool.and_eq_true] at h2
    obtain ⟨h2, rfl⟩ := h2
    exact ⟨t, h1, clean_of h2⟩

/-- The hypotheses of `C89_order_partial`, for a request with an intersection. -/
example : RenamedInOrder U0 (gPolicy opRels) swapUV "p" abStore abStoreV ⟨doc1, "both"⟩ ∧
    KeysClear U0 Hx (gPolicy opRels) (Present abStore "p") ⟨doc1, "both"⟩ ∧ KeysClear U0 Hx (gPolicy opRels) (Present abStoreV "p") (renameUSet swapUV ⟨doc1, "both"⟩) ∧
    IdsClear U0 Hx (gPolicy opRels) (Present abStore "p") ⟨doc1, "both"⟩ ∧ IdsClear U0 Hx (gPolicy opRels) (Present abStoreV "p") (renameUSet swapUV ⟨doc1, "both"⟩) := by
  refine ⟨fun y z hy hz => ?_, (ab_clear _ (.inl rfl)).1, (abV_clear _ (.inl rfl)).1, (ab_clear _ (.inl rfl)).2, (abV_clear _ (.inl rfl)).2⟩
  have h1 := reaches_list (env := gEnv) (gStore_wf _ _ _) abStore_pol (L := abNodes "both") (by simp [abNodes, USet.node]) (by decide +kernel) hy
  have h2 := consulted_mem (env := gEnv) op_unique hz
  have h3 : ∀ y ∈ [(⟨doc1, "both"⟩ : USet), ⟨doc1, "a"⟩, ⟨doc1, "b"⟩], ∀ z ∈ consultedOf gEnv (gPolicy opRels) y,
      subjectsOf abStoreV "p" (renameUSet swapUV z) = (subjectsOf abStore "p" z).map (renameSubject swapUV) := by decide +kernel
  refine h3 y ?_ z h2
  obtain ⟨o, r⟩ := y
  simpa [abNodes, USet.node] using h1

/-- `orderRels` for user:v. -/
def orderRelsV : List Relationship :=
  [⟨some doc1, "a", some (.resourceSet "user")⟩, ⟨some doc1, "a", some (.entity ⟨"user", "v"⟩)⟩, ⟨some doc1, "b", some (.entity ⟨"user", "v"⟩)⟩]

/-- **C89** is violated: everybody and user:u have a on doc:1, and user:u has b.  Check denies them `both = a & b`, but grants it when the same data is stored with the user
named user:v.  (The order in which relationships are tried is that of hashed names; the hash has no collisions.) -/
theorem C89_names_violated :
    Renamed swapUV (Present (gStore (wEnv Hy) opRels orderRels) "p") (Present (gStore (wEnv Hy) opRels orderRelsV) "p") ∧
    Checks (wEnv Hy) (gStore (wEnv Hy) opRels orderRels) 10 "p" ⟨doc1, "both"⟩ usr false ∧
    Checks (wEnv Hy) (gStore (wEnv Hy) opRels orderRelsV) 10 "p" (renameUSet swapUV ⟨doc1, "both"⟩) (swapUV usr) true ∧
    Renaming swapUV ∧ Function.Injective Hy :=
  ⟨renamed_of (by decide +kernel) (by decide +kernel), checks_of (by decide +kernel), checks_of (by decide +kernel), swapUV_renaming, fun _ _ => Hy_inj⟩

end Zanzi
