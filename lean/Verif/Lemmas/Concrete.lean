import Verif.Lemmas.CheckSem

/-
Computable checks of the hypotheses of the graph theorems on concrete stores, for the `example`s.
-/

namespace Zanzi

open Spec

/-- An injective stand-in for the hash. -/
def Hx (s : String) : Nat := s.toList.foldl (fun a c => a * 1114113 + (c.toNat + 1)) 0

theorem char_lt (c : Char) : c.toNat < 1114112 := by
  have h : c.val.toNat.isValidChar := c.valid
  rcases h with h | h
  · exact Nat.lt_trans h (by decide)
  · exact h.2

theorem foldl_inj (B : Nat) (hB : ∀ c : Char, c.toNat + 1 < B) : ∀ (l l' : List Char),
    l.reverse.foldl (fun a c => a * B + (c.toNat + 1)) 0 = l'.reverse.foldl (fun a c => a * B + (c.toNat + 1)) 0 → l = l' := by
  intro l
  induction l with
  | nil =>
    intro l' h
    cases l' with
    | nil => rfl
    | cons c l' =>
      simp only [List.reverse_cons, List.foldl_append, List.foldl_cons, List.foldl_nil, List.reverse_nil] at h
      omega
  | cons c l ih =>
    intro l' h
    cases l' with
    | nil =>
      simp only [List.reverse_cons, List.foldl_append, List.foldl_cons, List.foldl_nil, List.reverse_nil] at h
      omega
    | cons c' l' =>
      simp only [List.reverse_cons, List.foldl_append, List.foldl_cons, List.foldl_nil] at h
      have h1 := hB c
      have h2 := hB c'
      have e : ∀ a b : Nat, b + 1 < B → (a * B + (b + 1)) % B = b + 1 ∧ (a * B + (b + 1)) / B = a := by
        intro a b hb
        have hp : 0 < B := by omega
        rw [Nat.mul_comm a B]
        refine ⟨by rw [Nat.mul_add_mod, Nat.mod_eq_of_lt hb], ?_⟩
        rw [Nat.mul_add_div hp, Nat.div_eq_of_lt hb, Nat.add_zero]
      have h3 : c.toNat = c'.toNat := by
        have := congrArg (· % B) h
        rw [(e _ _ h1).1, (e _ _ h2).1] at this
        omega
      have h4 := ih l' (by
        have := congrArg (· / B) h
        rw [(e _ _ h1).2, (e _ _ h2).2] at this
        exact this)
      rw [h4, Char.ext (UInt32.toNat_inj.1 h3)]

theorem Hx_inj {a b : String} (h : Hx a = Hx b) : a = b := by
  have := foldl_inj 1114113 (fun c => Nat.succ_lt_succ (char_lt c)) a.toList.reverse b.toList.reverse (by
    rw [List.reverse_reverse, List.reverse_reverse]
    exact h)
  exact String.toList_inj.1 (List.reverse_inj.1 this)

section
variable {env : Env} {s : Store} {pid : String} {rec : PolicyRecord} {x : USet}

theorem mem_succs_of_present {y : USet} {sub : Subject} (hs : WF env s) (hr : Present s pid ⟨some y.object, y.relation, some sub⟩) :
    subjectNode sub ∈ succs env.H s pid y := by
  obtain ⟨⟨k, e⟩, hm, he⟩ := List.mem_map.1 hr
  unfold fromInternal at he
  simp only [Relationship.mk.injEq, Option.some.injEq] at he
  obtain ⟨h1, h2, h3⟩ := he
  unfold succs
  simp only [List.mem_map, List.mem_filter, decide_eq_true_eq]
  refine ⟨e, ⟨(k, e), ⟨hm, ?_⟩, rfl⟩, ?_⟩
  · rw [hs.edgeKey _ _ _ hm, ← h1, ← h2]
    rfl
  · rw [← h3, subjectNode_fromInternal]

/-- Nodes of a leaf rule are direct nodes of the tree. -/
theorem leaf_tops {H : String → Nat} {y : USet} {r : Rule} : ∀ {e : ExprTree} {t : GoalTree}, pBuild H s pid y e = .ok t → r ∈ leaves e →
    ∃ ns, ruleNodes H s pid y r = .ok ns ∧ ∀ n ∈ ns, n ∈ t.tops := by
  intro e
  induction e with
  | nil => intro t h; cases h
  | unset => intro t h; cases h
  | rule r' =>
    intro t h hr
    unfold pBuild at h
    obtain ⟨ns, hns, h⟩ := Res.bind_eq_ok.1 h
    cases h
    simp only [leaves, List.mem_singleton] at hr
    subst hr
    refine ⟨ns, hns, fun n hn => ?_⟩
    rw [GoalTree.tops, mem_topsList]
    exact ⟨_, List.mem_map.2 ⟨n, hn, rfl⟩, by simp [GoalTree.tops]⟩
  | op l o r' ihl ihr =>
    intro t h hr
    unfold pBuild at h
    obtain ⟨a, ha, h⟩ := Res.bind_eq_ok.1 h
    obtain ⟨b, hb, h⟩ := Res.bind_eq_ok.1 h
    have key : ∀ n, n ∈ a.tops ∨ n ∈ b.tops → n ∈ t.tops := by
      intro n hn
      cases o <;> cases h <;> simpa [GoalTree.tops, topsList] using hn
    simp only [leaves, List.mem_append] at hr
    rcases hr with hr | hr
    · obtain ⟨ns, h1, h2⟩ := ihl ha hr
      exact ⟨ns, h1, fun n hn => key n (.inl (h2 n hn))⟩
    · obtain ⟨ns, h1, h2⟩ := ihr hb hr
      exact ⟨ns, h1, fun n hn => key n (.inr (h2 n hn))⟩

/-- Everything a userset is defined through is among the direct nodes of its tree. -/
theorem rewrites_tops (hs : WF env s) (hp : policyAt s pid = some rec) {y : USet} {t : GoalTree} (hb : bld env rec.policy s y.node = .ok t)
    {n : RelationNode} (h : Rewrites env.U rec.policy (Present s pid) y n) : n ∈ t.tops := by
  have hu := (hs.policy_valid hp).1
  obtain ⟨e, hd, hbe⟩ := bld_ok hu hb
  rw [hs.policy_id hp] at hbe
  cases h with
  | this hd' hl hr =>
    obtain rfl := DefinedBy.unique hu hd hd'
    obtain ⟨ns, h1, h2⟩ := leaf_tops hbe hl
    cases h1
    exact h2 _ (mem_succs_of_present hs hr)
  | cu hd' hl =>
    obtain rfl := DefinedBy.unique hu hd hd'
    obtain ⟨ns, h1, h2⟩ := leaf_tops hbe hl
    cases h1
    exact h2 _ (by simp)
  | @arrow _ a c sub e hd' hl hr hpt =>
    obtain rfl := DefinedBy.unique hu hd hd'
    obtain ⟨ns, h1, h2⟩ := leaf_tops hbe hl
    obtain ⟨n', hn', he⟩ := (mapSliceErr_mem (f := buildTtuNode c) h1).2 _ (mem_succs_of_present (y := ⟨y.object, a⟩) hs hr)
    have := ttuNode_spec he
    rw [hpt] at this
    rw [← this]
    exact h2 _ hn'

/-- The list is closed under expansion. -/
def closedB (env : Env) (pol : Policy) (s : Store) (L : List RelationNode) : Bool :=
  L.all (fun n => n.isTerminal || match bld env pol s n with
    | .ok t => t.tops.all (fun m => decide (m ∈ L))
    | _ => false)

theorem reaches_list (hs : WF env s) (hp : policyAt s pid = some rec) {L : List RelationNode} (hx : x.node ∈ L)
    (hL : closedB env rec.policy s L = true) {n : RelationNode} (h : Reaches env.U rec.policy (Present s pid) x n) : n ∈ L := by
  induction h with
  | start => exact hx
  | @step y n _ hw ih =>
    have := List.all_eq_true.1 hL _ ih
    simp only [USet.node, RelationNode.isTerminal, Bool.false_or] at this
    split at this
    · next t ht =>
      have := List.all_eq_true.1 this _ (rewrites_tops hs hp ht hw)
      simpa using this
    · cases this

/-- Usersets consulted for `y`. -/
def consultedOf (env : Env) (pol : Policy) (y : USet) : List USet :=
  y :: (match (newLut pol).getRelation y.object.resource y.relation with
    | none => []
    | some d => match getExpressionTree env.U d with
      | .ok t => (leaves t).filterMap (fun r => match r with
        | .ttu a _ => some ⟨y.object, a⟩
        | _ => none)
      | _ => [])

theorem consulted_mem {pol : Policy} (hu : NamesUnique pol) {y z : USet} (h : Consulted env.U pol y z) : z ∈ consultedOf env pol y := by
  rcases h with rfl | ⟨t, a, b, ⟨d, h1, h2⟩, hl, rfl⟩
  · exact List.mem_cons_self
  · refine List.mem_cons_of_mem _ ?_
    rw [((C11_lookup_exact pol hu _ _).1 d).2 h1]
    simp only [(getExpressionTree_ok_iff env.U d t).2 h2]
    exact List.mem_filterMap.2 ⟨_, hl, rfl⟩

def keyClearB (H : String → Nat) (rs : List Relationship) (z : USet) : Bool :=
  rs.all (fun r => match r.object with
    | none => true
    | some o => !decide (H (o.resource ++ o.id ++ r.relation) = H (z.object.resource ++ z.object.id ++ z.relation)) ||
        (decide (o = z.object) && decide (r.relation = z.relation)))

theorem keyClear_of {H : String → Nat} {z : USet} (h : keyClearB H (relationships s pid) z = true) : KeyClear H (Present s pid) z := by
  intro r o hr ho he
  have := List.all_eq_true.1 h r hr
  simp only [ho, he, decide_true, Bool.not_true, Bool.false_or, Bool.and_eq_true, decide_eq_true_eq] at this
  exact this

/-- The list is closed, free of storage key collisions and of visit identifier collisions. -/
def clearB (env : Env) (pol : Policy) (s : Store) (pid : String) (L : List RelationNode) : Bool :=
  closedB env pol s L &&
  L.all (fun n => match n with
    | .entitySet (some o) rel => (consultedOf env pol ⟨o, rel⟩).all (keyClearB env.H (relationships s pid))
    | _ => true) &&
  L.all (fun m => L.all (fun n => match m.nodeId env.H, n.nodeId env.H with
    | .ok a, .ok b => !decide (a = b) || decide (m = n)
    | _, _ => true))

theorem clear_of (hs : WF env s) (hp : policyAt s pid = some rec) {L : List RelationNode} (hx : x.node ∈ L)
    (hL : clearB env rec.policy s pid L = true) :
    KeysClear env.U env.H rec.policy (Present s pid) x ∧ IdsClear env.U env.H rec.policy (Present s pid) x := by
  unfold clearB at hL
  simp only [Bool.and_eq_true] at hL
  obtain ⟨⟨h1, h2⟩, h3⟩ := hL
  refine ⟨fun y z hy hz => ?_, fun m n id hm hn em en => ?_⟩
  · have := List.all_eq_true.1 h2 _ (reaches_list hs hp hx h1 hy)
    exact keyClear_of (List.all_eq_true.1 this z (consulted_mem (hs.policy_valid hp).1 hz))
  · have := List.all_eq_true.1 (List.all_eq_true.1 h3 _ (reaches_list hs hp hx h1 hm)) _ (reaches_list hs hp hx h1 hn)
    simpa [em, en] using this

/-- Every expression met satisfies `f`. -/
def exprsB (env : Env) (pol : Policy) (f : ExprTree → Bool) (L : List RelationNode) : Bool :=
  L.all (fun n => match n with
    | .entitySet (some o) rel => match (newLut pol).getRelation o.resource rel with
      | none => true
      | some d => match getExpressionTree env.U d with
        | .ok t => f t
        | _ => true
    | _ => true)

theorem exprs_of {P : ExprTree → Prop} {f : ExprTree → Bool} (hf : ∀ t, f t = true → P t) (hs : WF env s) (hp : policyAt s pid = some rec)
    {L : List RelationNode} (hx : x.node ∈ L) (hL : closedB env rec.policy s L = true) (hE : exprsB env rec.policy f L = true) :
    ExprsFrom env.U rec.policy (Present s pid) x P := by
  rintro y t hy ⟨d, h1, h2⟩
  have := List.all_eq_true.1 hE _ (reaches_list hs hp hx hL hy)
  simp only [USet.node, ((C11_lookup_exact rec.policy (hs.policy_valid hp).1 _ _).1 d).2 h1, (getExpressionTree_ok_iff env.U d t).2 h2] at this
  exact hf t this

def unionOnlyB : ExprTree → Bool
  | .op l .union r => unionOnlyB l && unionOnlyB r
  | .op _ _ _ => false
  | _ => true

theorem unionOnly_of {t : ExprTree} (h : unionOnlyB t = true) : UnionOnly t := by
  induction t with
  | op l o r ihl ihr =>
    cases o
    · simp only [unionOnlyB, Bool.and_eq_true] at h
      exact ⟨ihl h.1, ihr h.2⟩
    all_goals cases h
  | _ => trivial

def andFreeB : ExprTree → Bool
  | .op _ .intersection _ => false
  | .op l _ r => andFreeB l && andFreeB r
  | _ => true

theorem andFree_of {t : ExprTree} (h : andFreeB t = true) : AndFree t := by
  induction t with
  | op l o r ihl ihr =>
    cases o
    case intersection => cases h
    all_goals
      simp only [andFreeB, Bool.and_eq_true] at h
      exact ⟨ihl h.1, ihr h.2⟩
  | _ => trivial

def diffFreeB : ExprTree → Bool
  | .op _ .difference _ => false
  | .op l _ r => diffFreeB l && diffFreeB r
  | _ => true

theorem diffFree_of {t : ExprTree} (h : diffFreeB t = true) : DiffFree t := by
  induction t with
  | op l o r ihl ihr =>
    cases o
    case difference => cases h
    all_goals
      simp only [diffFreeB, Bool.and_eq_true] at h
      exact ⟨ihl h.1, ihr h.2⟩
  | _ => trivial

/-- The authorization in an answer. -/
def authOf : Res Answer → Option Bool
  | .ok (.authorized b) => some b
  | _ => none

theorem checks_of {fuel : Nat} {u : Entity} {b : Bool}
    (h : authOf (((Call.check fuel pid (ask x u)).prog env).run s).1 = some b) : Checks env s fuel pid x u b := by
  unfold Checks
  generalize (((Call.check fuel pid (ask x u)).prog env).run s).1 = r at h
  cases r with
  | ok a => cases a <;> cases h; rfl
  | _ => cases h

/-- The expression of a userset, by lookup. -/
def defOf (U : Unicode) (pol : Policy) (x : USet) : Option ExprTree :=
  match (newLut pol).getRelation x.object.resource x.relation with
  | none => none
  | some d => match getExpressionTree U d with
    | .ok t => some t
    | _ => none

theorem definedBy_iff {U : Unicode} {pol : Policy} (hu : NamesUnique pol) {x : USet} {t : ExprTree} :
    DefinedBy U pol x t ↔ defOf U pol x = some t := by
  unfold defOf
  constructor
  · rintro ⟨d, h1, h2⟩
    simp only [((C11_lookup_exact pol hu _ _).1 d).2 h1, (getExpressionTree_ok_iff U d t).2 h2]
  · intro h
    split at h
    · cases h
    · next d hd =>
      split at h
      · next t' ht =>
        cases h
        exact ⟨d, ((C11_lookup_exact pol hu _ _).1 d).1 hd, (getExpressionTree_ok_iff U d t).1 ht⟩
      · cases h

mutual
def cleanB : GoalTree → Bool
  | .or _ ps => cleanOrB ps
  | .and _ ps => cleanAndB ps
  | .diff _ l r => cleanB l && cleanB r
  | .leaf r _ _ => decide (r ≠ .unknown)
  | .path _ _ _ c => cleanB c
def cleanOrB : List GoalTree → Bool
  | [] => true
  | t :: ts => cleanB t && (decide (t.result = .success) || cleanOrB ts)
def cleanAndB : List GoalTree → Bool
  | [] => true
  | t :: ts => cleanB t && (decide (t.result = .failure) || cleanAndB ts)
end

mutual
theorem clean_of {t : GoalTree} (h : cleanB t = true) : Clean t := by
  match t with
  | .or _ ps => rw [cleanB] at h; rw [Clean]; exact cleanOr_of h
  | .and _ ps => rw [cleanB] at h; rw [Clean]; exact cleanAnd_of h
  | .diff _ l r =>
    rw [cleanB, Bool.and_eq_true] at h
    rw [Clean]
    exact ⟨clean_of h.1, clean_of h.2⟩
  | .leaf _ _ _ => rw [cleanB, decide_eq_true_eq] at h; rw [Clean]; exact h
  | .path _ _ _ c => rw [cleanB] at h; rw [Clean]; exact clean_of h
theorem cleanOr_of {ts : List GoalTree} (h : cleanOrB ts = true) : CleanOr ts := by
  match ts with
  | [] => trivial
  | t :: ts =>
    rw [cleanOrB, Bool.and_eq_true, Bool.or_eq_true, decide_eq_true_eq] at h
    exact ⟨clean_of h.1, h.2.imp id cleanOr_of⟩
theorem cleanAnd_of {ts : List GoalTree} (h : cleanAndB ts = true) : CleanAnd ts := by
  match ts with
  | [] => trivial
  | t :: ts =>
    rw [cleanAndB, Bool.and_eq_true, Bool.or_eq_true, decide_eq_true_eq] at h
    exact ⟨clean_of h.1, h.2.imp id cleanAnd_of⟩
end

/-- The explanation satisfies `f`. -/
def explB (f : GoalTree → Bool → Bool) : Res Answer → Bool
  | .ok (.explained (.spew t) b .spew) => f t b
  | _ => false

theorem explains_of {f : GoalTree → Bool → Bool} {fuel : Nat} {u : Entity}
    (h : explB f (((Call.explainCheck fuel pid (ask x u) .spew).prog env).run s).1 = true) :
    ∃ t b, Explains env s fuel pid x u t b ∧ f t b = true := by
  unfold Explains
  generalize (((Call.explainCheck fuel pid (ask x u) .spew).prog env).run s).1 = r at h
  unfold explB at h
  split at h
  · exact ⟨_, _, rfl, h⟩
  · cases h

end

end Zanzi
