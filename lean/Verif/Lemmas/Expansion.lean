import Verif.Spec.Expansion
import Verif.Lemmas.CheckRun
import Verif.Lemmas.CheckSem

/-
The search for a user beside the walk of Expand: up to the visit of the user both do the same, afterwards neither finds them again.
-/

namespace Zanzi

open Spec

/-- An operator node. -/
def GoalTree.inner : GoalTree → Bool
  | .or _ _ => true
  | .and _ _ => true
  | .diff _ _ _ => true
  | .leaf _ _ _ => false
  | .path _ _ _ _ => false

mutual
/-- Intersections have two operands, operands of intersections and differences are operator nodes, and nothing has been evaluated. -/
def Shaped : GoalTree → Prop
  | .or _ ps => ShapedList ps
  | .and _ [l, r] => (l.inner = true ∧ Shaped l) ∧ r.inner = true ∧ Shaped r
  | .and _ _ => False
  | .diff _ l r => (l.inner = true ∧ Shaped l) ∧ r.inner = true ∧ Shaped r
  | .leaf x _ _ => x = .unknown
  | .path _ _ _ _ => False
def ShapedList : List GoalTree → Prop
  | [] => True
  | t :: ts => Shaped t ∧ ShapedList ts
end

theorem shapedList_leaves (ns : List RelationNode) (reason : String) : ShapedList (ns.map (fun n => .leaf .unknown n reason)) := by
  induction ns with
  | nil => simp [ShapedList]
  | cons n ns ih => rw [List.map_cons, ShapedList]; exact ⟨by simp [Shaped], ih⟩

theorem pBuild_shaped {H : String → Nat} {s : Store} {pid : String} {y : USet} : ∀ {e : ExprTree} {t : GoalTree}, pBuild H s pid y e = .ok t →
    t.inner = true ∧ Shaped t := by
  intro e
  induction e with
  | nil => intro t h; cases h
  | unset => intro t h; cases h
  | rule r =>
    intro t h
    unfold pBuild at h
    obtain ⟨ns, _, h⟩ := Res.bind_eq_ok.1 h
    cases h
    exact ⟨rfl, by rw [Shaped]; exact shapedList_leaves _ _⟩
  | op l o r ihl ihr =>
    intro t h
    unfold pBuild at h
    obtain ⟨a, ha, h⟩ := Res.bind_eq_ok.1 h
    obtain ⟨b, hb, h⟩ := Res.bind_eq_ok.1 h
    have h1 := ihl ha
    have h2 := ihr hb
    cases o with
    | union => cases h; exact ⟨rfl, by simp [Shaped, ShapedList, h1.2, h2.2]⟩
    | intersection => cases h; exact ⟨rfl, by simp [Shaped, h1, h2]⟩
    | difference => cases h; exact ⟨rfl, by simp [Shaped, h1, h2]⟩
    | unknown => cases h

theorem pTree_known {d : Descend} {t t' : GoalTree} {seen s' : List Nat} (hi : t.inner = true) (h : pTree d t seen = .ok (t', s')) :
    t'.result ≠ .unknown := by
  match t with
  | .or _ _ =>
    rw [pTree] at h
    obtain ⟨⟨a, b, c⟩, _, h⟩ := Res.bind_eq_ok.1 h
    cases h
    exact verdict_known _
  | .and _ _ =>
    rw [pTree] at h
    obtain ⟨⟨a, b, c⟩, _, h⟩ := Res.bind_eq_ok.1 h
    cases h
    exact verdict_known _
  | .diff _ _ _ =>
    rw [pTree] at h
    obtain ⟨⟨a, c⟩, _, h⟩ := Res.bind_eq_ok.1 h
    obtain ⟨⟨a', c'⟩, _, h⟩ := Res.bind_eq_ok.1 h
    cases h
    exact verdict_known _
  | .leaf _ _ _ => cases hi
  | .path _ _ _ _ => cases hi

mutual
/-- Nobody is in a tree of which nothing has been evaluated. -/
theorem inSet_shaped {u : Entity} (t : GoalTree) (h : Shaped t) : inSet u t = false := by
  match t with
  | .or _ ps => rw [Shaped] at h; rw [inSet]; exact inAny_shaped ps h
  | .and _ [l, r] => rw [Shaped] at h; simp [inSet, inAll, inSet_shaped l h.1.2]
  | .and _ [] => rw [Shaped] at h; exact h.elim; all_goals nofun
  | .and _ [_] => rw [Shaped] at h; exact h.elim; all_goals nofun
  | .and _ (_ :: _ :: _ :: _) => rw [Shaped] at h; exact h.elim; all_goals nofun
  | .diff _ l r => rw [Shaped] at h; simp [inSet, inSet_shaped l h.1.2]
  | .leaf x _ _ => rw [Shaped] at h; subst h; rfl
  | .path _ _ _ _ => rw [Shaped] at h; exact h.elim
theorem inAny_shaped {u : Entity} (ts : List GoalTree) (h : ShapedList ts) : inAny u ts = false := by
  match ts with
  | [] => rfl
  | t :: ts => rw [ShapedList] at h; rw [inAny, inSet_shaped t h.1, inAny_shaped ts h.2]; rfl
end

theorem failure_of {r : SearchResult} (h1 : r ≠ .unknown) (h2 : r ≠ .success) : r = .failure := by cases r <;> simp_all

section
variable {H : String → Nat} {P : RelationNode → Prop} {u : Entity} {g : Nat}

/-- Once the user is visited, nothing is found any more. -/
def Stale (H : String → Nat) (P : RelationNode → Prop) (u : Entity) (g : Nat) (d : Descend) : Prop :=
  ∀ n r seen t' s', Ok H P n → g ∈ seen → d n r seen = .ok (t', s') → g ∈ s' ∧ t'.result ≠ .success ∧ inSet u t' = false

mutual
theorem pTree_stale {d : Descend} (hd : Stale H P u g d) (t : GoalTree) (seen : List Nat) (t' : GoalTree) (s' : List Nat) (hf : Shaped t)
    (hP : ∀ m ∈ t.tops, Ok H P m) (hg : g ∈ seen) (h : pTree d t seen = .ok (t', s')) : g ∈ s' ∧ t'.result ≠ .success ∧ inSet u t' = false := by
  match t with
  | .or _ ps =>
    rw [pTree] at h
    obtain ⟨⟨a, b, c⟩, h1, h⟩ := Res.bind_eq_ok.1 h
    cases h
    rw [Shaped] at hf
    obtain ⟨e1, rfl, e3⟩ := pOr_stale hd ps seen _ _ _ hf (by simpa [GoalTree.tops] using hP) hg h1
    exact ⟨e1, nofun, by rw [inSet]; exact e3⟩
  | .and _ [l, r] =>
    rw [pTree, pAnd] at h
    obtain ⟨⟨a, b, c⟩, h1, h⟩ := Res.bind_eq_ok.1 h
    cases h
    obtain ⟨⟨a', c'⟩, h2, h1⟩ := Res.bind_eq_ok.1 h1
    rw [Shaped] at hf
    obtain ⟨e1, e2, e3⟩ := pTree_stale hd l seen a' c' hf.1.2 (fun m hm => hP m (by simp [GoalTree.tops, topsList, hm])) hg h2
    dsimp only at h1
    rw [if_pos (failure_of (pTree_known hf.1.1 h2) e2)] at h1
    cases h1
    exact ⟨e1, nofun, by simp [inSet, inAll, e3]⟩
  | .and _ [] => rw [Shaped] at hf; exact hf.elim; all_goals nofun
  | .and _ [_] => rw [Shaped] at hf; exact hf.elim; all_goals nofun
  | .and _ (_ :: _ :: _ :: _) => rw [Shaped] at hf; exact hf.elim; all_goals nofun
  | .diff _ l r =>
    rw [pTree] at h
    obtain ⟨⟨a, c⟩, h1, h⟩ := Res.bind_eq_ok.1 h
    obtain ⟨⟨a', c'⟩, h2, h⟩ := Res.bind_eq_ok.1 h
    cases h
    rw [Shaped] at hf
    obtain ⟨e1, e2, e3⟩ := pTree_stale hd l seen a c hf.1.2 (fun m hm => hP m (by simp [GoalTree.tops, hm])) hg h1
    obtain ⟨f1, f2, f3⟩ := pTree_stale hd r c _ _ hf.2.2 (fun m hm => hP m (by simp [GoalTree.tops, hm])) e1 h2
    refine ⟨f1, fun hv => ?_, by simp [inSet, e3]⟩
    have hv := verdict_success.1 hv
    simp [e2] at hv
  | .leaf _ n r =>
    rw [pTree] at h
    exact hd n r seen t' s' (hP n (by simp [GoalTree.tops])) hg h
  | .path _ n r _ =>
    rw [pTree] at h
    exact hd n r seen t' s' (hP n (by simp [GoalTree.tops])) hg h

theorem pOr_stale {d : Descend} (hd : Stale H P u g d) (ts : List GoalTree) (seen : List Nat) (ps : List GoalTree) (b : Bool) (s' : List Nat)
    (hf : ShapedList ts) (hP : ∀ m ∈ topsList ts, Ok H P m) (hg : g ∈ seen) (h : pOr d ts seen = .ok (ps, b, s')) :
    g ∈ s' ∧ b = false ∧ inAny u ps = false := by
  match ts with
  | [] => rw [pOr] at h; cases h; exact ⟨hg, rfl, rfl⟩
  | t :: ts =>
    rw [pOr] at h
    obtain ⟨⟨a, c⟩, h1, h⟩ := Res.bind_eq_ok.1 h
    rw [ShapedList] at hf
    obtain ⟨e1, e2, e3⟩ := pTree_stale hd t seen a c hf.1 (fun m hm => hP m (by simp [topsList, hm])) hg h1
    dsimp only at h
    rw [if_neg e2] at h
    obtain ⟨⟨a', b', c'⟩, h2, h⟩ := Res.bind_eq_ok.1 h
    cases h
    obtain ⟨f1, rfl, f3⟩ := pOr_stale hd ts c a' b' c' hf.2 (fun m hm => hP m (by simp [topsList, hm])) e1 h2
    exact ⟨f1, rfl, by rw [inAny, e3, f3]; rfl⟩
end

/-- The user has not been visited by either, and both have done the same; or both have visited them, and the search succeeds exactly when the
expansion has them in its set. -/
def Beside (u : Entity) (g : Nat) (a b : GoalTree × List Nat) : Prop :=
  b.1.result ≠ .success ∧ ((a = b ∧ g ∉ b.2 ∧ inSet u b.1 = false) ∨ (g ∈ a.2 ∧ g ∈ b.2 ∧ (a.1.result = .success ↔ inSet u b.1 = true)))
def BesideOr (u : Entity) (g : Nat) (a b : List GoalTree × Bool × List Nat) : Prop :=
  b.2.1 = false ∧ ((a = b ∧ g ∉ b.2.2 ∧ inAny u b.1 = false) ∨ (g ∈ a.2.2 ∧ g ∈ b.2.2 ∧ (a.2.1 = true ↔ inAny u b.1 = true)))

def Meets (H : String → Nat) (P : RelationNode → Prop) (u : Entity) (g : Nat) (d d' : Descend) : Prop :=
  ∀ n r seen a b, Ok H P n → g ∉ seen → d n r seen = .ok a → d' n r seen = .ok b → Beside u g a b

mutual
theorem pTree_meets {d d' : Descend} (h1 : Stale H P u g d) (h2 : Stale H P u g d') (h3 : Meets H P u g d d') (t : GoalTree) (seen : List Nat)
    (a b : GoalTree × List Nat) (hf : Shaped t) (hP : ∀ m ∈ t.tops, Ok H P m) (hg : g ∉ seen) (ha : pTree d t seen = .ok a)
    (hb : pTree d' t seen = .ok b) : Beside u g a b := by
  match t with
  | .or _ ps =>
    rw [pTree] at ha hb
    obtain ⟨a, ha', ha⟩ := Res.bind_eq_ok.1 ha
    obtain ⟨b, hb', hb⟩ := Res.bind_eq_ok.1 hb
    rw [Shaped] at hf
    obtain ⟨e1, e2⟩ := pOr_meets h1 h2 h3 ps seen a b hf (by simpa [GoalTree.tops] using hP) hg ha' hb'
    cases ha; cases hb
    refine ⟨by simp [GoalTree.result, e1, verdict], ?_⟩
    rcases e2 with ⟨rfl, e3, e4⟩ | ⟨e3, e4, e5⟩
    · exact .inl ⟨rfl, e3, by rw [inSet]; exact e4⟩
    · refine .inr ⟨e3, e4, ?_⟩
      rw [inSet, ← e5]
      cases a.2.1 <;> simp [GoalTree.result, verdict]
  | .and _ [l, r] =>
    rw [pTree, pAnd] at ha hb
    rw [Shaped] at hf
    obtain ⟨a, ha', ha⟩ := Res.bind_eq_ok.1 ha
    obtain ⟨b, hb', hb⟩ := Res.bind_eq_ok.1 hb
    cases ha; cases hb
    obtain ⟨a', ha1, ha'⟩ := Res.bind_eq_ok.1 ha'
    obtain ⟨b', hb1, hb'⟩ := Res.bind_eq_ok.1 hb'
    obtain ⟨e1, e2⟩ := pTree_meets h1 h2 h3 l seen a' b' hf.1.2 (fun m hm => hP m (by simp [GoalTree.tops, topsList, hm])) hg ha1 hb1
    obtain ⟨a1, a2⟩ := a'
    obtain ⟨b1, b2⟩ := b'
    dsimp only at e1 e2 ha' hb'
    have eb := failure_of (pTree_known hf.1.1 hb1) e1
    rw [if_pos eb] at hb'
    cases hb'
    refine ⟨by nofun, ?_⟩
    rcases e2 with ⟨e, e3, e4⟩ | ⟨e3, e4, e5⟩
    · cases e
      rw [if_pos eb] at ha'
      cases ha'
      exact .inl ⟨rfl, e3, by simp [inSet, inAll, e4]⟩
    · right
      by_cases hs : a1.result = .failure
      · rw [if_pos hs] at ha'
        cases ha'
        have : inSet u b1 = false := by rw [← Bool.not_eq_true, ← e5, hs]; nofun
        exact ⟨e3, e4, by simp [inSet, inAll, this, GoalTree.result, verdict]⟩
      · rw [if_neg hs, pAnd] at ha'
        obtain ⟨a'', ha2, ha'⟩ := Res.bind_eq_ok.1 ha'
        cases ha'
        obtain ⟨⟨a3, a4⟩, ha3, ha2⟩ := Res.bind_eq_ok.1 ha2
        obtain ⟨f1, f2, f3⟩ := pTree_stale h1 r a2 a3 a4 hf.2.2 (fun m hm => hP m (by simp [GoalTree.tops, topsList, hm])) e3 ha3
        dsimp only at ha2
        rw [if_pos (failure_of (pTree_known hf.2.1 ha3) f2)] at ha2
        cases ha2
        refine ⟨f1, e4, ?_⟩
        have hr := inSet_shaped (u := u) r hf.2.2
        simp [inSet, inAll, hr, GoalTree.result, verdict]
  | .and _ [] => rw [Shaped] at hf; exact hf.elim; all_goals nofun
  | .and _ [_] => rw [Shaped] at hf; exact hf.elim; all_goals nofun
  | .and _ (_ :: _ :: _ :: _) => rw [Shaped] at hf; exact hf.elim; all_goals nofun
  | .diff _ l r =>
    rw [pTree] at ha hb
    rw [Shaped] at hf
    obtain ⟨⟨a1, a2⟩, ha1, ha⟩ := Res.bind_eq_ok.1 ha
    obtain ⟨⟨b1, b2⟩, hb1, hb⟩ := Res.bind_eq_ok.1 hb
    obtain ⟨⟨a3, a4⟩, ha3, ha⟩ := Res.bind_eq_ok.1 ha
    obtain ⟨⟨b3, b4⟩, hb3, hb⟩ := Res.bind_eq_ok.1 hb
    cases ha; cases hb
    have hPl : ∀ m ∈ l.tops, Ok H P m := fun m hm => hP m (by simp [GoalTree.tops, hm])
    have hPr : ∀ m ∈ r.tops, Ok H P m := fun m hm => hP m (by simp [GoalTree.tops, hm])
    obtain ⟨e1, e2⟩ := pTree_meets h1 h2 h3 l seen _ _ hf.1.2 hPl hg ha1 hb1
    dsimp only at e1 e2 ha3 hb3
    refine ⟨fun hv => ?_, ?_⟩
    · have hv := verdict_success.1 hv
      simp [e1] at hv
    rcases e2 with ⟨e, e3, e4⟩ | ⟨e3, e4, e5⟩
    · cases e
      obtain ⟨f1, f2⟩ := pTree_meets h1 h2 h3 r a2 _ _ hf.2.2 hPr e3 ha3 hb3
      dsimp only at f1 f2
      rcases f2 with ⟨f, f3, f4⟩ | ⟨f3, f4, f5⟩
      · cases f
        exact .inl ⟨rfl, f3, by simp [inSet, e4]⟩
      · refine .inr ⟨f3, f4, verdict_success.trans ?_⟩
        simp [inSet, e4, e1]
    · obtain ⟨f1, f2, f3⟩ := pTree_stale h1 r a2 a3 a4 hf.2.2 hPr e3 ha3
      obtain ⟨g1, g2, g3⟩ := pTree_stale h2 r b2 b3 b4 hf.2.2 hPr e4 hb3
      have := failure_of (pTree_known hf.2.1 ha3) f2
      refine .inr ⟨f1, g1, verdict_success.trans ?_⟩
      simp [inSet, g3, this, e5]
  | .leaf _ n r =>
    rw [pTree] at ha hb
    exact h3 n r seen a b (hP n (by simp [GoalTree.tops])) hg ha hb
  | .path _ n r _ =>
    rw [pTree] at ha hb
    exact h3 n r seen a b (hP n (by simp [GoalTree.tops])) hg ha hb

theorem pOr_meets {d d' : Descend} (h1 : Stale H P u g d) (h2 : Stale H P u g d') (h3 : Meets H P u g d d') (ts : List GoalTree) (seen : List Nat)
    (a b : List GoalTree × Bool × List Nat) (hf : ShapedList ts) (hP : ∀ m ∈ topsList ts, Ok H P m) (hg : g ∉ seen) (ha : pOr d ts seen = .ok a)
    (hb : pOr d' ts seen = .ok b) : BesideOr u g a b := by
  match ts with
  | [] =>
    rw [pOr] at ha hb
    cases ha; cases hb
    exact ⟨rfl, .inl ⟨rfl, hg, rfl⟩⟩
  | t :: ts =>
    rw [pOr] at ha hb
    rw [ShapedList] at hf
    have hPt : ∀ m ∈ t.tops, Ok H P m := fun m hm => hP m (by simp [topsList, hm])
    have hPs : ∀ m ∈ topsList ts, Ok H P m := fun m hm => hP m (by simp [topsList, hm])
    obtain ⟨⟨a1, a2⟩, ha1, ha⟩ := Res.bind_eq_ok.1 ha
    obtain ⟨⟨b1, b2⟩, hb1, hb⟩ := Res.bind_eq_ok.1 hb
    obtain ⟨e1, e2⟩ := pTree_meets h1 h2 h3 t seen _ _ hf.1 hPt hg ha1 hb1
    dsimp only at e1 e2 ha hb
    rw [if_neg e1] at hb
    obtain ⟨⟨b3, b4, b5⟩, hb3, hb⟩ := Res.bind_eq_ok.1 hb
    cases hb
    rcases e2 with ⟨e, e3, e4⟩ | ⟨e3, e4, e5⟩
    · cases e
      rw [if_neg e1] at ha
      obtain ⟨⟨a3, a4, a5⟩, ha3, ha⟩ := Res.bind_eq_ok.1 ha
      cases ha
      obtain ⟨f1, f2⟩ := pOr_meets h1 h2 h3 ts a2 _ _ hf.2 hPs e3 ha3 hb3
      dsimp only at f1 f2
      refine ⟨f1, ?_⟩
      rcases f2 with ⟨f, f3, f4⟩ | ⟨f3, f4, f5⟩
      · cases f
        exact .inl ⟨rfl, f3, by simp [inAny, e4, f4]⟩
      · exact .inr ⟨f3, f4, by simpa [inAny, e4] using f5⟩
    · obtain ⟨g1, g2, g3⟩ := pOr_stale h2 ts b2 _ _ _ hf.2 hPs e4 hb3
      refine ⟨g2, .inr ?_⟩
      by_cases hs : a1.result = .success
      · rw [if_pos hs] at ha
        cases ha
        exact ⟨e3, g1, by simp [inAny, e5.1 hs]⟩
      · rw [if_neg hs] at ha
        obtain ⟨⟨a3, a4, a5⟩, ha3, ha⟩ := Res.bind_eq_ok.1 ha
        cases ha
        obtain ⟨k1, k2, k3⟩ := pOr_stale h1 ts a2 _ _ _ hf.2 hPs e3 ha3
        refine ⟨k1, g1, ?_⟩
        have : inSet u b1 = false := by rw [← Bool.not_eq_true, ← e5]; exact hs
        dsimp only
        simp [inAny, this, g3, k2]
end

/-- A visit that finds the user. -/
theorem found_user (hw : ¬ P (.wildcard u.resource)) {n : RelationNode} {goal : Option RelationNode} (hgoal : goal = none ∨ goal = userGoal u) {b : Bool}
    (hP : P n) (h : goalFound n goal = .ok b) : b = true → n = .entity (some u) := by
  rcases hgoal with rfl | rfl
  · cases h; nofun
  · rintro rfl
    have hn : NodeIn (fun _ => False) u n := (goalFound_user h rfl).2 rfl
    cases n with
    | unset => exact hn.elim
    | entitySet o rel => cases o <;> exact hn.elim
    | wildcard r => cases hn; exact absurd hP hw
    | entity o =>
      cases o with
      | none => exact hn.elim
      | some e => cases hn; rfl

theorem inSet_leaf (hw : ¬ P (.wildcard u.resource)) {n : RelationNode} (hP : P n) (hn : n ≠ .entity (some u)) (r : SearchResult) (reason : String) :
    inSet u (.leaf r n reason) = false := by
  cases r with
  | unknown => rfl
  | _ =>
    simp only [inSet, Bool.or_eq_false_iff, decide_eq_false_iff_not]
    exact ⟨hn, fun h => hw (h ▸ hP)⟩

theorem pPath_stale {build : RelationNode → Res GoalTree} (hw : ¬ P (.wildcard u.resource)) (hg : (RelationNode.entity (some u)).nodeId H = .ok g)
    (hb : ∀ n t, P n → n.isTerminal = false → build n = .ok t → Shaped t ∧ ∀ m ∈ t.tops, Ok H P m)
    {goal : Option RelationNode} (hgoal : goal = none ∨ goal = userGoal u) (fuel : Nat) : Stale H P u g (pPath H build goal fuel) := by
  induction fuel with
  | zero => intro _ _ _ _ _ _ _ h; cases h
  | succ k ih =>
    intro n r seen t' s' hP hs h
    unfold pPath at h
    obtain ⟨id, hid, h⟩ := Res.bind_eq_ok.1 h
    have hP' := hP id hid
    split at h
    · cases h; exact ⟨hs, nofun, rfl⟩
    · next hm =>
      have hn : n ≠ .entity (some u) := by
        rintro rfl
        rw [hg] at hid
        cases hid
        exact hm hs
      obtain ⟨b, hfb, h⟩ := Res.bind_eq_ok.1 h
      have hbf : b = false := by
        rw [← Bool.not_eq_true]
        exact fun hb => hn (found_user hw hgoal hP' hfb hb)
      subst hbf
      split at h
      · cases h
        exact ⟨List.mem_cons_of_mem _ hs, nofun, inSet_leaf hw hP' hn _ _⟩
      · next hterm =>
        obtain ⟨t, ht, h⟩ := Res.bind_eq_ok.1 h
        obtain ⟨⟨t1, s1⟩, h1, h⟩ := Res.bind_eq_ok.1 h
        cases h
        obtain ⟨f1, f2⟩ := hb n t hP' (by simpa using hterm) ht
        obtain ⟨e1, e2, e3⟩ := pTree_stale ih t _ _ _ f1 f2 (List.mem_cons_of_mem _ hs) h1
        exact ⟨e1, e2, by rw [inSet]; exact e3⟩

/-- The search for the user and the walk of Expand. -/
theorem pPath_meets {build : RelationNode → Res GoalTree} (hw : ¬ P (.wildcard u.resource)) (hg : (RelationNode.entity (some u)).nodeId H = .ok g)
    (hi : ∀ n, P n → n.nodeId H = .ok g → n = .entity (some u))
    (hb : ∀ n t, P n → n.isTerminal = false → build n = .ok t → Shaped t ∧ ∀ m ∈ t.tops, Ok H P m) (fuel fuel' : Nat) :
    Meets H P u g (pPath H build (userGoal u) fuel) (pPath H build none fuel') := by
  induction fuel generalizing fuel' with
  | zero => intro _ _ _ _ _ _ _ h; cases h
  | succ k ih =>
    cases fuel' with
    | zero => intro _ _ _ _ _ _ _ _ h; cases h
    | succ k' =>
      intro n r seen a b hP hs ha hb'
      unfold pPath at ha hb'
      obtain ⟨id, hid, ha⟩ := Res.bind_eq_ok.1 ha
      rw [hid, Res.bind_ok] at hb'
      have hP' := hP id hid
      by_cases hm : id ∈ seen
      · rw [if_pos hm] at ha hb'
        cases ha; cases hb'
        exact ⟨nofun, .inl ⟨rfl, hs, rfl⟩⟩
      · rw [if_neg hm] at ha hb'
        obtain ⟨f, hf, ha⟩ := Res.bind_eq_ok.1 ha
        obtain ⟨f', hf', hb'⟩ := Res.bind_eq_ok.1 hb'
        cases hf'
        by_cases hn : n = .entity (some u)
        · subst hn
          rw [hg] at hid
          cases hid
          have : f = true := by
            have : goalFound (.entity (some u)) (userGoal u) = .ok (decide (u.resource = u.resource) && decide (u.id = u.id)) := rfl
            rw [this] at hf
            simpa using hf.symm
          subst this
          cases ha; cases hb'
          exact ⟨nofun, .inr ⟨List.mem_cons_self, List.mem_cons_self, by simp [inSet, GoalTree.result, verdict]⟩⟩
        · have hff : f = false := by
            rw [← Bool.not_eq_true]
            exact fun hb => hn (found_user hw (.inr rfl) hP' hf hb)
          subst hff
          have hgs : g ∉ id :: seen := by
            rw [List.mem_cons]
            rintro (rfl | h)
            · exact hn (hi n hP' hid)
            · exact hs h
          by_cases ht : n.isTerminal = true
          · rw [if_pos (by simp [ht])] at ha hb'
            cases ha; cases hb'
            exact ⟨nofun, .inl ⟨rfl, hgs, inSet_leaf hw hP' hn _ _⟩⟩
          · rw [if_neg (by simpa using ht)] at ha hb'
            obtain ⟨t, hbt, ha⟩ := Res.bind_eq_ok.1 ha
            rw [hbt, Res.bind_ok] at hb'
            obtain ⟨⟨a1, a2⟩, ha1, ha⟩ := Res.bind_eq_ok.1 ha
            obtain ⟨⟨b1, b2⟩, hb1, hb'⟩ := Res.bind_eq_ok.1 hb'
            cases ha; cases hb'
            obtain ⟨f1, f2⟩ := hb n t hP' (by simpa using ht) hbt
            obtain ⟨e1, e2⟩ := pTree_meets (pPath_stale hw hg hb (.inr rfl) k) (pPath_stale hw hg hb (.inl rfl) k') (ih k') t _ _ _ f1 f2 hgs ha1 hb1
            dsimp only at e1 e2
            refine ⟨e1, ?_⟩
            rcases e2 with ⟨e, e3, e4⟩ | ⟨e3, e4, e5⟩
            · cases e
              exact .inl ⟨rfl, e3, by rw [inSet]; exact e4⟩
            · exact .inr ⟨e3, e4, by rw [inSet]; exact e5⟩
end


/-! ### Unions only -/

mutual
/-- Only unions, and usersets where nodes are expanded. -/
def OrShape : GoalTree → Prop
  | .or _ ps => OrShapes ps
  | .and _ _ => False
  | .diff _ _ _ => False
  | .leaf _ _ _ => True
  | .path _ n _ c => n.isTerminal = false ∧ OrShape c
def OrShapes : List GoalTree → Prop
  | [] => True
  | t :: ts => OrShape t ∧ OrShapes ts
end

mutual
theorem orShape_of (t : GoalTree) (h : Shaped t) (hp : t.Plain false) : OrShape t := by
  match t with
  | .or _ ps => rw [Shaped] at h; rw [GoalTree.Plain] at hp; rw [OrShape]; exact orShapes_of ps h hp
  | .and _ _ => rw [GoalTree.Plain] at hp; exact hp.elim
  | .diff _ _ _ => rw [GoalTree.Plain] at hp; cases hp.1
  | .leaf _ _ _ => rw [OrShape]; trivial
  | .path _ _ _ _ => rw [Shaped] at h; exact h.elim
theorem orShapes_of (ts : List GoalTree) (h : ShapedList ts) (hp : PlainList false ts) : OrShapes ts := by
  match ts with
  | [] => rw [OrShapes]; trivial
  | t :: ts => rw [ShapedList] at h; rw [PlainList] at hp; rw [OrShapes]; exact ⟨orShape_of t h.1 hp.1, orShapes_of ts h.2 hp.2⟩
end

mutual
theorem pTree_orShape {H : String → Nat} {P : RelationNode → Prop} {d : Descend}
    (hd : ∀ n r seen t' s', Ok H P n → d n r seen = .ok (t', s') → OrShape t') (t : GoalTree) (seen : List Nat) (t' : GoalTree) (s' : List Nat)
    (h : OrShape t) (hP : ∀ m ∈ t.tops, Ok H P m) (h' : pTree d t seen = .ok (t', s')) : OrShape t' := by
  match t with
  | .or _ ps =>
    rw [pTree] at h'
    obtain ⟨⟨a, b, c⟩, h1, h'⟩ := Res.bind_eq_ok.1 h'
    cases h'
    rw [OrShape] at h ⊢
    exact pOr_orShape hd ps seen _ _ _ h (by simpa [GoalTree.tops] using hP) h1
  | .and _ _ => rw [OrShape] at h; exact h.elim
  | .diff _ _ _ => rw [OrShape] at h; exact h.elim
  | .leaf _ n r => rw [pTree] at h'; exact hd n r seen t' s' (hP n (by simp [GoalTree.tops])) h'
  | .path _ n r _ => rw [pTree] at h'; exact hd n r seen t' s' (hP n (by simp [GoalTree.tops])) h'
theorem pOr_orShape {H : String → Nat} {P : RelationNode → Prop} {d : Descend}
    (hd : ∀ n r seen t' s', Ok H P n → d n r seen = .ok (t', s') → OrShape t') (ts : List GoalTree) (seen : List Nat) (ps : List GoalTree) (b : Bool)
    (s' : List Nat) (h : OrShapes ts) (hP : ∀ m ∈ topsList ts, Ok H P m) (h' : pOr d ts seen = .ok (ps, b, s')) : OrShapes ps := by
  match ts with
  | [] => rw [pOr] at h'; cases h'; exact h
  | t :: ts =>
    rw [pOr] at h'
    obtain ⟨⟨a, c⟩, h1, h'⟩ := Res.bind_eq_ok.1 h'
    rw [OrShapes] at h
    have e1 := pTree_orShape hd t seen _ _ h.1 (fun m hm => hP m (by simp [topsList, hm])) h1
    dsimp only at h'
    split at h'
    · cases h'; rw [OrShapes]; exact ⟨e1, h.2⟩
    · obtain ⟨⟨a', b', c'⟩, h2, h'⟩ := Res.bind_eq_ok.1 h'
      cases h'
      rw [OrShapes]
      exact ⟨e1, pOr_orShape hd ts c _ _ _ h.2 (fun m hm => hP m (by simp [topsList, hm])) h2⟩
end

theorem pPath_orShape {H : String → Nat} {P : RelationNode → Prop} {build : RelationNode → Res GoalTree} {goal : Option RelationNode}
    (hb : ∀ n t, P n → n.isTerminal = false → build n = .ok t → OrShape t ∧ ∀ m ∈ t.tops, Ok H P m) (fuel : Nat) :
    ∀ n r seen t' s', Ok H P n → pPath H build goal fuel n r seen = .ok (t', s') → OrShape t' := by
  induction fuel with
  | zero => intro _ _ _ _ _ _ h; cases h
  | succ k ih =>
    intro n r seen t' s' hP h
    unfold pPath at h
    obtain ⟨id, hid, h⟩ := Res.bind_eq_ok.1 h
    split at h
    · cases h; rw [OrShape]; trivial
    · obtain ⟨b, hfb, h⟩ := Res.bind_eq_ok.1 h
      split at h
      · cases h; rw [OrShape]; trivial
      · next hterm =>
        have hterm : n.isTerminal = false := by
          simp only [Bool.or_eq_true, not_or, Bool.not_eq_true] at hterm
          exact hterm.2
        obtain ⟨t, ht, h⟩ := Res.bind_eq_ok.1 h
        obtain ⟨⟨t1, s1⟩, h1, h⟩ := Res.bind_eq_ok.1 h
        cases h
        obtain ⟨f1, f2⟩ := hb n t (hP id hid) hterm ht
        rw [OrShape]
        exact ⟨hterm, pTree_orShape ih t _ _ _ f1 f2 h1⟩

mutual
/-- In a tree of unions, whoever is shown is in the set. -/
theorem inSet_settled {u : Entity} (t : GoalTree) (h : OrShape t) : inSet u t = true ↔ ∃ n ∈ settled t, Names u n := by
  match t with
  | .or _ ps => rw [OrShape] at h; rw [inSet, settled]; exact inAny_settled ps h
  | .and _ _ => rw [OrShape] at h; exact h.elim
  | .diff _ _ _ => rw [OrShape] at h; exact h.elim
  | .leaf .unknown _ _ => simp [inSet, settled]
  | .leaf .success _ _ => simp [inSet, settled, Names]
  | .leaf .failure _ _ => simp [inSet, settled, Names]
  | .path _ n _ c =>
    rw [OrShape] at h
    rw [inSet, settled, inSet_settled c h.2]
    have hn : ¬ Names u n := by rintro (rfl | rfl) <;> cases h.1
    simp [hn]
theorem inAny_settled {u : Entity} (ts : List GoalTree) (h : OrShapes ts) : inAny u ts = true ↔ ∃ n ∈ settledList ts, Names u n := by
  match ts with
  | [] => simp [inAny, settledList]
  | t :: ts =>
    rw [OrShapes] at h
    rw [inAny, Bool.or_eq_true, inSet_settled t h.1, inAny_settled ts h.2]
    simp only [settledList, List.mem_append]
    constructor
    · rintro (⟨n, h1, h2⟩ | ⟨n, h1, h2⟩)
      · exact ⟨n, .inl h1, h2⟩
      · exact ⟨n, .inr h1, h2⟩
    · rintro ⟨n, h1 | h1, h2⟩
      · exact .inl ⟨n, h1, h2⟩
      · exact .inr ⟨n, h1, h2⟩
end

end Zanzi
