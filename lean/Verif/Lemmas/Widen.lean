import Verif.Spec.Widen
import Verif.Props.Grants
import Verif.Props.Search
import Verif.Lemmas.RelySem

/-
Searches that do not come back to where they started (C103).
-/

namespace Zanzi

open Spec

/-- A step of a search that agrees with another once `i` was visited, and does not forget it. -/
def Follow (i : Nat) (a b : Res (GoalTree × List Nat)) : Prop := a = b ∧ ∀ t seen, a = .ok (t, seen) → i ∈ seen

def FollowList (i : Nat) (a b : Res (List GoalTree × Bool × List Nat)) : Prop := a = b ∧ ∀ ts v seen, a = .ok (ts, v, seen) → i ∈ seen

section
variable {i : Nat} {d d' : Descend} {P : RelationNode → Prop}

mutual
theorem pTree_follow (h : ∀ n r seen, P n → i ∈ seen → Follow i (d n r seen) (d' n r seen)) (t : GoalTree) (seen : List Nat) (hs : i ∈ seen)
    (ht : ∀ n ∈ t.tops, P n) : Follow i (pTree d t seen) (pTree d' t seen) := by
  match t with
  | .or _ ps =>
    obtain ⟨h1, h2⟩ := pOr_follow h ps seen hs (by simpa [GoalTree.tops] using ht)
    rw [pTree, pTree, h1]
    refine ⟨rfl, fun t seen' he => ?_⟩
    obtain ⟨⟨a, b, c⟩, h3, h4⟩ := Res.bind_eq_ok.1 he
    cases h4
    exact h2 _ _ _ (h1.trans h3)
  | .and _ ps =>
    obtain ⟨h1, h2⟩ := pAnd_follow h ps seen hs (by simpa [GoalTree.tops] using ht)
    rw [pTree, pTree, h1]
    refine ⟨rfl, fun t seen' he => ?_⟩
    obtain ⟨⟨a, b, c⟩, h3, h4⟩ := Res.bind_eq_ok.1 he
    cases h4
    exact h2 _ _ _ (h1.trans h3)
  | .diff _ l r =>
    have hl : ∀ n ∈ l.tops, P n := fun n hn => ht n (by simp [GoalTree.tops, hn])
    have hr : ∀ n ∈ r.tops, P n := fun n hn => ht n (by simp [GoalTree.tops, hn])
    obtain ⟨h1, h2⟩ := pTree_follow h l seen hs hl
    rw [pTree, pTree, ← h1]
    cases hd : pTree d l seen with
    | ok p =>
      obtain ⟨t1, s1⟩ := p
      obtain ⟨h3, h4⟩ := pTree_follow h r s1 (h2 _ _ hd) hr
      simp only [Res.bind_ok, h3]
      refine ⟨rfl, fun t seen' he => ?_⟩
      obtain ⟨⟨a, b⟩, h5, h6⟩ := Res.bind_eq_ok.1 he
      cases h6
      exact h4 _ _ (h3.trans h5)
    | _ => exact ⟨rfl, nofun⟩
  | .leaf _ n r => rw [pTree, pTree]; exact h n r seen (ht n (by simp [GoalTree.tops])) hs
  | .path _ n r _ => rw [pTree, pTree]; exact h n r seen (ht n (by simp [GoalTree.tops])) hs

theorem pOr_follow (h : ∀ n r seen, P n → i ∈ seen → Follow i (d n r seen) (d' n r seen)) (ts : List GoalTree) (seen : List Nat) (hs : i ∈ seen)
    (ht : ∀ n ∈ topsList ts, P n) : FollowList i (pOr d ts seen) (pOr d' ts seen) := by
  match ts with
  | [] => rw [pOr, pOr]; exact ⟨rfl, fun _ _ _ he => by cases he; exact hs⟩
  | t :: ts =>
    have hl : ∀ n ∈ t.tops, P n := fun n hn => ht n (by simp [topsList, hn])
    have hr : ∀ n ∈ topsList ts, P n := fun n hn => ht n (by simp [topsList, hn])
    obtain ⟨h1, h2⟩ := pTree_follow h t seen hs hl
    rw [pOr, pOr, ← h1]
    cases hd : pTree d t seen with
    | ok p =>
      obtain ⟨t1, s1⟩ := p
      simp only [Res.bind_ok]
      split
      · exact ⟨rfl, fun _ _ _ he => by cases he; exact h2 _ _ hd⟩
      · obtain ⟨h3, h4⟩ := pOr_follow h ts s1 (h2 _ _ hd) hr
        rw [h3]
        refine ⟨rfl, fun t v seen' he => ?_⟩
        obtain ⟨⟨a, b, c⟩, h5, h6⟩ := Res.bind_eq_ok.1 he
        cases h6
        exact h4 _ _ _ (h3.trans h5)
    | _ => exact ⟨rfl, nofun⟩

theorem pAnd_follow (h : ∀ n r seen, P n → i ∈ seen → Follow i (d n r seen) (d' n r seen)) (ts : List GoalTree) (seen : List Nat) (hs : i ∈ seen)
    (ht : ∀ n ∈ topsList ts, P n) : FollowList i (pAnd d ts seen) (pAnd d' ts seen) := by
  match ts with
  | [] => rw [pAnd, pAnd]; exact ⟨rfl, fun _ _ _ he => by cases he; exact hs⟩
  | t :: ts =>
    have hl : ∀ n ∈ t.tops, P n := fun n hn => ht n (by simp [topsList, hn])
    have hr : ∀ n ∈ topsList ts, P n := fun n hn => ht n (by simp [topsList, hn])
    obtain ⟨h1, h2⟩ := pTree_follow h t seen hs hl
    rw [pAnd, pAnd, ← h1]
    cases hd : pTree d t seen with
    | ok p =>
      obtain ⟨t1, s1⟩ := p
      simp only [Res.bind_ok]
      split
      · exact ⟨rfl, fun _ _ _ he => by cases he; exact h2 _ _ hd⟩
      · obtain ⟨h3, h4⟩ := pAnd_follow h ts s1 (h2 _ _ hd) hr
        rw [h3]
        refine ⟨rfl, fun t v seen' he => ?_⟩
        obtain ⟨⟨a, b, c⟩, h5, h6⟩ := Res.bind_eq_ok.1 he
        cases h6
        exact h4 _ _ _ (h3.trans h5)
    | _ => exact ⟨rfl, nofun⟩
end

end

/-- Below a visited node a search does not depend on the tree of that node. -/
theorem pPath_follow {H : String → Nat} {build build' : RelationNode → Res GoalTree} {goal : Option RelationNode} {P : RelationNode → Prop} {i : Nat}
    (hb : ∀ n id, P n → n.isTerminal = false → n.nodeId H = .ok id → (id ≠ i → build n = build' n) ∧ ∀ t, build n = .ok t → ∀ m ∈ t.tops, Ok H P m) (fuel : Nat) :
    ∀ n r seen, Ok H P n → i ∈ seen → Follow i (pPath H build goal fuel n r seen) (pPath H build' goal fuel n r seen) := by
  induction fuel with
  | zero => intro n r seen _ _; exact ⟨rfl, nofun⟩
  | succ k ih =>
    intro n r seen hn hi
    unfold pPath
    cases hid : n.nodeId H with
    | ok id =>
      simp only [Res.bind_ok]
      split
      · exact ⟨rfl, fun _ _ he => by cases he; exact hi⟩
      · next hns =>
        cases hg : goalFound n goal with
        | ok b =>
          simp only [Res.bind_ok]
          split
          · exact ⟨rfl, fun _ _ he => by cases he; exact List.mem_cons_of_mem _ hi⟩
          · next hterm =>
            obtain ⟨h1, h2⟩ := hb n id (hn id hid) (by simp at hterm; exact hterm.2) hid
            have h1 := h1 (fun he => hns (he ▸ hi))
            cases hbn : build n with
            | ok t =>
              rw [← h1, hbn]
              simp only [Res.bind_ok]
              obtain ⟨h3, h4⟩ := pTree_follow ih t (id :: seen) (List.mem_cons_of_mem _ hi) (h2 t hbn)
              rw [h3]
              refine ⟨rfl, fun t seen' he => ?_⟩
              obtain ⟨⟨a, b⟩, h5, h6⟩ := Res.bind_eq_ok.1 he
              cases h6
              exact h4 _ _ (h3.trans h5)
            | _ => rw [← h1, hbn]; exact ⟨rfl, nofun⟩
        | _ => exact ⟨rfl, nofun⟩
    | _ => exact ⟨rfl, nofun⟩

section
variable {env : Env} {s : Store} {pid : String}

/-- Stored subjects are set. -/
theorem succs_set (hs : WF env s) (x : USet) : RelationNode.unset ∉ succs env.H s pid x := by
  intro h
  obtain ⟨r, sub, h1, h2, h3⟩ := mem_succs_present h
  obtain ⟨sub', h4, h5⟩ := hs.subject_proper h1
  rw [h2] at h4
  cases h4
  rw [← h3] at h5
  exact h5

/-- The tree of a whole expression of known rules is built. -/
theorem pBuild_of_whole (hs : WF env s) {x : USet} {e : ExprTree} (hw : Whole e) (hr : ∀ r ∈ leaves e, r ≠ .unset) : ∃ t, pBuild env.H s pid x e = .ok t := by
  induction e with
  | nil => exact hw.elim
  | unset => exact hw.elim
  | rule r =>
    have : ∃ ns, ruleNodes env.H s pid x r = .ok ns := by
      cases r with
      | unset => exact absurd rfl (hr _ (by simp [leaves]))
      | this => exact ⟨_, rfl⟩
      | cu _ => exact ⟨_, rfl⟩
      | ttu a b =>
        have : ∀ l : List RelationNode, .unset ∉ l → ∃ ns, mapSliceErr (buildTtuNode b) l = .ok ns := by
          intro l
          induction l with
          | nil => intro _; exact ⟨_, rfl⟩
          | cons n l ih =>
            intro h
            simp only [List.mem_cons, not_or] at h
            obtain ⟨ns, hns⟩ := ih h.2
            unfold mapSliceErr
            cases n with
            | unset => exact absurd rfl h.1
            | _ => rw [hns]; exact ⟨_, rfl⟩
        exact this _ (succs_set hs _)
    obtain ⟨ns, hns⟩ := this
    unfold pBuild
    rw [hns]
    exact ⟨_, rfl⟩
  | op l o r ihl ihr =>
    obtain ⟨a, ha⟩ := ihl hw.2.1 (fun r h => hr r (List.mem_append_left _ h))
    obtain ⟨b, hb⟩ := ihr hw.2.2 (fun r h => hr r (List.mem_append_right _ h))
    unfold pBuild
    rw [ha, hb]
    cases o
    · exact ⟨_, rfl⟩
    · exact ⟨_, rfl⟩
    · exact ⟨_, rfl⟩
    · exact absurd rfl hw.1

end

end Zanzi
