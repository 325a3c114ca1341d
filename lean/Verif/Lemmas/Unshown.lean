import Verif.Spec.Explain
import Verif.Lemmas.Term
import Verif.Lemmas.CheckSem

/-
Lemmas for C125: two searches whose goals are told apart by none of the nodes settled are the same.
-/

namespace Zanzi

open Spec

/-- What `d` finds while settling only nodes of `G`, `d'` finds too. -/
def Shadows (G : RelationNode → Prop) (d d' : Descend) : Prop :=
  ∀ n r seen t seen', d n r seen = .ok (t, seen') → (∀ m ∈ settled t, G m) → d' n r seen = .ok (t, seen')

section
variable {G : RelationNode → Prop} {d d' : Descend}

mutual
theorem pTree_shadows (hd : Shadows G d d') (t : GoalTree) (seen : List Nat) (t' : GoalTree) (seen' : List Nat) (h : pTree d t seen = .ok (t', seen'))
    (hg : ∀ m ∈ settled t', G m) : pTree d' t seen = .ok (t', seen') := by
  match t with
  | .or _ ps =>
    unfold pTree at h ⊢
    obtain ⟨⟨a, b, c⟩, h1, h2⟩ := Res.bind_eq_ok.1 h
    cases h2
    rw [settled] at hg
    rw [pOr_shadows hd _ _ _ _ _ h1 hg]
    rfl
  | .and _ ps =>
    unfold pTree at h ⊢
    obtain ⟨⟨a, b, c⟩, h1, h2⟩ := Res.bind_eq_ok.1 h
    cases h2
    rw [settled] at hg
    rw [pAnd_shadows hd _ _ _ _ _ h1 hg]
    rfl
  | .diff _ l r =>
    unfold pTree at h ⊢
    obtain ⟨⟨a, b⟩, h1, h2⟩ := Res.bind_eq_ok.1 h
    obtain ⟨⟨c, e⟩, h3, h4⟩ := Res.bind_eq_ok.1 h2
    cases h4
    rw [settled] at hg
    rw [pTree_shadows hd _ _ _ _ h1 (fun m hm => hg m (List.mem_append_left _ hm))]
    simp only [Res.bind_ok, pTree_shadows hd _ _ _ _ h3 (fun m hm => hg m (List.mem_append_right _ hm))]
    rfl
  | .leaf _ _ _ =>
    unfold pTree at h ⊢
    exact hd _ _ _ _ _ h hg
  | .path _ _ _ _ =>
    unfold pTree at h ⊢
    exact hd _ _ _ _ _ h hg

theorem pOr_shadows (hd : Shadows G d d') (ts : List GoalTree) (seen : List Nat) (ts' : List GoalTree) (b : Bool) (seen' : List Nat)
    (h : pOr d ts seen = .ok (ts', b, seen')) (hg : ∀ m ∈ settledList ts', G m) : pOr d' ts seen = .ok (ts', b, seen') := by
  match ts with
  | [] =>
    unfold pOr at h ⊢
    exact h
  | t :: ts =>
    unfold pOr at h ⊢
    obtain ⟨⟨a, b⟩, h1, h2⟩ := Res.bind_eq_ok.1 h
    dsimp only at h2
    split at h2
    · next hr =>
      cases h2
      rw [settledList] at hg
      rw [pTree_shadows hd _ _ _ _ h1 (fun m hm => hg m (List.mem_append_left _ hm)), Res.bind_ok]
      dsimp only
      rw [if_pos hr]
      rfl
    · next hr =>
      obtain ⟨⟨c, e, f⟩, h3, h4⟩ := Res.bind_eq_ok.1 h2
      cases h4
      rw [settledList] at hg
      rw [pTree_shadows hd _ _ _ _ h1 (fun m hm => hg m (List.mem_append_left _ hm)), Res.bind_ok]
      dsimp only
      rw [if_neg hr, pOr_shadows hd _ _ _ _ _ h3 (fun m hm => hg m (List.mem_append_right _ hm))]
      rfl

theorem pAnd_shadows (hd : Shadows G d d') (ts : List GoalTree) (seen : List Nat) (ts' : List GoalTree) (b : Bool) (seen' : List Nat)
    (h : pAnd d ts seen = .ok (ts', b, seen')) (hg : ∀ m ∈ settledList ts', G m) : pAnd d' ts seen = .ok (ts', b, seen') := by
  match ts with
  | [] =>
    unfold pAnd at h ⊢
    exact h
  | t :: ts =>
    unfold pAnd at h ⊢
    obtain ⟨⟨a, b⟩, h1, h2⟩ := Res.bind_eq_ok.1 h
    dsimp only at h2
    split at h2
    · next hr =>
      cases h2
      rw [settledList] at hg
      rw [pTree_shadows hd _ _ _ _ h1 (fun m hm => hg m (List.mem_append_left _ hm)), Res.bind_ok]
      dsimp only
      rw [if_pos hr]
      rfl
    · next hr =>
      obtain ⟨⟨c, e, f⟩, h3, h4⟩ := Res.bind_eq_ok.1 h2
      cases h4
      rw [settledList] at hg
      rw [pTree_shadows hd _ _ _ _ h1 (fun m hm => hg m (List.mem_append_left _ hm)), Res.bind_ok]
      dsimp only
      rw [if_neg hr, pAnd_shadows hd _ _ _ _ _ h3 (fun m hm => hg m (List.mem_append_right _ hm))]
      rfl
end
end

theorem pPath_shadows {H : String → Nat} {build : RelationNode → Res GoalTree} {goal goal' : Option RelationNode} {G : RelationNode → Prop}
    (hG : ∀ n id b, G n → n.nodeId H = .ok id → goalFound n goal = .ok b → goalFound n goal' = .ok b) (k : Nat) :
    ∀ k', k ≤ k' → Shadows G (pPath H build goal k) (pPath H build goal' k') := by
  induction k with
  | zero => intro _ _ _ _ _ _ _ h; cases h
  | succ k ih =>
    intro k' hk n r seen t seen' h hg
    obtain ⟨k', rfl⟩ : ∃ j, k' = j + 1 := ⟨k' - 1, by omega⟩
    unfold pPath at h ⊢
    obtain ⟨id, h1, h⟩ := Res.bind_eq_ok.1 h
    rw [h1, Res.bind_ok]
    split at h
    · next hin =>
      cases h
      rw [if_pos hin]
      rfl
    · next hout =>
      rw [if_neg hout]
      obtain ⟨b, h2, h⟩ := Res.bind_eq_ok.1 h
      split at h
      · next hb =>
        cases h
        have hn : G n := hg n (by cases b <;> exact List.mem_singleton.2 rfl)
        simp only [hG n id b hn h1 h2, Res.bind_ok]
        rw [if_pos hb]
        rfl
      · next hb =>
        obtain ⟨tr, h3, h⟩ := Res.bind_eq_ok.1 h
        obtain ⟨⟨tr', seen''⟩, h4, h⟩ := Res.bind_eq_ok.1 h
        cases h
        rw [settled] at hg
        simp only [hG n id b (hg n List.mem_cons_self) h1 h2, Res.bind_ok]
        rw [if_neg hb, h3, Res.bind_ok, pTree_shadows (ih k' (by omega)) _ _ _ _ h4 (fun m hm => hg m (List.mem_cons_of_mem _ hm))]
        rfl

/-- A node that does not name the user is not them. -/
theorem goalFound_unnamed {H : String → Nat} {u : Entity} (n : RelationNode) (id : Nat) (h : ¬ Names u n) (hid : n.nodeId H = .ok id) :
    goalFound n (userGoal u) = .ok false := by
  cases n with
  | entity o =>
    cases o with
    | none => cases hid
    | some o =>
      show Res.ok (decide (u.resource = o.resource) && decide (u.id = o.id)) = Res.ok false
      refine congrArg Res.ok (Bool.eq_false_iff.2 fun hb => h (.inl ?_))
      simp only [Bool.and_eq_true, decide_eq_true_eq] at hb
      cases u; cases o; cases hb.1; cases hb.2; rfl
  | wildcard r =>
    show Res.ok (decide (r = u.resource)) = Res.ok false
    refine congrArg Res.ok (Bool.eq_false_iff.2 fun hb => h (.inr ?_))
    rw [decide_eq_true_eq] at hb
    rw [hb]
  | entitySet _ _ => rfl
  | unset => rfl

/-- A node naming the user is them. -/
theorem goalFound_named {u : Entity} {n : RelationNode} (h : Names u n) : goalFound n (userGoal u) = .ok true := by
  rcases h with rfl | rfl
  · show Res.ok (decide (u.resource = u.resource) && decide (u.id = u.id)) = Res.ok true
    simp
  · show Res.ok (decide (u.resource = u.resource)) = Res.ok true
    simp

def UnshownAt (u : Entity) : Task → Out → Prop
  | .tree t, .tree t' => t.Plain false → t'.result ≠ .success → ∀ m ∈ settled t', ¬ Names u m
  | .or ts, .list ps b => PlainList false ts → b = false → ∀ m ∈ settledList ps, ¬ Names u m
  | .path _ _, .tree t' => t'.result ≠ .success → ∀ m ∈ settled t', ¬ Names u m
  | _, _ => True

/-- With unions only, a search that fails settles no node naming the user. -/
theorem Ev.unshown {H : String → Nat} {build : RelationNode → GoalTree → Prop} {u : Entity}
    (hb : ∀ n t, n.isTerminal = false → build n t → t.Plain false) {k s o s'} (h : Ev H build (userGoal u) k s o s') : UnshownAt u k o := by
  induction h with
  | @or r ps ps' b s s' _ ih =>
    intro hp hr
    rw [GoalTree.Plain] at hp
    rw [settled]
    refine ih hp ?_
    cases b with
    | true => exact absurd rfl hr
    | false => rfl
  | and _ _ => intro hp; rw [GoalTree.Plain] at hp; exact hp.elim
  | diff _ _ _ _ => intro hp; rw [GoalTree.Plain] at hp; cases hp.1
  | leaf _ ih => exact fun _ => ih
  | inner _ ih => exact fun _ => ih
  | orNil => intro _ _ m hm; rw [settledList] at hm; cases hm
  | orStop _ _ _ => intro _ hb; cases hb
  | orGo _ h2 _ ih1 ih2 =>
    intro hp hb' m hm
    rw [PlainList] at hp
    rw [settledList] at hm
    rcases List.mem_append.1 hm with hm | hm
    · exact ih1 hp.1 h2 m hm
    · exact ih2 hp.2 hb' m hm
  | andNil => trivial
  | andStop _ _ _ => trivial
  | andGo _ _ _ _ _ => trivial
  | repeated _ _ => intro _ m hm; rw [settled] at hm; cases hm
  | @ended n reason id b s _ _ h3 _ =>
    intro hr m hm hN
    cases b with
    | true => exact absurd rfl hr
    | false =>
      obtain rfl := List.mem_singleton.1 (show m ∈ [n] from hm)
      rw [goalFound_named hN] at h3
      cases h3
  | @expanded n reason id b t t' s s' _ _ h3 h4 h5 _ ih =>
    intro hr m hm hN
    rw [settled] at hm
    simp only [Bool.or_eq_false_iff] at h4
    rcases List.mem_cons.1 hm with rfl | hm
    · rw [goalFound_named hN] at h3
      cases h3
      cases h4.1
    · exact ih (hb _ _ h4.2 h5) hr m hm hN

end Zanzi
