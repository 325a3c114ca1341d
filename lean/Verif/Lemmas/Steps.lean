import Verif.Spec.Steps
import Verif.Lemmas.CheckSem
import Verif.Lemmas.Explain

/-
Lemmas for C124: a search that stopped at nothing visited before it began runs the same way when started afresh.
-/

namespace Zanzi

open Spec

/-- What `d` finds without stopping at a node of `B`, `d'` finds too, having visited everything else. -/
def Retraces (H : String → Nat) (B : List Nat) (d d' : Descend) : Prop :=
  ∀ n r seen t seen', d n r seen = .ok (t, seen') → (∀ m ∈ cuts t, ∀ id, m.nodeId H = .ok id → id ∉ B) →
    ∀ s0, s0 ⊆ seen → seen ⊆ s0 ++ B → ∃ s1, d' n r s0 = .ok (t, s1) ∧ s1 ⊆ seen' ∧ seen' ⊆ s1 ++ B

section
variable {H : String → Nat} {B : List Nat} {d d' : Descend}

mutual
theorem pTree_retraces (hd : Retraces H B d d') (t : GoalTree) (seen : List Nat) (t' : GoalTree) (seen' : List Nat) (h : pTree d t seen = .ok (t', seen'))
    (hc : ∀ m ∈ cuts t', ∀ id, m.nodeId H = .ok id → id ∉ B) (s0 : List Nat) (hs : s0 ⊆ seen) (hs' : seen ⊆ s0 ++ B) :
    ∃ s1, pTree d' t s0 = .ok (t', s1) ∧ s1 ⊆ seen' ∧ seen' ⊆ s1 ++ B := by
  match t with
  | .or _ ps =>
    unfold pTree at h ⊢
    obtain ⟨⟨a, b, c⟩, h1, h2⟩ := Res.bind_eq_ok.1 h
    cases h2
    rw [cuts] at hc
    obtain ⟨s1, h3, h4⟩ := pOr_retraces hd _ _ _ _ _ h1 hc s0 hs hs'
    exact ⟨s1, by rw [h3]; rfl, h4⟩
  | .and _ ps =>
    unfold pTree at h ⊢
    obtain ⟨⟨a, b, c⟩, h1, h2⟩ := Res.bind_eq_ok.1 h
    cases h2
    rw [cuts] at hc
    obtain ⟨s1, h3, h4⟩ := pAnd_retraces hd _ _ _ _ _ h1 hc s0 hs hs'
    exact ⟨s1, by rw [h3]; rfl, h4⟩
  | .diff _ l r =>
    unfold pTree at h ⊢
    obtain ⟨⟨a, b⟩, h1, h2⟩ := Res.bind_eq_ok.1 h
    obtain ⟨⟨c, e⟩, h3, h4⟩ := Res.bind_eq_ok.1 h2
    cases h4
    rw [cuts] at hc
    obtain ⟨s1, h5, h6, h6'⟩ := pTree_retraces hd _ _ _ _ h1 (fun m hm => hc m (List.mem_append_left _ hm)) s0 hs hs'
    obtain ⟨s2, h7, h8⟩ := pTree_retraces hd _ _ _ _ h3 (fun m hm => hc m (List.mem_append_right _ hm)) s1 h6 h6'
    refine ⟨s2, ?_, h8⟩
    rw [h5]
    simp only [Res.bind_ok, h7]
    rfl
  | .leaf _ _ _ =>
    unfold pTree at h ⊢
    exact hd _ _ _ _ _ h hc s0 hs hs'
  | .path _ _ _ _ =>
    unfold pTree at h ⊢
    exact hd _ _ _ _ _ h hc s0 hs hs'

theorem pOr_retraces (hd : Retraces H B d d') (ts : List GoalTree) (seen : List Nat) (ts' : List GoalTree) (b : Bool) (seen' : List Nat)
    (h : pOr d ts seen = .ok (ts', b, seen')) (hc : ∀ m ∈ cutsOr ts', ∀ id, m.nodeId H = .ok id → id ∉ B) (s0 : List Nat) (hs : s0 ⊆ seen)
    (hs' : seen ⊆ s0 ++ B) : ∃ s1, pOr d' ts s0 = .ok (ts', b, s1) ∧ s1 ⊆ seen' ∧ seen' ⊆ s1 ++ B := by
  match ts with
  | [] =>
    unfold pOr at h ⊢
    cases h
    exact ⟨s0, rfl, hs, hs'⟩
  | t :: ts =>
    unfold pOr at h ⊢
    obtain ⟨⟨a, b⟩, h1, h2⟩ := Res.bind_eq_ok.1 h
    dsimp only at h2
    split at h2
    · next hr =>
      cases h2
      rw [cutsOr] at hc
      obtain ⟨s1, h3, h4⟩ := pTree_retraces hd _ _ _ _ h1 (fun m hm => hc m (List.mem_append_left _ hm)) s0 hs hs'
      exact ⟨s1, by rw [h3, Res.bind_ok]; dsimp only; rw [if_pos hr]; rfl, h4⟩
    · next hr =>
      obtain ⟨⟨c, e, f⟩, h3, h4⟩ := Res.bind_eq_ok.1 h2
      cases h4
      rw [cutsOr, if_neg hr] at hc
      obtain ⟨s1, h5, h6, h6'⟩ := pTree_retraces hd _ _ _ _ h1 (fun m hm => hc m (List.mem_append_left _ hm)) s0 hs hs'
      obtain ⟨s2, h7, h8⟩ := pOr_retraces hd _ _ _ _ _ h3 (fun m hm => hc m (List.mem_append_right _ hm)) s1 h6 h6'
      exact ⟨s2, by rw [h5, Res.bind_ok]; dsimp only; rw [if_neg hr, h7]; rfl, h8⟩

theorem pAnd_retraces (hd : Retraces H B d d') (ts : List GoalTree) (seen : List Nat) (ts' : List GoalTree) (b : Bool) (seen' : List Nat)
    (h : pAnd d ts seen = .ok (ts', b, seen')) (hc : ∀ m ∈ cutsAnd ts', ∀ id, m.nodeId H = .ok id → id ∉ B) (s0 : List Nat) (hs : s0 ⊆ seen)
    (hs' : seen ⊆ s0 ++ B) : ∃ s1, pAnd d' ts s0 = .ok (ts', b, s1) ∧ s1 ⊆ seen' ∧ seen' ⊆ s1 ++ B := by
  match ts with
  | [] =>
    unfold pAnd at h ⊢
    cases h
    exact ⟨s0, rfl, hs, hs'⟩
  | t :: ts =>
    unfold pAnd at h ⊢
    obtain ⟨⟨a, b⟩, h1, h2⟩ := Res.bind_eq_ok.1 h
    dsimp only at h2
    split at h2
    · next hr =>
      cases h2
      rw [cutsAnd] at hc
      obtain ⟨s1, h3, h4⟩ := pTree_retraces hd _ _ _ _ h1 (fun m hm => hc m (List.mem_append_left _ hm)) s0 hs hs'
      exact ⟨s1, by rw [h3, Res.bind_ok]; dsimp only; rw [if_pos hr]; rfl, h4⟩
    · next hr =>
      obtain ⟨⟨c, e, f⟩, h3, h4⟩ := Res.bind_eq_ok.1 h2
      cases h4
      rw [cutsAnd, if_neg hr] at hc
      obtain ⟨s1, h5, h6, h6'⟩ := pTree_retraces hd _ _ _ _ h1 (fun m hm => hc m (List.mem_append_left _ hm)) s0 hs hs'
      obtain ⟨s2, h7, h8⟩ := pAnd_retraces hd _ _ _ _ _ h3 (fun m hm => hc m (List.mem_append_right _ hm)) s1 h6 h6'
      exact ⟨s2, by rw [h5, Res.bind_ok]; dsimp only; rw [if_neg hr, h7]; rfl, h8⟩
end
end

section
variable {H : String → Nat} {build : RelationNode → Res GoalTree} {goal : Option RelationNode}

theorem pPath_retraces (B : List Nat) (k : Nat) : ∀ k', k ≤ k' → Retraces H B (pPath H build goal k) (pPath H build goal k') := by
  induction k with
  | zero => intro _ _ _ _ _ _ _ h; cases h
  | succ k ih =>
    intro k' hk n r seen t seen' h hc s0 hs hs'
    obtain ⟨k', rfl⟩ : ∃ j, k' = j + 1 := ⟨k' - 1, by omega⟩
    unfold pPath at h ⊢
    obtain ⟨id, h1, h⟩ := Res.bind_eq_ok.1 h
    rw [h1, Res.bind_ok]
    split at h
    · next hin =>
      cases h
      have hB : id ∉ B := hc n (by rw [cuts, if_pos rfl]; exact List.mem_singleton.2 rfl) id h1
      rw [if_pos ((List.mem_append.1 (hs' hin)).resolve_right hB)]
      exact ⟨s0, rfl, hs, hs'⟩
    · next hout =>
      rw [if_neg (fun hin => hout (hs hin))]
      obtain ⟨b, h2, h⟩ := Res.bind_eq_ok.1 h
      simp only [h2, Res.bind_ok]
      have hs1 : id :: s0 ⊆ id :: seen := List.cons_subset_cons id hs
      have hs2 : id :: seen ⊆ id :: s0 ++ B := List.cons_subset_cons id hs'
      split at h
      · next hb =>
        cases h
        exact ⟨id :: s0, by rw [if_pos hb]; rfl, hs1, hs2⟩
      · next hb =>
        obtain ⟨tr, h3, h⟩ := Res.bind_eq_ok.1 h
        obtain ⟨⟨tr', seen''⟩, h4, h⟩ := Res.bind_eq_ok.1 h
        cases h
        rw [cuts] at hc
        obtain ⟨s1, h5, h6⟩ := pTree_retraces (ih k' (by omega)) _ _ _ _ h4 hc _ hs1 hs2
        exact ⟨s1, by rw [if_neg hb, h3, Res.bind_ok, h5]; rfl, h6⟩

/-- The reason a node was reached for is only written down. -/
theorem pPath_reason {k : Nat} {n : RelationNode} {r r' : String} {seen seen' : List Nat} {v : SearchResult} {c : GoalTree}
    (h : pPath H build goal k n r seen = .ok (.path v n r c, seen')) : pPath H build goal k n r' seen = .ok (.path v n r' c, seen') := by
  cases k with
  | zero => cases h
  | succ k =>
    unfold pPath at h ⊢
    obtain ⟨id, h1, h⟩ := Res.bind_eq_ok.1 h
    rw [h1, Res.bind_ok]
    split at h
    · cases h
    · next hout =>
      rw [if_neg hout]
      obtain ⟨b, h2, h⟩ := Res.bind_eq_ok.1 h
      simp only [h2, Res.bind_ok]
      split at h
      · cases h
      · next hb =>
        obtain ⟨tr, h3, h⟩ := Res.bind_eq_ok.1 h
        obtain ⟨⟨tr', seen''⟩, h4, h⟩ := Res.bind_eq_ok.1 h
        cases h
        rw [if_neg hb, h3, Res.bind_ok, h4]
        rfl
end

/-! ### Where steps come from -/

mutual
theorem GoalTree.Fresh.steps {t : GoalTree} (h : t.Fresh) : Spec.steps t = [] := by
  match t with
  | .or _ ps => rw [GoalTree.Fresh] at h; rw [Spec.steps]; exact FreshList.steps h.2
  | .and _ ps => rw [GoalTree.Fresh] at h; rw [Spec.steps]; exact FreshList.steps h.2
  | .diff _ a b => rw [GoalTree.Fresh] at h; rw [Spec.steps, GoalTree.Fresh.steps h.2.1, GoalTree.Fresh.steps h.2.2]; rfl
  | .leaf _ _ _ => rw [Spec.steps]
  | .path _ _ _ _ => rw [GoalTree.Fresh] at h; exact h.elim
theorem FreshList.steps {ts : List GoalTree} (h : FreshList ts) : Spec.stepsList ts = [] := by
  match ts with
  | [] => rw [Spec.stepsList]
  | t :: ts => rw [FreshList] at h; rw [Spec.stepsList, GoalTree.Fresh.steps h.1, FreshList.steps h.2]; rfl
end

section
variable {d : Descend} {Q : RelationNode × SearchResult × GoalTree → Prop}

mutual
theorem pTree_steps (hd : ∀ n r seen t seen', d n r seen = .ok (t, seen') → ∀ p ∈ steps t, Q p) (t : GoalTree) (hf : t.Fresh) (seen : List Nat)
    (t' : GoalTree) (seen' : List Nat) (h : pTree d t seen = .ok (t', seen')) : ∀ p ∈ steps t', Q p := by
  match t with
  | .or _ ps =>
    unfold pTree at h
    obtain ⟨⟨a, b, c⟩, h1, h2⟩ := Res.bind_eq_ok.1 h
    cases h2
    rw [GoalTree.Fresh] at hf
    rw [steps]
    exact pOr_steps hd _ hf.2 _ _ _ _ h1
  | .and _ ps =>
    unfold pTree at h
    obtain ⟨⟨a, b, c⟩, h1, h2⟩ := Res.bind_eq_ok.1 h
    cases h2
    rw [GoalTree.Fresh] at hf
    rw [steps]
    exact pAnd_steps hd _ hf.2 _ _ _ _ h1
  | .diff _ l r =>
    unfold pTree at h
    obtain ⟨⟨a, b⟩, h1, h2⟩ := Res.bind_eq_ok.1 h
    obtain ⟨⟨c, e⟩, h3, h4⟩ := Res.bind_eq_ok.1 h2
    cases h4
    rw [GoalTree.Fresh] at hf
    rw [steps]
    intro p hp
    rcases List.mem_append.1 hp with hp | hp
    · exact pTree_steps hd _ hf.2.1 _ _ _ h1 p hp
    · exact pTree_steps hd _ hf.2.2 _ _ _ h3 p hp
  | .leaf _ _ _ =>
    unfold pTree at h
    exact hd _ _ _ _ _ h
  | .path _ _ _ _ =>
    unfold pTree at h
    exact hd _ _ _ _ _ h

theorem pOr_steps (hd : ∀ n r seen t seen', d n r seen = .ok (t, seen') → ∀ p ∈ steps t, Q p) (ts : List GoalTree) (hf : FreshList ts) (seen : List Nat)
    (ts' : List GoalTree) (b : Bool) (seen' : List Nat) (h : pOr d ts seen = .ok (ts', b, seen')) : ∀ p ∈ stepsList ts', Q p := by
  match ts with
  | [] =>
    unfold pOr at h
    cases h
    rw [stepsList]
    nofun
  | t :: ts =>
    unfold pOr at h
    rw [FreshList] at hf
    obtain ⟨⟨a, b⟩, h1, h2⟩ := Res.bind_eq_ok.1 h
    dsimp only at h2
    split at h2
    · cases h2
      rw [stepsList, hf.2.steps, List.append_nil]
      exact pTree_steps hd _ hf.1 _ _ _ h1
    · obtain ⟨⟨c, e, f⟩, h3, h4⟩ := Res.bind_eq_ok.1 h2
      cases h4
      rw [stepsList]
      intro p hp
      rcases List.mem_append.1 hp with hp | hp
      · exact pTree_steps hd _ hf.1 _ _ _ h1 p hp
      · exact pOr_steps hd _ hf.2 _ _ _ _ h3 p hp

theorem pAnd_steps (hd : ∀ n r seen t seen', d n r seen = .ok (t, seen') → ∀ p ∈ steps t, Q p) (ts : List GoalTree) (hf : FreshList ts) (seen : List Nat)
    (ts' : List GoalTree) (b : Bool) (seen' : List Nat) (h : pAnd d ts seen = .ok (ts', b, seen')) : ∀ p ∈ stepsList ts', Q p := by
  match ts with
  | [] =>
    unfold pAnd at h
    cases h
    rw [stepsList]
    nofun
  | t :: ts =>
    unfold pAnd at h
    rw [FreshList] at hf
    obtain ⟨⟨a, b⟩, h1, h2⟩ := Res.bind_eq_ok.1 h
    dsimp only at h2
    split at h2
    · cases h2
      rw [stepsList, hf.2.steps, List.append_nil]
      exact pTree_steps hd _ hf.1 _ _ _ h1
    · obtain ⟨⟨c, e, f⟩, h3, h4⟩ := Res.bind_eq_ok.1 h2
      cases h4
      rw [stepsList]
      intro p hp
      rcases List.mem_append.1 hp with hp | hp
      · exact pTree_steps hd _ hf.1 _ _ _ h1 p hp
      · exact pAnd_steps hd _ hf.2 _ _ _ _ h3 p hp
end
end

/-- Every step of a search is a search of its own, started after visiting some nodes. -/
theorem pPath_steps {H : String → Nat} {build : RelationNode → Res GoalTree} {goal : Option RelationNode}
    (hb : ∀ n t, n.isTerminal = false → build n = .ok t → t.Fresh) (k : Nat) :
    ∀ n r seen t seen', pPath H build goal k n r seen = .ok (t, seen') → ∀ p ∈ steps t,
      ∃ j r s s', j ≤ k ∧ pPath H build goal j p.1 r s = .ok (.path p.2.1 p.1 r p.2.2, s') := by
  induction k with
  | zero => intro _ _ _ _ _ h; cases h
  | succ k ih =>
    intro n r seen t seen' h p hp
    have h0 := h
    unfold pPath at h
    obtain ⟨id, h1, h⟩ := Res.bind_eq_ok.1 h
    split at h
    · cases h
      rw [steps] at hp
      cases hp
    · obtain ⟨b, h2, h⟩ := Res.bind_eq_ok.1 h
      split at h
      · cases h
        rw [steps] at hp
        cases hp
      · next hterm =>
        obtain ⟨tr, h3, h⟩ := Res.bind_eq_ok.1 h
        obtain ⟨⟨tr', seen''⟩, h4, h⟩ := Res.bind_eq_ok.1 h
        cases h
        rw [steps] at hp
        simp only [Bool.or_eq_true, not_or, Bool.not_eq_true] at hterm
        rcases List.mem_cons.1 hp with rfl | hp
        · exact ⟨k + 1, r, seen, _, Nat.le_refl _, h0⟩
        · obtain ⟨j, r, s, s', hj, h5⟩ := pTree_steps (Q := fun p => ∃ j r s s', j ≤ k ∧ pPath H build goal j p.1 r s = .ok (.path p.2.1 p.1 r p.2.2, s'))
            ih _ (hb _ _ hterm.2 h3) _ _ _ h4 p hp
          exact ⟨j, r, s, s', by omega, h5⟩

/-! ### Cuts and visited nodes -/

mutual
theorem clean_cuts {t : GoalTree} (h : Clean t) : Spec.cuts t = [] := by
  match t with
  | .or _ ps => rw [Clean] at h; rw [Spec.cuts]; exact cleanOr_cuts h
  | .and _ ps => rw [Clean] at h; rw [Spec.cuts]; exact cleanAnd_cuts h
  | .diff _ a b => rw [Clean] at h; rw [Spec.cuts, clean_cuts h.1, clean_cuts h.2]; rfl
  | .leaf _ _ _ => rw [Clean] at h; rw [Spec.cuts, if_neg h]
  | .path _ _ _ _ => rw [Clean] at h; rw [Spec.cuts]; exact clean_cuts h
theorem cleanOr_cuts {ts : List GoalTree} (h : CleanOr ts) : Spec.cutsOr ts = [] := by
  match ts with
  | [] => rw [Spec.cutsOr]
  | t :: ts =>
    rw [CleanOr] at h
    rw [Spec.cutsOr, clean_cuts h.1]
    split
    · rfl
    · next hr => exact cleanOr_cuts (h.2.resolve_left hr)
theorem cleanAnd_cuts {ts : List GoalTree} (h : CleanAnd ts) : Spec.cutsAnd ts = [] := by
  match ts with
  | [] => rw [Spec.cutsAnd]
  | t :: ts =>
    rw [CleanAnd] at h
    rw [Spec.cutsAnd, clean_cuts h.1]
    split
    · rfl
    · next hr => exact cleanAnd_cuts (h.2.resolve_left hr)
end

/-- The cuts of an outcome of a task. -/
def cutsAt : Task → Out → List RelationNode
  | .or _, .list ts _ => cutsOr ts
  | .and _, .list ts _ => cutsAnd ts
  | _, .tree t => cuts t
  | _, _ => []

/-- A search stops only at nodes visited. -/
theorem Ev.cut_seen {H : String → Nat} {build : RelationNode → GoalTree → Prop} {goal : Option RelationNode} {k s o s'} (h : Ev H build goal k s o s') :
    ∀ m ∈ cutsAt k o, ∃ id, m.nodeId H = .ok id ∧ id ∈ s' := by
  induction h with
  | or _ ih => intro m hm; simp only [cutsAt, cuts] at hm ih; exact ih m hm
  | and _ ih => intro m hm; simp only [cutsAt, cuts] at hm ih; exact ih m hm
  | diff _ h2 ih1 ih2 =>
    intro m hm
    simp only [cutsAt, cuts] at hm ih1 ih2
    rcases List.mem_append.1 hm with hm | hm
    · obtain ⟨id, e1, e2⟩ := ih1 m hm
      exact ⟨id, e1, h2.seen_mono e2⟩
    · exact ih2 m hm
  | leaf _ ih => exact ih
  | inner _ ih => exact ih
  | orNil => intro m hm; simp only [cutsAt, cutsOr] at hm; cases hm
  | orStop _ hr ih => intro m hm; simp only [cutsAt, cutsOr, if_pos hr, List.append_nil] at hm ih; exact ih m hm
  | orGo _ hr h2 ih1 ih2 =>
    intro m hm
    simp only [cutsAt, cutsOr, if_neg hr] at hm ih1 ih2
    rcases List.mem_append.1 hm with hm | hm
    · obtain ⟨id, e1, e2⟩ := ih1 m hm
      exact ⟨id, e1, h2.seen_mono e2⟩
    · exact ih2 m hm
  | andNil => intro m hm; simp only [cutsAt, cutsAnd] at hm; cases hm
  | andStop _ hr ih => intro m hm; simp only [cutsAt, cutsAnd, if_pos hr, List.append_nil] at hm ih; exact ih m hm
  | andGo _ hr h2 ih1 ih2 =>
    intro m hm
    simp only [cutsAt, cutsAnd, if_neg hr] at hm ih1 ih2
    rcases List.mem_append.1 hm with hm | hm
    · obtain ⟨id, e1, e2⟩ := ih1 m hm
      exact ⟨id, e1, h2.seen_mono e2⟩
    · exact ih2 m hm
  | repeated h1 h2 =>
    intro m hm
    simp only [cutsAt, cuts, if_pos] at hm
    obtain rfl := List.mem_singleton.1 hm
    exact ⟨_, h1, h2⟩
  | @ended _ _ _ b _ _ _ _ _ => intro m hm; cases b <;> simp [cutsAt, cuts, verdict] at hm
  | expanded _ _ _ _ _ _ ih => intro m hm; simp only [cutsAt, cuts] at hm ih; exact ih m hm

/-- A search settles only nodes not visited before. -/
theorem Ev.settled_new {H : String → Nat} {build : RelationNode → GoalTree → Prop} {goal : Option RelationNode}
    (hb : ∀ n t, n.isTerminal = false → build n t → Spec.settled t = []) {k s o s'} (h : Ev H build goal k s o s') :
    (match k with
      | .tree t => Spec.settled t = []
      | .or ts | .and ts => Spec.settledList ts = []
      | .path _ _ => True) → ∀ m ∈ o.settled, ∃ id, m.nodeId H = .ok id ∧ id ∉ s := by
  induction h with
  | or _ ih => intro hs; simp only [Spec.settled] at hs; simpa [Out.settled, Spec.settled] using ih hs
  | and _ ih => intro hs; simp only [Spec.settled] at hs; simpa [Out.settled, Spec.settled] using ih hs
  | diff h1 h2 ih1 ih2 =>
    intro hs m hm
    simp only [Spec.settled, List.append_eq_nil_iff] at hs
    simp only [Out.settled, Spec.settled, List.mem_append] at hm
    rcases hm with hm | hm
    · exact ih1 hs.1 m hm
    · obtain ⟨id, e1, e2⟩ := ih2 hs.2 m hm
      exact ⟨id, e1, fun h => e2 (h1.seen_mono h)⟩
  | leaf _ ih => exact fun _ => ih trivial
  | inner _ ih => exact fun _ => ih trivial
  | orNil => intro _ m hm; simp [Out.settled, Spec.settledList] at hm
  | orStop _ _ ih =>
    intro hs m hm
    simp only [Spec.settledList, List.append_eq_nil_iff] at hs
    simp only [Out.settled, Spec.settledList, hs.2, List.append_nil] at hm
    exact ih hs.1 m hm
  | orGo h1 _ _ ih1 ih2 =>
    intro hs m hm
    simp only [Spec.settledList, List.append_eq_nil_iff] at hs
    simp only [Out.settled, Spec.settledList, List.mem_append] at hm
    rcases hm with hm | hm
    · exact ih1 hs.1 m hm
    · obtain ⟨id, e1, e2⟩ := ih2 hs.2 m hm
      exact ⟨id, e1, fun h => e2 (h1.seen_mono h)⟩
  | andNil => intro _ m hm; simp [Out.settled, Spec.settledList] at hm
  | andStop _ _ ih =>
    intro hs m hm
    simp only [Spec.settledList, List.append_eq_nil_iff] at hs
    simp only [Out.settled, Spec.settledList, hs.2, List.append_nil] at hm
    exact ih hs.1 m hm
  | andGo h1 _ _ ih1 ih2 =>
    intro hs m hm
    simp only [Spec.settledList, List.append_eq_nil_iff] at hs
    simp only [Out.settled, Spec.settledList, List.mem_append] at hm
    rcases hm with hm | hm
    · exact ih1 hs.1 m hm
    · obtain ⟨id, e1, e2⟩ := ih2 hs.2 m hm
      exact ⟨id, e1, fun h => e2 (h1.seen_mono h)⟩
  | repeated _ _ => intro _ m hm; simp [Out.settled, Spec.settled] at hm
  | @ended n _ id b _ h1 h2 _ _ =>
    intro _ m hm
    obtain rfl : m = n := by cases b <;> exact List.mem_singleton.1 hm
    exact ⟨id, h1, h2⟩
  | @expanded n _ id b t t' s _ h1 h2 _ h4 h5 _ ih =>
    intro _ m hm
    simp only [Bool.or_eq_false_iff] at h4
    simp only [Out.settled, Spec.settled, List.mem_cons] at hm
    rcases hm with rfl | hm
    · exact ⟨id, h1, h2⟩
    · obtain ⟨id', e1, e2⟩ := ih (hb _ _ h4.2 h5) m hm
      exact ⟨id', e1, fun h => e2 (List.mem_cons_of_mem _ h)⟩

end Zanzi
