import Verif.Lemmas.Rewrite

/-
A search follows the search of the canonical trees.
-/

namespace Zanzi

open Spec

variable {H : String → Nat} {P : RelationNode → Prop} {σ : RelationNode → RelationNode}

/-! ### Outcomes: results and visits, without the trees -/

/-- Outcome of a search. -/
def outcome (r : Res (GoalTree × List Nat)) : Res (SearchResult × List Nat) := r >>= fun p => .ok (p.1.result, p.2)

/-- Outcome of a list. -/
def outcomes (r : Res (List GoalTree × Bool × List Nat)) : Res (Bool × List Nat) := r >>= fun p => .ok p.2

theorem outcomes_or_cons (d : Descend) (t : GoalTree) (ts : List GoalTree) (seen : List Nat) :
    outcomes (pOr d (t :: ts) seen) = (outcome (pTree d t seen) >>= fun p => if p.1 = .success then .ok (true, p.2) else outcomes (pOr d ts p.2)) := by
  unfold outcomes outcome
  rw [pOr]
  cases pTree d t seen with
  | ok p =>
    obtain ⟨t', s'⟩ := p
    simp only [Res.bind_ok]
    split
    · rfl
    · cases pOr d ts s' <;> rfl
  | _ => rfl

theorem outcomes_and_cons (d : Descend) (t : GoalTree) (ts : List GoalTree) (seen : List Nat) :
    outcomes (pAnd d (t :: ts) seen) = (outcome (pTree d t seen) >>= fun p => if p.1 = .failure then .ok (false, p.2) else outcomes (pAnd d ts p.2)) := by
  unfold outcomes outcome
  rw [pAnd]
  cases pTree d t seen with
  | ok p =>
    obtain ⟨t', s'⟩ := p
    simp only [Res.bind_ok]
    split
    · rfl
    · cases pAnd d ts s' <;> rfl
  | _ => rfl

theorem outcomes_or_append (d : Descend) (ts us : List GoalTree) : ∀ seen,
    outcomes (pOr d (ts ++ us) seen) = (outcomes (pOr d ts seen) >>= fun p => if p.1 = true then .ok (true, p.2) else outcomes (pOr d us p.2)) := by
  induction ts with
  | nil =>
    intro seen
    rw [List.nil_append, show outcomes (pOr d [] seen) = .ok (false, seen) by rw [pOr]; rfl]
    rfl
  | cons t ts ih =>
    intro seen
    rw [List.cons_append, outcomes_or_cons, outcomes_or_cons]
    cases outcome (pTree d t seen) with
    | ok p =>
      simp only [Res.bind_ok]
      split
      · rfl
      · exact ih _
    | _ => rfl

theorem outcomes_and_append (d : Descend) (ts us : List GoalTree) : ∀ seen,
    outcomes (pAnd d (ts ++ us) seen) = (outcomes (pAnd d ts seen) >>= fun p => if p.1 = false then .ok (false, p.2) else outcomes (pAnd d us p.2)) := by
  induction ts with
  | nil =>
    intro seen
    rw [List.nil_append, show outcomes (pAnd d [] seen) = .ok (true, seen) by rw [pAnd]; rfl]
    rfl
  | cons t ts ih =>
    intro seen
    rw [List.cons_append, outcomes_and_cons, outcomes_and_cons]
    cases outcome (pTree d t seen) with
    | ok p =>
      simp only [Res.bind_ok]
      split
      · rfl
      · exact ih _
    | _ => rfl

theorem outcome_or (d : Descend) (a : SearchResult) (ps : List GoalTree) (seen : List Nat) :
    outcome (pTree d (.or a ps) seen) = (outcomes (pOr d ps seen) >>= fun p => .ok (verdict p.1, p.2)) := by
  unfold outcome outcomes
  rw [pTree]
  cases pOr d ps seen <;> rfl

theorem outcome_and (d : Descend) (a : SearchResult) (ps : List GoalTree) (seen : List Nat) :
    outcome (pTree d (.and a ps) seen) = (outcomes (pAnd d ps seen) >>= fun p => .ok (verdict p.1, p.2)) := by
  unfold outcome outcomes
  rw [pTree]
  cases pAnd d ps seen <;> rfl

theorem outcome_diff (d : Descend) (a : SearchResult) (l r : GoalTree) (seen : List Nat) :
    outcome (pTree d (.diff a l r) seen) = (outcome (pTree d l seen) >>= fun p => outcome (pTree d r p.2) >>= fun q =>
      .ok (verdict (decide (p.1 = .success) && decide (q.1 = .failure)), q.2)) := by
  unfold outcome
  rw [pTree]
  cases pTree d l seen with
  | ok p =>
    obtain ⟨t, s⟩ := p
    simp only [Res.bind_ok]
    cases pTree d r s <;> rfl
  | _ => rfl

/-! ### Following the canonical search -/

/-- The same visits, up to nodes defined as others. -/
structure Tracks (H : String → Nat) (P : RelationNode → Prop) (σ : RelationNode → RelationNode) (s s' : List Nat) : Prop where
  same : ∀ n id, P n → σ n = n → n.nodeId H = .ok id → (id ∈ s ↔ id ∈ s')
  other : ∀ n id id', P n → σ n ≠ n → n.nodeId H = .ok id → (σ n).nodeId H = .ok id' → id ∈ s → id' ∈ s'

def DescR (H : String → Nat) (P : RelationNode → Prop) (σ : RelationNode → RelationNode) (s' : List Nat) (a b : SearchResult × List Nat) : Prop :=
  (a.1 = .success ↔ b.1 = .success) ∧ Tracks H P σ a.2 b.2 ∧ s' ⊆ b.2
def CanonR (H : String → Nat) (P : RelationNode → Prop) (σ : RelationNode → RelationNode) (s' : List Nat) (a b : SearchResult × List Nat) : Prop :=
  a.1 = b.1 ∧ Tracks H P σ a.2 b.2 ∧ s' ⊆ b.2
def CanonOrR (H : String → Nat) (P : RelationNode → Prop) (σ : RelationNode → RelationNode) (ns : List RelationNode) (s' : List Nat)
    (a b : Bool × List Nat) : Prop :=
  a.1 = b.1 ∧ Tracks H P σ a.2 b.2 ∧ s' ⊆ b.2 ∧ (b.1 = false → ∀ n ∈ ns, ∃ id, n.nodeId H = .ok id ∧ id ∈ b.2)
def CanonAndR (H : String → Nat) (P : RelationNode → Prop) (σ : RelationNode → RelationNode) (s' : List Nat) (a b : Bool × List Nat) : Prop :=
  a.1 = b.1 ∧ Tracks H P σ a.2 b.2 ∧ s' ⊆ b.2

/-- Visits follow each other. -/
def DescFollows (H : String → Nat) (P : RelationNode → Prop) (σ : RelationNode → RelationNode) (d d' : Descend) : Prop :=
  ∀ n r r' seen seen', Ok H P n → Tracks H P σ seen seen' → Follows (DescR H P σ seen') (outcome (d n r seen)) (outcome (d' (σ n) r' seen'))

/-- A visit marks its node, and a visited node is not visited again. -/
structure Marks (H : String → Nat) (d : Descend) : Prop where
  again : ∀ n id r seen, n.nodeId H = .ok id → id ∈ seen → d n r seen = .ok (.leaf .unknown n r, seen)
  marks : ∀ n r seen p, outcome (d n r seen) = .ok p → ∃ id, n.nodeId H = .ok id ∧ id ∈ p.2

theorem canon_isOp {t : GoalTree} (h : t.isOp = true) : (canon σ t).isOp = true := by
  cases t <;> simp_all [canon, GoalTree.isOp]

section
variable {d d' : Descend}

/-- One alternative, then the rest. -/
theorem or_step {acc : List RelationNode} {seen seen' : List Nat} {t : GoalTree} {ts xs ys : List GoalTree} (_ht : Tracks H P σ seen seen')
    (h1 : Follows (fun (a : SearchResult × List Nat) (b : Bool × List Nat) => (a.1 = .success ↔ b.1 = true) ∧ Tracks H P σ a.2 b.2 ∧ seen' ⊆ b.2 ∧
        (b.1 = false → ∀ n ∈ leafNodes xs ++ acc, ∃ id, n.nodeId H = .ok id ∧ id ∈ b.2))
      (outcome (pTree d t seen)) (outcomes (pOr d' (dropRepeated acc xs) seen')))
    (h2 : ∀ s s', Tracks H P σ s s' → (∀ n ∈ leafNodes xs ++ acc, ∃ id, n.nodeId H = .ok id ∧ id ∈ s') →
      Follows (CanonOrR H P σ (leafNodes ys ++ (leafNodes xs ++ acc)) s') (outcomes (pOr d ts s)) (outcomes (pOr d' (dropRepeated (leafNodes xs ++ acc) ys) s'))) :
    Follows (CanonOrR H P σ (leafNodes (xs ++ ys) ++ acc) seen') (outcomes (pOr d (t :: ts) seen)) (outcomes (pOr d' (dropRepeated acc (xs ++ ys)) seen')) := by
  rw [outcomes_or_cons, dropRepeated_append, outcomes_or_append]
  refine h1.bind ?_
  rintro ⟨a, s⟩ ⟨b, s'⟩ ⟨e1, e2, e3, e4⟩
  dsimp only at e1 e2 e3 e4 ⊢
  cases b with
  | true =>
    rw [if_pos (e1.2 rfl), if_pos rfl]
    exact .ok ⟨rfl, e2, e3, nofun⟩
  | false =>
    rw [if_neg (fun h => by cases e1.1 h), if_neg (by simp)]
    rcases h2 s s' e2 (e4 rfl) with h | ⟨a, b, ha, hb, h⟩ | h | h
    · exact .inl h
    · refine .inr (.inl ⟨a, b, ha, hb, h.1, h.2.1, fun _ hx => h.2.2.1 (e3 hx), fun hf n hn => h.2.2.2 hf n ?_⟩)
      rw [leafNodes_append] at hn
      simp only [List.mem_append] at hn ⊢
      grind
    · exact .inr (.inr (.inl h))
    · exact .inr (.inr (.inr h))

/-- A node among alternatives. -/
theorem leaf_canon (h1 : Marks H d') (h2 : DescFollows H P σ d d') {acc : List RelationNode} {seen seen' : List Nat} {n : RelationNode} (hn : Ok H P n)
    (hacc : ∀ n ∈ acc, ∃ id, n.nodeId H = .ok id ∧ id ∈ seen') (hv : Tracks H P σ seen seen') (r : String) (q : Res (GoalTree × List Nat))
    (hq : q = d n r seen) :
    Follows (fun (a : SearchResult × List Nat) (b : Bool × List Nat) => (a.1 = .success ↔ b.1 = true) ∧ Tracks H P σ a.2 b.2 ∧ seen' ⊆ b.2 ∧
        (b.1 = false → ∀ m ∈ σ n :: acc, ∃ id, m.nodeId H = .ok id ∧ id ∈ b.2))
      (outcome q) (outcomes (pOr d' (if σ n ∈ acc then [] else [.leaf .unknown (σ n) ""]) seen')) := by
  subst hq
  have hd := h2 n r "" seen seen' hn hv
  split
  · next hm =>
    obtain ⟨id, hid, hseen⟩ := hacc _ hm
    rw [h1.again _ id _ _ hid hseen] at hd
    rw [pOr]
    rcases hd with h | ⟨⟨a, b⟩, ⟨a', b'⟩, ha, hb, e1, e2, e3⟩ | ⟨e, _, hb⟩ | ⟨_, hb⟩
    · exact .inl h
    · cases hb
      rw [ha]
      dsimp only at e1 e2 e3
      refine .ok ⟨⟨fun h => (by have := e1.1 h; cases this), nofun⟩, e2, e3, fun _ m hm' => ?_⟩
      rcases List.mem_cons.1 hm' with rfl | hm'
      · exact ⟨id, hid, hseen⟩
      · exact hacc m hm'
    · cases hb
    · cases hb
  · rw [outcomes_or_cons, pTree]
    rcases hd with h | ⟨⟨a, b⟩, ⟨a', b'⟩, ha, hb, e1, e2, e3⟩ | ⟨e, ha, hb⟩ | ⟨ha, hb⟩
    · exact .inl h
    · obtain ⟨id, hid, hi⟩ := h1.marks _ _ _ _ hb
      rw [ha, hb]
      dsimp only at e1 e2 e3 hi
      simp only [Res.bind_ok]
      by_cases hs : a' = .success
      · rw [if_pos hs]
        exact .ok ⟨by simp [e1, hs], e2, e3, nofun⟩
      · rw [if_neg hs, pOr]
        refine .ok ⟨by simp [e1, hs], e2, e3, fun _ m hm => ?_⟩
        rcases List.mem_cons.1 hm with rfl | hm
        · exact ⟨id, hid, hi⟩
        · obtain ⟨i, h, h'⟩ := hacc m hm; exact ⟨i, h, e3 h'⟩
    · rw [ha, hb]; exact .inr (.inr (.inl ⟨e, rfl, rfl⟩))
    · rw [ha, hb]; exact .inr (.inr (.inr ⟨rfl, rfl⟩))

theorem and_one {seen' : List Nat} {q : Res (SearchResult × List Nat)} {t : GoalTree} (h : Follows (CanonR H P σ seen') q (outcome (pTree d' t seen'))) :
    Follows (fun (a : SearchResult × List Nat) (b : Bool × List Nat) => (a.1 = .failure ↔ b.1 = false) ∧ Tracks H P σ a.2 b.2 ∧ seen' ⊆ b.2)
      q (outcomes (pAnd d' [t] seen')) := by
  rw [outcomes_and_cons]
  rcases h with h | ⟨⟨a, b⟩, ⟨a', b'⟩, ha, hb, e1, e2, e3⟩ | ⟨e, ha, hb⟩ | ⟨ha, hb⟩
  · exact .inl h
  · rw [ha, hb]
    dsimp only at e1 e2 e3
    subst e1
    simp only [Res.bind_ok]
    by_cases hs : a = .failure
    · rw [if_pos hs]
      exact .ok ⟨by simp [hs], e2, e3⟩
    · rw [if_neg hs, pAnd]
      exact .ok ⟨by simp [hs], e2, e3⟩
  · rw [ha, hb]; exact .inr (.inr (.inl ⟨e, rfl, rfl⟩))
  · rw [ha, hb]; exact .inr (.inr (.inr ⟨rfl, rfl⟩))

mutual
theorem pTree_canon (h1 : Marks H d') (h2 : DescFollows H P σ d d') (t : GoalTree) (seen seen' : List Nat) (hf : t.Formed) (ho : t.isOp = true)
    (hP : ∀ m ∈ t.tops, Ok H P m) (hv : Tracks H P σ seen seen') :
    Follows (CanonR H P σ seen') (outcome (pTree d t seen)) (outcome (pTree d' (canon σ t) seen')) := by
  match t with
  | .or _ ps =>
    rw [canon, outcome_or, outcome_or]
    refine (pOr_canon h1 h2 ps [] seen seen' (by simpa [GoalTree.Formed] using hf) (by simpa [GoalTree.tops] using hP) (fun _ h => by cases h) hv).bind ?_
    rintro ⟨a, c⟩ ⟨a', c'⟩ ⟨e1, e2, e3, _⟩
    cases e1
    exact .ok ⟨rfl, e2, e3⟩
  | .and _ ps =>
    rw [canon, outcome_and, outcome_and]
    rw [GoalTree.Formed] at hf
    refine (pAnd_canon h1 h2 ps seen seen' hf.1 hf.2.1 (by simpa [GoalTree.tops] using hP) hv).bind ?_
    rintro ⟨a, c⟩ ⟨a', c'⟩ ⟨e1, e2, e3⟩
    cases e1
    exact .ok ⟨rfl, e2, e3⟩
  | .diff _ l r =>
    rw [canon, outcome_diff, outcome_diff]
    rw [GoalTree.Formed] at hf
    refine (pTree_canon h1 h2 l seen seen' hf.1 hf.2.2.1 (fun m hm => hP m (by simp [GoalTree.tops, hm])) hv).bind ?_
    rintro ⟨a, c⟩ ⟨a', c'⟩ ⟨e1, e2, e3⟩
    cases e1
    refine (pTree_canon h1 h2 r c c' hf.2.1 hf.2.2.2 (fun m hm => hP m (by simp [GoalTree.tops, hm])) e2).bind ?_
    rintro ⟨b, f⟩ ⟨b', f'⟩ ⟨g1, g2, g3⟩
    cases g1
    exact .ok ⟨rfl, g2, fun _ hx => g3 (e3 hx)⟩
  | .leaf _ n r => cases ho
  | .path _ n r _ => cases ho

theorem pOr_canon (h1 : Marks H d') (h2 : DescFollows H P σ d d') (ts : List GoalTree) (acc : List RelationNode) (seen seen' : List Nat) (hf : FormedList ts)
    (hP : ∀ m ∈ topsList ts, Ok H P m) (hacc : ∀ n ∈ acc, ∃ id, n.nodeId H = .ok id ∧ id ∈ seen') (hv : Tracks H P σ seen seen') :
    Follows (CanonOrR H P σ (leafNodes (canonOr σ ts) ++ acc) seen') (outcomes (pOr d ts seen)) (outcomes (pOr d' (dropRepeated acc (canonOr σ ts)) seen')) := by
  match ts with
  | [] =>
    rw [canonOr, pOr, dropRepeated, pOr]
    exact .ok ⟨rfl, hv, List.Subset.refl _, fun _ => hacc⟩
  | t :: ts =>
    rw [FormedList] at hf
    have hPt : ∀ m ∈ t.tops, Ok H P m := fun m hm => hP m (by simp [topsList, hm])
    have hPs : ∀ m ∈ topsList ts, Ok H P m := fun m hm => hP m (by simp [topsList, hm])
    rw [canonOr]
    refine or_step hv ?_ (fun s s' ht ha => pOr_canon h1 h2 ts _ s s' hf.2 hPs ha ht)
    match t with
    | .or _ ps =>
      rw [outcome_or, canon, orItems_or]
      have := (pOr_canon h1 h2 ps acc seen seen' (by simpa [GoalTree.Formed] using hf.1) (by simpa [GoalTree.tops] using hPt) hacc hv)
      rw [dropRepeated_twice _ (fun _ h => by cases h)]
      rcases this with h | ⟨⟨a, b⟩, ⟨a', b'⟩, ha, hb, e1, e2, e3, e4⟩ | ⟨e, ha, hb⟩ | ⟨ha, hb⟩
      · rw [h]; exact .inl rfl
      · rw [ha, hb]
        dsimp only at e1 e2 e3 e4
        subst e1
        refine .ok ⟨by cases a <;> simp [verdict], e2, e3, fun hh n hn => e4 hh n ?_⟩
        have := leafNodes_dropRepeated (canonOr σ ps) [] n
        simp only [List.not_mem_nil, or_false] at this
        simpa [this] using hn
      · rw [ha, hb]; exact .inr (.inr (.inl ⟨e, rfl, rfl⟩))
      · rw [ha, hb]; exact .inr (.inr (.inr ⟨rfl, rfl⟩))
    | .and x ps =>
      have := pTree_canon h1 h2 (.and x ps) seen seen' hf.1 rfl hPt hv
      rw [canon] at this ⊢
      simp only [orItems, dropRepeated, leafNodes, List.nil_append]
      rw [outcomes_or_cons]
      rcases this with h | ⟨⟨a, b⟩, ⟨a', b'⟩, ha, hb, e1, e2, e3⟩ | ⟨e, ha, hb⟩ | ⟨ha, hb⟩
      · rw [h]; exact .inl rfl
      · rw [ha, hb]
        dsimp only at e1 e2 e3
        subst e1
        simp only [Res.bind_ok]
        by_cases hs : a = .success
        · rw [if_pos hs]
          exact .ok ⟨by simp [hs], e2, e3, nofun⟩
        · rw [if_neg hs, pOr]
          exact .ok ⟨by simp [hs], e2, e3, fun _ n hn => by obtain ⟨id, h, h'⟩ := hacc n hn; exact ⟨id, h, e3 h'⟩⟩
      · rw [ha, hb]; exact .inr (.inr (.inl ⟨e, rfl, rfl⟩))
      · rw [ha, hb]; exact .inr (.inr (.inr ⟨rfl, rfl⟩))
    | .diff x l r =>
      have := pTree_canon h1 h2 (.diff x l r) seen seen' hf.1 rfl hPt hv
      rw [canon] at this ⊢
      simp only [orItems, dropRepeated, leafNodes, List.nil_append]
      rw [outcomes_or_cons]
      rcases this with h | ⟨⟨a, b⟩, ⟨a', b'⟩, ha, hb, e1, e2, e3⟩ | ⟨e, ha, hb⟩ | ⟨ha, hb⟩
      · rw [h]; exact .inl rfl
      · rw [ha, hb]
        dsimp only at e1 e2 e3
        subst e1
        simp only [Res.bind_ok]
        by_cases hs : a = .success
        · rw [if_pos hs]
          exact .ok ⟨by simp [hs], e2, e3, nofun⟩
        · rw [if_neg hs, pOr]
          exact .ok ⟨by simp [hs], e2, e3, fun _ n hn => by obtain ⟨id, h, h'⟩ := hacc n hn; exact ⟨id, h, e3 h'⟩⟩
      · rw [ha, hb]; exact .inr (.inr (.inl ⟨e, rfl, rfl⟩))
      · rw [ha, hb]; exact .inr (.inr (.inr ⟨rfl, rfl⟩))
    | .leaf x n r =>
      rw [canon]
      simp only [orItems, dropRepeated, leafNodes, List.cons_append, List.nil_append]
      exact leaf_canon h1 h2 (hPt n (by simp [GoalTree.tops])) hacc hv r (pTree d (.leaf x n r) seen) (by rw [pTree])
    | .path x n r c =>
      rw [canon]
      simp only [orItems, dropRepeated, leafNodes, List.cons_append, List.nil_append]
      exact leaf_canon h1 h2 (hPt n (by simp [GoalTree.tops])) hacc hv r (pTree d (.path x n r c) seen) (by rw [pTree])

theorem pAnd_canon (h1 : Marks H d') (h2 : DescFollows H P σ d d') (ts : List GoalTree) (seen seen' : List Nat) (hf : FormedList ts) (ho : ∀ t ∈ ts, t.isOp = true)
    (hP : ∀ m ∈ topsList ts, Ok H P m) (hv : Tracks H P σ seen seen') :
    Follows (CanonAndR H P σ seen') (outcomes (pAnd d ts seen)) (outcomes (pAnd d' (canonAnd σ ts) seen')) := by
  match ts with
  | [] =>
    rw [canonAnd, pAnd, pAnd]
    exact .ok ⟨rfl, hv, List.Subset.refl _⟩
  | t :: ts =>
    rw [FormedList] at hf
    have hPt : ∀ m ∈ t.tops, Ok H P m := fun m hm => hP m (by simp [topsList, hm])
    have hPs : ∀ m ∈ topsList ts, Ok H P m := fun m hm => hP m (by simp [topsList, hm])
    rw [canonAnd, outcomes_and_cons, outcomes_and_append]
    have hone : Follows (fun (a : SearchResult × List Nat) (b : Bool × List Nat) => (a.1 = .failure ↔ b.1 = false) ∧ Tracks H P σ a.2 b.2 ∧ seen' ⊆ b.2)
        (outcome (pTree d t seen)) (outcomes (pAnd d' (andItems (canon σ t)) seen')) := by
      match t with
      | .and _ ps =>
        have hfa := hf.1
        rw [GoalTree.Formed] at hfa
        rw [outcome_and, canon, andItems_and]
        rcases pAnd_canon h1 h2 ps seen seen' hfa.1 hfa.2.1 (by simpa [GoalTree.tops] using hPt) hv with h | ⟨⟨a, b⟩, ⟨a', b'⟩, ha, hb, e1, e2, e3⟩ | ⟨e, ha, hb⟩ | ⟨ha, hb⟩
        · rw [h]; exact .inl rfl
        · rw [ha, hb]
          dsimp only at e1 e2 e3
          subst e1
          exact .ok ⟨by cases a <;> simp [verdict], e2, e3⟩
        · rw [ha, hb]; exact .inr (.inr (.inl ⟨e, rfl, rfl⟩))
        · rw [ha, hb]; exact .inr (.inr (.inr ⟨rfl, rfl⟩))
      | .or x ps =>
        have := pTree_canon h1 h2 (.or x ps) seen seen' hf.1 rfl hPt hv
        rw [canon] at this ⊢
        simp only [andItems]
        exact and_one this
      | .diff x l r =>
        have := pTree_canon h1 h2 (.diff x l r) seen seen' hf.1 rfl hPt hv
        rw [canon] at this ⊢
        simp only [andItems]
        exact and_one this
      | .leaf x n r => have := ho _ List.mem_cons_self; cases this
      | .path x n r c => have := ho _ List.mem_cons_self; cases this
    refine hone.bind ?_
    rintro ⟨a, s⟩ ⟨b, s'⟩ ⟨e1, e2, e3⟩
    dsimp only at e1 e2 e3 ⊢
    cases b with
    | false =>
      rw [if_pos (e1.2 rfl), if_pos rfl]
      exact .ok ⟨rfl, e2, e3⟩
    | true =>
      rw [if_neg (fun h => by cases e1.1 h), if_neg (by simp)]
      rcases pAnd_canon h1 h2 ts s s' hf.2 (fun t ht => ho t (List.mem_cons_of_mem _ ht)) hPs e2 with h | ⟨a, b, ha, hb, h⟩ | h | h
      · exact .inl h
      · exact .inr (.inl ⟨a, b, ha, hb, h.1, h.2.1, fun _ hx => h.2.2 (e3 hx)⟩)
      · exact .inr (.inr (.inl h))
      · exact .inr (.inr (.inr h))
end
end

/-! ### Visits -/

section
variable {build : RelationNode → Res GoalTree} {u : Entity}

theorem outcome_path_seen {d : Nat} {n : RelationNode} {id : Nat} {r : String} {seen : List Nat} (hid : n.nodeId H = .ok id) (h : id ∈ seen) :
    pPath H build (userGoal u) (d + 1) n r seen = .ok (.leaf .unknown n r, seen) := by
  unfold pPath
  rw [hid, Res.bind_ok, if_pos h]
  rfl

/-- Visiting a userset for the first time. -/
theorem outcome_path_new {k : Nat} {o : Option Entity} {rel : String} {id : Nat} {r : String} {seen : List Nat}
    (hid : (RelationNode.entitySet o rel).nodeId H = .ok id) (h : id ∉ seen) :
    outcome (pPath H build (userGoal u) (k + 1) (.entitySet o rel) r seen) =
      (build (.entitySet o rel) >>= fun t => outcome (pTree (pPath H build (userGoal u) k) t (id :: seen))) := by
  rw [pPath, hid, Res.bind_ok, if_neg h]
  show outcome ((Res.ok false : Res Bool) >>= _) = _
  rw [Res.bind_ok]
  show outcome (build (.entitySet o rel) >>= _) = _
  unfold outcome
  cases build (.entitySet o rel) with
  | ok t =>
    simp only [Res.bind_ok]
    cases pTree (pPath H build (userGoal u) k) t (id :: seen) <;> rfl
  | _ => rfl

theorem pPath_marks (k : Nat) : Marks H (pPath H build (userGoal u) (k + 1)) where
  again n id r seen hid h := outcome_path_seen hid h
  marks n r seen p h := by
    unfold outcome at h
    obtain ⟨⟨t, s⟩, h1, h2⟩ := Res.bind_eq_ok.1 h
    cases h2
    have hev := pPath_ev _ _ _ _ _ _ h1
    cases hev with
    | repeated a b => exact ⟨_, a, b⟩
    | ended a _ _ _ => exact ⟨_, a, List.mem_cons_self⟩
    | expanded a _ _ _ _ b => exact ⟨_, a, b.seen_mono List.mem_cons_self⟩

theorem userset_id (o : Entity) (rel : String) : ∃ id, (RelationNode.entitySet (some o) rel).nodeId H = .ok id := ⟨_, rfl⟩

theorem Tracks.visit (hids : ∀ m n id, P m → P n → m.nodeId H = .ok id → n.nodeId H = .ok id → m = n) {seen seen' : List Nat} (h : Tracks H P σ seen seen')
    {n : RelationNode} {id : Nat} (hn : P n) (hid : n.nodeId H = .ok id) (hs : σ n = n) : Tracks H P σ (id :: seen) (id :: seen') where
  same m i hm hms hi := by rw [List.mem_cons, List.mem_cons, h.same m i hm hms hi]
  other m i i' hm hms hi hi' hin := by
    rcases List.mem_cons.1 hin with rfl | hin
    · rw [hids m n i hm hn hi hid] at hms
      exact absurd hs hms
    · exact List.mem_cons_of_mem _ (h.other m i i' hm hms hi hi' hin)

/-- Visiting a node once the one it is defined as has been visited. -/
theorem Tracks.visit_other (hids : ∀ m n id, P m → P n → m.nodeId H = .ok id → n.nodeId H = .ok id → m = n) {seen seen' : List Nat} (h : Tracks H P σ seen seen')
    {n : RelationNode} {id id' : Nat} (hn : P n) (hid : n.nodeId H = .ok id) (hs : σ n ≠ n) (hid' : (σ n).nodeId H = .ok id') (hin' : id' ∈ seen') :
    Tracks H P σ (id :: seen) seen' where
  same m i hm hms hi := by
    rw [← h.same m i hm hms hi, List.mem_cons]
    refine or_iff_right (fun he => ?_)
    subst he
    rw [hids m n i hm hn hi hid] at hms
    exact hs hms
  other m i i' hm hms hi hi' hin := by
    rcases List.mem_cons.1 hin with rfl | hin
    · have := hids m n i hm hn hi hid
      subst this
      rw [hid'] at hi'
      cases hi'
      exact hin'
    · exact h.other m i i' hm hms hi hi' hin

theorem pPath_canon
    (hids : ∀ m n id, P m → P n → m.nodeId H = .ok id → n.nodeId H = .ok id → m = n)
    (hσ : ∀ n, σ n ≠ n → ∃ o a b, n = .entitySet (some o) a ∧ σ n = .entitySet (some o) b ∧ σ (σ n) = σ n)
    (hal : ∀ n, P n → σ n ≠ n → P (σ n) ∧ ∃ x y z, build n = .ok (.or x [.leaf y (σ n) z]))
    (hb : ∀ n t, P n → n.isTerminal = false → build n = .ok t → t.Formed ∧ t.isOp = true ∧ ∀ m ∈ t.tops, Ok H P m) :
    ∀ m m', m < m' → DescFollows H P σ (pPath H build (userGoal u) m) (pPath H (fun n => build n >>= fun t => .ok (canon σ t)) (userGoal u) m') := by
  intro m
  induction m using Nat.strongRecOn with
  | _ m ih =>
    intro m' hm n r r' seen seen' hP hv
    cases m with
    | zero => exact .inl rfl
    | succ k =>
      obtain ⟨k', rfl⟩ : ∃ k', m' = k' + 1 := ⟨m' - 1, by omega⟩
      by_cases hs : σ n = n
      · rw [hs]
        cases hid : n.nodeId H with
        | ok id =>
          have hP' := hP id hid
          by_cases hin : id ∈ seen
          · rw [outcome_path_seen hid hin, outcome_path_seen hid ((hv.same n id hP' hs hid).1 hin)]
            exact .ok ⟨Iff.rfl, hv, List.Subset.refl _⟩
          · have hin' := mt (hv.same n id hP' hs hid).2 hin
            by_cases hterm : n.isTerminal = true
            · have hw := hv.visit hids hP' hid hs
              unfold outcome
              rw [pPath, pPath, hid, Res.bind_ok, Res.bind_ok, if_neg hin, if_neg hin']
              dsimp only
              cases hg : goalFound n (userGoal u) with
              | ok b =>
                simp only [Res.bind_ok, hterm, Bool.or_true, if_true]
                exact .ok ⟨Iff.rfl, hw, fun _ h => List.mem_cons_of_mem _ h⟩
              | err e => exact .inr (.inr (.inl ⟨e, rfl, rfl⟩))
              | panic => exact .inr (.inr (.inr ⟨rfl, rfl⟩))
              | fuel => exact .inl rfl
            · obtain ⟨o, rel, rfl⟩ := isTerminal_false (by simpa using hterm)
              rw [outcome_path_new hid hin, outcome_path_new hid hin']
              cases hbn : build (.entitySet o rel) with
              | ok t =>
                obtain ⟨f1, f2, f3⟩ := hb _ t hP' rfl hbn
                obtain ⟨k'', rfl⟩ : ∃ j, k' = j + 1 := ⟨k' - 1, by omega⟩
                simp only [Res.bind_ok]
                rcases pTree_canon (pPath_marks k'') (ih k (by omega) _ (by omega)) t _ _ f1 f2 f3 (hv.visit hids hP' hid hs) with h | ⟨a, b, ha, hb, h⟩ | h | h
                · exact .inl h
                · exact .inr (.inl ⟨a, b, ha, hb, by rw [h.1], h.2.1, fun _ hx => h.2.2 (List.mem_cons_of_mem _ hx)⟩)
                · exact .inr (.inr (.inl h))
                · exact .inr (.inr (.inr h))
              | err e => exact .inr (.inr (.inl ⟨e, rfl, rfl⟩))
              | panic => exact .inr (.inr (.inr ⟨rfl, rfl⟩))
              | fuel => exact .inl rfl
        | err e => unfold outcome; rw [pPath, pPath, hid]; exact .inr (.inr (.inl ⟨e, rfl, rfl⟩))
        | panic => unfold outcome; rw [pPath, pPath, hid]; exact .inr (.inr (.inr ⟨rfl, rfl⟩))
        | fuel => unfold outcome; rw [pPath, hid]; exact .inl rfl
      · obtain ⟨o, a, b, rfl, hsn, hss⟩ := hσ n hs
        obtain ⟨id, hid⟩ := userset_id (H := H) o a
        obtain ⟨id', hid'⟩ := userset_id (H := H) o b
        have hP' := hP id hid
        obtain ⟨hPb, x, y, z, hbx⟩ := hal _ hP' hs
        rw [hsn] at hss hPb hbx ⊢
        have hid'' : (σ (.entitySet (some o) a)).nodeId H = .ok id' := by rw [hsn]; exact hid'
        have hne : id' ≠ id := fun he => by
          subst he
          exact hs (by rw [hsn]; exact hids _ _ _ hPb hP' hid' hid)
        by_cases hin : id ∈ seen
        · rw [outcome_path_seen hid hin, outcome_path_seen hid' (hv.other _ id id' hP' hs hid hid'' hin)]
          exact .ok ⟨Iff.rfl, hv, List.Subset.refl _⟩
        · rw [outcome_path_new hid hin, hbx, Res.bind_ok, outcome_or, outcomes_or_cons, pTree]
          cases k with
          | zero => exact .inl rfl
          | succ j =>
            by_cases hin' : id' ∈ seen
            · have hi := (hv.same _ id' hPb hss hid').1 hin'
              rw [outcome_path_seen hid' (List.mem_cons_of_mem _ hin'), outcome_path_seen hid' hi]
              refine .ok ⟨⟨nofun, nofun⟩, hv.visit_other hids hP' hid hs hid'' hi, List.Subset.refl _⟩
            · have hi := mt (hv.same _ id' hPb hss hid').2 hin'
              rw [outcome_path_new hid' (by simp [hne, hin']), outcome_path_new hid' hi]
              cases hbn : build (.entitySet (some o) b) with
              | ok t =>
                obtain ⟨f1, f2, f3⟩ := hb _ t hPb rfl hbn
                obtain ⟨k'', rfl⟩ : ∃ j, k' = j + 1 := ⟨k' - 1, by omega⟩
                simp only [Res.bind_ok]
                have hw : Tracks H P σ (id' :: id :: seen) (id' :: seen') := by
                  have h1 := (hv.visit hids hPb hid' hss).visit_other hids hP' hid hs hid'' List.mem_cons_self
                  refine ⟨fun m i hm hms hi => ?_, fun m i i' hm hms hi hi' hh => h1.other m i i' hm hms hi hi' ?_⟩
                  · rw [← h1.same m i hm hms hi]
                    simp only [List.mem_cons]; grind
                  · simp only [List.mem_cons] at hh ⊢; grind
                rcases pTree_canon (pPath_marks k'') (ih j (by omega) _ (by omega)) t _ _ f1 f2 f3 hw with h | ⟨⟨a, s⟩, ⟨b, s'⟩, ha, hb, h1, h2, h3⟩ | ⟨e, ha, hb⟩ | ⟨ha, hb⟩
                · rw [h]; exact .inl rfl
                · rw [ha, hb]
                  dsimp only at h1 h2 h3
                  subst h1
                  simp only [Res.bind_ok]
                  by_cases hsu : a = .success
                  · rw [if_pos hsu]
                    exact .ok ⟨by simp [hsu, verdict], h2, fun _ hx => h3 (List.mem_cons_of_mem _ hx)⟩
                  · rw [if_neg hsu, pOr]
                    exact .ok ⟨by simp [hsu, verdict], h2, fun _ hx => h3 (List.mem_cons_of_mem _ hx)⟩
                · rw [ha, hb]; exact .inr (.inr (.inl ⟨e, rfl, rfl⟩))
                · rw [ha, hb]; exact .inr (.inr (.inr ⟨rfl, rfl⟩))
              | err e => exact .inr (.inr (.inl ⟨e, rfl, rfl⟩))
              | panic => exact .inr (.inr (.inr ⟨rfl, rfl⟩))
              | fuel => exact .inl rfl

end

end Zanzi
