import Verif.Lemmas.NodeText
import Verif.Lemmas.Explain

/-
The calls of the DOT serializer (goal_tree_serializer.go) draw the tree.
-/

namespace Zanzi

open Spec

mutual
/-- Number of tree nodes. -/
def gsize : GoalTree → Nat
  | .or _ ps => gsizes ps + 1
  | .and _ ps => gsizes ps + 1
  | .diff _ a b => gsize a + gsize b + 1
  | .leaf _ _ _ => 1
  | .path _ _ _ c => gsize c + 1
def gsizes : List GoalTree → Nat
  | [] => 0
  | t :: ts => gsize t + gsizes ts
end

theorem gsize_children (t : GoalTree) : gsize t = gsizes (children t) + 1 := by
  cases t <;> simp [gsize, children, gsizes]

/-- Preorder index of a position. -/
def pidx : GoalTree → List Nat → Nat
  | _, [] => 0
  | t, i :: p => match (children t)[i]? with
    | none => 0
    | some c => 1 + gsizes ((children t).take i) + pidx c p

theorem gsizes_take_lt : ∀ {ts : List GoalTree} {i : Nat} {t : GoalTree}, ts[i]? = some t → gsizes (ts.take i) + gsize t ≤ gsizes ts := by
  intro ts
  induction ts with
  | nil => intro i t h; simp at h
  | cons a ts ih =>
    intro i t h
    cases i with
    | zero =>
      simp only [List.getElem?_cons_zero, Option.some.injEq] at h
      subst h
      simp [gsizes]
    | succ i =>
      simp only [List.getElem?_cons_succ] at h
      have := ih h
      simp only [List.take_succ_cons, gsizes]
      omega

theorem gsizes_take_mono : ∀ {ts : List GoalTree} {i j : Nat} {t : GoalTree}, ts[i]? = some t → i < j → gsizes (ts.take i) + gsize t ≤ gsizes (ts.take j) := by
  intro ts
  induction ts with
  | nil => intro i j t h; simp at h
  | cons a ts ih =>
    intro i j t h hij
    cases j with
    | zero => omega
    | succ j =>
      cases i with
      | zero =>
        simp only [List.getElem?_cons_zero, Option.some.injEq] at h
        subst h
        simp [gsizes]
      | succ i =>
        simp only [List.getElem?_cons_succ] at h
        have := ih h (by omega : i < j)
        simp only [List.take_succ_cons, gsizes]
        omega

theorem subtree_cons {t : GoalTree} {i : Nat} {p : List Nat} {a : GoalTree} :
    subtree t (i :: p) = some a ↔ ∃ c, (children t)[i]? = some c ∧ subtree c p = some a := by
  rw [subtree]
  cases h : (children t)[i]? with
  | none => simp
  | some c => simp

theorem pidx_cons {t : GoalTree} {i : Nat} {c : GoalTree} (h : (children t)[i]? = some c) (p : List Nat) :
    pidx t (i :: p) = 1 + gsizes ((children t).take i) + pidx c p := by
  rw [pidx, h]

theorem gsize_pos (t : GoalTree) : 0 < gsize t := by rw [gsize_children]; omega

theorem pidx_lt : ∀ {p : List Nat} {t a : GoalTree}, subtree t p = some a → pidx t p < gsize t := by
  intro p
  induction p with
  | nil => intro t a _; exact gsize_pos t
  | cons i p ih =>
    intro t a h
    obtain ⟨c, h1, h2⟩ := subtree_cons.1 h
    rw [pidx_cons h1, gsize_children]
    have := ih h2
    have := gsizes_take_lt h1
    omega

theorem pidx_inj : ∀ {p q : List Nat} {t a b : GoalTree}, subtree t p = some a → subtree t q = some b → pidx t p = pidx t q → p = q := by
  intro p
  induction p with
  | nil =>
    intro q t a b hp hq h
    cases q with
    | nil => rfl
    | cons j q =>
      obtain ⟨c, h1, h2⟩ := subtree_cons.1 hq
      rw [pidx_cons h1, pidx] at h
      omega
  | cons i p ih =>
    intro q t a b hp hq h
    obtain ⟨c, h1, h2⟩ := subtree_cons.1 hp
    cases q with
    | nil =>
      rw [pidx_cons h1, pidx] at h
      omega
    | cons j q =>
      obtain ⟨d, h3, h4⟩ := subtree_cons.1 hq
      rw [pidx_cons h1, pidx_cons h3] at h
      have b1 := pidx_lt h2
      have b2 := pidx_lt h4
      rcases Nat.lt_trichotomy i j with hij | hij | hij
      · have := gsizes_take_mono h1 hij
        omega
      · subst hij
        rw [h1] at h3
        cases h3
        rw [ih h2 h4 (by omega)]
      · have := gsizes_take_mono h3 hij
        omega

/-- Label of a tree node. -/
def caption : GoalTree → Res String
  | .or r _ => .ok ("ORNode\nresult: " ++ r.str)
  | .and r _ => .ok ("ANDNode\nresult: " ++ r.str)
  | .diff r _ _ => .ok ("DifferenceNode\nresult: " ++ r.str)
  | .leaf r n reason => n.prettyString >>= fun s => .ok (pathLabel s reason r)
  | .path r n reason _ => n.prettyString >>= fun s => .ok (pathLabel s reason r)

theorem resultText_eq (r : SearchResult) : resultText r = r.str := by cases r <;> rfl

theorem caption_iff (t : GoalTree) (l : String) : caption t = .ok l ↔ Caption t l := by
  cases t with
  | or r ps => simp only [caption, Caption, Res.ok.injEq, resultText_eq]; exact eq_comm
  | and r ps => simp only [caption, Caption, Res.ok.injEq, resultText_eq]; exact eq_comm
  | diff r a b => simp only [caption, Caption, Res.ok.injEq, resultText_eq]; exact eq_comm
  | leaf r n e =>
    rw [caption, Caption, Res.bind_eq_ok, resultText_eq]
    simp only [Res.ok.injEq]
    constructor
    · rintro ⟨text, h1, h2⟩; exact ⟨text, prettyString_iff.1 h1, h2 ▸ rfl⟩
    · rintro ⟨text, h1, h2⟩; exact ⟨text, prettyString_iff.2 h1, h2 ▸ rfl⟩
  | path r n e c =>
    rw [caption, Caption, Res.bind_eq_ok, resultText_eq]
    simp only [Res.ok.injEq]
    constructor
    · rintro ⟨text, h1, h2⟩; exact ⟨text, prettyString_iff.1 h1, h2 ▸ rfl⟩
    · rintro ⟨text, h1, h2⟩; exact ⟨text, prettyString_iff.2 h1, h2 ▸ rfl⟩

/-- The serializer, uniformly. -/
theorem dotTree_eq (parent : DotId) (t : GoalTree) (c : Nat) : dotTree parent t c =
    caption t >>= fun l => dotList (.num c) (children t) (c + 1) >>= fun q => .ok (.node (.num c) l :: .edge parent (.num c) :: q.1, q.2) := by
  cases t with
  | or r ps => rw [dotTree]; simp only [caption, children, Res.bind_ok]; rfl
  | and r ps => rw [dotTree]; simp only [caption, children, Res.bind_ok]; rfl
  | diff r a b =>
    rw [dotTree]
    simp only [caption, children, Res.bind_ok, dotList]
    cases dotTree (.num c) a (c + 1) with
    | ok q =>
      simp only [Res.bind_ok]
      cases dotTree (.num c) b q.2 with
      | ok q' => simp only [Res.bind_ok]; simp [Pure.pure]
      | _ => rfl
    | _ => rfl
  | leaf r n e =>
    rw [dotTree]
    simp only [caption, children, dotList]
    cases n.prettyString <;> rfl
  | path r n e ch =>
    rw [dotTree]
    simp only [caption, children, dotList]
    cases n.prettyString with
    | ok s =>
      simp only [Res.bind_ok]
      cases dotTree (.num c) ch (c + 1) with
      | ok q => simp only [Res.bind_ok]; simp [Pure.pure]
      | _ => rfl
    | _ => rfl

/-- What the calls for a tree, numbered from `c`, are. -/
structure TreeCalls (parent : DotId) (t : GoalTree) (c : Nat) (cs : List DotCall) : Prop where
  node : ∀ d l, .node d l ∈ cs ↔ ∃ p a, subtree t p = some a ∧ d = .num (c + pidx t p) ∧ Caption a l
  edge : ∀ d d', .edge d d' ∈ cs ↔ (d = parent ∧ d' = .num c) ∨
    ∃ p i a, subtree t (p ++ [i]) = some a ∧ d = .num (c + pidx t p) ∧ d' = .num (c + pidx t (p ++ [i]))
  nodup : cs.Nodup

/-- The same for a list of siblings. -/
structure ListCalls (parent : DotId) (ts : List GoalTree) (c : Nat) (cs : List DotCall) : Prop where
  node : ∀ d l, .node d l ∈ cs ↔ ∃ (i : Nat) (t : GoalTree) (p : List Nat) (a : GoalTree), ts[i]? = some t ∧ subtree t p = some a ∧ d = .num (c + gsizes (ts.take i) + pidx t p) ∧ Caption a l
  edge : ∀ d d', .edge d d' ∈ cs ↔ ∃ (i : Nat) (t : GoalTree), ts[i]? = some t ∧ ((d = parent ∧ d' = .num (c + gsizes (ts.take i))) ∨
    ∃ p j a, subtree t (p ++ [j]) = some a ∧ d = .num (c + gsizes (ts.take i) + pidx t p) ∧ d' = .num (c + gsizes (ts.take i) + pidx t (p ++ [j])))
  nodup : cs.Nodup

/-- The vertex a call is about. -/
def DotCall.target : DotCall → DotId
  | .node d _ => d
  | .edge _ d => d

theorem TreeCalls.range {parent : DotId} {t : GoalTree} {c : Nat} {cs : List DotCall} (h : TreeCalls parent t c cs) :
    ∀ x ∈ cs, ∃ k, x.target = .num k ∧ c ≤ k ∧ k < c + gsize t := by
  intro x hx
  cases x with
  | node d l =>
    obtain ⟨p, a, h1, h2, _⟩ := (h.node d l).1 hx
    have := pidx_lt h1
    exact ⟨_, h2, by omega, by omega⟩
  | edge d d' =>
    rcases (h.edge d d').1 hx with ⟨_, h2⟩ | ⟨p, i, a, h1, _, h2⟩
    · have := gsize_pos t
      exact ⟨_, h2, by omega, by omega⟩
    · have := pidx_lt h1
      exact ⟨_, h2, by omega, by omega⟩

theorem ListCalls.range {parent : DotId} {ts : List GoalTree} {c : Nat} {cs : List DotCall} (h : ListCalls parent ts c cs) :
    ∀ x ∈ cs, ∃ k, x.target = .num k ∧ c ≤ k := by
  intro x hx
  cases x with
  | node d l =>
    obtain ⟨i, t, p, a, h0, h1, h2, _⟩ := (h.node d l).1 hx
    exact ⟨_, h2, by omega⟩
  | edge d d' =>
    obtain ⟨i, t, h0, h1⟩ := (h.edge d d').1 hx
    rcases h1 with ⟨_, h2⟩ | ⟨p, i, a, h1, _, h2⟩
    · exact ⟨_, h2, by omega⟩
    · exact ⟨_, h2, by omega⟩

theorem dotList_calls {n : Nat} (ih : ∀ t, gsize t ≤ n → ∀ parent c cs c', dotTree parent t c = .ok (cs, c') → c' = c + gsize t ∧ TreeCalls parent t c cs) :
    ∀ ts, gsizes ts ≤ n → ∀ parent c cs c', dotList parent ts c = .ok (cs, c') → c' = c + gsizes ts ∧ ListCalls parent ts c cs := by
  intro ts
  induction ts with
  | nil =>
    intro _ parent c cs c' h
    rw [dotList] at h
    cases h
    exact ⟨rfl, ⟨by simp, by simp, List.nodup_nil⟩⟩
  | cons t ts ihl =>
    intro hn parent c cs c' h
    rw [gsizes] at hn
    rw [dotList] at h
    obtain ⟨⟨cs1, c1⟩, h1, h⟩ := Res.bind_eq_ok.1 h
    obtain ⟨⟨cs2, c2⟩, h2, h⟩ := Res.bind_eq_ok.1 h
    cases h
    obtain ⟨rfl, t1⟩ := ih t (by omega) _ _ _ _ h1
    obtain ⟨rfl, t2⟩ := ihl (by omega) _ _ _ _ h2
    refine ⟨by rw [gsizes]; omega, ⟨?_, ?_, ?_⟩⟩
    · intro d l
      rw [List.mem_append, t1.node, t2.node]
      constructor
      · rintro (⟨p, a, h3, h4, h5⟩ | ⟨i, t', p, a, h3, h4, h5, h6⟩)
        · exact ⟨0, t, p, a, by simp, h3, by simpa [gsizes] using h4, h5⟩
        · refine ⟨i + 1, t', p, a, by simpa using h3, h4, ?_, h6⟩
          rw [h5, List.take_succ_cons, gsizes]
          congr 1
          omega
      · rintro ⟨i, t', p, a, h3, h4, h5, h6⟩
        cases i with
        | zero =>
          simp only [List.getElem?_cons_zero, Option.some.injEq] at h3
          subst h3
          exact .inl ⟨p, a, h4, by simpa [gsizes] using h5, h6⟩
        | succ i =>
          simp only [List.getElem?_cons_succ] at h3
          refine .inr ⟨i, t', p, a, h3, h4, ?_, h6⟩
          rw [h5, List.take_succ_cons, gsizes]
          congr 1
          omega
    · intro d d'
      rw [List.mem_append, t1.edge, t2.edge]
      constructor
      · rintro (h3 | ⟨i, t', h3, h4⟩)
        · exact ⟨0, t, by simp, by simpa [gsizes] using h3⟩
        · refine ⟨i + 1, t', by simpa using h3, ?_⟩
          have e : c + gsizes ((t :: ts).take (i + 1)) = c + gsize t + gsizes (ts.take i) := by
            rw [List.take_succ_cons, gsizes]; omega
          rw [e]
          exact h4
      · rintro ⟨i, t', h3, h4⟩
        cases i with
        | zero =>
          simp only [List.getElem?_cons_zero, Option.some.injEq] at h3
          subst h3
          exact .inl (by simpa [gsizes] using h4)
        | succ i =>
          simp only [List.getElem?_cons_succ] at h3
          refine .inr ⟨i, t', h3, ?_⟩
          have e : c + gsizes ((t :: ts).take (i + 1)) = c + gsize t + gsizes (ts.take i) := by
            rw [List.take_succ_cons, gsizes]; omega
          rw [e] at h4
          exact h4
    · refine List.nodup_append.2 ⟨t1.nodup, t2.nodup, fun a ha b hb => ?_⟩
      rintro rfl
      obtain ⟨k, hk, _, hk2⟩ := t1.range a ha
      obtain ⟨k', hk', hk3⟩ := t2.range a hb
      rw [hk] at hk'
      cases hk'
      omega

theorem dotTree_calls : ∀ n t, gsize t ≤ n → ∀ parent c cs c', dotTree parent t c = .ok (cs, c') → c' = c + gsize t ∧ TreeCalls parent t c cs := by
  intro n
  induction n with
  | zero => intro t h; have := gsize_pos t; omega
  | succ n ih =>
    intro t hn parent c cs c' h
    rw [dotTree_eq] at h
    obtain ⟨l, hl, h⟩ := Res.bind_eq_ok.1 h
    obtain ⟨⟨cs1, c1⟩, h1, h⟩ := Res.bind_eq_ok.1 h
    cases h
    rw [gsize_children] at hn
    obtain ⟨rfl, t1⟩ := dotList_calls ih (children t) (by omega) _ _ _ _ h1
    have hcap := (caption_iff t l).1 hl
    have huniq : ∀ l', Caption t l' → l' = l := by
      intro l' h'
      have := (caption_iff t l').2 h'
      rw [hl] at this
      cases this
      rfl
    refine ⟨by rw [gsize_children t]; omega, ⟨?_, ?_, ?_⟩⟩
    · intro d l'
      simp only [List.mem_cons, DotCall.node.injEq, reduceCtorEq, false_or, t1.node]
      constructor
      · rintro (⟨rfl, rfl⟩ | ⟨i, t', p, a, h3, h4, h5, h6⟩)
        · exact ⟨[], t, rfl, rfl, hcap⟩
        · refine ⟨i :: p, a, subtree_cons.2 ⟨t', h3, h4⟩, ?_, h6⟩
          rw [h5, pidx_cons h3]
          congr 1
          omega
      · rintro ⟨p, a, h3, h4, h5⟩
        cases p with
        | nil =>
          cases h3
          exact .inl ⟨h4, huniq _ h5⟩
        | cons i p =>
          obtain ⟨t', h6, h7⟩ := subtree_cons.1 h3
          refine .inr ⟨i, t', p, a, h6, h7, ?_, h5⟩
          rw [h4, pidx_cons h6]
          congr 1
          omega
    · intro d d'
      simp only [List.mem_cons, DotCall.edge.injEq, reduceCtorEq, false_or, t1.edge]
      refine or_congr Iff.rfl ?_
      constructor
      · rintro ⟨i, t', h3, ⟨rfl, rfl⟩ | ⟨p, j, a, h4, rfl, rfl⟩⟩
        · refine ⟨[], i, t', subtree_cons.2 ⟨t', h3, rfl⟩, rfl, ?_⟩
          rw [List.nil_append, pidx_cons h3, pidx]
          congr 1
          omega
        · refine ⟨i :: p, j, a, subtree_cons.2 ⟨t', h3, h4⟩, ?_, ?_⟩
          · rw [pidx_cons h3]
            congr 1
            omega
          · rw [List.cons_append, pidx_cons h3]
            congr 1
            omega
      · rintro ⟨p, i, a, h3, rfl, rfl⟩
        cases p with
        | nil =>
          obtain ⟨t', h6, h7⟩ := subtree_cons.1 h3
          refine ⟨i, t', h6, .inl ⟨rfl, ?_⟩⟩
          rw [List.nil_append, pidx_cons h6, pidx]
          congr 1
          omega
        | cons k p =>
          obtain ⟨t', h6, h7⟩ := subtree_cons.1 h3
          refine ⟨k, t', h6, .inr ⟨p, i, a, h7, ?_, ?_⟩⟩
          · rw [pidx_cons h6]
            congr 1
            omega
          · rw [List.cons_append, pidx_cons h6]
            congr 1
            omega
    · have hr : ∀ x ∈ cs1, x.target ≠ .num c := by
        intro x hx hx'
        obtain ⟨k, hk, hk2⟩ := t1.range x hx
        rw [hx'] at hk
        cases hk
        omega
      refine List.nodup_cons.2 ⟨?_, List.nodup_cons.2 ⟨?_, t1.nodup⟩⟩
      · simp only [List.mem_cons, reduceCtorEq, false_or]
        exact fun h => hr _ h rfl
      · exact fun h => hr _ h rfl

theorem dotSerialize_draws {t : GoalTree} {cs : List DotCall} (h : dotSerialize t = .ok cs) : Draws t cs := by
  unfold dotSerialize at h
  obtain ⟨⟨cs1, c1⟩, h1, h⟩ := Res.bind_eq_ok.1 h
  cases h
  obtain ⟨_, t1⟩ := dotTree_calls _ t (Nat.le_refl _) _ _ _ _ h1
  refine ⟨pidx t, fun p q a b hp hq => pidx_inj hp hq, ?_, ?_, ?_⟩
  · intro d l
    simp only [List.mem_cons, DotCall.node.injEq, t1.node, Nat.zero_add]
  · intro d d'
    simp only [List.mem_cons, reduceCtorEq, false_or, t1.edge, Nat.zero_add, pidx]
  · refine List.nodup_cons.2 ⟨?_, t1.nodup⟩
    intro h
    obtain ⟨k, hk, _⟩ := t1.range _ h
    cases hk

end Zanzi
