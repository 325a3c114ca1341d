import Verif.Lemmas.CheckRun
import Verif.Props.Parser

/-
The search returns: every expansion visits a new node, and expandable nodes are finitely many.
-/

namespace Zanzi

open Spec

/-! ### Bounded searches -/

/-- Nodes of `L` still unvisited. -/
def unvisited (L seen : List Nat) : Nat := (L.filter (fun i => decide (i ∉ seen))).length

theorem unvisited_mono (L : List Nat) {s s' : List Nat} (h : s ⊆ s') : unvisited L s' ≤ unvisited L s := by
  unfold unvisited
  induction L with
  | nil => simp
  | cons a L ih =>
    simp only [List.filter_cons]
    by_cases h1 : a ∈ s'
    · by_cases h2 : a ∈ s
      · simpa [h1, h2] using ih
      · simp only [h1, h2, not_true_eq_false, decide_false, Bool.false_eq_true, if_false, not_false_eq_true, decide_true, if_true, List.length_cons]
        omega
    · have h2 : a ∉ s := fun h2 => h1 (h h2)
      simp only [h1, h2, not_false_eq_true, decide_true, if_true, List.length_cons]
      omega

theorem unvisited_lt {L s : List Nat} {id : Nat} (hL : id ∈ L) (hs : id ∉ s) : unvisited L (id :: s) < unvisited L s := by
  induction L with
  | nil => cases hL
  | cons a L ih =>
    have hm := unvisited_mono L (List.subset_cons_self id s)
    unfold unvisited at *
    simp only [List.filter_cons]
    by_cases h : a = id
    · subst h
      simp only [List.mem_cons, true_or, not_true_eq_false, decide_false, Bool.false_eq_true, if_false, hs, not_false_eq_true, decide_true, if_true,
        List.length_cons] at *
      omega
    · have hL' : id ∈ L := by
        rcases List.mem_cons.1 hL with rfl | h'
        · exact absurd rfl h
        · exact h'
      have := ih hL'
      by_cases h1 : a ∈ s
      · simp only [List.mem_cons, h1, or_true, not_true_eq_false, decide_false, Bool.false_eq_true, if_false] at *
        exact this
      · simp only [List.mem_cons, h, h1, or_self, not_false_eq_true, decide_true, if_true, List.length_cons] at *
        omega

/-- Two results are the same, final, and only add to the visited nodes. -/
def Same {α : Type} (seenOf : α → List Nat) (seen : List Nat) (r r' : Res α) : Prop :=
  r = r' ∧ r ≠ .fuel ∧ ∀ a, r = .ok a → seen ⊆ seenOf a

theorem Same.bind {α β : Type} {f : α → List Nat} {g : β → List Nat} {seen : List Nat} {r r' : Res α} {k k' : α → Res β}
    (h : Same f seen r r') (hk : ∀ a, r = .ok a → seen ⊆ f a → Same g (f a) (k a) (k' a)) : Same g seen (r >>= k) (r' >>= k') := by
  obtain ⟨rfl, h2, h3⟩ := h
  cases r with
  | ok a =>
    obtain ⟨k1, k2, k3⟩ := hk a rfl (h3 a rfl)
    exact ⟨by simpa using k1, by simpa using k2, fun b hb => List.Subset.trans (h3 a rfl) (k3 b (by simpa using hb))⟩
  | err e => exact ⟨rfl, nofun, nofun⟩
  | panic => exact ⟨rfl, nofun, nofun⟩
  | fuel => exact absurd rfl h2

theorem Same.ok {α : Type} {f : α → List Nat} {seen : List Nat} {a : α} (h : seen ⊆ f a) : Same f seen (.ok a) (.ok a) :=
  ⟨rfl, nofun, fun b hb => by cases hb; exact h⟩

section
variable {d d' : Descend} {P : RelationNode → Prop} {S : List Nat → Prop}

mutual
theorem pTree_same (hS : ∀ s s', S s → s ⊆ s' → S s') (h : ∀ n r seen, P n → S seen → Same (·.2) seen (d n r seen) (d' n r seen))
    (t : GoalTree) (seen : List Nat) (hs : S seen) (ht : ∀ n ∈ t.tops, P n) : Same (·.2) seen (pTree d t seen) (pTree d' t seen) := by
  match t with
  | .or _ ps =>
    rw [pTree, pTree]
    exact (pOr_same hS h ps seen hs (by simpa [GoalTree.tops] using ht)).bind (fun a _ _ => .ok (fun _ h => h))
  | .and _ ps =>
    rw [pTree, pTree]
    exact (pAnd_same hS h ps seen hs (by simpa [GoalTree.tops] using ht)).bind (fun a _ _ => .ok (fun _ h => h))
  | .diff _ l r =>
    have hl : ∀ n ∈ l.tops, P n := fun n hn => ht n (by simp [GoalTree.tops, hn])
    have hr : ∀ n ∈ r.tops, P n := fun n hn => ht n (by simp [GoalTree.tops, hn])
    rw [pTree, pTree]
    exact (pTree_same hS h l seen hs hl).bind (fun a _ ha => (pTree_same hS h r a.2 (hS _ _ hs ha) hr).bind (fun b _ _ => .ok (fun _ h => h)))
  | .leaf _ n r => rw [pTree, pTree]; exact h n r seen (ht n (by simp [GoalTree.tops])) hs
  | .path _ n r _ => rw [pTree, pTree]; exact h n r seen (ht n (by simp [GoalTree.tops])) hs

theorem pOr_same (hS : ∀ s s', S s → s ⊆ s' → S s') (h : ∀ n r seen, P n → S seen → Same (·.2) seen (d n r seen) (d' n r seen))
    (ts : List GoalTree) (seen : List Nat) (hs : S seen) (ht : ∀ n ∈ topsList ts, P n) : Same (·.2.2) seen (pOr d ts seen) (pOr d' ts seen) := by
  match ts with
  | [] => rw [pOr, pOr]; exact .ok (fun _ h => h)
  | t :: ts =>
    have hl : ∀ n ∈ t.tops, P n := fun n hn => ht n (by simp [topsList, hn])
    have hr : ∀ n ∈ topsList ts, P n := fun n hn => ht n (by simp [topsList, hn])
    rw [pOr, pOr]
    refine (pTree_same hS h t seen hs hl).bind (fun a _ ha => ?_)
    obtain ⟨t', s'⟩ := a
    dsimp only
    split
    · exact .ok (fun _ h => h)
    · exact (pOr_same hS h ts s' (hS _ _ hs ha) hr).bind (fun b _ _ => .ok (fun _ h => h))

theorem pAnd_same (hS : ∀ s s', S s → s ⊆ s' → S s') (h : ∀ n r seen, P n → S seen → Same (·.2) seen (d n r seen) (d' n r seen))
    (ts : List GoalTree) (seen : List Nat) (hs : S seen) (ht : ∀ n ∈ topsList ts, P n) : Same (·.2.2) seen (pAnd d ts seen) (pAnd d' ts seen) := by
  match ts with
  | [] => rw [pAnd, pAnd]; exact .ok (fun _ h => h)
  | t :: ts =>
    have hl : ∀ n ∈ t.tops, P n := fun n hn => ht n (by simp [topsList, hn])
    have hr : ∀ n ∈ topsList ts, P n := fun n hn => ht n (by simp [topsList, hn])
    rw [pAnd, pAnd]
    refine (pTree_same hS h t seen hs hl).bind (fun a _ ha => ?_)
    obtain ⟨t', s'⟩ := a
    dsimp only
    split
    · exact .ok (fun _ h => h)
    · exact (pAnd_same hS h ts s' (hS _ _ hs ha) hr).bind (fun b _ _ => .ok (fun _ h => h))
end
end

theorem nodeId_ne_fuel (H : String → Nat) (n : RelationNode) : n.nodeId H ≠ .fuel := by
  cases n with
  | entitySet o _ => cases o <;> nofun
  | entity o => cases o <;> nofun
  | wildcard _ => nofun
  | unset => nofun

theorem goalFound_ne_fuel (n : RelationNode) (g : Option RelationNode) : goalFound n g ≠ .fuel := by
  unfold goalFound
  rcases g with _ | g
  · nofun
  · cases g with
    | entity g =>
      cases n with
      | entity p => cases g <;> cases p <;> nofun
      | wildcard r => cases g <;> nofun
      | _ => nofun
    | _ => nofun

/-- With more fuel than unvisited expandable nodes, the search returns, and more fuel changes nothing. -/
theorem pPath_stable {H : String → Nat} {build : RelationNode → Res GoalTree} {goal : Option RelationNode} {P : RelationNode → Prop} {L : List Nat}
    (hb : ∀ n, P n → n.isTerminal = false → build n ≠ .fuel ∧
      ∀ t, build n = .ok t → (∀ id, n.nodeId H = .ok id → id ∈ L) ∧ ∀ m ∈ t.tops, P m) (k : Nat) :
    ∀ fuel fuel', k < fuel → k < fuel' → ∀ n r seen, P n → unvisited L seen ≤ k →
      Same (·.2) seen (pPath H build goal fuel n r seen) (pPath H build goal fuel' n r seen) := by
  induction k using Nat.strongRecOn with
  | _ k ih =>
  intro fuel fuel' hf hf' n r seen hn hk
  obtain ⟨f, rfl⟩ : ∃ f, fuel = f + 1 := ⟨fuel - 1, by omega⟩
  obtain ⟨f', rfl⟩ : ∃ f, fuel' = f + 1 := ⟨fuel' - 1, by omega⟩
  unfold pPath
  have hnf := nodeId_ne_fuel H n
  cases hid : n.nodeId H with
  | err e => exact ⟨rfl, nofun, nofun⟩
  | panic => exact ⟨rfl, nofun, nofun⟩
  | fuel => exact absurd hid hnf
  | ok id =>
    simp only [Res.bind_ok]
    split
    · exact .ok (fun _ h => h)
    · next hseen =>
      have hgf := goalFound_ne_fuel n goal
      cases hg : goalFound n goal with
      | err e => exact ⟨rfl, nofun, nofun⟩
      | panic => exact ⟨rfl, nofun, nofun⟩
      | fuel => exact absurd hg hgf
      | ok b =>
        simp only [Res.bind_ok]
        split
        · exact .ok (List.subset_cons_self _ _)
        · next hterm =>
          obtain ⟨h1, h2⟩ := hb n hn (by simp at hterm; exact hterm.2)
          cases hbn : build n with
          | err e => exact ⟨rfl, nofun, nofun⟩
          | panic => exact ⟨rfl, nofun, nofun⟩
          | fuel => exact absurd hbn h1
          | ok t =>
            simp only [Res.bind_ok]
            obtain ⟨hL, htops⟩ := h2 t hbn
            have hlt := unvisited_lt (hL id hid) hseen
            have := pTree_same (d := pPath H build goal f) (d' := pPath H build goal f') (P := P)
              (S := fun s => unvisited L s ≤ unvisited L (id :: seen))
              (fun s s' h hss => Nat.le_trans (unvisited_mono L hss) h)
              (fun n r s hn hs => ih (unvisited L (id :: seen)) (by omega) f f' (by omega) (by omega) n r s hn hs)
              t (id :: seen) (Nat.le_refl _) htops
            refine (?_ : Same (·.2) (id :: seen) _ _) |> fun h => ⟨h.1, h.2.1, fun a ha => List.Subset.trans (List.subset_cons_self _ _) (h.2.2 a ha)⟩
            exact this.bind (fun a _ _ => .ok (fun _ h => h))

/-! ### The expandable nodes of a store -/

/-- Objects a search from `root` can meet. -/
def objectsOf (s : Store) (pid : String) (root : Option RelationNode) : List Entity :=
  (match root with | some (.entitySet (some o) _) => [o] | _ => []) ++
    (s.edges pid).map (fun p => ⟨p.2.dest.resource, p.2.dest.id⟩)

/-- Identifiers of the expandable nodes. -/
def expandable (H : String → Nat) (pol : Policy) (E : List Entity) : List Nat :=
  E.flatMap (fun o => pol.resources.flatMap (fun r => r.relations.map (fun d => H (o.resource ++ "/" ++ o.id ++ "/" ++ d.name))))

/-- The object of an expandable node is among `E`. -/
def Among (E : List Entity) : RelationNode → Prop
  | .entitySet (some o) _ => o ∈ E
  | _ => True

theorem succs_among {H : String → Nat} {s : Store} {pid : String} {root : Option RelationNode} (x : USet) :
    ∀ n ∈ succs H s pid x, (∀ o rel, n = .entitySet (some o) rel → o ∈ objectsOf s pid root) ∧ (∀ o, n = .entity (some o) → o ∈ objectsOf s pid root) := by
  intro n hn
  unfold succs at hn
  simp only [List.mem_map, List.mem_filter] at hn
  obtain ⟨e, ⟨p, ⟨hp, _⟩, rfl⟩, rfl⟩ := hn
  have : (⟨p.2.dest.resource, p.2.dest.id⟩ : Entity) ∈ objectsOf s pid root := List.mem_append_right _ (List.mem_map.2 ⟨p, hp, rfl⟩)
  constructor
  · intro o rel h
    unfold toPublicNode at h
    split at h <;> cases h
    exact this
  · intro o h
    unfold toPublicNode at h
    split at h <;> cases h
    exact this

theorem mapSliceErr_ne_fuel {α β : Type} {f : α → Res β} (h : ∀ a, f a ≠ .fuel) (l : List α) : mapSliceErr f l ≠ .fuel := by
  induction l with
  | nil => nofun
  | cons a l ih =>
    unfold mapSliceErr
    cases hfa : f a with
    | ok b =>
      simp only [Res.bind_ok]
      cases hl : mapSliceErr f l with
      | fuel => exact absurd hl ih
      | _ => nofun
    | fuel => exact absurd hfa (h a)
    | _ => nofun

theorem ruleNodes_spec {H : String → Nat} {s : Store} {pid : String} {root : Option RelationNode} {x : USet} (hx : x.object ∈ objectsOf s pid root)
    (r : Rule) : ruleNodes H s pid x r ≠ .fuel ∧ ∀ ns, ruleNodes H s pid x r = .ok ns → ∀ n ∈ ns, Among (objectsOf s pid root) n := by
  have hs : ∀ y, ∀ n ∈ succs H s pid y, Among (objectsOf s pid root) n := by
    intro y n hn
    have := succs_among (root := root) y n hn
    cases n with
    | entitySet o rel => cases o with | none => trivial | some o => exact this.1 o rel rfl
    | _ => trivial
  cases r with
  | this => exact ⟨nofun, fun ns h => by cases h; exact hs x⟩
  | cu t => exact ⟨nofun, fun ns h n hn => by cases h; simp only [List.mem_singleton] at hn; subst hn; exact hx⟩
  | unset => exact ⟨nofun, nofun⟩
  | ttu a b =>
    refine ⟨mapSliceErr_ne_fuel (fun n => by cases n <;> nofun) _, fun ns h n hn => ?_⟩
    obtain ⟨m, hm, he⟩ := (mapSliceErr_mem h).1 n hn
    have := succs_among (root := root) _ m hm
    cases m with
    | entitySet o rel => cases he; cases o with | none => trivial | some o => exact this.1 o rel rfl
    | entity o => cases he; cases o with | none => trivial | some o => exact this.2 o rfl
    | wildcard r => cases he; trivial
    | unset => cases he

theorem pBuild_spec {H : String → Nat} {s : Store} {pid : String} {root : Option RelationNode} {x : USet} (hx : x.object ∈ objectsOf s pid root)
    (e : ExprTree) : pBuild H s pid x e ≠ .fuel ∧ ∀ t, pBuild H s pid x e = .ok t → ∀ n ∈ t.tops, Among (objectsOf s pid root) n := by
  induction e with
  | nil => exact ⟨nofun, nofun⟩
  | unset => exact ⟨nofun, nofun⟩
  | rule r =>
    obtain ⟨h1, h2⟩ := ruleNodes_spec (H := H) hx r
    unfold pBuild
    cases hr : ruleNodes H s pid x r with
    | fuel => exact absurd hr h1
    | ok ns =>
      refine ⟨nofun, fun t h n hn => ?_⟩
      cases h
      rw [GoalTree.tops, mem_topsList] at hn
      obtain ⟨t, ht, hn⟩ := hn
      obtain ⟨m, hm, rfl⟩ := List.mem_map.1 ht
      simp only [GoalTree.tops, List.mem_singleton] at hn
      subst hn
      exact h2 ns hr n hm
    | _ => exact ⟨nofun, nofun⟩
  | op l o r ihl ihr =>
    unfold pBuild
    cases hl : pBuild H s pid x l with
    | fuel => exact absurd hl ihl.1
    | ok a =>
      cases hr : pBuild H s pid x r with
      | fuel => exact absurd hr ihr.1
      | ok b =>
        simp only [Res.bind_ok]
        have ha := ihl.2 a hl
        have hb := ihr.2 b hr
        cases o with
        | unknown => exact ⟨nofun, nofun⟩
        | _ =>
          refine ⟨nofun, fun t h n hn => ?_⟩
          cases h
          simp only [GoalTree.tops, topsList, List.append_nil, List.mem_append] at hn
          exact hn.elim (ha n) (hb n)
      | _ => exact ⟨nofun, nofun⟩
    | _ => exact ⟨nofun, nofun⟩

theorem getExpressionTree_ne_fuel (U : Unicode) (d : Relation) : getExpressionTree U d ≠ .fuel := by
  unfold getExpressionTree
  cases d.relationExpression with
  | none => nofun
  | some x =>
    cases x with
    | expr text => rcases C03_parse_total U text with ⟨e, h⟩ | h <;> simp [h]
    | _ => nofun

theorem bld_spec {env : Env} {pol : Policy} {s : Store} {root : Option RelationNode} {n : RelationNode}
    (hn : Among (objectsOf s pol.id root) n) (ht : n.isTerminal = false) :
    bld env pol s n ≠ .fuel ∧ ∀ t, bld env pol s n = .ok t →
      (∀ id, n.nodeId env.H = .ok id → id ∈ expandable env.H pol (objectsOf s pol.id root)) ∧ ∀ m ∈ t.tops, Among (objectsOf s pol.id root) m := by
  obtain ⟨o, rel, rfl⟩ := isTerminal_false ht
  cases o with
  | none => exact ⟨nofun, nofun⟩
  | some o =>
    have hb := bld_set env pol s ⟨o, rel⟩
    simp only [USet.node] at hb
    rw [hb]
    cases hr : (newLut pol).getRelation o.resource rel with
    | none => exact ⟨nofun, nofun⟩
    | some d =>
      dsimp only
      obtain ⟨r, hr1, hr2, hd, hname⟩ := newLut_relation hr
      cases he : getExpressionTree env.U d with
      | fuel => exact absurd he (getExpressionTree_ne_fuel _ _)
      | ok e =>
        simp only [Res.bind_ok]
        obtain ⟨h1, h2⟩ := pBuild_spec (H := env.H) (s := s) (pid := pol.id) (root := root) (x := ⟨o, rel⟩) hn e
        refine ⟨h1, fun t ht => ⟨fun id hid => ?_, h2 t ht⟩⟩
        cases hid
        unfold expandable
        refine List.mem_flatMap.2 ⟨o, hn, List.mem_flatMap.2 ⟨r, hr1, List.mem_map.2 ⟨d, hd, ?_⟩⟩⟩
        rw [hname]
      | _ => exact ⟨nofun, nofun⟩

/-- How much fuel a search from `root` can use. -/
def searchBound (env : Env) (pol : Policy) (s : Store) (root : Option RelationNode) : Nat :=
  (expandable env.H pol (objectsOf s pol.id root)).length + 1

/-- The search returns, and its result does not depend on the fuel beyond the bound. -/
theorem pSearch_stable (env : Env) (pol : Policy) (s : Store) (root goal : Option RelationNode) (fuel : Nat)
    (hf : searchBound env pol s root ≤ fuel) :
    pSearch env pol s fuel root goal = pSearch env pol s (searchBound env pol s root) root goal ∧ pSearch env pol s fuel root goal ≠ .fuel := by
  cases root with
  | none =>
    unfold pSearch
    rcases goal with _ | g
    · exact ⟨rfl, nofun⟩
    · cases g <;> exact ⟨rfl, nofun⟩
  | some n =>
    have hn : Among (objectsOf s pol.id (some n)) n := by
      cases n with
      | entitySet o rel => cases o with | none => trivial | some o => exact List.mem_append_left _ List.mem_cons_self
      | _ => trivial
    have key := pPath_stable (H := env.H) (build := bld env pol s) (goal := goal) (P := Among (objectsOf s pol.id (some n)))
      (L := expandable env.H pol (objectsOf s pol.id (some n))) (fun m hm ht => bld_spec hm ht)
      (expandable env.H pol (objectsOf s pol.id (some n))).length fuel (searchBound env pol s (some n)) hf (Nat.lt_succ_self _) n "Request" [] hn
      (List.length_filter_le _ _)
    have : ∀ f, (do let origin ← Res.deref (some n); let (tree, _) ← pPath env.H (bld env pol s) goal f origin "Request" []; return tree : Res GoalTree) =
        (pPath env.H (bld env pol s) goal f n "Request" [] >>= fun p => .ok p.1) := by
      intro f
      rw [Res.deref_some]
      rfl
    have h2 : ∀ r : Res (GoalTree × List Nat), r ≠ .fuel → (r >>= fun p => (.ok p.1 : Res GoalTree)) ≠ .fuel := by
      intro r hr
      cases r with
      | fuel => exact absurd rfl hr
      | _ => nofun
    unfold pSearch
    rcases goal with _ | g
    · simp only [this]
      exact ⟨by rw [key.1], h2 _ key.2.1⟩
    · cases g with
      | wildcard _ => exact ⟨rfl, nofun⟩
      | _ =>
        simp only [this]
        exact ⟨by rw [key.1], h2 _ key.2.1⟩

end Zanzi
