import Verif.Lemmas.Cost

/-
Sizes of goal trees (for C84).
-/

namespace Zanzi

open Spec

/-- A search that met `seen` and would leave `base` nodes if it expanded nothing: what it expands accounts for the nodes it leaves. -/
def Enlarged {α : Type} (env : Env) (pol : Policy) (s : Store) (E : Entity → Prop) (size : α → Nat) (seenOf : α → List Nat) (base : Nat) (seen : List Nat) (r : Res α) : Prop :=
  ∀ a, r = .ok a → ∃ L : List (USet × ExprTree), (L.map (fun e => e.1.ident env.H)).Nodup ∧ (∀ e ∈ L, e.1.ident env.H ∉ seen) ∧
    (∀ e ∈ L, DefinedBy env.U pol e.1 e.2 ∧ E e.1.object) ∧ seen ⊆ seenOf a ∧ (∀ e ∈ L, e.1.ident env.H ∈ seenOf a) ∧
    size a ≤ base + expanseOf (relationships s pol.id).length L

section
variable {env : Env} {pol : Policy} {s : Store} {E : Entity → Prop}

theorem expanseOf_append (R : Nat) (L L' : List (USet × ExprTree)) : expanseOf R (L ++ L') = expanseOf R L + expanseOf R L' := by
  unfold expanseOf
  rw [List.map_append, List.sum_append]

theorem expanseOf_singleton (R : Nat) (e : USet × ExprTree) : expanseOf R [e] = expanse R e.2 := by simp [expanseOf]

theorem Enlarged.pure {α : Type} {size : α → Nat} {seenOf : α → List Nat} {base : Nat} {seen : List Nat} {a : α} (h : seen ⊆ seenOf a) (h' : size a ≤ base) :
    Enlarged env pol s E size seenOf base seen (.ok a) := by
  intro b hb
  cases hb
  exact ⟨[], .nil, nofun, nofun, h, nofun, Nat.le_trans h' (Nat.le_add_right _ _)⟩

theorem Enlarged.bind {α β : Type} {size : α → Nat} {seenOf : α → List Nat} {size' : β → Nat} {seenOf' : β → List Nat} {base base' : Nat} {seen : List Nat}
    {r : Res α} {k : α → Res β} (hr : Enlarged env pol s E size seenOf base seen r)
    (hk : ∀ a, r = .ok a → seen ⊆ seenOf a → Enlarged env pol s E size' seenOf' (base' + size a) (seenOf a) (k a)) :
    Enlarged env pol s E size' seenOf' (base' + base) seen (r >>= k) := by
  intro b hb
  cases hr' : r with
  | ok a =>
    rw [hr', Res.bind_ok] at hb
    obtain ⟨L, h1, h2, h3, h4, h5, h6⟩ := hr a hr'
    obtain ⟨L', k1, k2, k3, k4, k5, k6⟩ := hk a hr' h4 b hb
    refine ⟨L ++ L', ?_, ?_, ?_, List.Subset.trans h4 k4, ?_, ?_⟩
    · rw [List.map_append]
      refine List.nodup_append.2 ⟨h1, k1, ?_⟩
      intro i hi j hj hij
      subst hij
      obtain ⟨e, he, rfl⟩ := List.mem_map.1 hi
      obtain ⟨e', he', hij⟩ := List.mem_map.1 hj
      exact k2 e' he' (hij ▸ h5 e he)
    · intro e he
      rcases List.mem_append.1 he with he | he
      · exact h2 e he
      · exact fun hs => k2 e he (h4 hs)
    · intro e he
      exact (List.mem_append.1 he).elim (h3 e) (k3 e)
    · intro e he
      exact (List.mem_append.1 he).elim (fun he => k4 (h5 e he)) (k5 e)
    · rw [expanseOf_append]
      omega
  | err e => rw [hr'] at hb; cases hb
  | panic => rw [hr'] at hb; cases hb
  | fuel => rw [hr'] at hb; cases hb

theorem Enlarged.weaken {α : Type} {size : α → Nat} {seenOf : α → List Nat} {base base' : Nat} {seen : List Nat} {r : Res α} (h : Enlarged env pol s E size seenOf base seen r)
    (hb : base ≤ base') : Enlarged env pol s E size seenOf base' seen r := by
  intro a ha
  obtain ⟨L, h1, h2, h3, h4, h5, h6⟩ := h a ha
  exact ⟨L, h1, h2, h3, h4, h5, by omega⟩

theorem treeNodes_pos (t : GoalTree) : 1 ≤ treeNodes t := by
  cases t <;> simp only [treeNodes] <;> omega

section
variable {d : Descend} {P : RelationNode → Prop}

mutual
theorem pTree_grown (h : ∀ n r seen, P n → Enlarged env pol s E (fun a => treeNodes a.1) (·.2) 1 seen (d n r seen)) (t : GoalTree) (seen : List Nat) (ht : ∀ n ∈ t.tops, P n) :
    Enlarged env pol s E (fun a => treeNodes a.1) (·.2) (treeNodes t) seen (pTree d t seen) := by
  match t with
  | .or _ ps =>
    rw [pTree, treeNodes]
    refine (pOr_grown h ps seen (by simpa [GoalTree.tops] using ht)).bind (fun a _ _ => .pure (fun _ h => h) ?_)
    simp only [treeNodes]
    omega
  | .and _ ps =>
    rw [pTree, treeNodes]
    refine (pAnd_grown h ps seen (by simpa [GoalTree.tops] using ht)).bind (fun a _ _ => .pure (fun _ h => h) ?_)
    simp only [treeNodes]
    omega
  | .diff _ l r =>
    have hl : ∀ n ∈ l.tops, P n := fun n hn => ht n (by simp [GoalTree.tops, hn])
    have hr : ∀ n ∈ r.tops, P n := fun n hn => ht n (by simp [GoalTree.tops, hn])
    rw [pTree, treeNodes]
    rw [show 1 + treeNodes l + treeNodes r = (1 + treeNodes r) + treeNodes l by omega]
    refine (pTree_grown h l seen hl).bind (fun a _ _ => ?_)
    refine Enlarged.weaken (base := (1 + treeNodes a.1) + treeNodes r) ?_ (by omega)
    refine (pTree_grown h r a.2 hr).bind (fun b _ _ => .pure (fun _ h => h) ?_)
    simp only [treeNodes]
    omega
  | .leaf _ n r => rw [pTree]; exact h n r seen (ht n (by simp [GoalTree.tops]))
  | .path _ n r c => rw [pTree]; exact (h n r seen (ht n (by simp [GoalTree.tops]))).weaken (treeNodes_pos _)

theorem pOr_grown (h : ∀ n r seen, P n → Enlarged env pol s E (fun a => treeNodes a.1) (·.2) 1 seen (d n r seen)) (ts : List GoalTree) (seen : List Nat) (ht : ∀ n ∈ topsList ts, P n) :
    Enlarged env pol s E (fun a => treesNodes a.1) (·.2.2) (treesNodes ts) seen (pOr d ts seen) := by
  match ts with
  | [] => rw [pOr]; exact .pure (fun _ h => h) (Nat.le_refl _)
  | t :: ts =>
    have hl : ∀ n ∈ t.tops, P n := fun n hn => ht n (by simp [topsList, hn])
    have hr : ∀ n ∈ topsList ts, P n := fun n hn => ht n (by simp [topsList, hn])
    rw [pOr, treesNodes, Nat.add_comm]
    refine (pTree_grown h t seen hl).bind (fun a _ _ => ?_)
    obtain ⟨t', s'⟩ := a
    dsimp only
    split
    · exact .pure (fun _ h => h) (by dsimp only; rw [treesNodes]; omega)
    · rw [Nat.add_comm]
      refine (pOr_grown h ts s' hr).bind (fun b _ _ => .pure (fun _ h => h) ?_)
      dsimp only
      rw [treesNodes]
      exact Nat.le_refl _

theorem pAnd_grown (h : ∀ n r seen, P n → Enlarged env pol s E (fun a => treeNodes a.1) (·.2) 1 seen (d n r seen)) (ts : List GoalTree) (seen : List Nat) (ht : ∀ n ∈ topsList ts, P n) :
    Enlarged env pol s E (fun a => treesNodes a.1) (·.2.2) (treesNodes ts) seen (pAnd d ts seen) := by
  match ts with
  | [] => rw [pAnd]; exact .pure (fun _ h => h) (Nat.le_refl _)
  | t :: ts =>
    have hl : ∀ n ∈ t.tops, P n := fun n hn => ht n (by simp [topsList, hn])
    have hr : ∀ n ∈ topsList ts, P n := fun n hn => ht n (by simp [topsList, hn])
    rw [pAnd, treesNodes, Nat.add_comm]
    refine (pTree_grown h t seen hl).bind (fun a _ _ => ?_)
    obtain ⟨t', s'⟩ := a
    dsimp only
    split
    · exact .pure (fun _ h => h) (by dsimp only; rw [treesNodes]; omega)
    · rw [Nat.add_comm]
      refine (pAnd_grown h ts s' hr).bind (fun b _ _ => .pure (fun _ h => h) ?_)
      dsimp only
      rw [treesNodes]
      exact Nat.le_refl _
end
end

theorem succs_length (H : String → Nat) (s : Store) (pid : String) (x : USet) : (succs H s pid x).length ≤ (relationships s pid).length := by
  unfold succs relationships
  simp only [List.length_map]
  exact List.length_filter_le _ _

theorem treesNodes_leaves (ns : List RelationNode) (f : RelationNode → String) : treesNodes (ns.map (fun n => .leaf .unknown n (f n))) = ns.length := by
  induction ns with
  | nil => rfl
  | cons n ns ih => rw [List.map_cons, treesNodes, ih, treeNodes, List.length_cons, Nat.add_comm]

theorem mapSliceErr_length {α β : Type} {f : α → Res β} : ∀ {l : List α} {l' : List β}, mapSliceErr f l = .ok l' → l'.length = l.length := by
  intro l
  induction l with
  | nil => intro l' h; cases h; rfl
  | cons a l ih =>
    intro l' h
    rw [mapSliceErr] at h
    cases hf : f a with
    | ok b =>
      rw [hf] at h; dsimp only at h
      cases hm : mapSliceErr f l with
      | ok bs => rw [hm] at h; cases h; rw [List.length_cons, ih hm, List.length_cons]
      | err e => rw [hm] at h; cases h
      | panic => rw [hm] at h; cases h
      | fuel => rw [hm] at h; cases h
    | err e => rw [hf] at h; cases h
    | panic => rw [hf] at h; cases h
    | fuel => rw [hf] at h; cases h

theorem pBuild_nodes {H : String → Nat} {pid : String} {x : USet} {e : ExprTree} : ∀ {t : GoalTree}, pBuild H s pid x e = .ok t →
    treeNodes t ≤ expanse (relationships s pid).length e := by
  induction e with
  | nil => nofun
  | unset => nofun
  | rule r =>
    intro t h
    unfold pBuild at h
    cases hr : ruleNodes H s pid x r with
    | ok ns =>
      rw [hr] at h
      cases h
      have hlen : ns.length + 1 ≤ expanse (relationships s pid).length (.rule r) := by
        cases r with
        | unset => cases hr
        | cu t => cases hr; exact Nat.le_refl _
        | this =>
          cases hr
          have := succs_length H s pid x
          simp only [expanse]
          omega
        | ttu a b =>
          have h1 := mapSliceErr_length (show mapSliceErr (buildTtuNode b) (succs H s pid ⟨x.object, a⟩) = .ok ns from hr)
          have := succs_length H s pid ⟨x.object, a⟩
          simp only [expanse]
          omega
      rw [treeNodes, treesNodes_leaves ns (fun _ => reasonBuilder r)]
      omega
    | err e => rw [hr] at h; cases h
    | panic => rw [hr] at h; cases h
    | fuel => rw [hr] at h; cases h
  | op l o r ihl ihr =>
    intro t h
    unfold pBuild at h
    cases hl : pBuild H s pid x l with
    | ok a =>
      cases hr : pBuild H s pid x r with
      | ok b =>
        rw [hl, hr] at h
        simp only [Res.bind_ok] at h
        have h1 := ihl hl
        have h2 := ihr hr
        cases o with
        | unknown => cases h
        | _ =>
          cases h
          simp only [treeNodes, treesNodes, expanse]
          omega
      | err e => rw [hl, hr] at h; cases h
      | panic => rw [hl, hr] at h; cases h
      | fuel => rw [hl, hr] at h; cases h
    | err e => rw [hl] at h; cases h
    | panic => rw [hl] at h; cases h
    | fuel => rw [hl] at h; cases h

theorem bld_nodes {x : USet} {t : GoalTree} (h : bld env pol s x.node = .ok t) :
    ∃ e, DefinedBy env.U pol x e ∧ treeNodes t ≤ expanse (relationships s pol.id).length e := by
  rw [bld_set] at h
  cases hr : (newLut pol).getRelation x.object.resource x.relation with
  | none => rw [hr] at h; cases h
  | some d =>
    rw [hr] at h
    obtain ⟨r, hr1, hr2, hd, hname⟩ := newLut_relation hr
    dsimp only at h
    cases he : getExpressionTree env.U d with
    | ok e =>
      rw [he] at h
      exact ⟨e, ⟨d, ⟨r, hr1, hr2, hd, hname⟩, (getExpressionTree_ok_iff _ _ _).1 he⟩, pBuild_nodes h⟩
    | err e => rw [he] at h; cases h
    | panic => rw [he] at h; cases h
    | fuel => rw [he] at h; cases h

theorem pPath_grown {goal : Option RelationNode} (hE : Pointed s pol.id E) (fuel : Nat) : ∀ n r seen, Over E n →
    Enlarged env pol s E (fun a => treeNodes a.1) (·.2) 1 seen (pPath env.H (bld env pol s) goal fuel n r seen) := by
  induction fuel with
  | zero => intro n r seen _ a ha; cases ha
  | succ fuel ih =>
    intro n r seen hn
    rw [pPath]
    cases hid : n.nodeId env.H with
    | ok id =>
      rw [Res.bind_ok]
      split
      · exact .pure (fun _ h => h) (Nat.le_refl _)
      · next hseen =>
        dsimp only
        cases hg : goalFound n goal with
        | ok b =>
          rw [Res.bind_ok]
          split
          · exact .pure (List.subset_cons_self _ _) (Nat.le_refl _)
          · next hterm =>
            have hterm : n.isTerminal = false := by simp at hterm; exact hterm.2
            obtain ⟨o, rel, rfl⟩ := isTerminal_false hterm
            cases o with
            | none => cases hid
            | some o =>
              have hid' : USet.ident env.H ⟨o, rel⟩ = id := Res.ok.inj ((USet.ident_node env.H ⟨o, rel⟩).symm.trans hid)
              have hb : Enlarged env pol s E treeNodes (fun _ : GoalTree => id :: seen) 0 seen (bld env pol s (.entitySet (some o) rel)) := by
                intro t ht
                obtain ⟨e, h1, h2⟩ := bld_nodes (x := ⟨o, rel⟩) ht
                refine ⟨[(⟨o, rel⟩, e)], (by simp), ?_, ?_, List.subset_cons_self _ _, ?_, ?_⟩
                · intro e' he'
                  cases List.mem_singleton.1 he'
                  rw [hid']
                  exact hseen
                · intro e' he'
                  cases List.mem_singleton.1 he'
                  exact ⟨h1, hn⟩
                · intro e' he'
                  cases List.mem_singleton.1 he'
                  rw [hid']
                  exact List.mem_cons_self
                · rw [expanseOf_singleton]
                  dsimp only
                  omega
              refine hb.bind (base' := 1) (fun t ht _ => ?_)
              refine (pTree_grown (P := Over E) ih t (id :: seen) (bld_over (x := ⟨o, rel⟩) hE hn ht)).bind (fun a _ _ => .pure (fun _ h => h) ?_)
              simp only [treeNodes]
              omega
        | err e => intro a ha; cases ha
        | panic => intro a ha; cases ha
        | fuel => intro a ha; cases ha
    | err e => intro a ha; cases ha
    | panic => intro a ha; cases ha
    | fuel => intro a ha; cases ha

theorem pSearch_nodes {goal : Option RelationNode} (hE : Pointed s pol.id E) {fuel : Nat} {x : USet} (hx : E x.object) {t : GoalTree}
    (h : pSearch env pol s fuel (some x.node) goal = .ok t) :
    ∃ L : List (USet × ExprTree), (L.map (·.1)).Nodup ∧ (∀ e ∈ L, DefinedBy env.U pol e.1 e.2 ∧ E e.1.object) ∧
      treeNodes t ≤ 1 + expanseOf (relationships s pol.id).length L := by
  unfold pSearch at h
  split at h
  · cases h
  · cases hp : pPath env.H (bld env pol s) goal fuel x.node "Request" [] with
    | ok a =>
      obtain ⟨L, h1, _, h3, _, _, h6⟩ := pPath_grown hE fuel x.node "Request" [] hx a hp
      simp only [Res.deref, Res.bind_ok, hp] at h
      cases h
      refine ⟨L, ?_, h3, h6⟩
      rw [show L.map (fun e => e.1.ident env.H) = (L.map (·.1)).map (fun y => y.ident env.H) by rw [List.map_map]; rfl] at h1
      exact List.Pairwise.of_map _ (fun a b hab he => hab (by rw [he])) h1
    | err e => simp only [Res.deref, Res.bind_ok, hp] at h; cases h
    | panic => simp only [Res.deref, Res.bind_ok, hp] at h; cases h
    | fuel => simp only [Res.deref, Res.bind_ok, hp] at h; cases h

end

end Zanzi
