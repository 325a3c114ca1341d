import Verif.Lemmas.Respell

/-
A search under other names of everything.
-/

namespace Zanzi

open Spec

variable {H : String → Nat} {P : RelationNode → Prop} {ν : Vocab}

theorem Spec.TreeAs.result {t t' : GoalTree} (h : TreeAs ν t t') : t'.result = t.result := by
  cases h <;> rfl

theorem Spec.ReasonAs.rfl {r : String} : ReasonAs ν r r := .inl (Eq.refl r)

theorem reasonAs_rule (r : Rule) : ReasonAs ν (reasonBuilder r) (reasonBuilder (respellRule ν r)) := by
  cases r with
  | this => exact .inl rfl
  | ttu a b => exact .inr (.inl ⟨a, b, rfl, rfl⟩)
  | cu t => exact .inr (.inr ⟨t, rfl, rfl⟩)
  | unset => exact .inl rfl

theorem respellNode_terminal (n : RelationNode) : (respellNode ν n).isTerminal = n.isTerminal := by
  cases n <;> rfl

theorem respellNode_inj (hν : Respelling ν) {m n : RelationNode} (h : respellNode ν m = respellNode ν n) : m = n := by
  have ho : ∀ {a b : Option Entity}, a.map ν.object = b.map ν.object → a = b := by
    intro a b h
    cases a with
    | none => cases b with | none => rfl | some b => cases h
    | some a => cases b with | none => cases h | some b => rw [hν.object_inj _ _ (Option.some.inj h)]
  cases m <;> cases n <;> simp only [respellNode, RelationNode.entity.injEq, RelationNode.entitySet.injEq, RelationNode.wildcard.injEq, reduceCtorEq] at h ⊢
  · exact ⟨ho h.1, hν.relation_inj _ _ h.2⟩
  · exact ho h
  · exact hν.resource_inj _ _ h

theorem nodeId_respell (n : RelationNode) : Follows (fun _ _ => True) (n.nodeId H) ((respellNode ν n).nodeId H) := by
  cases n with
  | entity o => cases o with
    | none => exact .inr (.inr (.inr ⟨rfl, rfl⟩))
    | some o => exact .ok trivial
  | entitySet o rel => cases o with
    | none => exact .inr (.inr (.inr ⟨rfl, rfl⟩))
    | some o => exact .ok trivial
  | wildcard n => exact .ok trivial
  | unset => exact .ok trivial

theorem goalFound_respell (hν : Respelling ν) (n : RelationNode) (u : Entity) :
    goalFound (respellNode ν n) (userGoal (ν.object u)) = goalFound n (userGoal u) := by
  cases n with
  | entity o =>
    cases o with
    | none => rfl
    | some o =>
      show Res.ok (decide ((ν.object u).resource = (ν.object o).resource) && decide ((ν.object u).id = (ν.object o).id)) =
        Res.ok (decide (u.resource = o.resource) && decide (u.id = o.id))
      congr 1
      rw [← Bool.decide_and, ← Bool.decide_and, decide_eq_decide]
      constructor
      · rintro ⟨h1, h2⟩
        have h3 : ν.object u = ν.object o := by
          cases h : ν.object u; cases h' : ν.object o
          rw [h, h'] at h1 h2
          cases h1; cases h2; rfl
        rw [hν.object_inj _ _ h3]
        exact ⟨rfl, rfl⟩
      · rintro ⟨h1, h2⟩
        have h3 : u = o := by cases u; cases o; cases h1; cases h2; rfl
        rw [h3]
        exact ⟨rfl, rfl⟩
  | wildcard n =>
    show Res.ok (decide (ν.resource n = (ν.object u).resource)) = Res.ok (decide (n = u.resource))
    rw [hν.resource]
    congr 1
    rw [decide_eq_decide]
    exact ⟨fun h => hν.resource_inj _ _ h, fun h => by rw [h]⟩
  | entitySet o rel => rfl
  | unset => rfl

/-- The same visits, under other names. -/
def SeenLike (H : String → Nat) (P : RelationNode → Prop) (ν : Vocab) (s s' : List Nat) : Prop :=
  ∀ n id id', P n → n.nodeId H = .ok id → (respellNode ν n).nodeId H = .ok id' → (id ∈ s ↔ id' ∈ s')

def SpellR (H : String → Nat) (P : RelationNode → Prop) (ν : Vocab) (a b : GoalTree × List Nat) : Prop :=
  TreeAs ν a.1 b.1 ∧ SeenLike H P ν a.2 b.2
def SpellListR (H : String → Nat) (P : RelationNode → Prop) (ν : Vocab) (a b : List GoalTree × Bool × List Nat) : Prop :=
  TreesAs ν a.1 b.1 ∧ a.2.1 = b.2.1 ∧ SeenLike H P ν a.2.2 b.2.2

def DescLike (H : String → Nat) (P : RelationNode → Prop) (ν : Vocab) (d d' : Descend) : Prop :=
  ∀ n r r' seen seen', Ok H P n → ReasonAs ν r r' → SeenLike H P ν seen seen' → Follows (SpellR H P ν) (d n r seen) (d' (respellNode ν n) r' seen')

section
variable {d d' : Descend}

mutual
theorem pTree_respell (h2 : DescLike H P ν d d') (t t' : GoalTree) (ht : TreeAs ν t t') (seen seen' : List Nat)
    (hP : ∀ m ∈ t.tops, Ok H P m) (hv : SeenLike H P ν seen seen') : Follows (SpellR H P ν) (pTree d t seen) (pTree d' t' seen') := by
  match t, t', ht with
  | .or _ ps, .or _ ps', .or hps =>
    rw [pTree, pTree]
    refine (pOr_respell h2 ps ps' hps seen seen' (by simpa [GoalTree.tops] using hP) hv).bind ?_
    rintro ⟨a, b, c⟩ ⟨a', b', c'⟩ ⟨e1, e2, e3⟩
    cases e2
    exact .ok ⟨.or e1, e3⟩
  | .and _ ps, .and _ ps', .and hps =>
    rw [pTree, pTree]
    refine (pAnd_respell h2 ps ps' hps seen seen' (by simpa [GoalTree.tops] using hP) hv).bind ?_
    rintro ⟨a, b, c⟩ ⟨a', b', c'⟩ ⟨e1, e2, e3⟩
    cases e2
    exact .ok ⟨.and e1, e3⟩
  | .diff _ l r, .diff _ l' r', .diff hl hr =>
    rw [pTree, pTree]
    refine (pTree_respell h2 l l' hl seen seen' (fun m hm => hP m (by simp [GoalTree.tops, hm])) hv).bind ?_
    rintro ⟨a, c⟩ ⟨a', c'⟩ ⟨e1, e3⟩
    refine (pTree_respell h2 r r' hr c c' (fun m hm => hP m (by simp [GoalTree.tops, hm])) e3).bind ?_
    rintro ⟨b, f⟩ ⟨b', f'⟩ ⟨g1, g3⟩
    refine .ok ⟨?_, g3⟩
    dsimp only at e1 g1 ⊢
    rw [e1.result, g1.result]
    exact .diff e1 g1
  | .leaf _ n r, .leaf _ _ r', .leaf hr =>
    rw [pTree, pTree]
    exact h2 n r r' seen seen' (hP n (by simp [GoalTree.tops])) hr hv
  | .path _ n r _, .path _ _ r' _, .path hr _ =>
    rw [pTree, pTree]
    exact h2 n r r' seen seen' (hP n (by simp [GoalTree.tops])) hr hv

theorem pOr_respell (h2 : DescLike H P ν d d') (ts ts' : List GoalTree) (hts : TreesAs ν ts ts') (seen seen' : List Nat)
    (hP : ∀ m ∈ topsList ts, Ok H P m) (hv : SeenLike H P ν seen seen') : Follows (SpellListR H P ν) (pOr d ts seen) (pOr d' ts' seen') := by
  match ts, ts', hts with
  | [], [], .nil =>
    rw [pOr, pOr]
    exact .ok ⟨.nil, rfl, hv⟩
  | t :: ts, t' :: ts', .cons h hs =>
    have hPt : ∀ m ∈ t.tops, Ok H P m := fun m hm => hP m (by simp [topsList, hm])
    have hPs : ∀ m ∈ topsList ts, Ok H P m := fun m hm => hP m (by simp [topsList, hm])
    rw [pOr, pOr]
    refine (pTree_respell h2 t t' h seen seen' hPt hv).bind ?_
    rintro ⟨a, c⟩ ⟨a', c'⟩ ⟨e1, e3⟩
    dsimp only at e1 e3 ⊢
    rw [e1.result]
    split
    · exact .ok ⟨.cons e1 hs, rfl, e3⟩
    · refine (pOr_respell h2 ts ts' hs c c' hPs e3).bind ?_
      rintro ⟨b, f, g⟩ ⟨b', f', g'⟩ ⟨g1, g2, g3⟩
      cases g2
      exact .ok ⟨.cons e1 g1, rfl, g3⟩

theorem pAnd_respell (h2 : DescLike H P ν d d') (ts ts' : List GoalTree) (hts : TreesAs ν ts ts') (seen seen' : List Nat)
    (hP : ∀ m ∈ topsList ts, Ok H P m) (hv : SeenLike H P ν seen seen') : Follows (SpellListR H P ν) (pAnd d ts seen) (pAnd d' ts' seen') := by
  match ts, ts', hts with
  | [], [], .nil =>
    rw [pAnd, pAnd]
    exact .ok ⟨.nil, rfl, hv⟩
  | t :: ts, t' :: ts', .cons h hs =>
    have hPt : ∀ m ∈ t.tops, Ok H P m := fun m hm => hP m (by simp [topsList, hm])
    have hPs : ∀ m ∈ topsList ts, Ok H P m := fun m hm => hP m (by simp [topsList, hm])
    rw [pAnd, pAnd]
    refine (pTree_respell h2 t t' h seen seen' hPt hv).bind ?_
    rintro ⟨a, c⟩ ⟨a', c'⟩ ⟨e1, e3⟩
    dsimp only at e1 e3 ⊢
    rw [e1.result]
    split
    · exact .ok ⟨.cons e1 hs, rfl, e3⟩
    · refine (pAnd_respell h2 ts ts' hs c c' hPs e3).bind ?_
      rintro ⟨b, f, g⟩ ⟨b', f', g'⟩ ⟨g1, g2, g3⟩
      cases g2
      exact .ok ⟨.cons e1 g1, rfl, g3⟩
end
end

theorem pPath_respell (hν : Respelling ν) {build build' : RelationNode → Res GoalTree} {goal goal' : Option RelationNode}
    (hids : ∀ m n id, P m → P n → m.nodeId H = .ok id → n.nodeId H = .ok id → m = n)
    (hids' : ∀ m n id, P m → P n → (respellNode ν m).nodeId H = .ok id → (respellNode ν n).nodeId H = .ok id → respellNode ν m = respellNode ν n)
    (hg : ∀ n, goalFound (respellNode ν n) goal' = goalFound n goal)
    (hb : ∀ n, P n → n.isTerminal = false → Follows (fun t t' => TreeAs ν t t' ∧ ∀ m ∈ t.tops, Ok H P m) (build n) (build' (respellNode ν n))) (fuel : Nat) :
    DescLike H P ν (pPath H build goal fuel) (pPath H build' goal' fuel) := by
  induction fuel with
  | zero => exact fun _ _ _ _ _ _ _ _ => .inl rfl
  | succ k ih =>
    intro n r r' seen seen' hP hr hv
    unfold pPath
    rcases nodeId_respell (H := H) (ν := ν) n with h | ⟨id, id', h1, h2, _⟩ | ⟨e, h1, h2⟩ | ⟨h1, h2⟩
    · rw [h]; exact .inl rfl
    · rw [h1, h2]
      simp only [Res.bind_ok]
      have hP' := hP id h1
      by_cases hm : id ∈ seen
      · rw [if_pos hm, if_pos ((hv n id id' hP' h1 h2).1 hm)]
        exact .ok ⟨.leaf hr, hv⟩
      · rw [if_neg hm, if_neg (mt (hv n id id' hP' h1 h2).2 hm), hg, respellNode_terminal]
        have hv' : SeenLike H P ν (id :: seen) (id' :: seen') := fun m i i' hPm hi hi' => by
          rw [List.mem_cons, List.mem_cons, hv m i i' hPm hi hi']
          refine or_congr ⟨fun he => ?_, fun he => ?_⟩ Iff.rfl
          · subst he
            obtain rfl := hids m n _ hPm hP' hi h1
            rw [h2] at hi'
            cases hi'; rfl
          · subst he
            obtain rfl := respellNode_inj hν (hids' m n _ hPm hP' hi' h2)
            rw [h1] at hi
            cases hi; rfl
        cases goalFound n goal with
        | ok b =>
          simp only [Res.bind_ok]
          split
          · exact .ok ⟨.leaf hr, hv'⟩
          · next hterm =>
            refine (hb n hP' (by simp at hterm; exact hterm.2)).bind ?_
            rintro t t' ⟨f1, f2⟩
            refine (pTree_respell ih t t' f1 _ _ f2 hv').bind ?_
            rintro ⟨a, c⟩ ⟨a', c'⟩ ⟨e1, e3⟩
            dsimp only at e1 e3 ⊢
            rw [e1.result]
            exact .ok ⟨.path hr e1, e3⟩
        | err e => exact .inr (.inr (.inl ⟨e, rfl, rfl⟩))
        | panic => exact .inr (.inr (.inr ⟨rfl, rfl⟩))
        | fuel => exact .inl rfl
    · rw [h1, h2]; exact .inr (.inr (.inl ⟨e, rfl, rfl⟩))
    · rw [h1, h2]; exact .inr (.inr (.inr ⟨rfl, rfl⟩))

/-! ### Expansions under other names -/

theorem buildTtu_respell (computed : String) (n : RelationNode) :
    buildTtuNode (ν.relation computed) (respellNode ν n) = (buildTtuNode computed n >>= fun m => .ok (respellNode ν m)) := by
  cases n <;> rfl

theorem mapTtu_respell (computed : String) (ns : List RelationNode) :
    mapSliceErr (buildTtuNode (ν.relation computed)) (ns.map (respellNode ν)) =
      (mapSliceErr (buildTtuNode computed) ns >>= fun ms => .ok (ms.map (respellNode ν))) := by
  induction ns with
  | nil => rfl
  | cons n ns ih =>
    rw [List.map_cons, mapSliceErr, mapSliceErr, buildTtu_respell, ih]
    cases buildTtuNode computed n with
    | ok m =>
      simp only [Res.bind_ok]
      cases mapSliceErr (buildTtuNode computed) ns <;> rfl
    | _ => rfl

section
variable {s s' : Store} {pid pid' : String}

theorem ruleNodes_respell {y : USet} {r : Rule} (h : succs H s' pid' (respellUSet ν y) = (succs H s pid y).map (respellNode ν))
    (h' : ∀ a b, r = .ttu a b → succs H s' pid' (respellUSet ν ⟨y.object, a⟩) = (succs H s pid ⟨y.object, a⟩).map (respellNode ν)) :
    ruleNodes H s' pid' (respellUSet ν y) (respellRule ν r) = (ruleNodes H s pid y r >>= fun ns => .ok (ns.map (respellNode ν))) := by
  cases r with
  | this => exact congrArg Res.ok h
  | cu t => rfl
  | ttu a b =>
    show mapSliceErr (buildTtuNode (ν.relation b)) (succs H s' pid' (respellUSet ν ⟨y.object, a⟩)) = _
    rw [h' a b rfl, mapTtu_respell]
    rfl
  | unset => rfl

theorem leaves_alike (r : Rule) (ns : List RelationNode) :
    TreesAs ν (ns.map (fun n => .leaf .unknown n (reasonBuilder r))) ((ns.map (respellNode ν)).map (fun n => .leaf .unknown n (reasonBuilder (respellRule ν r)))) := by
  induction ns with
  | nil => exact .nil
  | cons n ns ih => exact .cons (.leaf (reasonAs_rule r)) ih

theorem pBuild_respell {y : USet} {e : ExprTree} (h : succs H s' pid' (respellUSet ν y) = (succs H s pid y).map (respellNode ν))
    (h' : ∀ a b, .ttu a b ∈ leaves e → succs H s' pid' (respellUSet ν ⟨y.object, a⟩) = (succs H s pid ⟨y.object, a⟩).map (respellNode ν)) :
    Follows (TreeAs ν) (pBuild H s pid y e) (pBuild H s' pid' (respellUSet ν y) (respellExpr ν e)) := by
  induction e with
  | nil => exact .inr (.inr (.inr ⟨rfl, rfl⟩))
  | unset => exact .inr (.inr (.inl ⟨_, rfl, rfl⟩))
  | rule r =>
    rw [respellExpr, pBuild, pBuild, ruleNodes_respell h (fun a b hr => h' a b (by simp [leaves, hr]))]
    cases ruleNodes H s pid y r with
    | ok ns => exact .ok (.or (leaves_alike r ns))
    | err e => exact .inr (.inr (.inl ⟨e, rfl, rfl⟩))
    | panic => exact .inr (.inr (.inr ⟨rfl, rfl⟩))
    | fuel => exact .inl rfl
  | op l o r ihl ihr =>
    rw [respellExpr, pBuild, pBuild]
    refine (ihl (fun a b hm => h' a b (by simp [leaves, hm]))).bind (fun a a' ha => ?_)
    refine (ihr (fun a b hm => h' a b (by simp [leaves, hm]))).bind (fun b b' hb => ?_)
    cases o with
    | unknown => exact .inr (.inr (.inl ⟨_, rfl, rfl⟩))
    | union => exact .ok (.or (.cons ha (.cons hb .nil)))
    | intersection => exact .ok (.and (.cons ha (.cons hb .nil)))
    | difference => exact .ok (.diff ha hb)

end

end Zanzi
