import Verif.Lemmas.Rename
import Verif.Lemmas.Bystander

/-
A search under other names.
-/

namespace Zanzi

open Spec

variable {H : String → Nat} {P : RelationNode → Prop} {ρ : Entity → Entity}

theorem renameTree_result (t : GoalTree) : (renameTree ρ t).result = t.result := by
  cases t <;> simp [renameTree, GoalTree.result]

theorem renameTrees_map (ts : List GoalTree) : renameTrees ρ ts = ts.map (renameTree ρ) := by
  induction ts with
  | nil => rw [renameTrees]; rfl
  | cons t ts ih => rw [renameTrees, ih]; rfl

theorem renameNode_terminal (n : RelationNode) : (renameNode ρ n).isTerminal = n.isTerminal := by
  cases n <;> rfl

theorem renameNode_inj (hρ : Renaming ρ) {m n : RelationNode} (h : renameNode ρ m = renameNode ρ n) : m = n := by
  have ho : ∀ {a b : Option Entity}, a.map ρ = b.map ρ → a = b := by
    intro a b h
    cases a with
    | none => cases b with | none => rfl | some b => cases h
    | some a => cases b with | none => cases h | some b => rw [hρ.inj _ _ (Option.some.inj h)]
  cases m <;> cases n <;> simp only [renameNode, RelationNode.entity.injEq, RelationNode.entitySet.injEq, RelationNode.wildcard.injEq, reduceCtorEq] at h ⊢
  · exact ⟨ho h.1, h.2⟩
  · exact ho h
  · exact h

theorem nodeId_rename (n : RelationNode) : Follows (fun _ _ => True) (n.nodeId H) ((renameNode ρ n).nodeId H) := by
  cases n with
  | entity o => cases o with
    | none => exact .inr (.inr (.inr ⟨rfl, rfl⟩))
    | some o => exact .ok trivial
  | entitySet o rel => cases o with
    | none => exact .inr (.inr (.inr ⟨rfl, rfl⟩))
    | some o => exact .ok trivial
  | wildcard n => exact .ok trivial
  | unset => exact .ok trivial

theorem goalFound_rename (hρ : Renaming ρ) (n : RelationNode) (u : Entity) : goalFound (renameNode ρ n) (userGoal (ρ u)) = goalFound n (userGoal u) := by
  cases n with
  | entity o =>
    cases o with
    | none => rfl
    | some o =>
      show Res.ok (decide ((ρ u).resource = (ρ o).resource) && decide ((ρ u).id = (ρ o).id)) = Res.ok (decide (u.resource = o.resource) && decide (u.id = o.id))
      congr 1
      rw [← Bool.decide_and, ← Bool.decide_and, decide_eq_decide]
      constructor
      · rintro ⟨h1, h2⟩
        have h3 : ρ u = ρ o := by
          cases h : ρ u; cases h' : ρ o
          rw [h, h'] at h1 h2
          cases h1; cases h2; rfl
        rw [hρ.inj _ _ h3]
        exact ⟨rfl, rfl⟩
      · rintro ⟨h1, h2⟩
        have h3 : u = o := by cases u; cases o; cases h1; cases h2; rfl
        rw [h3]
        exact ⟨rfl, rfl⟩
  | wildcard n => show Res.ok (decide (n = (ρ u).resource)) = _; rw [hρ.resource]; rfl
  | entitySet o rel => rfl
  | unset => rfl

/-- The same visits, under other names. -/
def SeenAs (H : String → Nat) (P : RelationNode → Prop) (ρ : Entity → Entity) (s s' : List Nat) : Prop :=
  ∀ n id id', P n → n.nodeId H = .ok id → (renameNode ρ n).nodeId H = .ok id' → (id ∈ s ↔ id' ∈ s')

def RenR (H : String → Nat) (P : RelationNode → Prop) (ρ : Entity → Entity) (a b : GoalTree × List Nat) : Prop :=
  renameTree ρ a.1 = b.1 ∧ SeenAs H P ρ a.2 b.2
def RenListR (H : String → Nat) (P : RelationNode → Prop) (ρ : Entity → Entity) (a b : List GoalTree × Bool × List Nat) : Prop :=
  renameTrees ρ a.1 = b.1 ∧ a.2.1 = b.2.1 ∧ SeenAs H P ρ a.2.2 b.2.2

def DescAs (H : String → Nat) (P : RelationNode → Prop) (ρ : Entity → Entity) (d d' : Descend) : Prop :=
  ∀ n r seen seen', Ok H P n → SeenAs H P ρ seen seen' → Follows (RenR H P ρ) (d n r seen) (d' (renameNode ρ n) r seen')

section
variable {d d' : Descend}

mutual
theorem pTree_rename (h2 : DescAs H P ρ d d') (t : GoalTree) (seen seen' : List Nat)
    (hP : ∀ m ∈ t.tops, Ok H P m) (hv : SeenAs H P ρ seen seen') : Follows (RenR H P ρ) (pTree d t seen) (pTree d' (renameTree ρ t) seen') := by
  match t with
  | .or _ ps =>
    rw [renameTree, pTree, pTree]
    refine (pOr_rename h2 ps seen seen' (by simpa [GoalTree.tops] using hP) hv).bind ?_
    rintro ⟨a, b, c⟩ ⟨a', b', c'⟩ ⟨e1, e2, e3⟩
    cases e2
    exact .ok ⟨by rw [renameTree, e1], e3⟩
  | .and _ ps =>
    rw [renameTree, pTree, pTree]
    refine (pAnd_rename h2 ps seen seen' (by simpa [GoalTree.tops] using hP) hv).bind ?_
    rintro ⟨a, b, c⟩ ⟨a', b', c'⟩ ⟨e1, e2, e3⟩
    cases e2
    exact .ok ⟨by rw [renameTree, e1], e3⟩
  | .diff _ l r =>
    rw [renameTree, pTree, pTree]
    refine (pTree_rename h2 l seen seen' (fun m hm => hP m (by simp [GoalTree.tops, hm])) hv).bind ?_
    rintro ⟨a, c⟩ ⟨a', c'⟩ ⟨e1, e3⟩
    refine (pTree_rename h2 r c c' (fun m hm => hP m (by simp [GoalTree.tops, hm])) e3).bind ?_
    rintro ⟨b, f⟩ ⟨b', f'⟩ ⟨g1, g3⟩
    dsimp only at e1 g1
    subst e1 g1
    exact .ok ⟨by rw [renameTree, renameTree_result, renameTree_result], g3⟩
  | .leaf _ n r =>
    rw [renameTree, pTree, pTree]
    exact h2 n r seen seen' (hP n (by simp [GoalTree.tops])) hv
  | .path _ n r _ =>
    rw [renameTree, pTree, pTree]
    exact h2 n r seen seen' (hP n (by simp [GoalTree.tops])) hv

theorem pOr_rename (h2 : DescAs H P ρ d d') (ts : List GoalTree) (seen seen' : List Nat)
    (hP : ∀ m ∈ topsList ts, Ok H P m) (hv : SeenAs H P ρ seen seen') : Follows (RenListR H P ρ) (pOr d ts seen) (pOr d' (renameTrees ρ ts) seen') := by
  match ts with
  | [] =>
    rw [renameTrees, pOr, pOr]
    exact .ok ⟨by rw [renameTrees], rfl, hv⟩
  | t :: ts =>
    have hPt : ∀ m ∈ t.tops, Ok H P m := fun m hm => hP m (by simp [topsList, hm])
    have hPs : ∀ m ∈ topsList ts, Ok H P m := fun m hm => hP m (by simp [topsList, hm])
    rw [renameTrees, pOr, pOr]
    refine (pTree_rename h2 t seen seen' hPt hv).bind ?_
    rintro ⟨a, c⟩ ⟨a', c'⟩ ⟨e1, e3⟩
    dsimp only at e1 e3 ⊢
    subst e1
    rw [renameTree_result]
    split
    · exact .ok ⟨by rw [renameTrees], rfl, e3⟩
    · refine (pOr_rename h2 ts c c' hPs e3).bind ?_
      rintro ⟨b, f, g⟩ ⟨b', f', g'⟩ ⟨g1, g2, g3⟩
      cases g2
      refine .ok ⟨?_, rfl, g3⟩
      dsimp only at g1 ⊢
      rw [renameTrees, g1]

theorem pAnd_rename (h2 : DescAs H P ρ d d') (ts : List GoalTree) (seen seen' : List Nat)
    (hP : ∀ m ∈ topsList ts, Ok H P m) (hv : SeenAs H P ρ seen seen') : Follows (RenListR H P ρ) (pAnd d ts seen) (pAnd d' (renameTrees ρ ts) seen') := by
  match ts with
  | [] =>
    rw [renameTrees, pAnd, pAnd]
    exact .ok ⟨by rw [renameTrees], rfl, hv⟩
  | t :: ts =>
    have hPt : ∀ m ∈ t.tops, Ok H P m := fun m hm => hP m (by simp [topsList, hm])
    have hPs : ∀ m ∈ topsList ts, Ok H P m := fun m hm => hP m (by simp [topsList, hm])
    rw [renameTrees, pAnd, pAnd]
    refine (pTree_rename h2 t seen seen' hPt hv).bind ?_
    rintro ⟨a, c⟩ ⟨a', c'⟩ ⟨e1, e3⟩
    dsimp only at e1 e3 ⊢
    subst e1
    rw [renameTree_result]
    split
    · exact .ok ⟨by rw [renameTrees], rfl, e3⟩
    · refine (pAnd_rename h2 ts c c' hPs e3).bind ?_
      rintro ⟨b, f, g⟩ ⟨b', f', g'⟩ ⟨g1, g2, g3⟩
      cases g2
      refine .ok ⟨?_, rfl, g3⟩
      dsimp only at g1 ⊢
      rw [renameTrees, g1]
end
end

theorem pPath_rename (hρ : Renaming ρ) {build build' : RelationNode → Res GoalTree} {goal goal' : Option RelationNode}
    (hids : ∀ m n id, P m → P n → m.nodeId H = .ok id → n.nodeId H = .ok id → m = n)
    (hids' : ∀ m n id, P m → P n → (renameNode ρ m).nodeId H = .ok id → (renameNode ρ n).nodeId H = .ok id → renameNode ρ m = renameNode ρ n)
    (hg : ∀ n, goalFound (renameNode ρ n) goal' = goalFound n goal)
    (hb : ∀ n, P n → n.isTerminal = false → Follows (fun t t' => renameTree ρ t = t' ∧ ∀ m ∈ t.tops, Ok H P m) (build n) (build' (renameNode ρ n))) (fuel : Nat) :
    DescAs H P ρ (pPath H build goal fuel) (pPath H build' goal' fuel) := by
  induction fuel with
  | zero => exact fun _ _ _ _ _ _ => .inl rfl
  | succ k ih =>
    intro n r seen seen' hP hv
    unfold pPath
    rcases nodeId_rename (H := H) (ρ := ρ) n with h | ⟨id, id', h1, h2, _⟩ | ⟨e, h1, h2⟩ | ⟨h1, h2⟩
    · rw [h]; exact .inl rfl
    · rw [h1, h2]
      simp only [Res.bind_ok]
      have hP' := hP id h1
      by_cases hm : id ∈ seen
      · rw [if_pos hm, if_pos ((hv n id id' hP' h1 h2).1 hm)]
        exact .ok ⟨by rw [renameTree], hv⟩
      · rw [if_neg hm, if_neg (mt (hv n id id' hP' h1 h2).2 hm), hg, renameNode_terminal]
        have hv' : SeenAs H P ρ (id :: seen) (id' :: seen') := fun m i i' hPm hi hi' => by
          rw [List.mem_cons, List.mem_cons, hv m i i' hPm hi hi']
          refine or_congr ⟨fun he => ?_, fun he => ?_⟩ Iff.rfl
          · subst he
            obtain rfl := hids m n _ hPm hP' hi h1
            rw [h2] at hi'
            cases hi'; rfl
          · subst he
            obtain rfl := renameNode_inj hρ (hids' m n _ hPm hP' hi' h2)
            rw [h1] at hi
            cases hi; rfl
        cases goalFound n goal with
        | ok b =>
          simp only [Res.bind_ok]
          split
          · exact .ok ⟨by rw [renameTree], hv'⟩
          · next hterm =>
            refine (hb n hP' (by simp at hterm; exact hterm.2)).bind ?_
            rintro t t' ⟨rfl, f2⟩
            refine (pTree_rename ih t _ _ f2 hv').bind ?_
            rintro ⟨a, c⟩ ⟨a', c'⟩ ⟨e1, e3⟩
            dsimp only at e1
            subst e1
            exact .ok ⟨by rw [renameTree, renameTree_result], e3⟩
        | err e => exact .inr (.inr (.inl ⟨e, rfl, rfl⟩))
        | panic => exact .inr (.inr (.inr ⟨rfl, rfl⟩))
        | fuel => exact .inl rfl
    · rw [h1, h2]; exact .inr (.inr (.inl ⟨e, rfl, rfl⟩))
    · rw [h1, h2]; exact .inr (.inr (.inr ⟨rfl, rfl⟩))

/-! ### Expansions under other names -/

theorem subjectNode_rename (sub : Subject) : subjectNode (renameSubject ρ sub) = renameNode ρ (subjectNode sub) := by
  cases sub <;> rfl

theorem buildTtu_rename (computed : String) (n : RelationNode) :
    buildTtuNode computed (renameNode ρ n) = (buildTtuNode computed n >>= fun m => .ok (renameNode ρ m)) := by
  cases n <;> rfl

theorem mapTtu_rename (computed : String) (ns : List RelationNode) :
    mapSliceErr (buildTtuNode computed) (ns.map (renameNode ρ)) = (mapSliceErr (buildTtuNode computed) ns >>= fun ms => .ok (ms.map (renameNode ρ))) := by
  induction ns with
  | nil => rfl
  | cons n ns ih =>
    rw [List.map_cons, mapSliceErr, mapSliceErr, buildTtu_rename, ih]
    cases buildTtuNode computed n with
    | ok m =>
      simp only [Res.bind_ok]
      cases mapSliceErr (buildTtuNode computed) ns <;> rfl
    | _ => rfl

section
variable {s s' : Store} {pid : String}

theorem ruleNodes_rename {y : USet} {r : Rule} (h : succs H s' pid (renameUSet ρ y) = (succs H s pid y).map (renameNode ρ))
    (h' : ∀ a b, r = .ttu a b → succs H s' pid ⟨ρ y.object, a⟩ = (succs H s pid ⟨y.object, a⟩).map (renameNode ρ)) :
    ruleNodes H s' pid (renameUSet ρ y) r = (ruleNodes H s pid y r >>= fun ns => .ok (ns.map (renameNode ρ))) := by
  cases r with
  | this => exact congrArg Res.ok h
  | cu t => rfl
  | ttu a b =>
    show mapSliceErr (buildTtuNode b) (succs H s' pid ⟨ρ y.object, a⟩) = _
    rw [h' a b rfl, mapTtu_rename]
    rfl
  | unset => rfl

theorem pBuild_rename {y : USet} {e : ExprTree} (h : succs H s' pid (renameUSet ρ y) = (succs H s pid y).map (renameNode ρ))
    (h' : ∀ a b, .ttu a b ∈ leaves e → succs H s' pid ⟨ρ y.object, a⟩ = (succs H s pid ⟨y.object, a⟩).map (renameNode ρ)) :
    pBuild H s' pid (renameUSet ρ y) e = (pBuild H s pid y e >>= fun t => .ok (renameTree ρ t)) := by
  induction e with
  | nil => rfl
  | unset => rfl
  | rule r =>
    rw [pBuild, pBuild, ruleNodes_rename h (fun a b hr => h' a b (by simp [leaves, hr]))]
    cases ruleNodes H s pid y r with
    | ok ns =>
      show Res.ok (GoalTree.or .unknown _) = Res.ok (renameTree ρ (GoalTree.or .unknown _))
      rw [renameTree, renameTrees_map, List.map_map, List.map_map]
      congr 2
    | _ => rfl
  | op l o r ihl ihr =>
    rw [pBuild, pBuild, ihl (fun a b hm => h' a b (by simp [leaves, hm])), ihr (fun a b hm => h' a b (by simp [leaves, hm]))]
    cases pBuild H s pid y l with
    | ok a =>
      simp only [Res.bind_ok]
      cases pBuild H s pid y r with
      | ok b =>
        simp only [Res.bind_ok]
        cases o with
        | unknown => rfl
        | union => show Res.ok _ = Res.ok (renameTree ρ _); rw [renameTree, renameTrees, renameTrees, renameTrees]
        | intersection => show Res.ok _ = Res.ok (renameTree ρ _); rw [renameTree, renameTrees, renameTrees, renameTrees]
        | difference => show Res.ok _ = Res.ok (renameTree ρ _); rw [renameTree]
      | _ => rfl
    | _ => rfl

/-- Successors are the subjects in storage order. -/
theorem succs_subjectsOf {env : Env} (hs : WF env s) {z : USet} (hk : KeyClear env.H (Present s pid) z) :
    succs env.H s pid z = (subjectsOf s pid z).map subjectNode := by
  unfold succs subjectsOf relationships
  have key : ∀ l : List (EdgeKey × IRel), (∀ p ∈ l, p ∈ s.edges pid) →
      ((l.filter (fun p => decide (p.1.1 = env.H (z.object.resource ++ z.object.id ++ z.relation)))).map (·.2)).map (fun e => toPublicNode e.dest) =
      ((l.map (fun p => fromInternal p.2)).filterMap
        (fun r => if r.object = some z.object ∧ r.relation = z.relation then r.subject else none)).map subjectNode := by
    intro l
    induction l with
    | nil => intro _; rfl
    | cons p l ih =>
      intro hl
      obtain ⟨k, e⟩ := p
      have hm := hl _ List.mem_cons_self
      have hke := hs.edgeKey _ _ _ hm
      have hiff : k.1 = env.H (z.object.resource ++ z.object.id ++ z.relation) ↔
          ((fromInternal e).object = some z.object ∧ (fromInternal e).relation = z.relation) := by
        constructor
        · intro h
          rw [hke] at h
          obtain ⟨h1, h2⟩ := hk (fromInternal e) ⟨e.source.resource, e.source.id⟩ (List.mem_map.2 ⟨_, hm, rfl⟩) rfl h
          exact ⟨by rw [← h1]; rfl, h2⟩
        · rintro ⟨h1, h2⟩
          rw [hke]
          have h3 : (⟨e.source.resource, e.source.id⟩ : Entity) = z.object := Option.some.inj h1
          rw [← h3, ← h2]
          rfl
      have ih' := ih (fun q hq => hl q (List.mem_cons_of_mem _ hq))
      rw [List.map_cons, List.filterMap_cons]
      by_cases hc : k.1 = env.H (z.object.resource ++ z.object.id ++ z.relation)
      · rw [List.filter_cons_of_pos (by simpa using hc), if_pos (hiff.1 hc)]
        show toPublicNode e.dest :: _ = subjectNode (subjectFromInternal e.dest) :: _
        rw [subjectNode_fromInternal, ih']
      · rw [List.filter_cons_of_neg (by simpa using hc), if_neg (mt hiff.2 hc)]
        exact ih'
  exact key _ (fun _ h => h)

end

end Zanzi
