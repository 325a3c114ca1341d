import Verif.Lemmas.Calls

/-
The search as a pure function of what it reads, and as a big-step relation.
-/

namespace Zanzi

/-! ### Pure twin -/

abbrev Descend := RelationNode → String → List Nat → Res (GoalTree × List Nat)

mutual
def pTree (d : Descend) : GoalTree → List Nat → Res (GoalTree × List Nat)
  | .or _ paths, seen => do
    let (ps, any, seen) ← pOr d paths seen
    return (.or (verdict any) ps, seen)
  | .and _ paths, seen => do
    let (ps, all, seen) ← pAnd d paths seen
    return (.and (verdict all) ps, seen)
  | .diff _ l r, seen => do
    let (l', seen) ← pTree d l seen
    let (r', seen) ← pTree d r seen
    return (.diff (verdict (decide (l'.result = .success) && decide (r'.result = .failure))) l' r', seen)
  | .leaf _ node reason, seen => d node reason seen
  | .path _ node reason _, seen => d node reason seen

def pOr (d : Descend) : List GoalTree → List Nat → Res (List GoalTree × Bool × List Nat)
  | [], seen => .ok ([], false, seen)
  | t :: ts, seen => do
    let (t', seen) ← pTree d t seen
    if t'.result = .success then return (t' :: ts, true, seen)
    else do
      let (ts', any, seen) ← pOr d ts seen
      return (t' :: ts', any, seen)

def pAnd (d : Descend) : List GoalTree → List Nat → Res (List GoalTree × Bool × List Nat)
  | [], seen => .ok ([], true, seen)
  | t :: ts, seen => do
    let (t', seen) ← pTree d t seen
    if t'.result = .failure then return (t' :: ts, false, seen)
    else do
      let (ts', all, seen) ← pAnd d ts seen
      return (t' :: ts', all, seen)
end

/-- What a read of the tree for a node gives on store `s`. -/
def bld (env : Env) (pol : Policy) (s : Store) (n : RelationNode) : Res GoalTree := ((buildTree env pol n).run s).1

def pPath (H : String → Nat) (build : RelationNode → Res GoalTree) (goal : Option RelationNode) : Nat → Descend
  | 0, _, _, _ => .fuel
  | n + 1, node, reason, seen => do
    let id ← node.nodeId H
    if id ∈ seen then return (.leaf .unknown node reason, seen)
    else do
      let seen := id :: seen
      let found ← goalFound node goal
      if found || node.isTerminal then return (.leaf (verdict found) node reason, seen)
      else do
        let tree ← build node
        let (tree, seen) ← pTree (pPath H build goal n) tree seen
        return (.path tree.result node reason tree, seen)

/-- A program that only reads `s` and answers `r`. -/
def Prog.Yields {α : Type} (p : Prog α) (s : Store) (r : Res α) : Prop := p.run s = (r, s)

theorem Prog.Yields.bind {α β : Type} {p : Prog α} {k : α → Prog β} {s : Store} {r : Res α} {g : α → Res β}
    (hp : p.Yields s r) (hk : ∀ a, (k a).Yields s (g a)) : (p >>= k).Yields s (r >>= g) := by
  unfold Prog.Yields at *
  rw [Prog.run_bind, hp]
  cases r with
  | ok a => exact hk a
  | err e => rfl
  | panic => rfl
  | fuel => rfl

theorem Prog.Yields.lift {α : Type} (r : Res α) (s : Store) : (Prog.lift r).Yields s r := rfl

theorem Prog.Yields.pure {α : Type} (a : α) (s : Store) : (Pure.pure a : Prog α).Yields s (Pure.pure a) := rfl

theorem Prog.ReadOnly.yields {α : Type} {p : Prog α} (h : p.ReadOnly) (s : Store) : p.Yields s (p.run s).1 := by
  unfold Prog.Yields
  have := h.run s
  generalize p.run s = x at this
  obtain ⟨a, b⟩ := x
  cases this
  rfl

theorem buildTree_yields (env : Env) (pol : Policy) (s : Store) (n : RelationNode) : (buildTree env pol n).Yields s (bld env pol s n) :=
  Prog.ReadOnly.yields (buildTree_ops (fun _ => rfl) n) s

section twin
variable {d : RelationNode → String → List Nat → Prog (GoalTree × List Nat)} {pd : Descend} {s : Store}

mutual
theorem searchTree_yields (hd : ∀ n r seen, (d n r seen).Yields s (pd n r seen)) (t : GoalTree) (seen : List Nat) :
    (searchTree d t seen).Yields s (pTree pd t seen) := by
  match t with
  | .or _ ps =>
    unfold searchTree pTree
    exact (searchOr_yields hd ps seen).bind (fun _ => .pure _ _)
  | .and _ ps =>
    unfold searchTree pTree
    exact (searchAnd_yields hd ps seen).bind (fun _ => .pure _ _)
  | .diff _ l r =>
    unfold searchTree pTree
    exact (searchTree_yields hd l seen).bind (fun _ => (searchTree_yields hd r _).bind (fun _ => .pure _ _))
  | .leaf _ _ _ =>
    unfold searchTree pTree
    exact hd _ _ _
  | .path _ _ _ _ =>
    unfold searchTree pTree
    exact hd _ _ _

theorem searchOr_yields (hd : ∀ n r seen, (d n r seen).Yields s (pd n r seen)) (ts : List GoalTree) (seen : List Nat) :
    (searchOr d ts seen).Yields s (pOr pd ts seen) := by
  match ts with
  | [] =>
    unfold searchOr pOr
    exact .lift _ _
  | t :: ts =>
    unfold searchOr pOr
    refine (searchTree_yields hd t seen).bind (fun x => ?_)
    obtain ⟨t', seen'⟩ := x
    dsimp only
    split
    · exact .pure _ _
    · exact (searchOr_yields hd ts _).bind (fun _ => .pure _ _)

theorem searchAnd_yields (hd : ∀ n r seen, (d n r seen).Yields s (pd n r seen)) (ts : List GoalTree) (seen : List Nat) :
    (searchAnd d ts seen).Yields s (pAnd pd ts seen) := by
  match ts with
  | [] =>
    unfold searchAnd pAnd
    exact .lift _ _
  | t :: ts =>
    unfold searchAnd pAnd
    refine (searchTree_yields hd t seen).bind (fun x => ?_)
    obtain ⟨t', seen'⟩ := x
    dsimp only
    split
    · exact .pure _ _
    · exact (searchAnd_yields hd ts _).bind (fun _ => .pure _ _)
end
end twin

theorem searchPath_yields (env : Env) (pol : Policy) (goal : Option RelationNode) (s : Store) :
    ∀ n node reason seen, (searchPath env pol goal n node reason seen).Yields s (pPath env.H (bld env pol s) goal n node reason seen) := by
  intro n
  induction n with
  | zero => intro _ _ _; exact .lift _ _
  | succ n ih =>
    intro node reason seen
    unfold searchPath pPath
    refine (Prog.Yields.lift _ _).bind (fun id => ?_)
    split
    · exact .pure _ _
    · refine (Prog.Yields.lift _ _).bind (fun found => ?_)
      split
      · exact .pure _ _
      · exact (buildTree_yields env pol s node).bind (fun t => (searchTree_yields ih t _).bind (fun _ => .pure _ _))

/-- Pure search from a node. -/
def pSearch (env : Env) (pol : Policy) (s : Store) (fuel : Nat) (origin goal : Option RelationNode) : Res GoalTree :=
  match goal with
  | some (.wildcard _) => .err .wildcardGoal
  | _ => do
    let origin ← Res.deref origin
    let (tree, _) ← pPath env.H (bld env pol s) goal fuel origin "Request" []
    return tree

theorem searchGoal_yields (env : Env) (fuel : Nat) (pol : Policy) (origin goal : Option RelationNode) (s : Store) :
    (searchGoal env fuel pol origin goal).Yields s (pSearch env pol s fuel origin goal) := by
  have key : (do
      let origin ← Prog.lift (Res.deref origin)
      let (tree, _) ← searchPath env pol goal fuel origin "Request" []
      return tree : Prog GoalTree).Yields s (do
      let origin ← Res.deref origin
      let (tree, _) ← pPath env.H (bld env pol s) goal fuel origin "Request" []
      return tree) :=
    (Prog.Yields.lift _ _).bind (fun o => (searchPath_yields env pol goal s fuel o _ _).bind (fun _ => .pure _ _))
  rcases goal with _ | g
  · exact key
  · cases g
    · exact key
    · exact key
    · exact key
    · exact .lift _ _

/-! ### Big-step relation -/

/-- What is being searched. -/
inductive Task where
  | tree (t : GoalTree)
  | or (ts : List GoalTree)
  | and (ts : List GoalTree)
  | path (n : RelationNode) (reason : String)

/-- What a search gives. -/
inductive Out where
  | tree (t : GoalTree)
  | list (ts : List GoalTree) (b : Bool)

/-- The trees a function gives. -/
abbrev Builds (build : RelationNode → Res GoalTree) (n : RelationNode) (t : GoalTree) : Prop := build n = .ok t

/-- Completed searches: task, nodes seen before, outcome, nodes seen after. -/
inductive Ev (H : String → Nat) (build : RelationNode → GoalTree → Prop) (goal : Option RelationNode) :
    Task → List Nat → Out → List Nat → Prop
  | or {r ps ps' b s s'} : Ev H build goal (.or ps) s (.list ps' b) s' →
      Ev H build goal (.tree (.or r ps)) s (.tree (.or (verdict b) ps')) s'
  | and {r ps ps' b s s'} : Ev H build goal (.and ps) s (.list ps' b) s' →
      Ev H build goal (.tree (.and r ps)) s (.tree (.and (verdict b) ps')) s'
  | diff {x l r l' r' s s' s''} : Ev H build goal (.tree l) s (.tree l') s' → Ev H build goal (.tree r) s' (.tree r') s'' →
      Ev H build goal (.tree (.diff x l r)) s
        (.tree (.diff (verdict (decide (l'.result = .success) && decide (r'.result = .failure))) l' r')) s''
  | leaf {x n reason t s s'} : Ev H build goal (.path n reason) s (.tree t) s' →
      Ev H build goal (.tree (.leaf x n reason)) s (.tree t) s'
  | inner {x n reason c t s s'} : Ev H build goal (.path n reason) s (.tree t) s' →
      Ev H build goal (.tree (.path x n reason c)) s (.tree t) s'
  | orNil {s} : Ev H build goal (.or []) s (.list [] false) s
  | orStop {t ts t' s s'} : Ev H build goal (.tree t) s (.tree t') s' → t'.result = .success →
      Ev H build goal (.or (t :: ts)) s (.list (t' :: ts) true) s'
  | orGo {t ts t' ts' b s s' s''} : Ev H build goal (.tree t) s (.tree t') s' → t'.result ≠ .success →
      Ev H build goal (.or ts) s' (.list ts' b) s'' → Ev H build goal (.or (t :: ts)) s (.list (t' :: ts') b) s''
  | andNil {s} : Ev H build goal (.and []) s (.list [] true) s
  | andStop {t ts t' s s'} : Ev H build goal (.tree t) s (.tree t') s' → t'.result = .failure →
      Ev H build goal (.and (t :: ts)) s (.list (t' :: ts) false) s'
  | andGo {t ts t' ts' b s s' s''} : Ev H build goal (.tree t) s (.tree t') s' → t'.result ≠ .failure →
      Ev H build goal (.and ts) s' (.list ts' b) s'' → Ev H build goal (.and (t :: ts)) s (.list (t' :: ts') b) s''
  | repeated {n reason id s} : n.nodeId H = .ok id → id ∈ s →
      Ev H build goal (.path n reason) s (.tree (.leaf .unknown n reason)) s
  | ended {n reason id b s} : n.nodeId H = .ok id → id ∉ s → goalFound n goal = .ok b → (b || n.isTerminal) = true →
      Ev H build goal (.path n reason) s (.tree (.leaf (verdict b) n reason)) (id :: s)
  | expanded {n reason id b t t' s s'} : n.nodeId H = .ok id → id ∉ s → goalFound n goal = .ok b →
      (b || n.isTerminal) = false → build n t → Ev H build goal (.tree t) (id :: s) (.tree t') s' →
      Ev H build goal (.path n reason) s (.tree (.path t'.result n reason t')) s'

section toEv
variable {H : String → Nat} {build : RelationNode → Res GoalTree} {goal : Option RelationNode} {d : Descend}

mutual
theorem pTree_ev (hd : ∀ n r seen t seen', d n r seen = .ok (t, seen') → Ev H (Builds build) goal (.path n r) seen (.tree t) seen')
    (t : GoalTree) (seen : List Nat) (t' : GoalTree) (seen' : List Nat) (h : pTree d t seen = .ok (t', seen')) :
    Ev H (Builds build) goal (.tree t) seen (.tree t') seen' := by
  match t with
  | .or _ ps =>
    unfold pTree at h
    obtain ⟨⟨a, b, c⟩, h1, h2⟩ := Res.bind_eq_ok.1 h
    cases h2
    exact .or (pOr_ev hd _ _ _ _ _ h1)
  | .and _ ps =>
    unfold pTree at h
    obtain ⟨⟨a, b, c⟩, h1, h2⟩ := Res.bind_eq_ok.1 h
    cases h2
    exact .and (pAnd_ev hd _ _ _ _ _ h1)
  | .diff _ l r =>
    unfold pTree at h
    obtain ⟨⟨a, b⟩, h1, h2⟩ := Res.bind_eq_ok.1 h
    obtain ⟨⟨c, e⟩, h3, h4⟩ := Res.bind_eq_ok.1 h2
    cases h4
    exact .diff (pTree_ev hd _ _ _ _ h1) (pTree_ev hd _ _ _ _ h3)
  | .leaf _ _ _ =>
    unfold pTree at h
    exact .leaf (hd _ _ _ _ _ h)
  | .path _ _ _ _ =>
    unfold pTree at h
    exact .inner (hd _ _ _ _ _ h)

theorem pOr_ev (hd : ∀ n r seen t seen', d n r seen = .ok (t, seen') → Ev H (Builds build) goal (.path n r) seen (.tree t) seen')
    (ts : List GoalTree) (seen : List Nat) (ts' : List GoalTree) (b : Bool) (seen' : List Nat) (h : pOr d ts seen = .ok (ts', b, seen')) :
    Ev H (Builds build) goal (.or ts) seen (.list ts' b) seen' := by
  match ts with
  | [] =>
    unfold pOr at h
    cases h
    exact .orNil
  | t :: ts =>
    unfold pOr at h
    obtain ⟨⟨a, b⟩, h1, h2⟩ := Res.bind_eq_ok.1 h
    dsimp only at h2
    split at h2
    · next hr =>
      cases h2
      exact .orStop (pTree_ev hd _ _ _ _ h1) hr
    · next hr =>
      obtain ⟨⟨c, e, f⟩, h3, h4⟩ := Res.bind_eq_ok.1 h2
      cases h4
      exact .orGo (pTree_ev hd _ _ _ _ h1) hr (pOr_ev hd _ _ _ _ _ h3)

theorem pAnd_ev (hd : ∀ n r seen t seen', d n r seen = .ok (t, seen') → Ev H (Builds build) goal (.path n r) seen (.tree t) seen')
    (ts : List GoalTree) (seen : List Nat) (ts' : List GoalTree) (b : Bool) (seen' : List Nat) (h : pAnd d ts seen = .ok (ts', b, seen')) :
    Ev H (Builds build) goal (.and ts) seen (.list ts' b) seen' := by
  match ts with
  | [] =>
    unfold pAnd at h
    cases h
    exact .andNil
  | t :: ts =>
    unfold pAnd at h
    obtain ⟨⟨a, b⟩, h1, h2⟩ := Res.bind_eq_ok.1 h
    dsimp only at h2
    split at h2
    · next hr =>
      cases h2
      exact .andStop (pTree_ev hd _ _ _ _ h1) hr
    · next hr =>
      obtain ⟨⟨c, e, f⟩, h3, h4⟩ := Res.bind_eq_ok.1 h2
      cases h4
      exact .andGo (pTree_ev hd _ _ _ _ h1) hr (pAnd_ev hd _ _ _ _ _ h3)
end

theorem pPath_ev (n : Nat) : ∀ node reason seen t seen', pPath H build goal n node reason seen = .ok (t, seen') →
    Ev H (Builds build) goal (.path node reason) seen (.tree t) seen' := by
  induction n with
  | zero => intro _ _ _ _ _ h; cases h
  | succ n ih =>
    intro node reason seen t seen' h
    unfold pPath at h
    obtain ⟨id, h1, h⟩ := Res.bind_eq_ok.1 h
    split at h
    · next hin =>
      cases h
      exact .repeated h1 hin
    · next hout =>
      obtain ⟨b, h2, h⟩ := Res.bind_eq_ok.1 h
      split at h
      · next hb =>
        cases h
        exact .ended h1 hout h2 hb
      · next hb =>
        obtain ⟨tr, h3, h⟩ := Res.bind_eq_ok.1 h
        obtain ⟨⟨tr', seen''⟩, h4, h⟩ := Res.bind_eq_ok.1 h
        cases h
        exact .expanded h1 hout h2 (by simpa using hb) h3 (pTree_ev ih _ _ _ _ h4)

theorem pSearch_ev {env : Env} {pol : Policy} {s : Store} {fuel : Nat} {origin goal : Option RelationNode} {t : GoalTree}
    (h : pSearch env pol s fuel origin goal = .ok t) :
    ∃ o seen, origin = some o ∧ Ev env.H (Builds (bld env pol s)) goal (.path o "Request") [] (.tree t) seen := by
  unfold pSearch at h
  split at h
  · cases h
  · obtain ⟨o, h1, h⟩ := Res.bind_eq_ok.1 h
    obtain ⟨⟨tr, seen⟩, h2, h⟩ := Res.bind_eq_ok.1 h
    cases h
    cases origin with
    | none => cases h1
    | some o' =>
      cases h1
      exact ⟨_, seen, rfl, pPath_ev _ _ _ _ _ _ h2⟩

end toEv

/-- Seen nodes are never forgotten. -/
theorem Ev.seen_mono {H build goal k s o s'} (h : Ev H build goal k s o s') : s ⊆ s' := by
  induction h with
  | or _ ih => exact ih
  | and _ ih => exact ih
  | diff _ _ ih1 ih2 => exact fun _ hx => ih2 (ih1 hx)
  | leaf _ ih => exact ih
  | inner _ ih => exact ih
  | orNil => exact fun _ hx => hx
  | orStop _ _ ih => exact ih
  | orGo _ _ _ ih1 ih2 => exact fun _ hx => ih2 (ih1 hx)
  | andNil => exact fun _ hx => hx
  | andStop _ _ ih => exact ih
  | andGo _ _ _ ih1 ih2 => exact fun _ hx => ih2 (ih1 hx)
  | repeated => exact fun _ hx => hx
  | ended => exact fun _ hx => List.mem_cons_of_mem _ hx
  | expanded _ _ _ _ _ _ ih => exact fun _ hx => ih (List.mem_cons_of_mem _ hx)

end Zanzi
