import Verif.Spec.Outcome
import Verif.Lemmas.Walk
import Verif.Props.Search

/-
How searches end: the bound, an answer, an error or a panic (C14, C49).
-/

namespace Zanzi

open Spec

/-- A result is the bound, an answer with property `Q`, an error when `E`, or a panic when `X`. -/
def Ends {α : Type} (E X : Prop) (Q : α → Prop) : Res α → Prop
  | .ok a => Q a
  | .err _ => E
  | .panic => X
  | .fuel => True

theorem Ends.bind {α β : Type} {E X : Prop} {Q : α → Prop} {Q' : β → Prop} {r : Res α} {k : α → Res β} (h : Ends E X Q r)
    (hk : ∀ a, Q a → Ends E X Q' (k a)) : Ends E X Q' (r >>= k) := by
  cases r with
  | ok a => exact hk a h
  | err e => exact h
  | panic => exact h
  | fuel => trivial

theorem Ends.imp {α : Type} {E X E' X' : Prop} {Q Q' : α → Prop} {r : Res α} (h : Ends E X Q r) (hE : E → E') (hX : X → X') (hQ : ∀ a, Q a → Q' a) :
    Ends E' X' Q' r := by
  cases r with
  | ok a => exact hQ a h
  | err e => exact hE h
  | panic => exact hX h
  | fuel => trivial

/-- Nodes a tree's search may visit directly: without goal, an AND stops after its first operand. -/
def visits (g : Bool) (t : GoalTree) : List RelationNode := if g then t.leads else t.tops

def visitsList (g : Bool) (ts : List GoalTree) : List RelationNode := if g then leadsList ts else topsList ts

def visitsAnd (g : Bool) (ts : List GoalTree) : List RelationNode := if g then leadsHead ts else topsList ts

section
variable {d : Descend} {P : RelationNode → Prop} {E X : Prop} {g : Bool}

mutual
theorem pTree_ends (h : ∀ n r seen, P n → Ends E X (fun p => g = true → p.1.result ≠ .success) (d n r seen)) (t : GoalTree) (seen : List Nat)
    (hf : t.Formed) (ht : ∀ n ∈ visits g t, P n) :
    Ends E X (fun p => g = true → p.1.result ≠ .success ∧ (t.isOp = true → p.1.result = .failure)) (pTree d t seen) := by
  match t with
  | .or _ ps =>
    rw [pTree]
    refine (pOr_ends h ps seen (by simpa [GoalTree.Formed] using hf) (by cases g <;> simpa [visits, visitsList, GoalTree.leads, GoalTree.tops] using ht)).bind
      (fun a ha hg => ?_)
    rw [ha hg]
    exact ⟨nofun, fun _ => rfl⟩
  | .and _ ps =>
    rw [pTree]
    rw [GoalTree.Formed] at hf
    refine (pAnd_ends h ps seen hf.1 hf.2.1 (by rintro _ rfl; exact absurd hf.2.2 (by simp))
      (by cases g <;> simpa [visits, visitsAnd, GoalTree.leads, GoalTree.tops] using ht)).bind (fun a ha hg => ?_)
    rw [ha hg]
    exact ⟨nofun, fun _ => rfl⟩
  | .diff _ l r =>
    rw [GoalTree.Formed] at hf
    have hl : ∀ n ∈ visits g l, P n := fun n hn => ht n (by cases g <;> simp_all [visits, GoalTree.leads, GoalTree.tops])
    have hr : ∀ n ∈ visits g r, P n := fun n hn => ht n (by cases g <;> simp_all [visits, GoalTree.leads, GoalTree.tops])
    rw [pTree]
    refine (pTree_ends h l seen hf.1 hl).bind (fun a ha => (pTree_ends h r a.2 hf.2.1 hr).bind (fun b hb hg => ?_))
    rw [decide_eq_false (ha hg).1]
    exact ⟨nofun, fun _ => rfl⟩
  | .leaf _ n r =>
    rw [pTree]
    exact (h n r seen (ht n (by cases g <;> simp [visits, GoalTree.leads, GoalTree.tops]))).imp id id (fun a ha hg => ⟨ha hg, nofun⟩)
  | .path _ n r _ =>
    rw [pTree]
    exact (h n r seen (ht n (by cases g <;> simp [visits, GoalTree.leads, GoalTree.tops]))).imp id id (fun a ha hg => ⟨ha hg, nofun⟩)

theorem pOr_ends (h : ∀ n r seen, P n → Ends E X (fun p => g = true → p.1.result ≠ .success) (d n r seen)) (ts : List GoalTree) (seen : List Nat)
    (hf : FormedList ts) (ht : ∀ n ∈ visitsList g ts, P n) : Ends E X (fun p => g = true → p.2.1 = false) (pOr d ts seen) := by
  match ts with
  | [] => rw [pOr]; exact fun _ => rfl
  | t :: ts =>
    rw [FormedList] at hf
    have hl : ∀ n ∈ visits g t, P n := fun n hn => ht n (by cases g <;> simp_all [visits, visitsList, leadsList, topsList])
    have hr : ∀ n ∈ visitsList g ts, P n := fun n hn => ht n (by cases g <;> simp_all [visitsList, leadsList, topsList])
    rw [pOr]
    refine (pTree_ends h t seen hf.1 hl).bind (fun a ha => ?_)
    dsimp only
    split
    · next hs => exact fun hg => absurd hs (ha hg).1
    · exact (pOr_ends h ts a.2 hf.2 hr).bind (fun b hb hg => hb hg)

theorem pAnd_ends (h : ∀ n r seen, P n → Ends E X (fun p => g = true → p.1.result ≠ .success) (d n r seen)) (ts : List GoalTree) (seen : List Nat)
    (hf : FormedList ts) (hop : ∀ t ∈ ts, t.isOp = true) (hne : g = true → ts ≠ []) (ht : ∀ n ∈ visitsAnd g ts, P n) :
    Ends E X (fun p => g = true → p.2.1 = false) (pAnd d ts seen) := by
  match ts with
  | [] => rw [pAnd]; exact fun hg => absurd rfl (hne hg)
  | t :: ts =>
    rw [FormedList] at hf
    have hl : ∀ n ∈ visits g t, P n := fun n hn => ht n (by cases g <;> simp_all [visits, visitsAnd, leadsHead, topsList])
    rw [pAnd]
    refine (pTree_ends h t seen hf.1 hl).bind (fun a ha => ?_)
    dsimp only
    split
    · exact fun _ => rfl
    · next hs =>
      by_cases hg : g = true
      · exact absurd ((ha hg).2 (hop t List.mem_cons_self)) hs
      · have hr : ∀ n ∈ visitsAnd g ts, P n := fun n hn => ht n (by simp_all [visitsAnd, topsList])
        exact (pAnd_ends h ts a.2 hf.2 (fun t h => hop t (List.mem_cons_of_mem _ h)) (fun h => absurd h hg) hr).bind (fun b hb hg => hb hg)
end
end

theorem pPath_ends {H : String → Nat} {build : RelationNode → Res GoalTree} {goal : Option RelationNode} {g : Bool} {P : RelationNode → Prop}
    {E X : Prop} (hgo : g = true → goal = none)
    (hn : ∀ n, P n → ((∃ id, n.nodeId H = .ok id) ∧ ∃ b, goalFound n goal = .ok b) ∨ (X ∧ n.nodeId H = .panic))
    (hb : ∀ n, P n → n.isTerminal = false → (∃ id, n.nodeId H = .ok id) → Ends E X (fun t => t.Formed ∧ ∀ m ∈ visits g t, P m) (build n)) (fuel : Nat) :
    ∀ n r seen, P n → Ends E X (fun p => g = true → p.1.result ≠ .success) (pPath H build goal fuel n r seen) := by
  induction fuel with
  | zero => intro n r seen _; trivial
  | succ k ih =>
    intro n r seen hP
    rcases hn n hP with ⟨⟨id, hid⟩, b, hg⟩ | ⟨hX, hid⟩
    · unfold pPath
      simp only [hid, hg, Res.bind_ok]
      split
      · exact fun _ => nofun
      · split
        · intro hgt
          cases hgo hgt
          cases hg
          nofun
        · next hterm =>
          simp only [Bool.or_eq_true, not_or, Bool.not_eq_true] at hterm
          exact (hb n hP hterm.2 ⟨id, hid⟩).bind (fun t ht => (pTree_ends ih t _ ht.1 ht.2).bind (fun a ha hg => (ha hg).1))
    · unfold pPath
      simp only [hid]
      exact hX

section
variable {env : Env} {s : Store} {pid : String} {rec : PolicyRecord} {x : USet} {u : Entity}

theorem pBuild_whole {H : String → Nat} {y : USet} : ∀ {e : ExprTree} {t : GoalTree}, pBuild H s pid y e = .ok t → Whole e := by
  intro e
  induction e with
  | nil => intro t h; cases h
  | unset => intro t h; cases h
  | rule r => intro _ _; trivial
  | op l o r ihl ihr =>
    intro t h
    unfold pBuild at h
    obtain ⟨a, ha, h⟩ := Res.bind_eq_ok.1 h
    obtain ⟨b, hb, h⟩ := Res.bind_eq_ok.1 h
    exact ⟨(by rintro rfl; cases h), ihl ha, ihr hb⟩

theorem mapSlice_ok {b : String} : ∀ l : List RelationNode, (∀ n ∈ l, n ≠ .unset) → ∃ ns, mapSliceErr (buildTtuNode b) l = .ok ns := by
  intro l
  induction l with
  | nil => intro _; exact ⟨_, rfl⟩
  | cons n l ih =>
    intro h
    obtain ⟨ns, hns⟩ := ih (fun m hm => h m (List.mem_cons_of_mem _ hm))
    have hn := h n List.mem_cons_self
    unfold mapSliceErr
    cases n with
    | unset => exact absurd rfl hn
    | _ => rw [hns]; exact ⟨_, rfl⟩

/-- Expanding a reachable userset gives a tree, or an error if the userset is not readable. -/
theorem build_ends (hs : WF env s) (hp : policyAt s pid = some rec) (hk : KeysClear env.U env.H rec.policy (Present s pid) x)
    {y : USet} (hy : Reaches env.U rec.policy (Present s pid) x y.node) :
    Ends (¬ Readable env.U rec.policy y) False (fun _ => True) (bld env rec.policy s y.node) := by
  have hv := hs.policy_valid hp
  have hid := hs.policy_id hp
  cases hl : (newLut rec.policy).getRelation y.object.resource y.relation with
  | none =>
    rw [bld_set, hl]
    rintro ⟨e, ⟨d, hd, _⟩, _⟩
    exact ((C11_lookup_exact _ hv.1 _ _).2.1.1 hl) ⟨d, hd⟩
  | some d =>
    have hdec := ((C11_lookup_exact _ hv.1 _ _).1 d).1 hl
    obtain ⟨r, hr, h1, h2, h3⟩ := hdec
    obtain ⟨e, he, hnn, hok⟩ := hv.2.2 r hr d h2
    have hde : DefinedBy env.U rec.policy y e := ⟨d, ⟨r, hr, h1, h2, h3⟩, he⟩
    have hbe : bld env rec.policy s y.node = pBuild env.H s pid y e := by
      rw [bld_set, hl]
      simp only [(getExpressionTree_ok_iff _ _ _).2 he, Res.bind_ok, hid]
    have key : ∀ e', (∀ r ∈ leaves e', r ∈ leaves e) → NoNil e' → Ends (¬ Whole e') False (fun _ => True) (pBuild env.H s pid y e') := by
      intro e'
      induction e' with
      | nil => intro _ h; exact h.elim
      | unset => intro _ _ h; exact h
      | rule r =>
        intro hsub _
        have hrl : r ∈ leaves e := hsub r (by simp [leaves])
        have hns : ∃ ns, ruleNodes env.H s pid y r = .ok ns := by
          cases r with
          | unset => exact (hok _ hrl).elim
          | this => exact ⟨_, rfl⟩
          | cu _ => exact ⟨_, rfl⟩
          | ttu a b =>
            refine mapSlice_ok _ (fun n hn hun => ?_)
            obtain ⟨sub, h1, h2⟩ := (mem_succs hs (hk y ⟨y.object, a⟩ hy (.inr ⟨e, a, b, hde, hrl, rfl⟩))).1 hn
            obtain ⟨sub', h3, h4⟩ := hs.subject_proper h1
            cases h3
            rw [← h2, hun] at h4
            exact h4
        obtain ⟨ns, hns⟩ := hns
        unfold pBuild
        rw [hns]
        trivial
      | op l o r ihl ihr =>
        intro hsub hnn
        unfold pBuild
        refine ((ihl (fun r h => hsub r (by simp [leaves, h])) hnn.1).imp (fun h hw => h hw.2.1) id (fun _ h => h)).bind (fun a _ => ?_)
        refine ((ihr (fun r h => hsub r (by simp [leaves, h])) hnn.2).imp (fun h hw => h hw.2.2) id (fun _ h => h)).bind (fun b _ => ?_)
        cases o with
        | unknown => exact fun h => h.1 rfl
        | _ => trivial
    rw [hbe]
    refine (key e (fun _ h => h) hnn).imp ?_ id (fun _ h => h)
    rintro h4 ⟨e', hd', hw'⟩
    obtain rfl := DefinedBy.unique hv.1 hde hd'
    exact h4 hw'

/-- Rules whose nodes a search may visit. -/
def picks (g : Bool) (e : ExprTree) : List Rule := if g then firstLeaves e else leaves e

/-- Nodes a search may visit. -/
def Met (U : Unicode) (p : Policy) (R : Relationship → Prop) (x : USet) (g : Bool) (n : RelationNode) : Prop :=
  if g then Shown U p R x n else Reaches U p R x n

theorem met_reaches {U : Unicode} {p : Policy} {R : Relationship → Prop} {g : Bool} {n : RelationNode} (h : Met U p R x g n) : Reaches U p R x n := by
  cases g with
  | true => exact shown_reaches h
  | false => exact h

theorem met_start {U : Unicode} {p : Policy} {R : Relationship → Prop} {g : Bool} : Met U p R x g x.node := by
  cases g with
  | true => exact Shown.start
  | false => exact Reaches.start

/-- The nodes a built tree leads to are those of the rules picked. -/
theorem pBuild_visits {H : String → Nat} {y : USet} (g : Bool) (n : RelationNode) : ∀ {e : ExprTree} {t : GoalTree}, pBuild H s pid y e = .ok t →
    (n ∈ visits g t ↔ ∃ r ∈ picks g e, ∃ ns, ruleNodes H s pid y r = .ok ns ∧ n ∈ ns) := by
  intro e
  induction e with
  | nil => intro t h; cases h
  | unset => intro t h; cases h
  | rule r =>
    intro t h
    unfold pBuild at h
    obtain ⟨ns, hns, h⟩ := Res.bind_eq_ok.1 h
    cases h
    have h1 : n ∈ leadsList (ns.map (fun n => GoalTree.leaf .unknown n (reasonBuilder r))) ↔ n ∈ ns := by
      rw [mem_leadsList]
      constructor
      · rintro ⟨t, ht, hn⟩
        obtain ⟨m, hm, rfl⟩ := List.mem_map.1 ht
        rw [GoalTree.leads, List.mem_singleton] at hn
        exact hn ▸ hm
      · exact fun hn => ⟨_, List.mem_map.2 ⟨n, hn, rfl⟩, by simp [GoalTree.leads]⟩
    have h2 : n ∈ topsList (ns.map (fun n => GoalTree.leaf .unknown n (reasonBuilder r))) ↔ n ∈ ns := by
      rw [mem_topsList]
      constructor
      · rintro ⟨t, ht, hn⟩
        obtain ⟨m, hm, rfl⟩ := List.mem_map.1 ht
        rw [GoalTree.tops, List.mem_singleton] at hn
        exact hn ▸ hm
      · exact fun hn => ⟨_, List.mem_map.2 ⟨n, hn, rfl⟩, by simp [GoalTree.tops]⟩
    cases g
    · simp [visits, GoalTree.tops, h2, picks, leaves, hns]
    · simp [visits, GoalTree.leads, h1, picks, firstLeaves, hns]
  | op l o r ihl ihr =>
    intro t h
    unfold pBuild at h
    obtain ⟨a, ha, h⟩ := Res.bind_eq_ok.1 h
    obtain ⟨b, hb, h⟩ := Res.bind_eq_ok.1 h
    have h1 := ihl ha
    have h2 := ihr hb
    have hor : ∀ (A B : List Rule) (q : Rule → Prop), (∃ r ∈ A ++ B, q r) ↔ (∃ r ∈ A, q r) ∨ ∃ r ∈ B, q r := by
      intro A B q
      simp only [List.mem_append, or_and_right, exists_or]
    cases g
    · simp only [visits, picks, leaves, Bool.false_eq_true, if_false] at h1 h2 ⊢
      rw [hor, ← h1, ← h2]
      cases o <;> cases h <;> simp [GoalTree.tops, topsList]
    · simp only [visits, picks, if_true] at h1 h2 ⊢
      cases o <;> cases h <;> simp only [firstLeaves, hor, ← h1, ← h2] <;> simp [GoalTree.leads, leadsList, leadsHead]

/-- Nodes a built tree leads to are visited next or have no object because of a wildcard in a tupleset. -/
theorem visits_met (hs : WF env s) (hk : KeysClear env.U env.H rec.policy (Present s pid) x) (g : Bool) {y : USet} {e : ExprTree} {t : GoalTree}
    (hy : Met env.U rec.policy (Present s pid) x g y.node) (hd : DefinedBy env.U rec.policy y e) (hb : pBuild env.H s pid y e = .ok t)
    {m : RelationNode} (hm : m ∈ visits g t) :
    Met env.U rec.policy (Present s pid) x g m ∨ ((∃ c, m = .entitySet none c) ∧ MeetsWildcard env.U rec.policy (Present s pid) (picks g) y) := by
  obtain ⟨r, hr, ns, hns, hn⟩ := (pBuild_visits g m hb).1 hm
  have hrl : r ∈ leaves e := by
    cases g with
    | true => exact firstLeaves_leaves hr
    | false => exact hr
  have hstep : RuleNode (Present s pid) y m r → Met env.U rec.policy (Present s pid) x g m := by
    intro h
    cases g with
    | true => exact Shown.step hy hd hr h
    | false => exact Reaches.step hy (ruleNode_rewrites hd hr h)
  have hyr := met_reaches hy
  rcases (mem_ruleNodes hs (hk y y hyr (.inl rfl)) (fun a b h => hk y ⟨y.object, a⟩ hyr (.inr ⟨e, a, b, hd, h ▸ hrl, rfl⟩)) hns m).1 hn with
    ⟨rfl, sub, hp, rfl⟩ | ⟨c, rfl, rfl⟩ | ⟨a, b, sub, rfl, hp, rfl⟩
  · exact .inl (hstep ⟨sub, hp, rfl⟩)
  · exact .inl (hstep rfl)
  · cases sub with
    | entity o => exact .inl (hstep ⟨_, o, hp, rfl, rfl⟩)
    | resourceSet n => exact .inr ⟨⟨b, rfl⟩, e, a, b, n, hd, hr, hp⟩
    | entitySet o rel =>
      cases o with
      | some o => exact .inl (hstep ⟨_, o, hp, rfl, rfl⟩)
      | none =>
        obtain ⟨_, h1, h2⟩ := hs.subject_proper hp
        cases h1
        exact h2.elim
    | unset =>
      obtain ⟨_, h1, h2⟩ := hs.subject_proper hp
      cases h1
      exact h2.elim

/-- Outcome of a search: an error needs an unreadable userset, a panic a wildcard in a tupleset. -/
theorem search_ends (hs : WF env s) (hp : policyAt s pid = some rec) (hk : KeysClear env.U env.H rec.policy (Present s pid) x)
    {goal : Option RelationNode} (hg : GoalOK goal) {g : Bool} (hgo : g = true → goal = none) (fuel : Nat) :
    Ends (∃ y : USet, Met env.U rec.policy (Present s pid) x g y.node ∧ ¬ Readable env.U rec.policy y)
      (∃ y : USet, Met env.U rec.policy (Present s pid) x g y.node ∧ MeetsWildcard env.U rec.policy (Present s pid) (picks g) y) (fun _ => True)
      (pSearch env rec.policy s fuel (some x.node) goal) := by
  generalize hE : (∃ y : USet, Met env.U rec.policy (Present s pid) x g y.node ∧ ¬ Readable env.U rec.policy y) = E
  generalize hX : (∃ y : USet, Met env.U rec.policy (Present s pid) x g y.node ∧ MeetsWildcard env.U rec.policy (Present s pid) (picks g) y) = X
  have := pPath_ends (H := env.H) (build := bld env rec.policy s) (goal := goal) (g := g) (E := E) (X := X)
    (P := fun n => Met env.U rec.policy (Present s pid) x g n ∨ ((∃ c, n = .entitySet none c) ∧ X)) hgo
    (fun n hn => by
      rcases hn with hn | ⟨⟨c, rfl⟩, hX⟩
      · exact .inl (proper_known (Reaches_proper hs (met_reaches hn)) hg)
      · exact .inr ⟨hX, rfl⟩)
    (fun n hn ht hid => by
      rcases hn with hn | ⟨⟨c, rfl⟩, hX⟩
      · obtain ⟨o, rel, rfl⟩ := isTerminal_false ht
        cases o with
        | none => exact (Reaches_proper hs (met_reaches hn)).elim
        | some o =>
          have hb := build_ends hs hp hk (y := ⟨o, rel⟩) (met_reaches hn)
          cases hbt : bld env rec.policy s (USet.node ⟨o, rel⟩) with
          | ok t =>
            show Ends E X _ (bld env rec.policy s (USet.node ⟨o, rel⟩))
            rw [hbt]
            obtain ⟨y, e, hy, h1, h2, k1, k2, hfm, _⟩ := expand_facts hs hp hk (met_reaches hn) rfl hbt
            cases y
            cases hy
            refine ⟨hfm, fun m hm => ?_⟩
            rcases visits_met hs hk g hn h1 h2 hm with h | ⟨h3, h4⟩
            · exact .inl h
            · exact .inr ⟨h3, hX ▸ ⟨_, hn, h4⟩⟩
          | err e =>
            show Ends E X _ (bld env rec.policy s (USet.node ⟨o, rel⟩))
            rw [hbt] at hb ⊢
            exact hE ▸ ⟨⟨o, rel⟩, hn, hb⟩
          | panic => rw [hbt] at hb; exact hb.elim
          | fuel =>
            show Ends E X _ (bld env rec.policy s (USet.node ⟨o, rel⟩))
            rw [hbt]
            trivial
      · obtain ⟨_, h⟩ := hid
        cases h) fuel x.node "Request" [] (.inl met_start)
  have hsearch : pSearch env rec.policy s fuel (some x.node) goal =
      (pPath env.H (bld env rec.policy s) goal fuel x.node "Request" [] >>= fun p => pure p.1) := by
    rcases goal with _ | g
    · rfl
    · cases g with
      | entity _ => rfl
      | _ => exact hg.elim
  rw [hsearch]
  exact this.bind (fun _ _ => trivial)

end

/-! ### What answered trees mention -/

section
variable {H : String → Nat} {build : RelationNode → GoalTree → Prop}

/-- Nodes `M` are those of `T` and those the trees of the usersets in `S` mention. -/
def Keeps (build : RelationNode → GoalTree → Prop) (T S M : List RelationNode) : Prop :=
  (∀ m ∈ T, m ∈ M) ∧ (∀ n ∈ S, n.isTerminal = false → ∃ t, build n t ∧ ∀ m ∈ t.tops, m ∈ M) ∧
  ∀ m ∈ M, m ∈ T ∨ ∃ n ∈ S, n.isTerminal = false ∧ ∃ t, build n t ∧ m ∈ t.tops

theorem Keeps.append {T S M T' S' M' : List RelationNode} (h : Keeps build T S M) (h' : Keeps build T' S' M') :
    Keeps build (T ++ T') (S ++ S') (M ++ M') := by
  refine ⟨fun m hm => ?_, fun n hn ht => ?_, fun m hm => ?_⟩
  · exact List.mem_append.2 ((List.mem_append.1 hm).imp (h.1 m) (h'.1 m))
  · rcases List.mem_append.1 hn with hn | hn
    · obtain ⟨t, h1, h2⟩ := h.2.1 n hn ht
      exact ⟨t, h1, fun m hm => List.mem_append_left _ (h2 m hm)⟩
    · obtain ⟨t, h1, h2⟩ := h'.2.1 n hn ht
      exact ⟨t, h1, fun m hm => List.mem_append_right _ (h2 m hm)⟩
  · rcases List.mem_append.1 hm with hm | hm
    · rcases h.2.2 m hm with h | ⟨n, hn, h⟩
      · exact .inl (List.mem_append_left _ h)
      · exact .inr ⟨n, List.mem_append_left _ hn, h⟩
    · rcases h'.2.2 m hm with h | ⟨n, hn, h⟩
      · exact .inl (List.mem_append_right _ h)
      · exact .inr ⟨n, List.mem_append_right _ hn, h⟩

theorem Keeps.same (T : List RelationNode) : Keeps build T [] T := ⟨fun _ h => h, nofun, fun _ h => .inl h⟩

mutual
theorem fresh_mentions {t : GoalTree} (h : t.Fresh) : mentions t = t.tops := by
  match t with
  | .or r ps => rw [GoalTree.Fresh] at h; rw [mentions, GoalTree.tops, freshList_mentions h.2]
  | .and r ps => rw [GoalTree.Fresh] at h; rw [mentions, GoalTree.tops, freshList_mentions h.2]
  | .diff r a b => rw [GoalTree.Fresh] at h; rw [mentions, GoalTree.tops, fresh_mentions h.2.1, fresh_mentions h.2.2]
  | .leaf r n e => rw [mentions, GoalTree.tops]
  | .path r n e c => rw [GoalTree.Fresh] at h; exact h.elim
theorem freshList_mentions {ts : List GoalTree} (h : FreshList ts) : mentionsList ts = topsList ts := by
  match ts with
  | [] => rw [mentionsList, topsList]
  | t :: ts => rw [FreshList] at h; rw [mentionsList, topsList, fresh_mentions h.1, freshList_mentions h.2]
end

theorem keeps_fresh {ts : List GoalTree} (h : FreshList ts) : Keeps build (topsList ts) (settledList ts) (mentionsList ts) := by
  rw [h.settled, freshList_mentions h]
  exact .same _

def KeepAt (build : RelationNode → GoalTree → Prop) : Task → Out → Prop
  | .tree t, .tree t' => t.Fresh → Keeps build t.tops (settled t') (mentions t')
  | .or ts, .list ts' _ => FreshList ts → Keeps build (topsList ts) (settledList ts') (mentionsList ts')
  | .and ts, .list ts' _ => FreshList ts → Keeps build (topsList ts) (settledList ts') (mentionsList ts')
  | .path n _, .tree t' => Keeps build [n] (settled t') (mentions t')
  | _, _ => True

theorem Ev.keeps (hb : ∀ n t, n.isTerminal = false → build n t → t.Fresh) {k s o s'} (h : Ev H build none k s o s') : KeepAt build k o := by
  induction h with
  | or _ ih => intro hf; rw [GoalTree.Fresh] at hf; simpa [settled, mentions, GoalTree.tops] using ih hf.2
  | and _ ih => intro hf; rw [GoalTree.Fresh] at hf; simpa [settled, mentions, GoalTree.tops] using ih hf.2
  | diff _ _ ih1 ih2 =>
    intro hf
    rw [GoalTree.Fresh] at hf
    simpa [settled, mentions, GoalTree.tops] using (ih1 hf.2.1).append (ih2 hf.2.2)
  | leaf _ ih => intro hf; rw [GoalTree.tops]; exact ih
  | inner _ ih => intro hf; rw [GoalTree.tops]; exact ih
  | orNil => exact fun _ => .same _
  | andNil => exact fun _ => .same _
  | orStop _ _ ih => intro hf; rw [FreshList] at hf; exact (ih hf.1).append (keeps_fresh hf.2)
  | andStop _ _ ih => intro hf; rw [FreshList] at hf; exact (ih hf.1).append (keeps_fresh hf.2)
  | orGo _ _ _ ih1 ih2 => intro hf; rw [FreshList] at hf; exact (ih1 hf.1).append (ih2 hf.2)
  | andGo _ _ _ ih1 ih2 => intro hf; rw [FreshList] at hf; exact (ih1 hf.1).append (ih2 hf.2)
  | repeated _ _ => exact .same _
  | @ended n reason id b s hid hnot hg hterm =>
    cases hg
    refine ⟨fun _ h => h, fun m hm ht => ?_, fun _ h => .inl h⟩
    have : m = n := by simpa [settled, verdict] using hm
    rw [this] at ht
    rw [ht] at hterm
    cases hterm
  | @expanded n reason id b t t' s s' hid hnot hg hterm hbd h1 ih =>
    simp only [Bool.or_eq_false_iff] at hterm
    obtain ⟨k1, k2, k3⟩ := ih (hb _ _ hterm.2 hbd)
    rw [KeepAt, settled, mentions]
    refine ⟨fun m hm => ?_, fun m hm ht => ?_, fun m hm => ?_⟩
    · rw [List.mem_singleton.1 hm]
      exact List.mem_cons_self
    · rcases List.mem_cons.1 hm with rfl | hm
      · exact ⟨t, hbd, fun m hm => List.mem_cons_of_mem _ (k1 m hm)⟩
      · obtain ⟨t0, h1, h2⟩ := k2 m hm ht
        exact ⟨t0, h1, fun m hm => List.mem_cons_of_mem _ (h2 m hm)⟩
    · rcases List.mem_cons.1 hm with rfl | hm
      · exact .inl List.mem_cons_self
      · rcases k3 m hm with h | ⟨q, hq, h⟩
        · exact .inr ⟨n, List.mem_cons_self, hterm.2, t, hbd, h⟩
        · exact .inr ⟨q, List.mem_cons_of_mem _ hq, h⟩

end

/-! ### Drawings -/

/-- Nodes that can be printed. -/
def Printable (n : RelationNode) : Prop := ∃ str, n.prettyString = .ok str

mutual
theorem dotTree_ends (parent : DotId) (t : GoalTree) (c : Nat) :
    (∃ r, dotTree parent t c = .ok r ∧ ∀ m ∈ mentions t, Printable m) ∨ (dotTree parent t c = .panic ∧ ∃ m ∈ mentions t, ¬ Printable m) := by
  have print : ∀ n : RelationNode, (∃ str, n.prettyString = .ok str) ∨ (n.prettyString = .panic ∧ ¬ Printable n) := by
    intro n
    unfold Printable
    cases n with
    | unset => exact .inl ⟨_, rfl⟩
    | wildcard r => exact .inl ⟨_, rfl⟩
    | entity o => cases o with | none => exact .inr ⟨rfl, fun ⟨_, h⟩ => by cases h⟩ | some o => exact .inl ⟨_, rfl⟩
    | entitySet o rel => cases o with | none => exact .inr ⟨rfl, fun ⟨_, h⟩ => by cases h⟩ | some o => exact .inl ⟨_, rfl⟩
  match t with
  | .leaf r n reason =>
    rw [dotTree]
    rcases print n with ⟨str, h⟩ | ⟨h, hn⟩ <;> rw [h]
    · exact .inl ⟨_, rfl, fun m hm => by rw [mentions, List.mem_singleton] at hm; exact hm ▸ ⟨str, h⟩⟩
    · exact .inr ⟨rfl, n, by simp [mentions], hn⟩
  | .path r n reason child =>
    rw [dotTree]
    rcases print n with ⟨str, h⟩ | ⟨h, hn⟩ <;> rw [h]
    · rw [Res.bind_ok]
      rcases dotTree_ends (.num c) child (c + 1) with ⟨q, hq, hm⟩ | ⟨hq, m, hm, hn⟩ <;> rw [hq]
      · refine .inl ⟨_, rfl, fun m h' => ?_⟩
        rw [mentions] at h'
        rcases List.mem_cons.1 h' with rfl | h'
        · exact ⟨str, h⟩
        · exact hm m h'
      · exact .inr ⟨rfl, m, by simp [mentions, hm], hn⟩
    · exact .inr ⟨rfl, n, by simp [mentions], hn⟩
  | .or r ps =>
    rw [dotTree, mentions]
    rcases dotList_ends (.num c) ps (c + 1) with ⟨q, hq, hm⟩ | ⟨hq, hm⟩ <;> rw [hq]
    · exact .inl ⟨_, rfl, hm⟩
    · exact .inr ⟨rfl, hm⟩
  | .and r ps =>
    rw [dotTree, mentions]
    rcases dotList_ends (.num c) ps (c + 1) with ⟨q, hq, hm⟩ | ⟨hq, hm⟩ <;> rw [hq]
    · exact .inl ⟨_, rfl, hm⟩
    · exact .inr ⟨rfl, hm⟩
  | .diff r a b =>
    rw [dotTree, mentions]
    rcases dotTree_ends (.num c) a (c + 1) with ⟨q, hq, hm⟩ | ⟨hq, m, hm, hn⟩ <;> rw [hq]
    · rw [Res.bind_ok]
      dsimp only
      rcases dotTree_ends (.num c) b q.2 with ⟨q', hq', hm'⟩ | ⟨hq', m, hm', hn⟩ <;> rw [hq']
      · exact .inl ⟨_, rfl, fun m h => (List.mem_append.1 h).elim (hm m) (hm' m)⟩
      · exact .inr ⟨rfl, m, List.mem_append_right _ hm', hn⟩
    · exact .inr ⟨rfl, m, List.mem_append_left _ hm, hn⟩
theorem dotList_ends (parent : DotId) (ts : List GoalTree) (c : Nat) :
    (∃ r, dotList parent ts c = .ok r ∧ ∀ m ∈ mentionsList ts, Printable m) ∨ (dotList parent ts c = .panic ∧ ∃ m ∈ mentionsList ts, ¬ Printable m) := by
  match ts with
  | [] => rw [dotList]; exact .inl ⟨_, rfl, nofun⟩
  | t :: ts =>
    rw [dotList, mentionsList]
    rcases dotTree_ends parent t c with ⟨q, hq, hm⟩ | ⟨hq, m, hm, hn⟩ <;> rw [hq]
    · rw [Res.bind_ok]
      dsimp only
      rcases dotList_ends parent ts q.2 with ⟨q', hq', hm'⟩ | ⟨hq', m, hm', hn⟩ <;> rw [hq']
      · exact .inl ⟨_, rfl, fun m h => (List.mem_append.1 h).elim (hm m) (hm' m)⟩
      · exact .inr ⟨rfl, m, List.mem_append_right _ hm', hn⟩
    · exact .inr ⟨rfl, m, List.mem_append_left _ hm, hn⟩
end

/-! ### Concrete stores with usersets that cannot be expanded -/

section
variable {env : Env} {s : Store} {pid : String} {rec : PolicyRecord} {x : USet}

/-- The list is closed under expansion of the declared usersets, nodes without object aside. -/
def looseB (env : Env) (pol : Policy) (s : Store) (L : List RelationNode) : Bool :=
  L.all (fun n => match n with
    | .entitySet (some o) rel => match (newLut pol).getRelation o.resource rel with
      | none => true
      | some _ => match bld env pol s n with
        | .ok t => t.tops.all (fun m => decide (m ∈ L) || match m with | .entitySet none _ => true | _ => false)
        | _ => false
    | _ => true)

theorem reaches_loose (hs : WF env s) (hp : policyAt s pid = some rec) {L : List RelationNode} (hx : x.node ∈ L)
    (hL : looseB env rec.policy s L = true) {n : RelationNode} (h : Reaches env.U rec.policy (Present s pid) x n) : n ∈ L := by
  induction h with
  | start => exact hx
  | @step y n hy hw ih =>
    have hpr := Reaches_proper hs (Reaches.step hy hw)
    have hd : ∃ t, DefinedBy env.U rec.policy y t := by
      cases hw with
      | this hd => exact ⟨_, hd⟩
      | cu hd => exact ⟨_, hd⟩
      | arrow hd => exact ⟨_, hd⟩
    obtain ⟨_, d, hd, _⟩ := hd
    have := List.all_eq_true.1 hL _ ih
    simp only [USet.node, ((C11_lookup_exact rec.policy (hs.policy_valid hp).1 _ _).1 d).2 hd] at this
    split at this
    · next t ht =>
      have := List.all_eq_true.1 this _ (rewrites_tops hs hp ht hw)
      rw [Bool.or_eq_true] at this
      rcases this with h | h
      · simpa using h
      · split at h
        · exact hpr.elim
        · cases h
    · cases this

theorem clear_loose (hs : WF env s) (hp : policyAt s pid = some rec) {L : List RelationNode} (hx : x.node ∈ L)
    (hL : (looseB env rec.policy s L &&
      L.all (fun n => match n with
        | .entitySet (some o) rel => (consultedOf env rec.policy ⟨o, rel⟩).all (keyClearB env.H (relationships s pid))
        | _ => true) &&
      L.all (fun m => L.all (fun n => match m.nodeId env.H, n.nodeId env.H with
        | .ok a, .ok b => !decide (a = b) || decide (m = n)
        | _, _ => true))) = true) :
    KeysClear env.U env.H rec.policy (Present s pid) x ∧ IdsClear env.U env.H rec.policy (Present s pid) x := by
  simp only [Bool.and_eq_true] at hL
  obtain ⟨⟨h1, h2⟩, h3⟩ := hL
  refine ⟨fun y z hy hz => ?_, fun m n id hm hn em en => ?_⟩
  · have := List.all_eq_true.1 h2 _ (reaches_loose hs hp hx h1 hy)
    exact keyClear_of (List.all_eq_true.1 this z (consulted_mem (hs.policy_valid hp).1 hz))
  · have := List.all_eq_true.1 (List.all_eq_true.1 h3 _ (reaches_loose hs hp hx h1 hm)) _ (reaches_loose hs hp hx h1 hn)
    simpa [em, en] using this

end

end Zanzi
