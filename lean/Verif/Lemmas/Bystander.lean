import Verif.Spec.Bystander
import Verif.Lemmas.CheckRun

/-
A search for a user takes no notice of the other users it passes.
-/

namespace Zanzi

open Spec

variable {H : String → Nat} {P : RelationNode → Prop} {u : Entity}

mutual
/-- Other users occur only as alternatives. -/
def Fits (u : Entity) : GoalTree → Prop
  | .or _ ps => FitsOr u ps
  | .and _ ps => FitsAnd u ps
  | .diff _ l r => Fits u l ∧ Fits u r
  | .leaf _ n _ => bystands u n = false
  | .path _ n _ _ => bystands u n = false
def FitsOr (u : Entity) : List GoalTree → Prop
  | [] => True
  | t :: ts => (standsBy u t = true ∨ Fits u t) ∧ FitsOr u ts
def FitsAnd (u : Entity) : List GoalTree → Prop
  | [] => True
  | t :: ts => Fits u t ∧ FitsAnd u ts
end

theorem leaveOut_result (t : GoalTree) : (leaveOut u t).result = t.result := by
  cases t <;> simp [leaveOut, GoalTree.result]

/-- The same visits, other users apart. -/
def VisitsAlike (H : String → Nat) (P : RelationNode → Prop) (u : Entity) (s s' : List Nat) : Prop :=
  ∀ n id, P n → bystands u n = false → n.nodeId H = .ok id → (id ∈ s ↔ id ∈ s')

/-- The first run ran out of fuel, or both fail alike, or both succeed with related results. -/
def Follows {α β : Type} (R : α → β → Prop) (r : Res α) (r' : Res β) : Prop :=
  r = .fuel ∨ (∃ a b, r = .ok a ∧ r' = .ok b ∧ R a b) ∨ (∃ e, r = .err e ∧ r' = .err e) ∨ (r = .panic ∧ r' = .panic)

theorem Follows.bind {α β γ δ : Type} {R : α → β → Prop} {Q : γ → δ → Prop} {r : Res α} {r' : Res β} {k : α → Res γ} {k' : β → Res δ}
    (h : Follows R r r') (hk : ∀ a b, R a b → Follows Q (k a) (k' b)) : Follows Q (r >>= k) (r' >>= k') := by
  rcases h with rfl | ⟨a, b, rfl, rfl, hab⟩ | ⟨e, rfl, rfl⟩ | ⟨rfl, rfl⟩
  · exact .inl rfl
  · exact hk a b hab
  · exact .inr (.inr (.inl ⟨e, rfl, rfl⟩))
  · exact .inr (.inr (.inr ⟨rfl, rfl⟩))

theorem Follows.ok {α β : Type} {R : α → β → Prop} {a : α} {b : β} (h : R a b) : Follows R (.ok a) (.ok b) :=
  .inr (.inl ⟨a, b, rfl, rfl, h⟩)

/-- Related results of searching a tree. -/
def TreeR (H : String → Nat) (P : RelationNode → Prop) (u : Entity) (a b : GoalTree × List Nat) : Prop :=
  standsBy u a.1 = false ∧ leaveOut u a.1 = b.1 ∧ VisitsAlike H P u a.2 b.2
def OrR (H : String → Nat) (P : RelationNode → Prop) (u : Entity) (a b : List GoalTree × Bool × List Nat) : Prop :=
  leaveOutOr u a.1 = b.1 ∧ a.2.1 = b.2.1 ∧ VisitsAlike H P u a.2.2 b.2.2
def AndR (H : String → Nat) (P : RelationNode → Prop) (u : Entity) (a b : List GoalTree × Bool × List Nat) : Prop :=
  leaveOutAnd u a.1 = b.1 ∧ a.2.1 = b.2.1 ∧ VisitsAlike H P u a.2.2 b.2.2

/-- Visiting another user gives nothing and is not noticed. -/
def PassesBy (H : String → Nat) (P : RelationNode → Prop) (u : Entity) (d : Descend) : Prop :=
  ∀ n r seen, bystands u n = true → P n → d n r seen = .fuel ∨
    ∃ x seen₂, d n r seen = .ok (.leaf x n r, seen₂) ∧ x ≠ .success ∧ ∀ s', VisitsAlike H P u seen s' → VisitsAlike H P u seen₂ s'

def Alike (H : String → Nat) (P : RelationNode → Prop) (u : Entity) (d d' : Descend) : Prop :=
  ∀ n r seen seen', bystands u n = false → Ok H P n → VisitsAlike H P u seen seen' → Follows (TreeR H P u) (d n r seen) (d' n r seen')

theorem bystands_id {n : RelationNode} (h : bystands u n = true) : ∃ id, n.nodeId H = .ok id := by
  cases n with
  | entity o => cases o with | none => cases h | some e => exact ⟨_, rfl⟩
  | wildcard r => exact ⟨_, rfl⟩
  | entitySet o r => cases h
  | unset => cases h

section
variable {d d' : Descend}

mutual
theorem pTree_alike (h1 : PassesBy H P u d) (h2 : Alike H P u d d') (t : GoalTree) (seen seen' : List Nat) (hf : Fits u t)
    (hP : ∀ m ∈ t.tops, Ok H P m) (hv : VisitsAlike H P u seen seen') : Follows (TreeR H P u) (pTree d t seen) (pTree d' (leaveOut u t) seen') := by
  match t with
  | .or _ ps =>
    rw [leaveOut, pTree, pTree]
    rw [Fits] at hf
    refine (pOr_alike h1 h2 ps seen seen' hf (by simpa [GoalTree.tops] using hP) hv).bind ?_
    rintro ⟨a, b, c⟩ ⟨a', b', c'⟩ ⟨e1, e2, e3⟩
    cases e2
    exact .ok ⟨rfl, by rw [leaveOut, e1], e3⟩
  | .and _ ps =>
    rw [leaveOut, pTree, pTree]
    rw [Fits] at hf
    refine (pAnd_alike h1 h2 ps seen seen' hf (by simpa [GoalTree.tops] using hP) hv).bind ?_
    rintro ⟨a, b, c⟩ ⟨a', b', c'⟩ ⟨e1, e2, e3⟩
    cases e2
    exact .ok ⟨rfl, by rw [leaveOut, e1], e3⟩
  | .diff _ l r =>
    rw [leaveOut, pTree, pTree]
    rw [Fits] at hf
    refine (pTree_alike h1 h2 l seen seen' hf.1 (fun m hm => hP m (by simp [GoalTree.tops, hm])) hv).bind ?_
    rintro ⟨a, c⟩ ⟨a', c'⟩ ⟨_, e1, e3⟩
    refine (pTree_alike h1 h2 r c c' hf.2 (fun m hm => hP m (by simp [GoalTree.tops, hm])) e3).bind ?_
    rintro ⟨b, f⟩ ⟨b', f'⟩ ⟨_, g1, g3⟩
    dsimp only at e1 g1
    subst e1 g1
    exact .ok ⟨rfl, by rw [leaveOut, leaveOut_result, leaveOut_result], g3⟩
  | .leaf _ n r =>
    rw [leaveOut, pTree, pTree]
    exact h2 n r seen seen' (by simpa [Fits] using hf) (hP n (by simp [GoalTree.tops])) hv
  | .path _ n r _ =>
    rw [leaveOut, pTree, pTree]
    exact h2 n r seen seen' (by simpa [Fits] using hf) (hP n (by simp [GoalTree.tops])) hv

theorem pOr_alike (h1 : PassesBy H P u d) (h2 : Alike H P u d d') (ts : List GoalTree) (seen seen' : List Nat) (hf : FitsOr u ts)
    (hP : ∀ m ∈ topsList ts, Ok H P m) (hv : VisitsAlike H P u seen seen') : Follows (OrR H P u) (pOr d ts seen) (pOr d' (leaveOutOr u ts) seen') := by
  match ts with
  | [] =>
    rw [leaveOutOr, pOr, pOr]
    exact .ok ⟨rfl, rfl, hv⟩
  | t :: ts =>
    rw [FitsOr] at hf
    have hPt : ∀ m ∈ t.tops, Ok H P m := fun m hm => hP m (by simp [topsList, hm])
    have hPs : ∀ m ∈ topsList ts, Ok H P m := fun m hm => hP m (by simp [topsList, hm])
    rw [leaveOutOr]
    split
    · next hb =>
      match t with
      | .leaf x n r =>
        rw [pOr, pTree]
        obtain ⟨id, hid⟩ := bystands_id (H := H) (n := n) hb
        rcases h1 n r seen hb (hPt n (by simp [GoalTree.tops]) id hid) with he | ⟨x', seen₂, he, hx, hs⟩
        · rw [he]; exact .inl rfl
        · rw [he, Res.bind_ok]
          dsimp only
          rw [if_neg (by simpa [GoalTree.result] using hx)]
          rcases pOr_alike h1 h2 ts seen₂ seen' hf.2 hPs (hs _ hv) with e | ⟨a, b, e1, e2, e3⟩ | ⟨e, e1, e2⟩ | ⟨e1, e2⟩
          · rw [e]; exact .inl rfl
          · obtain ⟨a1, a2, a3⟩ := a
            rw [e1, e2, Res.bind_ok]
            refine .ok ⟨?_, e3.2⟩
            rw [leaveOutOr, if_pos (by exact hb)]
            exact e3.1
          · rw [e1, e2]; exact .inr (.inr (.inl ⟨e, rfl, rfl⟩))
          · rw [e1, e2]; exact .inr (.inr (.inr ⟨rfl, rfl⟩))
      | .or _ _ => cases hb
      | .and _ _ => cases hb
      | .diff _ _ _ => cases hb
      | .path _ _ _ _ => cases hb
    · next hb =>
      have hft : Fits u t := hf.1.resolve_left hb
      rw [pOr, pOr]
      refine (pTree_alike h1 h2 t seen seen' hft hPt hv).bind ?_
      rintro ⟨a, c⟩ ⟨a', c'⟩ ⟨e0, e1, e3⟩
      dsimp only at e0 e1 e3 ⊢
      subst e1
      rw [leaveOut_result]
      split
      · refine .ok ⟨?_, rfl, e3⟩
        dsimp only
        rw [leaveOutOr, if_neg (by simp [e0])]
      · refine (pOr_alike h1 h2 ts c c' hf.2 hPs e3).bind ?_
        rintro ⟨b, f, g⟩ ⟨b', f', g'⟩ ⟨g1, g2, g3⟩
        cases g2
        refine .ok ⟨?_, rfl, g3⟩
        dsimp only at g1 ⊢
        rw [leaveOutOr, if_neg (by simp [e0]), g1]

theorem pAnd_alike (h1 : PassesBy H P u d) (h2 : Alike H P u d d') (ts : List GoalTree) (seen seen' : List Nat) (hf : FitsAnd u ts)
    (hP : ∀ m ∈ topsList ts, Ok H P m) (hv : VisitsAlike H P u seen seen') : Follows (AndR H P u) (pAnd d ts seen) (pAnd d' (leaveOutAnd u ts) seen') := by
  match ts with
  | [] =>
    rw [leaveOutAnd, pAnd, pAnd]
    exact .ok ⟨rfl, rfl, hv⟩
  | t :: ts =>
    rw [FitsAnd] at hf
    have hPt : ∀ m ∈ t.tops, Ok H P m := fun m hm => hP m (by simp [topsList, hm])
    have hPs : ∀ m ∈ topsList ts, Ok H P m := fun m hm => hP m (by simp [topsList, hm])
    rw [leaveOutAnd, pAnd, pAnd]
    refine (pTree_alike h1 h2 t seen seen' hf.1 hPt hv).bind ?_
    rintro ⟨a, c⟩ ⟨a', c'⟩ ⟨e0, e1, e3⟩
    dsimp only at e0 e1 e3 ⊢
    subst e1
    rw [leaveOut_result]
    split
    · exact .ok ⟨by rw [leaveOutAnd], rfl, e3⟩
    · refine (pAnd_alike h1 h2 ts c c' hf.2 hPs e3).bind ?_
      rintro ⟨b, f, g⟩ ⟨b', f', g'⟩ ⟨g1, g2, g3⟩
      cases g2
      refine .ok ⟨?_, rfl, g3⟩
      dsimp only at g1 ⊢
      rw [leaveOutAnd, g1]
end
end

theorem bystands_goal {n : RelationNode} (h : bystands u n = true) : goalFound n (userGoal u) = .ok false ∧ n.isTerminal = true := by
  cases n with
  | entity o =>
    cases o with
    | none => cases h
    | some e =>
      obtain ⟨a, b⟩ := e
      obtain ⟨c, d⟩ := u
      simp [bystands] at h
      refine ⟨?_, rfl⟩
      show Res.ok (decide (c = a) && decide (d = b)) = _
      congr 1
      simp only [Bool.and_eq_false_iff, decide_eq_false_iff_not]
      by_cases hc : c = a
      · exact .inr (fun hd => h.elim (fun h => h hc.symm) (fun h => h hd.symm))
      · exact .inl hc
  | wildcard r =>
    simp [bystands] at h
    refine ⟨?_, rfl⟩
    show Res.ok (decide (r = u.resource)) = _
    simp [h]
  | entitySet o r => cases h
  | unset => cases h

theorem pPath_passesBy {build : RelationNode → Res GoalTree}
    (hids : ∀ m n id, P m → P n → m.nodeId H = .ok id → n.nodeId H = .ok id → m = n) (fuel : Nat) :
    PassesBy H P u (pPath H build (userGoal u) fuel) := by
  intro n r seen hb hP
  cases fuel with
  | zero => exact .inl rfl
  | succ k =>
    right
    obtain ⟨id, hid⟩ := bystands_id (H := H) hb
    obtain ⟨hg, ht⟩ := bystands_goal hb
    unfold pPath
    rw [hid, Res.bind_ok]
    split
    · exact ⟨_, _, rfl, nofun, fun _ h => h⟩
    · rw [hg, Res.bind_ok, ht]
      refine ⟨_, _, rfl, nofun, fun s' hs m i hm hbm hi => ?_⟩
      rw [← hs m i hm hbm hi, List.mem_cons]
      refine or_iff_right (fun he => ?_)
      subst he
      rw [hids m n i hm hP hi hid, hb] at hbm
      cases hbm

/-- The search with other users left out of every expansion gives the same, with them left out. -/
theorem pPath_alike {build : RelationNode → Res GoalTree}
    (hids : ∀ m n id, P m → P n → m.nodeId H = .ok id → n.nodeId H = .ok id → m = n)
    (hb : ∀ n t, P n → n.isTerminal = false → build n = .ok t → Fits u t ∧ ∀ m ∈ t.tops, Ok H P m) (fuel : Nat) :
    Alike H P u (pPath H build (userGoal u) fuel) (pPath H (fun n => build n >>= fun t => .ok (leaveOut u t)) (userGoal u) fuel) := by
  induction fuel with
  | zero => exact fun _ _ _ _ _ _ _ => .inl rfl
  | succ k ih =>
    intro n r seen seen' hn hP hv
    unfold pPath
    cases hid : n.nodeId H with
    | ok id =>
      simp only [Res.bind_ok]
      have hP' := hP id hid
      by_cases hm : id ∈ seen
      · rw [if_pos hm, if_pos ((hv n id hP' hn hid).1 hm)]
        exact .ok ⟨hn, rfl, hv⟩
      · rw [if_neg hm, if_neg (mt (hv n id hP' hn hid).2 hm)]
        have hv' : VisitsAlike H P u (id :: seen) (id :: seen') := fun m i hm hbm hi => by
          rw [List.mem_cons, List.mem_cons, hv m i hm hbm hi]
        cases hg : goalFound n (userGoal u) with
        | ok b =>
          simp only [Res.bind_ok]
          split
          · exact .ok ⟨hn, rfl, hv'⟩
          · next hterm =>
            cases hbn : build n with
            | ok t =>
              obtain ⟨f1, f2⟩ := hb n t hP' (by simp at hterm; exact hterm.2) hbn
              simp only [Res.bind_ok]
              refine (pTree_alike (pPath_passesBy hids k) ih t _ _ f1 f2 hv').bind ?_
              rintro ⟨a, c⟩ ⟨a', c'⟩ ⟨_, e1, e3⟩
              dsimp only at e1
              subst e1
              exact .ok ⟨rfl, by rw [leaveOut, leaveOut_result], e3⟩
            | err e => exact .inr (.inr (.inl ⟨e, rfl, rfl⟩))
            | panic => exact .inr (.inr (.inr ⟨rfl, rfl⟩))
            | fuel => exact .inl rfl
        | err e => exact .inr (.inr (.inl ⟨e, rfl, rfl⟩))
        | panic => exact .inr (.inr (.inr ⟨rfl, rfl⟩))
        | fuel => exact .inl rfl
    | err e => exact .inr (.inr (.inl ⟨e, rfl, rfl⟩))
    | panic => exact .inr (.inr (.inr ⟨rfl, rfl⟩))
    | fuel => exact .inl rfl

/-! ### Expansions without other users -/

theorem leaveOutOr_leaves (ns : List RelationNode) (reason : String) :
    leaveOutOr u (ns.map (fun n => .leaf .unknown n reason)) =
      (ns.filter (fun n => !bystands u n)).map (fun n => .leaf .unknown n reason) := by
  induction ns with
  | nil => simp [leaveOutOr]
  | cons n ns ih =>
    rw [List.map_cons, leaveOutOr, ih]
    cases hb : bystands u n <;> simp [standsBy, hb, leaveOut]

theorem fitsOr_leaves (ns : List RelationNode) (reason : String) : FitsOr u (ns.map (fun n => .leaf .unknown n reason)) := by
  induction ns with
  | nil => simp [FitsOr]
  | cons n ns ih =>
    rw [List.map_cons, FitsOr]
    refine ⟨?_, ih⟩
    cases hb : bystands u n
    · exact .inr (by simpa [Fits] using hb)
    · exact .inl (by simpa [standsBy] using hb)

theorem pBuild_fits {s : Store} {pid : String} {y : USet} : ∀ {e : ExprTree} {t : GoalTree}, pBuild H s pid y e = .ok t →
    Fits u t ∧ standsBy u t = false := by
  intro e
  induction e with
  | nil => intro t h; cases h
  | unset => intro t h; cases h
  | rule r =>
    intro t h
    unfold pBuild at h
    obtain ⟨ns, _, h⟩ := Res.bind_eq_ok.1 h
    cases h
    exact ⟨by rw [Fits]; exact fitsOr_leaves _ _, rfl⟩
  | op l o r ihl ihr =>
    intro t h
    unfold pBuild at h
    obtain ⟨a, ha, h⟩ := Res.bind_eq_ok.1 h
    obtain ⟨b, hb, h⟩ := Res.bind_eq_ok.1 h
    have h1 := ihl ha
    have h2 := ihr hb
    cases o with
    | union => cases h; exact ⟨by simp [Fits, FitsOr, h1.1, h2.1], rfl⟩
    | intersection => cases h; exact ⟨by simp [Fits, FitsAnd, h1.1, h2.1], rfl⟩
    | difference => cases h; exact ⟨by simp [Fits, h1.1, h2.1], rfl⟩
    | unknown => cases h

mutual
theorem leaveOut_tops (t : GoalTree) : ∀ n ∈ (leaveOut u t).tops, n ∈ t.tops := by
  match t with
  | .or _ ps => simpa [leaveOut, GoalTree.tops] using leaveOutOr_tops ps
  | .and _ ps => simpa [leaveOut, GoalTree.tops] using leaveOutAnd_tops ps
  | .diff _ l r =>
    intro n hn
    simp only [leaveOut, GoalTree.tops, List.mem_append] at hn ⊢
    exact hn.imp (leaveOut_tops l n) (leaveOut_tops r n)
  | .leaf _ n r => simp [leaveOut, GoalTree.tops]
  | .path _ n r _ => simp [leaveOut, GoalTree.tops]
theorem leaveOutOr_tops (ts : List GoalTree) : ∀ n ∈ topsList (leaveOutOr u ts), n ∈ topsList ts := by
  match ts with
  | [] => simp [leaveOutOr, topsList]
  | t :: ts =>
    intro n hn
    rw [leaveOutOr] at hn
    rw [topsList, List.mem_append]
    split at hn
    · exact .inr (leaveOutOr_tops ts n hn)
    · rw [topsList, List.mem_append] at hn
      exact hn.imp (leaveOut_tops t n) (leaveOutOr_tops ts n)
theorem leaveOutAnd_tops (ts : List GoalTree) : ∀ n ∈ topsList (leaveOutAnd u ts), n ∈ topsList ts := by
  match ts with
  | [] => simp [leaveOutAnd, topsList]
  | t :: ts =>
    intro n hn
    rw [leaveOutAnd, topsList, List.mem_append] at hn
    rw [topsList, List.mem_append]
    exact hn.imp (leaveOut_tops t n) (leaveOutAnd_tops ts n)
end

/-- Expansions that differ in other users only are the same without them. -/
theorem pBuild_leaveOut {s s' : Store} {pid : String} {y : USet} {e : ExprTree}
    (h : (succs H s pid y).filter (fun n => !bystands u n) = (succs H s' pid y).filter (fun n => !bystands u n))
    (h' : ∀ a b, .ttu a b ∈ leaves e → succs H s pid ⟨y.object, a⟩ = succs H s' pid ⟨y.object, a⟩) :
    (pBuild H s pid y e >>= fun t => .ok (leaveOut u t)) = (pBuild H s' pid y e >>= fun t => (.ok (leaveOut u t) : Res GoalTree)) := by
  induction e with
  | nil => rfl
  | unset => rfl
  | rule r =>
    cases r with
    | this =>
      unfold pBuild
      simp only [ruleNodes, Res.bind_ok]
      show Res.ok _ = Res.ok _
      rw [leaveOut, leaveOut, leaveOutOr_leaves, leaveOutOr_leaves, h]
    | ttu a b => unfold pBuild; simp only [ruleNodes, h' a b (by simp [leaves])]
    | cu _ => rfl
    | unset => rfl
  | op l o r ihl ihr =>
    have il := ihl (fun a b h => h' a b (List.mem_append_left _ h))
    have ir := ihr (fun a b h => h' a b (List.mem_append_right _ h))
    clear ihl ihr h h'
    unfold pBuild
    have key : ∀ {x x' : Res GoalTree}, (x >>= fun t => Res.ok (leaveOut u t)) = (x' >>= fun t => Res.ok (leaveOut u t)) →
        (∃ a a', x = .ok a ∧ x' = .ok a' ∧ leaveOut u a = leaveOut u a') ∨ (x = x' ∧ ∀ a, x ≠ .ok a) := by
      intro x x' hx
      cases x <;> cases x' <;> first | (left; exact ⟨_, _, rfl, rfl, Res.ok.inj hx⟩) | (right; exact ⟨by cases hx; rfl, nofun⟩) | cases hx
    rcases key il with ⟨a, a', ha, ha', hl⟩ | ⟨hx, hno⟩
    · rcases key ir with ⟨b, b', hb, hb', hr⟩ | ⟨hx, hno⟩
      · rw [ha, ha', hb, hb']
        simp only [Res.bind_ok]
        cases o with
        | union =>
          show Res.ok _ = Res.ok _
          have ea := (pBuild_fits (u := u) ha).2
          have ea' := (pBuild_fits (u := u) ha').2
          have eb := (pBuild_fits (u := u) hb).2
          have eb' := (pBuild_fits (u := u) hb').2
          simp [leaveOut, leaveOutOr, ea, ea', eb, eb', hl, hr]
        | intersection => show Res.ok _ = Res.ok _; simp [leaveOut, leaveOutAnd, hl, hr]
        | difference => show Res.ok _ = Res.ok _; simp [leaveOut, hl, hr]
        | unknown => rfl
      · rw [ha, ha', ← hx]
        cases hr : pBuild H s pid y r with
        | ok b => exact absurd hr (hno b)
        | _ => rfl
    · rw [← hx]
      cases hl : pBuild H s pid y l with
      | ok b => exact absurd hl (hno b)
      | _ => rfl

end Zanzi
