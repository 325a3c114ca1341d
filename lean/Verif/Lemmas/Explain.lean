import Verif.Lemmas.CheckSem
import Verif.Spec.Explain

/-
Shape and justification of the trees a search returns.
-/

namespace Zanzi

open Spec

/-! ### Untouched parts -/

mutual
theorem GoalTree.Fresh.untouched {t : GoalTree} (h : t.Fresh) : Untouched t := by
  match t with
  | .or r ps => rw [GoalTree.Fresh] at h; rw [Untouched]; exact ⟨h.1, h.2.untouched⟩
  | .and r ps => rw [GoalTree.Fresh] at h; rw [Untouched]; exact ⟨h.1, h.2.untouched⟩
  | .diff r a b => rw [GoalTree.Fresh] at h; rw [Untouched]; exact ⟨h.1, h.2.1.untouched, h.2.2.untouched⟩
  | .leaf r n e => rw [GoalTree.Fresh] at h; rw [Untouched]; exact h
  | .path r n e c => rw [GoalTree.Fresh] at h; exact h.elim
theorem FreshList.untouched {ts : List GoalTree} (h : FreshList ts) : UntouchedList ts := by
  match ts with
  | [] => trivial
  | t :: ts => exact ⟨h.1.untouched, FreshList.untouched h.2⟩
end

theorem mem_mentionsList {ts : List GoalTree} {n : RelationNode} : n ∈ mentionsList ts ↔ ∃ t ∈ ts, n ∈ mentions t := by
  induction ts with
  | nil => simp [mentionsList]
  | cons t ts ih => simp [mentionsList, ih]

mutual
theorem _root_.Zanzi.Spec.Justified.mono {T : RelationNode → Prop} {X X' : USet → GoalTree → Prop} {C C' : RelationNode → Prop} {t : GoalTree}
    (hX : ∀ y t, X y t → X' y t) (hC : ∀ n ∈ mentions t, C n → C' n) (h : Justified T X C t) : Justified T X' C' t := by
  match t with
  | .or r ps =>
    rw [Justified] at h ⊢
    rw [mentions] at hC
    exact ⟨Justified.monoOr hX hC h.1, h.2⟩
  | .and r ps =>
    rw [Justified] at h ⊢
    rw [mentions] at hC
    exact ⟨Justified.monoAnd hX hC h.1, h.2⟩
  | .diff r a b =>
    rw [Justified] at h ⊢
    rw [mentions] at hC
    exact ⟨h.1.mono hX (fun n hn => hC n (List.mem_append_left _ hn)), h.2.1.mono hX (fun n hn => hC n (List.mem_append_right _ hn)), h.2.2⟩
  | .leaf r n e =>
    rw [Justified] at h ⊢
    rcases h with h | h
    · exact .inl ⟨h.1, hC n (by simp [mentions]) h.2⟩
    · exact .inr h
  | .path r n e c =>
    rw [Justified] at h ⊢
    rw [mentions] at hC
    obtain ⟨h1, h2, ⟨y, h3, h4⟩, h5⟩ := h
    exact ⟨h1, h2, ⟨y, h3, hX _ _ h4⟩, h5.mono hX (fun n hn => hC n (List.mem_cons_of_mem _ hn))⟩
theorem _root_.Zanzi.Spec.Justified.monoOr {T : RelationNode → Prop} {X X' : USet → GoalTree → Prop} {C C' : RelationNode → Prop} {ts : List GoalTree}
    (hX : ∀ y t, X y t → X' y t) (hC : ∀ n ∈ mentionsList ts, C n → C' n) (h : JustifiedOr T X C ts) : JustifiedOr T X' C' ts := by
  match ts with
  | [] => trivial
  | t :: ts =>
    rw [JustifiedOr] at h ⊢
    rw [mentionsList] at hC
    exact ⟨h.1.mono hX (fun n hn => hC n (List.mem_append_left _ hn)),
      h.2.imp id (fun h => ⟨h.1, Justified.monoOr hX (fun n hn => hC n (List.mem_append_right _ hn)) h.2⟩)⟩
theorem _root_.Zanzi.Spec.Justified.monoAnd {T : RelationNode → Prop} {X X' : USet → GoalTree → Prop} {C C' : RelationNode → Prop} {ts : List GoalTree}
    (hX : ∀ y t, X y t → X' y t) (hC : ∀ n ∈ mentionsList ts, C n → C' n) (h : JustifiedAnd T X C ts) : JustifiedAnd T X' C' ts := by
  match ts with
  | [] => trivial
  | t :: ts =>
    rw [JustifiedAnd] at h ⊢
    rw [mentionsList] at hC
    exact ⟨h.1.mono hX (fun n hn => hC n (List.mem_append_left _ hn)),
      h.2.imp id (fun h => ⟨h.1, Justified.monoAnd hX (fun n hn => hC n (List.mem_append_right _ hn)) h.2⟩)⟩
end

mutual
theorem settled_mentions {t : GoalTree} {n : RelationNode} (h : n ∈ settled t) : n ∈ mentions t := by
  match t with
  | .or r ps => rw [settled] at h; rw [mentions]; exact settledList_mentions h
  | .and r ps => rw [settled] at h; rw [mentions]; exact settledList_mentions h
  | .diff r a b =>
    rw [settled, List.mem_append] at h
    rw [mentions, List.mem_append]
    exact h.imp settled_mentions settled_mentions
  | .leaf r m e => cases r <;> simpa [settled, mentions] using h
  | .path r m e c =>
    rw [settled, List.mem_cons] at h
    rw [mentions, List.mem_cons]
    exact h.imp id settled_mentions
theorem settledList_mentions {ts : List GoalTree} {n : RelationNode} (h : n ∈ settledList ts) : n ∈ mentionsList ts := by
  match ts with
  | [] => exact h
  | t :: ts =>
    rw [settledList, List.mem_append] at h
    rw [mentionsList, List.mem_append]
    exact h.imp settled_mentions settledList_mentions
end

mutual
theorem _root_.Zanzi.GoalTree.Fresh.settled {t : GoalTree} (h : t.Fresh) : settled t = [] := by
  match t with
  | .or r ps => rw [GoalTree.Fresh] at h; rw [Spec.settled]; exact h.2.settled
  | .and r ps => rw [GoalTree.Fresh] at h; rw [Spec.settled]; exact h.2.settled
  | .diff r a b => rw [GoalTree.Fresh] at h; rw [Spec.settled, h.2.1.settled, h.2.2.settled]; rfl
  | .leaf r n e => rw [GoalTree.Fresh] at h; subst h; rfl
  | .path r n e c => rw [GoalTree.Fresh] at h; exact h.elim
theorem _root_.Zanzi.FreshList.settled {ts : List GoalTree} (h : FreshList ts) : settledList ts = [] := by
  match ts with
  | [] => rfl
  | t :: ts => rw [settledList, h.1.settled, FreshList.settled h.2]; rfl
end

/-! ### Outlines -/

mutual
/-- The tree without results and expansions. -/
def outline : GoalTree → GoalTree
  | .or _ ps => .or .unknown (outlineList ps)
  | .and _ ps => .and .unknown (outlineList ps)
  | .diff _ a b => .diff .unknown (outline a) (outline b)
  | .leaf _ n reason => .leaf .unknown n reason
  | .path _ n reason _ => .leaf .unknown n reason
def outlineList : List GoalTree → List GoalTree
  | [] => []
  | t :: ts => outline t :: outlineList ts
end

def OutlineAt : Task → Out → Prop
  | .tree t, .tree t' => outline t' = outline t
  | .or ts, .list ts' _ => outlineList ts' = outlineList ts
  | .and ts, .list ts' _ => outlineList ts' = outlineList ts
  | .path n reason, .tree t' => outline t' = .leaf .unknown n reason
  | _, _ => True

theorem Ev.outline {H build goal k s o s'} (h : Ev H build goal k s o s') : OutlineAt k o := by
  induction h with
  | or _ ih => simp only [OutlineAt, Zanzi.outline] at *; rw [ih]
  | and _ ih => simp only [OutlineAt, Zanzi.outline] at *; rw [ih]
  | diff _ _ ih1 ih2 => simp only [OutlineAt, Zanzi.outline] at *; rw [ih1, ih2]
  | leaf _ ih => simp only [OutlineAt, Zanzi.outline] at *; exact ih
  | inner _ ih => simp only [OutlineAt, Zanzi.outline] at *; exact ih
  | orNil => rfl
  | orStop _ _ ih => simp only [OutlineAt, outlineList] at *; rw [ih]
  | orGo _ _ _ ih1 ih2 => simp only [OutlineAt, outlineList] at *; rw [ih1, ih2]
  | andNil => rfl
  | andStop _ _ ih => simp only [OutlineAt, outlineList] at *; rw [ih]
  | andGo _ _ _ ih1 ih2 => simp only [OutlineAt, outlineList] at *; rw [ih1, ih2]
  | repeated => rfl
  | ended => rfl
  | expanded => rfl

theorem topNode_outline (t : GoalTree) : topNode (outline t) = topNode t := by
  cases t <;> rfl

theorem topReason_outline (t : GoalTree) : topReason (outline t) = topReason t := by
  cases t <;> rfl

theorem outlineList_eq_map (ts : List GoalTree) : outlineList ts = ts.map outline := by
  induction ts with
  | nil => rfl
  | cons t ts ih => rw [outlineList, ih]; rfl

theorem prescribed_outline {R : Relationship → Prop} {y : USet} : ∀ {e : ExprTree} {t : GoalTree},
    Prescribed R y e (outline t) ↔ Prescribed R y e t := by
  intro e
  induction e with
  | nil => intro t; cases t <;> simp [outline, Prescribed]
  | unset => intro t; cases t <;> simp [outline, Prescribed]
  | rule r =>
    intro t
    cases t with
    | or r' ps =>
      rw [outline, Prescribed, Prescribed, outlineList_eq_map]
      simp only [List.mem_map, forall_exists_index, and_imp, forall_apply_eq_imp_iff₂, topNode_outline, topReason_outline]
      have : ∀ n, (∃ p, (∃ a, a ∈ ps ∧ outline a = p) ∧ topNode p = some n) ↔ ∃ p, p ∈ ps ∧ topNode p = some n := by
        intro n
        constructor
        · rintro ⟨_, ⟨a, ha, rfl⟩, h⟩
          exact ⟨a, ha, by rwa [topNode_outline] at h⟩
        · rintro ⟨a, ha, h⟩
          exact ⟨_, ⟨a, ha, rfl⟩, by rwa [topNode_outline]⟩
      simp only [this]
    | _ => simp [outline, Prescribed]
  | op l o r ihl ihr =>
    intro t
    cases t with
    | or r' ps =>
      rw [outline, outlineList_eq_map]
      rcases ps with _ | ⟨a, _ | ⟨b, _ | ⟨c, ps⟩⟩⟩ <;> cases o <;> simp [Prescribed, ihl, ihr]
    | and r' ps =>
      rw [outline, outlineList_eq_map]
      rcases ps with _ | ⟨a, _ | ⟨b, _ | ⟨c, ps⟩⟩⟩ <;> cases o <;> simp [Prescribed, ihl, ihr]
    | diff r' a b => rw [outline]; cases o <;> simp [Prescribed, ihl, ihr]
    | leaf => cases o <;> simp [outline, Prescribed]
    | path => cases o <;> simp [outline, Prescribed]

section
variable {H : String → Nat} {build : RelationNode → GoalTree → Prop} {goal : Option RelationNode}

def JustAt (T : RelationNode → Prop) (X : USet → GoalTree → Prop) (C P : RelationNode → Prop) : Task → Out → Prop
  | .tree t, .tree t' => t.Fresh → t.Formed → (∀ m ∈ mentions t, P m) → Justified T X C t'
  | .or ts, .list ts' b => FreshList ts → FormedList ts → (∀ m ∈ mentionsList ts, P m) →
      JustifiedOr T X C ts' ∧ (b = true ↔ ∃ p ∈ ts', p.result = .success)
  | .and ts, .list ts' b => FreshList ts → FormedList ts → (∀ t ∈ ts, t.isOp = true) → (∀ m ∈ mentionsList ts, P m) →
      JustifiedAnd T X C ts' ∧ (b = true ↔ ∀ p ∈ ts', p.result = .success)
  | .path n _, .tree t' => P n → Justified T X C t'
  | _, _ => True

theorem Ev.justified {T : RelationNode → Prop} {X : USet → GoalTree → Prop} {P : RelationNode → Prop}
    (hb : ∀ n t, P n → n.isTerminal = false → build n t →
      (∀ m ∈ mentions t, P m) ∧ t.Fresh ∧ t.Formed ∧ ∃ y : USet, n = y.node ∧ ∀ t', Zanzi.outline t' = Zanzi.outline t → X y t')
    (hg : ∀ n b, P n → goalFound n goal = .ok b → (b = true ↔ T n))
    {k s o s'} (h : Ev H build goal k s o s') : ∀ F : List Nat, s' ⊆ F → JustAt T X (fun n => ∃ id, n.nodeId H = .ok id ∧ id ∈ F) P k o := by
  induction h with
  | or _ ih =>
    intro F hF hfr hfm hP
    rw [GoalTree.Fresh] at hfr
    rw [mentions] at hP
    obtain ⟨h1, h2⟩ := ih F hF hfr.2 hfm hP
    rw [Justified]
    exact ⟨h1, verdict_known _, by rw [verdict_success, h2]⟩
  | and _ ih =>
    intro F hF hfr hfm hP
    rw [GoalTree.Fresh] at hfr
    rw [mentions] at hP
    obtain ⟨h1, h2⟩ := ih F hF hfr.2 hfm.1 hfm.2.1 hP
    rw [Justified]
    exact ⟨h1, verdict_known _, by rw [verdict_success, h2]⟩
  | diff h1 h2 ih1 ih2 =>
    intro F hF hfr hfm hP
    rw [GoalTree.Fresh] at hfr
    rw [mentions] at hP
    have := h2.seen_mono
    rw [Justified]
    refine ⟨ih1 F (fun _ h => hF (this h)) hfr.2.1 hfm.1 (fun m hm => hP m (List.mem_append_left _ hm)),
      ih2 F hF hfr.2.2 hfm.2.1 (fun m hm => hP m (List.mem_append_right _ hm)), verdict_known _, ?_⟩
    have hk := h2.op_known hfm.2.2.2
    simp only [verdict_success, Bool.and_eq_true, decide_eq_true_eq]
    refine and_congr_right (fun _ => ⟨fun h => by rw [h]; nofun, fun h => result_failure_of hk h⟩)
  | leaf _ ih =>
    intro F hF _ _ hP
    exact ih F hF (hP _ (by simp [mentions]))
  | inner _ ih =>
    intro F hF hfr
    rw [GoalTree.Fresh] at hfr
    exact hfr.elim
  | orNil => intro F hF _ _ _; exact ⟨trivial, by simp⟩
  | orStop h1 hr ih =>
    intro F hF hfr hfm hP
    refine ⟨?_, by simp [hr]⟩
    rw [JustifiedOr]
    exact ⟨ih F hF hfr.1 hfm.1 (fun m hm => hP m (by simp [mentionsList, hm])), .inl ⟨hr, hfr.2.untouched⟩⟩
  | orGo h1 hr h2 ih1 ih2 =>
    intro F hF hfr hfm hP
    have hm := h2.seen_mono
    obtain ⟨h3, h4⟩ := ih2 F hF hfr.2 hfm.2 (fun m hm => hP m (by simp [mentionsList, hm]))
    refine ⟨?_, by simp [hr, h4]⟩
    rw [JustifiedOr]
    exact ⟨ih1 F (fun _ h => hF (hm h)) hfr.1 hfm.1 (fun m hm => hP m (by simp [mentionsList, hm])), .inr ⟨hr, h3⟩⟩
  | andNil => intro F hF _ _ _ _; exact ⟨trivial, by simp⟩
  | andStop h1 hr ih =>
    intro F hF hfr hfm hop hP
    refine ⟨?_, by simp [hr]⟩
    rw [JustifiedAnd]
    exact ⟨ih F hF hfr.1 hfm.1 (fun m hm => hP m (by simp [mentionsList, hm])), .inl ⟨by rw [hr]; nofun, hfr.2.untouched⟩⟩
  | andGo h1 hr h2 ih1 ih2 =>
    intro F hF hfr hfm hop hP
    have hm := h2.seen_mono
    obtain ⟨h3, h4⟩ := ih2 F hF hfr.2 hfm.2 (fun t ht => hop t (List.mem_cons_of_mem _ ht)) (fun m hm => hP m (by simp [mentionsList, hm]))
    have hsu := result_success_of (h1.op_known (hop _ List.mem_cons_self)) hr
    refine ⟨?_, by simp [hsu, h4]⟩
    rw [JustifiedAnd]
    exact ⟨ih1 F (fun _ h => hF (hm h)) hfr.1 hfm.1 (fun m hm => hP m (by simp [mentionsList, hm])), .inr ⟨hsu, h3⟩⟩
  | repeated hid hin =>
    intro F hF _
    rw [Justified]
    exact .inl ⟨rfl, _, hid, hF hin⟩
  | @ended n reason id b s hid hout hgf hterm =>
    intro F hF hP
    rw [Justified]
    have := hg n b hP hgf
    cases b with
    | true => exact .inr (.inl ⟨rfl, this.1 rfl⟩)
    | false =>
      refine .inr (.inr ⟨rfl, fun h => by simpa using this.2 h, ?_⟩)
      rintro y rfl
      simp [USet.node, RelationNode.isTerminal] at hterm
  | @expanded n reason id b t t' s s' hid hout hgf hterm hbu hev ih =>
    intro F hF hP
    simp only [Bool.or_eq_false_iff] at hterm
    obtain ⟨rfl, hterm⟩ := hterm
    obtain ⟨h1, h2, h3, y, h4, h5⟩ := hb n t hP hterm hbu
    rw [Justified]
    refine ⟨rfl, fun h => by simpa using (hg n false hP hgf).2 h, ⟨y, h4, h5 _ ?_⟩, ih F hF h2 h3 h1⟩
    exact hev.outline

/-- Settled nodes of an outcome. -/
def Out.settled : Out → List RelationNode
  | .tree t => Spec.settled t
  | .list ts _ => Spec.settledList ts

/-- Every node marked as seen is settled in the tree. -/
theorem Ev.seen_settled {k s o s'} (h : Ev H build goal k s o s') : ∀ id ∈ s', id ∈ s ∨ ∃ m ∈ o.settled, m.nodeId H = .ok id := by
  induction h with
  | or _ ih => simpa [Out.settled, settled] using ih
  | and _ ih => simpa [Out.settled, settled] using ih
  | diff _ _ ih1 ih2 =>
    intro id hid
    simp only [Out.settled, settled, List.mem_append]
    rcases ih2 id hid with h | ⟨m, hm, h⟩
    · rcases ih1 id h with h | ⟨m, hm, h⟩
      · exact .inl h
      · exact .inr ⟨m, .inl hm, h⟩
    · exact .inr ⟨m, .inr hm, h⟩
  | leaf _ ih => exact ih
  | inner _ ih => exact ih
  | orNil => intro id h; exact .inl h
  | orStop _ _ ih =>
    intro id hid
    rcases ih id hid with h | ⟨m, hm, h⟩
    · exact .inl h
    · exact .inr ⟨m, by simp only [Out.settled, settledList, List.mem_append]; exact .inl hm, h⟩
  | orGo _ _ _ ih1 ih2 =>
    intro id hid
    simp only [Out.settled, settledList, List.mem_append]
    rcases ih2 id hid with h | ⟨m, hm, h⟩
    · rcases ih1 id h with h | ⟨m, hm, h⟩
      · exact .inl h
      · exact .inr ⟨m, .inl hm, h⟩
    · exact .inr ⟨m, .inr hm, h⟩
  | andNil => intro id h; exact .inl h
  | andStop _ _ ih =>
    intro id hid
    rcases ih id hid with h | ⟨m, hm, h⟩
    · exact .inl h
    · exact .inr ⟨m, by simp only [Out.settled, settledList, List.mem_append]; exact .inl hm, h⟩
  | andGo _ _ _ ih1 ih2 =>
    intro id hid
    simp only [Out.settled, settledList, List.mem_append]
    rcases ih2 id hid with h | ⟨m, hm, h⟩
    · rcases ih1 id h with h | ⟨m, hm, h⟩
      · exact .inl h
      · exact .inr ⟨m, .inl hm, h⟩
    · exact .inr ⟨m, .inr hm, h⟩
  | repeated => intro id h; exact .inl h
  | @ended n reason id b s hid _ _ _ =>
    intro id' h
    rcases List.mem_cons.1 h with rfl | h
    · exact .inr ⟨n, by cases b <;> simp [Out.settled, settled, verdict], hid⟩
    · exact .inl h
  | @expanded n reason id b t t' s s' hid _ _ _ _ _ ih =>
    intro id' h
    rcases ih id' h with h | ⟨m, hm, h⟩
    · rcases List.mem_cons.1 h with rfl | h
      · exact .inr ⟨n, by simp [Out.settled, settled], hid⟩
      · exact .inl h
    · exact .inr ⟨m, by simp only [Out.settled, settled, List.mem_cons]; exact .inr hm, h⟩

/-- Nodes of a task satisfy `P` if they can be visited. -/
def TaskOk (H : String → Nat) (P : RelationNode → Prop) : Task → Prop
  | .tree t => ∀ m ∈ t.tops, Ok H P m
  | .or ts => ∀ m ∈ topsList ts, Ok H P m
  | .and ts => ∀ m ∈ topsList ts, Ok H P m
  | .path n _ => Ok H P n

/-- A search only looks at trees of nodes satisfying a closed property. -/
theorem Ev.congr {build' : RelationNode → GoalTree → Prop} {P : RelationNode → Prop}
    (hb : ∀ n t, P n → n.isTerminal = false → build n t → build' n t ∧ ∀ m ∈ t.tops, Ok H P m)
    {k s o s'} (h : Ev H build goal k s o s') : TaskOk H P k → Ev H build' goal k s o s' := by
  induction h with
  | or _ ih => intro hk; exact .or (ih (by simpa [TaskOk, GoalTree.tops] using hk))
  | and _ ih => intro hk; exact .and (ih (by simpa [TaskOk, GoalTree.tops] using hk))
  | diff _ _ ih1 ih2 =>
    intro hk
    exact .diff (ih1 (fun m hm => hk m (by simp [GoalTree.tops, hm]))) (ih2 (fun m hm => hk m (by simp [GoalTree.tops, hm])))
  | leaf _ ih => intro hk; exact .leaf (ih (hk _ (by simp [GoalTree.tops])))
  | inner _ ih => intro hk; exact .inner (ih (hk _ (by simp [GoalTree.tops])))
  | orNil => intro _; exact .orNil
  | orStop _ hr ih => intro hk; exact .orStop (ih (fun m hm => hk m (by simp [topsList, hm]))) hr
  | orGo _ hr _ ih1 ih2 =>
    intro hk
    exact .orGo (ih1 (fun m hm => hk m (by simp [topsList, hm]))) hr (ih2 (fun m hm => hk m (by simp [topsList, hm])))
  | andNil => intro _; exact .andNil
  | andStop _ hr ih => intro hk; exact .andStop (ih (fun m hm => hk m (by simp [topsList, hm]))) hr
  | andGo _ hr _ ih1 ih2 =>
    intro hk
    exact .andGo (ih1 (fun m hm => hk m (by simp [topsList, hm]))) hr (ih2 (fun m hm => hk m (by simp [topsList, hm])))
  | repeated h1 h2 => intro _; exact .repeated h1 h2
  | ended h1 h2 h3 h4 => intro _; exact .ended h1 h2 h3 h4
  | expanded h1 h2 h3 h4 h5 _ ih =>
    intro hk
    simp only [Bool.or_eq_false_iff] at h4
    obtain ⟨h6, h7⟩ := hb _ _ (hk _ h1) h4.2 h5
    exact .expanded h1 h2 h3 (by simp [h4]) h6 (ih h7)

/-- Settled nodes satisfy a closed property. -/
theorem Ev.settled_ok {P : RelationNode → Prop}
    (hb : ∀ n t, P n → n.isTerminal = false → build n t → Spec.settled t = [] ∧ ∀ m ∈ t.tops, Ok H P m)
    {k s o s'} (h : Ev H build goal k s o s') : TaskOk H P k →
    (match k with
      | .tree t => Spec.settled t = []
      | .or ts | .and ts => Spec.settledList ts = []
      | .path _ _ => True) → ∀ m ∈ o.settled, P m := by
  induction h with
  | or _ ih => intro hk hs; simp only [Spec.settled] at hs; simpa [Out.settled, Spec.settled] using ih (by simpa [TaskOk, GoalTree.tops] using hk) hs
  | and _ ih => intro hk hs; simp only [Spec.settled] at hs; simpa [Out.settled, Spec.settled] using ih (by simpa [TaskOk, GoalTree.tops] using hk) hs
  | diff _ h2 ih1 ih2 =>
    intro hk hs
    simp only [Spec.settled, List.append_eq_nil_iff] at hs
    intro m hm
    simp only [Out.settled, Spec.settled, List.mem_append] at hm
    rcases hm with hm | hm
    · exact ih1 (fun m hm => hk m (by simp [GoalTree.tops, hm])) hs.1 m hm
    · exact ih2 (fun m hm => hk m (by simp [GoalTree.tops, hm])) hs.2 m hm
  | leaf _ ih => intro hk _; exact ih (hk _ (by simp [GoalTree.tops])) trivial
  | inner _ ih => intro hk _; exact ih (hk _ (by simp [GoalTree.tops])) trivial
  | orNil => intro _ _; nofun
  | orStop _ _ ih =>
    intro hk hs
    simp only [settledList, List.append_eq_nil_iff] at hs
    intro m hm
    simp only [Out.settled, settledList, List.mem_append, hs.2, List.not_mem_nil, or_false] at hm
    exact ih (fun m hm => hk m (by simp [topsList, hm])) hs.1 m hm
  | orGo _ _ h2 ih1 ih2 =>
    intro hk hs
    simp only [settledList, List.append_eq_nil_iff] at hs
    intro m hm
    simp only [Out.settled, settledList, List.mem_append] at hm
    rcases hm with hm | hm
    · exact ih1 (fun m hm => hk m (by simp [topsList, hm])) hs.1 m hm
    · exact ih2 (fun m hm => hk m (by simp [topsList, hm])) hs.2 m hm
  | andNil => intro _ _; nofun
  | andStop _ _ ih =>
    intro hk hs
    simp only [settledList, List.append_eq_nil_iff] at hs
    intro m hm
    simp only [Out.settled, settledList, List.mem_append, hs.2, List.not_mem_nil, or_false] at hm
    exact ih (fun m hm => hk m (by simp [topsList, hm])) hs.1 m hm
  | andGo _ _ h2 ih1 ih2 =>
    intro hk hs
    simp only [settledList, List.append_eq_nil_iff] at hs
    intro m hm
    simp only [Out.settled, settledList, List.mem_append] at hm
    rcases hm with hm | hm
    · exact ih1 (fun m hm => hk m (by simp [topsList, hm])) hs.1 m hm
    · exact ih2 (fun m hm => hk m (by simp [topsList, hm])) hs.2 m hm
  | repeated => intro _ _ m hm; simp [Out.settled, Spec.settled] at hm
  | @ended n reason id b s hid _ _ _ =>
    intro hk _ m hm
    have : m = n := by cases b <;> simpa [Out.settled, Spec.settled, verdict] using hm
    subst this
    exact hk _ hid
  | @expanded n reason id b t t' s s' hid _ _ h4 hbu hev ih =>
    intro hk _ m hm
    simp only [Bool.or_eq_false_iff] at h4
    obtain ⟨h6, h7⟩ := hb _ _ (hk _ hid) h4.2 hbu
    simp only [Out.settled, Spec.settled, List.mem_cons] at hm
    rcases hm with rfl | hm
    · exact hk _ hid
    · exact ih h7 h6 m hm

end

end Zanzi
