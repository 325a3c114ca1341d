import Verif.Lemmas.Involved
import Verif.Spec.Expansion

/-
Expand's tree, read as a set, where intersections and subtractions do not concern a user.
-/

namespace Zanzi

open Spec

section
variable {H : String → Nat} {build : RelationNode → GoalTree → Prop} {P L : RelationNode → Prop} {u : Entity}

theorem goalFound_none (n : RelationNode) {b : Bool} (h : goalFound n none = .ok b) : b = false := by
  cases h; rfl

/-- Without goal nothing succeeds. -/
theorem Ev.aimless (hb : ∀ n t, P n → n.isTerminal = false → build n t → t.Formed ∧ ∀ m ∈ t.tops, Ok H P m) {k s o s'}
    (h : Ev H build none k s o s') : ColdAt H P (fun _ => False) s s' k o :=
  h.cold (fun n _ hf => by have := goalFound_none n hf; cases this) (fun n t h1 h2 h3 => ⟨(hb n t h1 h2 h3).1, (hb n t h1 h2 h3).2, fun _ _ _ h => h⟩)

def ColdSet (H : String → Nat) (P L : RelationNode → Prop) (u : Entity) (s s' : List Nat) : Task → Out → Prop
  | .tree t, .tree t' => t.Formed → (∀ m ∈ t.tops, Ok H P m) → (∀ m ∈ t.tops, ¬ L m) → inSet u t' = false ∧ NewCold H P L s s'
  | .or ts, .list ts' _ => FormedList ts → (∀ m ∈ topsList ts, Ok H P m) → (∀ m ∈ topsList ts, ¬ L m) → inAny u ts' = false ∧ NewCold H P L s s'
  | .and ts, .list ts' _ => FormedList ts → (∀ m ∈ topsList ts, Ok H P m) → (∀ m ∈ topsList ts, ¬ L m) →
      (ts ≠ [] → inAll u ts' = false) ∧ NewCold H P L s s'
  | .path n _, .tree t' => Ok H P n → ¬ L n → inSet u t' = false ∧ NewCold H P L s s'
  | _, _ => True

theorem inSet_settledLeaf {n : RelationNode} {reason : String} : inSet u (.leaf (verdict false) n reason) = true ↔ Names u n := by
  simp [inSet, verdict, Names]

/-- Where the user is not involved the tree stands for a set without them. -/
theorem Ev.coldSet (hg : ∀ n, P n → Names u n → L n)
    (hb : ∀ n t, P n → n.isTerminal = false → build n t → t.Formed ∧ (∀ m ∈ t.tops, Ok H P m) ∧ (¬ L n → ∀ m ∈ t.tops, ¬ L m))
    {k s o s'} (h : Ev H build none k s o s') : ColdSet H P L u s s' k o := by
  induction h with
  | or _ ih =>
    intro hf hq hl
    obtain ⟨a, b⟩ := ih hf hq hl
    exact ⟨by rw [inSet]; exact a, b⟩
  | and _ ih =>
    intro hf hq hl
    obtain ⟨a, b⟩ := ih hf.1 hq hl
    exact ⟨by rw [inSet]; exact a (fun h => by simp [h, GoalTree.Formed] at hf), b⟩
  | diff h1 h2 ih1 ih2 =>
    intro hf hq hl
    obtain ⟨a1, b1⟩ := ih1 hf.1 (fun m hm => hq m (by simp [GoalTree.tops, hm])) (fun m hm => hl m (by simp [GoalTree.tops, hm]))
    obtain ⟨a2, b2⟩ := ih2 hf.2.1 (fun m hm => hq m (by simp [GoalTree.tops, hm])) (fun m hm => hl m (by simp [GoalTree.tops, hm]))
    exact ⟨by simp [inSet, a1], b1.trans b2⟩
  | leaf _ ih => exact fun _ hq hl => ih (hq _ (by simp [GoalTree.tops])) (hl _ (by simp [GoalTree.tops]))
  | inner _ ih => exact fun _ hq hl => ih (hq _ (by simp [GoalTree.tops])) (hl _ (by simp [GoalTree.tops]))
  | orNil => exact fun _ _ _ => ⟨by simp [inAny], .refl _⟩
  | orStop h hr _ =>
    intro hf hq _
    exact absurd hr (h.aimless (fun n t h1 h2 h3 => ⟨(hb n t h1 h2 h3).1, (hb n t h1 h2 h3).2.1⟩) hf.1 (fun m hm => hq m (by simp [topsList, hm])) (fun _ _ h => h)).1
  | orGo _ _ _ ih1 ih2 =>
    intro hf hq hl
    have h1 := ih1 hf.1 (fun m hm => hq m (by simp [topsList, hm])) (fun m hm => hl m (by simp [topsList, hm]))
    have h2 := ih2 hf.2 (fun m hm => hq m (by simp [topsList, hm])) (fun m hm => hl m (by simp [topsList, hm]))
    exact ⟨by simp [inAny, h1.1, h2.1], h1.2.trans h2.2⟩
  | andNil => exact fun _ _ _ => ⟨fun h => absurd rfl h, .refl _⟩
  | andStop _ _ ih =>
    intro hf hq hl
    have h := ih hf.1 (fun m hm => hq m (by simp [topsList, hm])) (fun m hm => hl m (by simp [topsList, hm]))
    exact ⟨fun _ => by simp [inAll, h.1], h.2⟩
  | andGo _ _ _ ih1 ih2 =>
    intro hf hq hl
    have h1 := ih1 hf.1 (fun m hm => hq m (by simp [topsList, hm])) (fun m hm => hl m (by simp [topsList, hm]))
    have h2 := ih2 hf.2 (fun m hm => hq m (by simp [topsList, hm])) (fun m hm => hl m (by simp [topsList, hm]))
    exact ⟨fun _ => by simp [inAll, h1.1], h1.2.trans h2.2⟩
  | repeated => exact fun _ _ => ⟨by simp [inSet], .refl _⟩
  | @ended n reason id b s hid hnot hgf _ =>
    intro hq hl
    obtain rfl := goalFound_none n hgf
    refine ⟨Bool.eq_false_iff.2 (fun h => hl (hg n (hq _ hid) (inSet_settledLeaf.1 h))), fun id' hid' hn => ?_⟩
    rcases List.mem_cons.1 hid' with rfl | h
    · exact ⟨_, hid, hq _ hid, hl⟩
    · exact absurd h hn
  | @expanded n reason id b t t' s s' hid hnot _ hterm hbd h1 ih =>
    intro hq hl
    simp only [Bool.or_eq_false_iff] at hterm
    obtain ⟨p1, p2, p3⟩ := hb _ _ (hq _ hid) hterm.2 hbd
    obtain ⟨a, b⟩ := ih p1 p2 (p3 hl)
    refine ⟨by rw [inSet]; exact a, fun id' hid' hn => ?_⟩
    by_cases he : id' = id
    · subst he
      exact ⟨_, hid, hq _ hid, hl⟩
    · exact b id' hid' (by simp only [List.mem_cons, not_or]; exact ⟨he, hn⟩)

/-- Node `n` was shown, is not the user's, and what it leads to outside of ANDs and subtractions is shown if it involves the user. -/
def ShownClosed (H : String → Nat) (build : RelationNode → GoalTree → Prop) (u : Entity) (L : RelationNode → Prop) (s : List Nat)
    (n : RelationNode) : Prop :=
  ¬ Names u n ∧ (n.isTerminal = false → ∃ t, build n t ∧ ∀ m ∈ t.opens, L m → Visited H s m)

theorem ShownClosed.mono {s s' : List Nat} (h : s ⊆ s') {n : RelationNode} (hn : ShownClosed H build u L s n) : ShownClosed H build u L s' n :=
  ⟨hn.1, fun ht => by
    obtain ⟨t, h1, h2⟩ := hn.2 ht
    exact ⟨t, h1, fun m hm hl => (h2 m hm hl).mono h⟩⟩

def NewShown (H : String → Nat) (build : RelationNode → GoalTree → Prop) (u : Entity) (P L : RelationNode → Prop) (s s' : List Nat) : Prop :=
  ∀ id ∈ s', id ∉ s → ∃ n, n.nodeId H = .ok id ∧ P n ∧ (L n → ShownClosed H build u L s' n)

theorem NewShown.trans {s s' s'' : List Nat} (h : s' ⊆ s'') (h1 : NewShown H build u P L s s') (h2 : NewShown H build u P L s' s'') :
    NewShown H build u P L s s'' := by
  intro id hid hn
  by_cases hm : id ∈ s'
  · obtain ⟨n, a, b, c⟩ := h1 id hm hn
    exact ⟨n, a, b, fun hl => (c hl).mono h⟩
  · exact h2 id hid hm

theorem NewShown.refl (s : List Nat) : NewShown H build u P L s s := fun _ h hn => absurd h hn

theorem NewCold.shown {s s' : List Nat} (h : NewCold H P L s s') : NewShown H build u P L s s' := by
  intro id hid hn
  obtain ⟨n, a, b, c⟩ := h id hid hn
  exact ⟨n, a, b, fun hl => absurd hl c⟩

def WarmSet (H : String → Nat) (build : RelationNode → GoalTree → Prop) (u : Entity) (P L : RelationNode → Prop) (s s' : List Nat) :
    Task → Out → Prop
  | .tree t, .tree t' => t.Formed → (∀ m ∈ t.tops, Ok H P m) → t.Aside L → inSet u t' = false →
      (∀ m ∈ t.opens, L m → Visited H s' m) ∧ NewShown H build u P L s s'
  | .or ts, .list ts' _ => FormedList ts → (∀ m ∈ topsList ts, Ok H P m) → AsideList L ts → inAny u ts' = false →
      (∀ m ∈ opensList ts, L m → Visited H s' m) ∧ NewShown H build u P L s s'
  | .path n _, .tree t' => Ok H P n → inSet u t' = false → Visited H s' n ∧ NewShown H build u P L s s'
  | _, _ => True

/-- If the tree stands for a set without the user, everything that involves them was shown. -/
theorem Ev.warmSet (hg : ∀ n, P n → Names u n → L n)
    (hb : ∀ n t, P n → n.isTerminal = false → build n t → t.Formed ∧ (∀ m ∈ t.tops, Ok H P m) ∧ (¬ L n → ∀ m ∈ t.tops, ¬ L m) ∧ t.Aside L)
    {k s o s'} (h : Ev H build none k s o s') : WarmSet H build u P L s s' k o := by
  have hb' := fun n t h1 h2 h3 => (⟨(hb n t h1 h2 h3).1, (hb n t h1 h2 h3).2.1, (hb n t h1 h2 h3).2.2.1⟩ :
    t.Formed ∧ (∀ m ∈ t.tops, Ok H P m) ∧ (¬ L n → ∀ m ∈ t.tops, ¬ L m))
  induction h with
  | or _ ih =>
    intro hf hq hl hr
    rw [inSet] at hr
    exact ih hf hq hl hr
  | and h _ =>
    intro hf hq hl hr
    exact ⟨by simp [GoalTree.opens], (h.coldSet hg hb' hf.1 hq hl).2.shown⟩
  | diff h1 h2 ih1 _ =>
    intro hf hq hl hr
    rw [GoalTree.Aside] at hl
    obtain ⟨a2, b2⟩ := h2.coldSet hg hb' hf.2.1 (fun m hm => hq m (by simp [GoalTree.tops, hm])) hl.2
    have hm := h2.seen_mono
    simp only [inSet, a2, Bool.not_false, Bool.and_true] at hr
    obtain ⟨a1, b1⟩ := ih1 hf.1 (fun m hm => hq m (by simp [GoalTree.tops, hm])) hl.1 hr
    exact ⟨fun m hmem hlm => (a1 m hmem hlm).mono hm, b1.trans hm b2.shown⟩
  | leaf _ ih =>
    intro _ hq _ hr
    obtain ⟨v, c⟩ := ih (hq _ (by simp [GoalTree.tops])) hr
    exact ⟨by simpa [GoalTree.opens] using fun _ => v, c⟩
  | inner _ ih =>
    intro _ hq _ hr
    obtain ⟨v, c⟩ := ih (hq _ (by simp [GoalTree.tops])) hr
    exact ⟨by simpa [GoalTree.opens] using fun _ => v, c⟩
  | orNil => exact fun _ _ _ _ => ⟨by simp [opensList], .refl _⟩
  | orStop h hr _ =>
    intro hf hq _ _
    exact absurd hr (h.aimless (fun n t h1 h2 h3 => ⟨(hb n t h1 h2 h3).1, (hb n t h1 h2 h3).2.1⟩) hf.1 (fun m hm => hq m (by simp [topsList, hm])) (fun _ _ h => h)).1
  | orGo h1 _ h2 ih1 ih2 =>
    intro hf hq hl hbf
    simp only [inAny, Bool.or_eq_false_iff] at hbf
    obtain ⟨v1, c1⟩ := ih1 hf.1 (fun m hm => hq m (by simp [topsList, hm])) hl.1 hbf.1
    obtain ⟨v2, c2⟩ := ih2 hf.2 (fun m hm => hq m (by simp [topsList, hm])) hl.2 hbf.2
    have hm := h2.seen_mono
    refine ⟨fun m hmem hlm => ?_, c1.trans hm c2⟩
    rw [opensList, List.mem_append] at hmem
    rcases hmem with hmem | hmem
    · exact (v1 m hmem hlm).mono hm
    · exact v2 m hmem hlm
  | andNil => trivial
  | andStop => trivial
  | andGo => trivial
  | repeated hid hin => exact fun _ _ => ⟨⟨_, hin, hid⟩, .refl _⟩
  | @ended n reason id b s hid hnot hgf hterm =>
    intro hq hr
    obtain rfl := goalFound_none n hgf
    refine ⟨⟨_, List.mem_cons_self, hid⟩, fun id' hid' hn => ?_⟩
    rcases List.mem_cons.1 hid' with rfl | h
    · refine ⟨_, hid, hq _ hid, fun _ => ⟨fun hN => ?_, fun ht => ?_⟩⟩
      · rw [inSet_settledLeaf.2 hN] at hr
        cases hr
      · rw [ht] at hterm
        cases hterm
    · exact absurd h hn
  | @expanded n reason id b t t' s s' hid hnot hgf hterm hbd h1 ih =>
    intro hq hr
    simp only [Bool.or_eq_false_iff] at hterm
    obtain ⟨p1, p2, _, p4⟩ := hb _ _ (hq _ hid) hterm.2 hbd
    rw [inSet] at hr
    obtain ⟨v, c⟩ := ih p1 p2 p4 hr
    have hm := h1.seen_mono
    refine ⟨⟨_, hm List.mem_cons_self, hid⟩, fun id' hid' hn => ?_⟩
    by_cases he : id' = id
    · subst he
      refine ⟨_, hid, hq _ hid, fun _ => ⟨fun hN => ?_, fun _ => ⟨_, hbd, v⟩⟩⟩
      rcases hN with rfl | rfl <;> cases hterm.2
    · exact c id' hid' (by simp only [List.mem_cons, not_or]; exact ⟨he, hn⟩)

end

section
variable {env : Env} {s : Store} {pid : String} {rec : PolicyRecord} {x : USet} {u : Entity}

/-- The tree of an expansion nothing guarded of which concerns the user has them exactly when they are reached. -/
theorem expand_involved (hs : WF env s) (hp : policyAt s pid = some rec) (hk : KeysClear env.U env.H rec.policy (Present s pid) x)
    (hi : IdsClear env.U env.H rec.policy (Present s pid) x) (hc : Unconcerned env.U rec.policy (Present s pid) x u)
    {t : GoalTree} {seen : List Nat} (h : Ev env.H (Builds (bld env rec.policy s)) none (.path x.node "Request") [] (.tree t) seen) :
    inSet u t = true ↔ Involves env.U rec.policy (Present s pid) u x.node := by
  have hg : ∀ n, Reaches env.U rec.policy (Present s pid) x n → Names u n → Involves env.U rec.policy (Present s pid) u n :=
    fun n _ hf => .inl hf
  have hb := fun n t (hr : Reaches env.U rec.policy (Present s pid) x n) ht hb => involved_facts (u := u) (t := t) hs hp hk hc hr ht hb
  constructor
  · intro hr
    refine Classical.byContradiction (fun hn => ?_)
    have := (h.coldSet hg (fun n t h1 h2 h3 => ⟨(hb n t h1 h2 h3).1, (hb n t h1 h2 h3).2.1, (hb n t h1 h2 h3).2.2.1⟩) (fun _ _ => .start) hn).1
    rw [hr] at this
    cases this
  · intro hx
    refine Classical.byContradiction (fun hne => ?_)
    obtain ⟨hv, hnew⟩ := h.warmSet hg hb (fun _ _ => .start) (by simpa using hne)
    refine involved_closed hs hp hk hc (Q := fun n => Visited env.H seen n) (N := Names u) (fun n hr hn hvis => ?_) hv hx id
    obtain ⟨id, hid, hnid⟩ := hvis
    obtain ⟨m, hm, hmr, hcl⟩ := hnew id hid (by simp)
    obtain rfl := hi _ _ _ hr hmr hnid hm
    exact hcl hn

end

end Zanzi
