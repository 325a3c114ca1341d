import Verif.Lemmas.CheckSem

/-
A search does not depend on nodes it never meets (C74).
-/

namespace Zanzi

open Spec

/-- The nodes a task starts with. -/
def Task.tops : Task → List RelationNode
  | .tree t => t.tops
  | .or ts => topsList ts
  | .and ts => topsList ts
  | .path n _ => [n]

section
variable {H : String → Nat} {build : RelationNode → Res GoalTree} {goal : Option RelationNode}

/-- Two lists of visited identifiers agree on the nodes of `P`. -/
def SeenAlike (H : String → Nat) (P : RelationNode → Prop) (s S : List Nat) : Prop := ∀ n id, P n → n.nodeId H = .ok id → (id ∈ s ↔ id ∈ S)

theorem SeenAlike.cons {P : RelationNode → Prop} {s S : List Nat} (h : SeenAlike H P s S) (i : Nat) : SeenAlike H P (i :: s) (i :: S) :=
  fun n id hn hid => by simp [h n id hn hid]

theorem Ev.agree {P : RelationNode → Prop} (hb : ∀ n t, P n → n.isTerminal = false → build n = .ok t → ∀ m ∈ t.tops, Ok H P m)
    {k s o s1} (h : Ev H (Builds build) goal k s o s1) (hk : ∀ m ∈ k.tops, Ok H P m) :
    ∀ {S o' S1}, SeenAlike H P s S → Ev H (Builds build) goal k S o' S1 → o' = o ∧ SeenAlike H P s1 S1 := by
  induction h with
  | or _ ih =>
    intro S o' S1 hs h'
    cases h' with
    | or h' =>
      obtain ⟨h1, h2⟩ := ih hk hs h'
      cases h1
      exact ⟨rfl, h2⟩
  | and _ ih =>
    intro S o' S1 hs h'
    cases h' with
    | and h' =>
      obtain ⟨h1, h2⟩ := ih hk hs h'
      cases h1
      exact ⟨rfl, h2⟩
  | diff _ _ ihl ihr =>
    intro S o' S1 hs h'
    cases h' with
    | diff hl hr =>
      obtain ⟨h1, h2⟩ := ihl (fun m hm => hk m (by simp_all [Task.tops, GoalTree.tops])) hs hl
      cases h1
      obtain ⟨h3, h4⟩ := ihr (fun m hm => hk m (by simp_all [Task.tops, GoalTree.tops])) h2 hr
      cases h3
      exact ⟨rfl, h4⟩
  | leaf _ ih =>
    intro S o' S1 hs h'
    cases h' with
    | leaf h' => exact ih hk hs h'
  | inner _ ih =>
    intro S o' S1 hs h'
    cases h' with
    | inner h' => exact ih hk hs h'
  | orNil =>
    intro S o' S1 hs h'
    cases h'
    exact ⟨rfl, hs⟩
  | orStop _ hr ih =>
    intro S o' S1 hs h'
    have hk' : ∀ m ∈ Task.tops (.tree _), Ok H P m := fun m hm => hk m (by simp only [Task.tops, topsList, List.mem_append] at hm ⊢; exact .inl hm)
    cases h' with
    | orStop h' _ =>
      obtain ⟨h1, h2⟩ := ih hk' hs h'
      cases h1
      exact ⟨rfl, h2⟩
    | orGo h' hr' _ =>
      obtain ⟨h1, h2⟩ := ih hk' hs h'
      cases h1
      exact absurd hr hr'
  | orGo _ hr _ ih1 ih2 =>
    intro S o' S1 hs h'
    have hk1 : ∀ m ∈ Task.tops (.tree _), Ok H P m := fun m hm => hk m (by simp only [Task.tops, topsList, List.mem_append] at hm ⊢; exact .inl hm)
    have hk2 : ∀ m ∈ Task.tops (.or _), Ok H P m := fun m hm => hk m (by simp only [Task.tops, topsList, List.mem_append] at hm ⊢; exact .inr hm)
    cases h' with
    | orStop h' hr' =>
      obtain ⟨h1, h2⟩ := ih1 hk1 hs h'
      cases h1
      exact absurd hr' hr
    | orGo h' _ h'' =>
      obtain ⟨h1, h2⟩ := ih1 hk1 hs h'
      cases h1
      obtain ⟨h3, h4⟩ := ih2 hk2 h2 h''
      cases h3
      exact ⟨rfl, h4⟩
  | andNil =>
    intro S o' S1 hs h'
    cases h'
    exact ⟨rfl, hs⟩
  | andStop _ hr ih =>
    intro S o' S1 hs h'
    have hk' : ∀ m ∈ Task.tops (.tree _), Ok H P m := fun m hm => hk m (by simp only [Task.tops, topsList, List.mem_append] at hm ⊢; exact .inl hm)
    cases h' with
    | andStop h' _ =>
      obtain ⟨h1, h2⟩ := ih hk' hs h'
      cases h1
      exact ⟨rfl, h2⟩
    | andGo h' hr' _ =>
      obtain ⟨h1, h2⟩ := ih hk' hs h'
      cases h1
      exact absurd hr hr'
  | andGo _ hr _ ih1 ih2 =>
    intro S o' S1 hs h'
    have hk1 : ∀ m ∈ Task.tops (.tree _), Ok H P m := fun m hm => hk m (by simp only [Task.tops, topsList, List.mem_append] at hm ⊢; exact .inl hm)
    have hk2 : ∀ m ∈ Task.tops (.and _), Ok H P m := fun m hm => hk m (by simp only [Task.tops, topsList, List.mem_append] at hm ⊢; exact .inr hm)
    cases h' with
    | andStop h' hr' =>
      obtain ⟨h1, h2⟩ := ih1 hk1 hs h'
      cases h1
      exact absurd hr' hr
    | andGo h' _ h'' =>
      obtain ⟨h1, h2⟩ := ih1 hk1 hs h'
      cases h1
      obtain ⟨h3, h4⟩ := ih2 hk2 h2 h''
      cases h3
      exact ⟨rfl, h4⟩
  | repeated hid hin =>
    intro S o' S1 hs h'
    have hp := hk _ (by simp [Task.tops]) _ hid
    cases h' with
    | repeated _ _ => exact ⟨rfl, hs⟩
    | ended hid' hn' _ _ => rw [hid] at hid'; cases hid'; exact absurd ((hs _ _ hp hid).1 hin) hn'
    | expanded hid' hn' _ _ _ _ => rw [hid] at hid'; cases hid'; exact absurd ((hs _ _ hp hid).1 hin) hn'
  | ended hid hn hg ht =>
    intro S o' S1 hs h'
    have hp := hk _ (by simp [Task.tops]) _ hid
    cases h' with
    | repeated hid' hin' => rw [hid] at hid'; cases hid'; exact absurd ((hs _ _ hp hid).2 hin') hn
    | ended hid' _ hg' _ =>
      rw [hid] at hid'; cases hid'
      rw [hg] at hg'; cases hg'
      exact ⟨rfl, hs.cons _⟩
    | expanded hid' _ hg' ht' _ _ =>
      rw [hg] at hg'; cases hg'
      rw [ht] at ht'; cases ht'
  | expanded hid hn hg ht hbd _ ih =>
    intro S o' S1 hs h'
    have hp := hk _ (by simp [Task.tops]) _ hid
    cases h' with
    | repeated hid' hin' => rw [hid] at hid'; cases hid'; exact absurd ((hs _ _ hp hid).2 hin') hn
    | ended hid' _ hg' ht' =>
      rw [hg] at hg'; cases hg'
      rw [ht] at ht'; cases ht'
    | expanded hid' _ hg' _ hbd' h' =>
      rw [hid] at hid'; cases hid'
      rw [hg] at hg'; cases hg'
      unfold Builds at hbd hbd'
      rw [hbd] at hbd'; cases hbd'
      simp only [Bool.or_eq_false_iff] at ht
      obtain ⟨h1, h2⟩ := ih (hb _ _ hp ht.2 hbd) (hs.cons _) h'
      cases h1
      exact ⟨rfl, h2⟩

/-- The reason of a path does not matter. -/
theorem Ev.reason {n r t s s'} (h : Ev H (Builds build) goal (.path n r) s (.tree t) s') (r' : String) :
    ∃ t', Ev H (Builds build) goal (.path n r') s (.tree t') s' ∧ t'.result = t.result := by
  cases h with
  | repeated h1 h2 => exact ⟨_, .repeated h1 h2, by simp [GoalTree.result]⟩
  | ended h1 h2 h3 h4 => exact ⟨_, .ended h1 h2 h3 h4, by simp [GoalTree.result]⟩
  | expanded h1 h2 h3 h4 h5 h6 => exact ⟨_, .expanded h1 h2 h3 h4 h5 h6, by simp [GoalTree.result]⟩

end

section
variable {env : Env} {s : Store} {pid : String} {rec : PolicyRecord} {x : USet} {u : Entity}

theorem reaches_trans {U : Unicode} {p : Policy} {R : Relationship → Prop} {x y : USet} (hy : Reaches U p R x y.node) {n : RelationNode}
    (h : Reaches U p R y n) : Reaches U p R x n := by
  induction h with
  | start => exact hy
  | step _ hw ih => exact .step ih hw

/-- The search starting at `y` gives the same result whatever was visited before, if none of it is reachable from `y`. -/
theorem search_agree (hs : WF env s) (hp : policyAt s pid = some rec) (hk : KeysClear env.U env.H rec.policy (Present s pid) x)
    {goal : Option RelationNode} {r r' : String} {t t' : GoalTree} {S seen seen' : List Nat}
    (hS : ∀ n id, Reaches env.U rec.policy (Present s pid) x n → n.nodeId env.H = .ok id → id ∉ S)
    (h : Ev env.H (Builds (bld env rec.policy s)) goal (.path x.node r) [] (.tree t) seen)
    (h' : Ev env.H (Builds (bld env rec.policy s)) goal (.path x.node r') S (.tree t') seen') : t'.result = t.result := by
  obtain ⟨t1, h1, he⟩ := h.reason r'
  have := Ev.agree (P := Reaches env.U rec.policy (Present s pid) x)
    (fun n t hr hterm hb => by
      obtain ⟨y, e, rfl, _, _, _, _, _, htops⟩ := expand_facts hs hp hk hr hterm hb
      exact htops) h1 (fun m hm _ _ => by simp only [Task.tops, List.mem_singleton] at hm; subst hm; exact .start)
    (fun n id hn hid => by simp [hS n id hn hid]) h'
  rw [← he]
  exact congrArg GoalTree.result (by simpa using this.1)

end

end Zanzi
