import Verif.Lemmas.CheckSem

/-
Grants to users not covered by a wildcard come through unions alone (C36, C38).
-/

namespace Zanzi

open Spec

mutual
/-- A goal tree succeeds without its ANDs and exclusions. -/
def GoalTree.SemBare (N : RelationNode → Prop) : GoalTree → Prop
  | .or _ ps => SemBareAny N ps
  | .and _ _ => False
  | .diff _ l _ => l.SemBare N
  | .leaf _ n _ => N n
  | .path _ n _ _ => N n
def SemBareAny (N : RelationNode → Prop) : List GoalTree → Prop
  | [] => False
  | t :: ts => t.SemBare N ∨ SemBareAny N ts
end

theorem semBareAny_iff {N : RelationNode → Prop} {ts : List GoalTree} : SemBareAny N ts ↔ ∃ t ∈ ts, t.SemBare N := by
  induction ts with
  | nil => simp [SemBareAny]
  | cons t ts ih => simp [SemBareAny, ih]

section
variable {H : String → Nat} {build : RelationNode → GoalTree → Prop} {goal : Option RelationNode}

def BareAt (H : String → Nat) (N P : RelationNode → Prop) : Task → Out → Prop
  | .tree t, .tree t' => t.Formed → (∀ m ∈ t.tops, Ok H P m) → Toothless t' → t'.result = .success → t.SemBare N
  | .or ts, .list ts' b => FormedList ts → (∀ m ∈ topsList ts, Ok H P m) → ToothlessList ts' → b = true → SemBareAny N ts
  | .path n _, .tree t' => Ok H P n → Toothless t' → t'.result = .success → N n
  | _, _ => True

theorem Ev.bare {N P : RelationNode → Prop} (hf : ∀ n, P n → goalFound n goal = .ok true → N n)
    (hb : ∀ n t, P n → n.isTerminal = false → build n t → t.Formed ∧ (∀ m ∈ t.tops, Ok H P m) ∧ (t.SemBare N → N n))
    {k s o s'} (h : Ev H build goal k s o s') : BareAt H N P k o := by
  induction h with
  | or _ ih =>
    intro hfm hq ht hr
    rw [Toothless] at ht
    simp only [result_or, verdict_success] at hr
    rw [GoalTree.SemBare]
    exact ih hfm hq ht hr
  | and _ _ =>
    intro hfm hq ht hr
    rw [Toothless] at ht
    exact absurd hr ht.1
  | diff _ _ ih _ =>
    intro hfm hq ht hr
    rw [Toothless] at ht
    rw [GoalTree.SemBare]
    exact ih hfm.1 (fun m hm => hq m (by simp [GoalTree.tops, hm])) ht.2.1 (ht.1.1 hr)
  | leaf _ ih => exact fun _ hq ht hr => ih (hq _ (by simp [GoalTree.tops])) ht hr
  | inner _ ih => exact fun _ hq ht hr => ih (hq _ (by simp [GoalTree.tops])) ht hr
  | orNil => exact nofun
  | orStop _ hr ih => exact fun hfm hq ht _ => .inl (ih hfm.1 (fun m hm => hq m (by simp [topsList, hm])) ht.1 hr)
  | orGo _ _ _ _ ih => exact fun hfm hq ht hb => .inr (ih hfm.2 (fun m hm => hq m (by simp [topsList, hm])) ht.2 hb)
  | andNil => trivial
  | andStop => trivial
  | andGo => trivial
  | repeated => exact nofun
  | ended hid _ hg _ =>
    intro hq _ hr
    simp only [result_leaf, verdict_success] at hr
    exact hf _ (hq _ hid) (hr ▸ hg)
  | expanded hid _ _ hterm hbd _ ih =>
    intro hq ht hr
    simp only [Bool.or_eq_false_iff] at hterm
    obtain ⟨h1, h2, h3⟩ := hb _ _ (hq _ hid) hterm.2 hbd
    rw [Toothless] at ht
    exact h3 (ih h1 h2 ht hr)

end

section
variable {env : Env} {s : Store} {pid : String} {rec : PolicyRecord} {x : USet} {u : Entity}

theorem pBuild_bare (hs : WF env s) (V : USet → Prop) (u : Entity) (hx : KeyClear env.H (Present s pid) x) : ∀ {e : ExprTree} {t : GoalTree},
    (∀ a b, .ttu a b ∈ leaves e → KeyClear env.H (Present s pid) ⟨x.object, a⟩) →
    pBuild env.H s pid x e = .ok t → t.SemBare (NodeIn V u) → ExprIn (Present s pid) u V x (bare e) := by
  intro e
  induction e with
  | nil => intro t _ h; cases h
  | unset => intro t _ h; cases h
  | rule r =>
    intro t hk h
    unfold pBuild at h
    obtain ⟨ns, hns, h⟩ := Res.bind_eq_ok.1 h
    cases h
    have key := ruleNodes_in hs V u hx (fun a b h => hk a b (by simp [leaves, h])) hns
    simp only [GoalTree.SemBare, semBareAny_iff, List.mem_map, bare, ExprIn, ← key]
    rintro ⟨t, ⟨n, hn, rfl⟩, hs⟩
    exact ⟨n, hn, hs⟩
  | op l o r ihl ihr =>
    intro t hk h
    unfold pBuild at h
    obtain ⟨a, ha, h⟩ := Res.bind_eq_ok.1 h
    obtain ⟨b, hb, h⟩ := Res.bind_eq_ok.1 h
    have l1 := ihl (fun a b h => hk a b (by simp [leaves, h])) ha
    have r1 := ihr (fun a b h => hk a b (by simp [leaves, h])) hb
    cases o
    · cases h
      simp only [GoalTree.SemBare, SemBareAny, or_false, bare, ExprIn]
      exact Or.imp l1 r1
    · cases h
      simp only [GoalTree.SemBare]
      exact False.elim
    · cases h
      simp only [GoalTree.SemBare, bare]
      exact l1
    · cases h

theorem check_bare (hs : WF env s) (hp : policyAt s pid = some rec) (hk : KeysClear env.U env.H rec.policy (Present s pid) x)
    {V : USet → Prop} (hV : ∀ y t, DefinedBy env.U rec.policy y t → ExprIn (Present s pid) u V y (bare t) → V y)
    {t : GoalTree} {seen : List Nat} (h : Ev env.H (Builds (bld env rec.policy s)) (userGoal u) (.path x.node "Request") [] (.tree t) seen)
    (htl : Toothless t) (ht : t.result = .success) : V x := by
  have := h.bare (N := NodeIn V u) (P := Reaches env.U rec.policy (Present s pid) x)
    (fun n _ hf => (goalFound_user hf rfl).2 rfl)
    (fun n t hr hterm hb => by
      obtain ⟨y, e, rfl, h1, h2, k1, k2, hfm, htops⟩ := expand_facts hs hp hk hr hterm hb
      exact ⟨hfm, htops, fun hsem => hV y e h1 (pBuild_bare hs V u k1 k2 h2 hsem)⟩)
  exact this (fun _ _ => .start) htl ht

end

end Zanzi
