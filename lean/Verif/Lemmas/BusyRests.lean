import Verif.Lemmas.Rests
import Verif.Props.BusyExplain

/-
Lemmas for C128: what a grant explained while others write rests on.
-/

namespace Zanzi

open Spec

section
variable {U : Unicode} {p : Policy} {hist : List Store} {pid : String} {E : Relationship → Prop} {u : Entity} {V : USet → Prop} {x : USet} {C : RelationNode → Prop}

/-- What a success below userset `y` says. -/
def RestDuring (U : Unicode) (p : Policy) (hist : List Store) (pid : String) (E : Relationship → Prop) (u : Entity) (V : USet → Prop) (x : USet) (t : GoalTree) : Prop :=
  ∀ y : Option USet, (∀ r, StoredOnce hist pid r → RestsOn y t r → E r) →
    (∀ n, topNode t = some n → Reaches U p E x n → NodeIn V u n) ∧
    ∀ y' e0 e, y = some y' → Reaches U p E x y'.node → DefinedBy U p y' e0 → (∀ r ∈ leaves e, r ∈ leaves e0) → PrescribedDuring hist pid y' e t → ExprIn E u V y' (positive e)

/-- A justified success follows from what it rests on, each rule read at its own moment; compare `rests_says`. -/
theorem rests_during (hV : ∀ y e, Reaches U p E x y.node → DefinedBy U p y e → ExprIn E u V y (positive e) → V y) :
    ∀ t : GoalTree, Justified (Names u) (ExpansionDuring U p hist pid) C t → t.result = .success → RestDuring U p hist pid E u V x t
  | .leaf a n why, hj, hs => by
    intro y hE
    refine ⟨fun m hm _ => ?_, fun y' e0 e _ _ _ _ hp => ?_⟩
    · cases hm
      rw [Justified] at hj
      rw [show a = .success from hs] at hj
      rcases hj with ⟨h, _⟩ | ⟨_, h⟩ | ⟨h, _⟩
      · cases h
      · rcases h with rfl | rfl
        · exact rfl
        · exact rfl
      · cases h
    · exact (by cases e with
        | op l o r => cases o <;> exact hp.elim
        | rule r => obtain ⟨_, _, hp⟩ := hp; exact hp.elim
        | _ => exact hp.elim)
  | .path a n why c, hj, hs => by
    intro y hE
    refine ⟨fun m hm hr => ?_, fun y' e0 e _ _ _ _ hp => ?_⟩
    · cases hm
      rw [Justified] at hj
      obtain ⟨h1, _, ⟨y', rfl, e, hd, hpr⟩, h2⟩ := hj
      have hs' : a = .success := hs
      subst hs'
      have := (rests_during hV c h2 h1.symm (some y') (fun r hr' hb => hE r hr' (.path rfl hb))).2 y' e e rfl hr hd (fun _ h => h) hpr
      exact hV y' e hr hd this
    · exact (by cases e with
        | op l o r => cases o <;> exact hp.elim
        | rule r => obtain ⟨_, _, hp⟩ := hp; exact hp.elim
        | _ => exact hp.elim)
  | .or a ps, hj, hs => by
    have hs' : a = .success := hs
    subst hs'
    rw [Justified] at hj
    obtain ⟨hj, _, h2⟩ := hj
    obtain ⟨q, hq, hqs⟩ := h2.1 rfl
    have hjq := justifiedOr_success hj q hq hqs
    intro y hE
    have ih := rests_during hV q hjq hqs y (fun r hr hb => hE r hr (.or hq hb))
    refine ⟨(fun m hm => nomatch hm), fun y' e0 e hy hr hd hl hp => ?_⟩
    cases e with
    | nil => exact hp.elim
    | unset => exact hp.elim
    | rule rule =>
      obtain ⟨s, hs, h3, h4⟩ := hp
      obtain ⟨⟨n, hn⟩, hw⟩ := h3 q hq
      have hrn := (h4 n).1 ⟨q, hq, hn⟩
      subst hy
      have hin : rule ∈ leaves e0 := hl rule (by simp [leaves])
      have rest : ∀ r, RuleRests y' n r rule → Present s pid r → E r := fun r hrr hR => hE r ⟨s, hs, hR⟩ (.or hq (restsOn_top hqs hn hw hrr))
      show RuleIn E u V y' rule
      cases rule with
      | unset => exact hrn.elim
      | this =>
        obtain ⟨sub, hR, rfl⟩ := hrn
        have he := rest _ ⟨sub, rfl, rfl⟩ hR
        exact ⟨sub, he, (nodeIn_subject V u sub).1 (ih.1 _ hn (.step hr (.this hd hin he)))⟩
      | cu c =>
        have hnn : n = .entitySet (some y'.object) c := hrn
        subst hnn
        exact ih.1 _ hn (.step hr (.cu hd hin))
      | ttu a b =>
        obtain ⟨sub, e, hR, hpt, rfl⟩ := hrn
        have he := rest _ ⟨sub, e, rfl, hpt, rfl⟩ hR
        exact ⟨sub, e, he, hpt, ih.1 _ hn (.step hr (.arrow hd hin he hpt))⟩
    | op l o r =>
      cases o with
      | union =>
        match ps, hq, hp with
        | [a, b], hq, hp =>
          rcases List.mem_cons.1 hq with rfl | hq
          · exact .inl (ih.2 y' e0 l hy hr hd (fun r h => hl r (List.mem_append_left _ h)) hp.1)
          · cases List.mem_singleton.1 hq
            exact .inr (ih.2 y' e0 r hy hr hd (fun r h => hl r (List.mem_append_right _ h)) hp.2)
      | intersection => exact (by match ps, hp with
          | [], hp => exact hp.elim
          | [_], hp => exact hp.elim
          | [_, _], hp => exact hp.elim
          | _ :: _ :: _ :: _, hp => exact hp.elim)
      | difference => exact hp.elim
      | unknown => exact hp.elim
  | .and a ps, hj, hs => by
    have hs' : a = .success := hs
    subst hs'
    rw [Justified] at hj
    obtain ⟨hj, _, h2⟩ := hj
    have hall := h2.1 rfl
    intro y hE
    have ih : ∀ q ∈ ps, _ := fun q hq => rests_during hV q (justifiedAnd_success hj q hq (hall q hq)) (hall q hq) y (fun r hr hb => hE r hr (.and hq hb))
    refine ⟨(fun m hm => nomatch hm), fun y' e0 e hy hr hd hl hp => ?_⟩
    cases e with
    | nil => exact hp.elim
    | unset => exact hp.elim
    | rule rule => obtain ⟨_, _, hp⟩ := hp; exact hp.elim
    | op l o r =>
      cases o with
      | intersection =>
        match ps, ih, hp with
        | [a, b], ih, hp =>
          exact ⟨(ih a (by simp)).2 y' e0 l hy hr hd (fun r h => hl r (List.mem_append_left _ h)) hp.1,
            (ih b (by simp)).2 y' e0 r hy hr hd (fun r h => hl r (List.mem_append_right _ h)) hp.2⟩
      | union => exact hp.elim
      | difference => exact hp.elim
      | unknown => exact hp.elim
  | .diff a b c, hj, hs => by
    have hs' : a = .success := hs
    subst hs'
    rw [Justified] at hj
    obtain ⟨hj, _, _, h2⟩ := hj
    intro y hE
    have ih := rests_during hV b hj (h2.1 rfl).1 y (fun r hr hb => hE r hr (.diff hb))
    refine ⟨(fun m hm => nomatch hm), fun y' e0 e hy hr hd hl hp => ?_⟩
    cases e with
    | nil => exact hp.elim
    | unset => exact hp.elim
    | rule rule => obtain ⟨_, _, hp⟩ := hp; exact hp.elim
    | op l o r =>
      cases o with
      | difference => exact ih.2 y' e0 l hy hr hd (fun r h => hl r (List.mem_append_left _ h)) hp.1
      | union => exact hp.elim
      | intersection => exact hp.elim
      | unknown => exact hp.elim

end

end Zanzi
