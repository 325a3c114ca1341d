import Verif.Lemmas.Frame
import Verif.Props.Policy

/-
When the policy service answers normally.
-/

namespace Zanzi

open Spec

theorem Res.normal_iff {α : Type} {r : Res α} : r.Normal ↔ (∃ a, r = .ok a) ∨ ∃ e, r = .err e := by
  cases r <;> simp [Res.Normal]

theorem verifyPolicy_normal (U : Unicode) {p : Policy} (hp : ExpressionsPresent p) : (verifyPolicy U p).Normal := by
  rw [Res.normal_iff]
  obtain ⟨h1, h2, h3⟩ := C09_rejections_exact U p hp
  by_cases hu : NamesUnique p
  · by_cases hr : RestrictionsOK p
    · by_cases he : ExpressionsOK U.isIdent whiteSpace p
      · exact .inl ⟨(), (C09_validation_exact U p).2 ⟨hu, hr, he⟩⟩
      · rcases h3 hu hr he with h | h | h <;> exact .inr ⟨_, h⟩
    · exact .inr ⟨_, h2 hu hr⟩
  · exact .inr ⟨_, h1 hu⟩

theorem checkSymbols_normal {r : Relationship} (hc : RelationshipComplete r) (l : Lut) : (checkSymbols (some r) l).Normal := by
  obtain ⟨o, rel, sb⟩ := r
  obtain ⟨h1, h2, h3⟩ := hc
  unfold checkSymbols
  cases o with
  | none => exact absurd rfl h1
  | some o =>
    cases sb with
    | none => exact absurd rfl h2
    | some sb =>
      simp only [Res.deref_some, Res.bind_ok]
      split
      · trivial
      · split
        · trivial
        · cases sb with
          | unset => trivial
          | entity e => dsimp only; split <;> trivial
          | resourceSet n => dsimp only; split <;> trivial
          | entitySet e rel =>
            cases e with
            | none => exact absurd rfl (h3 rel)
            | some e => simp only [Res.deref_some, Res.bind_ok]; split <;> trivial

theorem allowed_normal {p : Policy} (hu : NamesUnique p) (hr : RestrictionsPresent p) {r : Relationship} (hc : RelationshipComplete r) :
    (allowedRelationship (some r) (newLut p)).Normal := by
  unfold allowedRelationship
  simp only [relRequiredFields_ok]
  simp only [Res.bind_ok, Res.deref_some]
  have hn := checkSymbols_normal hc (newLut p)
  cases hk : checkSymbols (some r) (newLut p) with
  | ok u =>
    rw [Res.bind_ok]
    obtain ⟨o, s, ho, hs, _, ⟨d, hd⟩, hsk⟩ := (checkSymbols_ok_iff p r).1 hk
    rcases subjectRestrictionSatisfies_cases p hu r ho hs hsk hd with ⟨h3, _⟩ | ⟨sr, h3, ⟨h4, _⟩ | ⟨h4, _⟩⟩
    · obtain ⟨x, hx, _, hd', _⟩ := hd
      exact absurd h3 (hr x hx d hd')
    · rw [h4]; trivial
    · rw [h4]; trivial
  | err => trivial
  | panic => rw [hk] at hn; exact hn
  | fuel => rw [hk] at hn; exact hn

theorem validSelector_normal {p : Policy} {s : Selector} (hc : SelectorComplete s)
    (hw : (s.object = some .wildcard) → s.relation = some .wildcard) :
    (validSelector (some s) p).Normal := by
  obtain ⟨o, rl, sb⟩ := s
  obtain ⟨h1, h2, h3⟩ := hc
  simp only at h1 h2 h3 hw
  cases o with
  | none => exact absurd rfl h1
  | some o =>
  cases rl with
  | none => exact absurd rfl h2
  | some rl =>
  cases sb with
  | none => exact absurd rfl h3
  | some sb =>
  unfold validSelector
  simp only [Res.deref_some, Res.bind_ok]
  have hsub : (validSubjectSelector (some sb) p).Normal := by
    unfold validSubjectSelector
    simp only [Res.deref_some, Res.bind_ok]
    cases sb <;> dsimp only <;> first | trivial | (split <;> trivial)
  have hnorm2 : ∀ {x : Res Unit}, x.Normal → (x >>= fun _ => validSubjectSelector (some sb) p).Normal := by
    intro x hx
    cases x with
    | ok => exact hsub
    | err => trivial
    | panic => exact hx
    | fuel => exact hx
  have key : ∀ n, p.getResourceByName n ≠ none → objectSelectorResourceName o = n →
      (validRelationSelector (some o) (some rl) p).Normal := by
    intro n hn ho
    unfold validRelationSelector
    cases rl with
    | wildcard => trivial
    | unset =>
      simp only [Res.deref_some, Res.bind_ok, ho]
      cases hg : p.getResourceByName n with
      | none => exact absurd hg hn
      | some x => simp only [getRelationByName, Res.bind_ok]; split <;> trivial
    | relationName m =>
      simp only [Res.deref_some, Res.bind_ok, ho]
      cases hg : p.getResourceByName n with
      | none => exact absurd hg hn
      | some x => simp only [getRelationByName, Res.bind_ok]; split <;> trivial
  unfold validObjectSelector
  simp only [Res.deref_some, Res.bind_ok]
  cases o with
  | unset => trivial
  | wildcard =>
    have := hw rfl
    cases this
    exact hsub
  | objectSpec e =>
    dsimp only
    split
    · trivial
    · next h => rw [Res.bind_ok]; exact hnorm2 (key e.resource (by simpa using h) rfl)
  | resourceSpec n =>
    dsimp only
    split
    · trivial
    · next h => rw [Res.bind_ok]; exact hnorm2 (key n (by simpa using h) rfl)

end Zanzi
