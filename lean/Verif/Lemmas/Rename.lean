import Verif.Spec.Rename

/-
The rules do not look at names.
-/

namespace Zanzi

open Spec

variable {ρ : Entity → Entity} {R R' : Relationship → Prop} {U : Unicode} {p : Policy} {u : Entity}

theorem renameUSet_inj (hρ : Renaming ρ) {x y : USet} (h : renameUSet ρ x = renameUSet ρ y) : x = y := by
  obtain ⟨o, r⟩ := x
  obtain ⟨o', r'⟩ := y
  simp only [renameUSet, USet.mk.injEq] at h
  rw [hρ.inj _ _ h.1, h.2]

theorem renamed_at (hρ : Renaming ρ) (hR : Renamed ρ R R') (o : Entity) (rel : String) (sub' : Subject) :
    R' ⟨some (ρ o), rel, some sub'⟩ ↔ ∃ sub, R ⟨some o, rel, some sub⟩ ∧ renameSubject ρ sub = sub' := by
  rw [hR]
  constructor
  · rintro ⟨⟨ro, rr, rs⟩, h1, h2⟩
    simp only [renameRelationship, Relationship.mk.injEq] at h2
    obtain ⟨h2, rfl, h3⟩ := h2
    cases ro with
    | none => cases h2
    | some ro =>
      cases rs with
      | none => cases h3
      | some rs =>
        obtain rfl := hρ.inj _ _ (Option.some.inj h2)
        exact ⟨rs, h1, Option.some.inj h3⟩
  · rintro ⟨sub, h1, rfl⟩
    exact ⟨_, h1, rfl⟩

theorem subjectIn_rename (hρ : Renaming ρ) {V V' : USet → Prop} (hV : ∀ y, V y ↔ V' (renameUSet ρ y)) (sub : Subject) :
    SubjectIn V u sub ↔ SubjectIn V' (ρ u) (renameSubject ρ sub) := by
  cases sub with
  | entity e => exact ⟨fun h => congrArg ρ h, fun h => hρ.inj _ _ h⟩
  | resourceSet n => show u.resource = n ↔ (ρ u).resource = n; rw [hρ.resource]
  | entitySet e rel =>
    cases e with
    | none => exact Iff.rfl
    | some e => exact hV ⟨e, rel⟩
  | unset => exact Iff.rfl

theorem pointsTo_rename (sub : Subject) : pointsTo (renameSubject ρ sub) = (pointsTo sub).map ρ := by
  cases sub <;> rfl

theorem ruleIn_rename (hρ : Renaming ρ) (hR : Renamed ρ R R') {V V' : USet → Prop} (hV : ∀ y, V y ↔ V' (renameUSet ρ y)) (y : USet) (r : Rule) :
    RuleIn R u V y r ↔ RuleIn R' (ρ u) V' (renameUSet ρ y) r := by
  cases r with
  | this =>
    constructor
    · rintro ⟨sub, h1, h2⟩
      exact ⟨renameSubject ρ sub, (renamed_at hρ hR _ _ _).2 ⟨sub, h1, rfl⟩, (subjectIn_rename hρ hV sub).1 h2⟩
    · rintro ⟨sub', h1, h2⟩
      obtain ⟨sub, h3, rfl⟩ := (renamed_at hρ hR _ _ _).1 h1
      exact ⟨sub, h3, (subjectIn_rename hρ hV sub).2 h2⟩
  | cu target => exact hV ⟨y.object, target⟩
  | ttu a b =>
    constructor
    · rintro ⟨sub, e, h1, h2, h3⟩
      refine ⟨renameSubject ρ sub, ρ e, (renamed_at hρ hR _ _ _).2 ⟨sub, h1, rfl⟩, ?_, (hV ⟨e, b⟩).1 h3⟩
      rw [pointsTo_rename, h2]
      rfl
    · rintro ⟨sub', e', h1, h2, h3⟩
      obtain ⟨sub, h4, rfl⟩ := (renamed_at hρ hR _ _ _).1 h1
      rw [pointsTo_rename] at h2
      cases he : pointsTo sub with
      | none => rw [he] at h2; cases h2
      | some e =>
        rw [he] at h2
        cases h2
        exact ⟨sub, e, h4, he, (hV ⟨e, b⟩).2 h3⟩
  | unset => exact Iff.rfl

theorem exprIn_rename (hρ : Renaming ρ) (hR : Renamed ρ R R') {V V' : USet → Prop} (hV : ∀ y, V y ↔ V' (renameUSet ρ y)) (y : USet) (t : ExprTree) :
    ExprIn R u V y t ↔ ExprIn R' (ρ u) V' (renameUSet ρ y) t := by
  induction t with
  | rule r => exact ruleIn_rename hρ hR hV y r
  | op l o r ihl ihr =>
    cases o
    · exact or_congr ihl ihr
    · exact and_congr ihl ihr
    · exact and_congr ihl (not_congr ihr)
    · exact Iff.rfl
  | nil => exact Iff.rfl
  | unset => exact Iff.rfl

theorem definedBy_rename (hρ : Renaming ρ) {y : USet} {t : ExprTree} : DefinedBy U p (renameUSet ρ y) t ↔ DefinedBy U p y t := by
  unfold DefinedBy
  show (∃ d, Declares p (ρ y.object).resource y.relation d ∧ _) ↔ _
  rw [hρ.resource]

theorem derived_rename (hρ : Renaming ρ) (hR : Renamed ρ R R') {V V' : USet → Prop} (hV : ∀ y, V y ↔ V' (renameUSet ρ y)) (y : USet) :
    Derived U p R u V y ↔ Derived U p R' (ρ u) V' (renameUSet ρ y) :=
  exists_congr (fun t => and_congr (definedBy_rename hρ).symm (exprIn_rename hρ hR hV y t))

/-- Nothing holds of objects no name stands for. -/
theorem exprIn_outside (hR : Renamed ρ R R') {V' : USet → Prop} (hV : ∀ y', V' y' → ∃ y, renameUSet ρ y = y') {y' : USet} (hy : ∀ o, ρ o ≠ y'.object)
    (u' : Entity) (t : ExprTree) : ¬ ExprIn R' u' V' y' t := by
  have hrel : ∀ rel sub, ¬ R' ⟨some y'.object, rel, some sub⟩ := by
    intro rel sub h
    obtain ⟨⟨ro, rr, rs⟩, _, h2⟩ := (hR _).1 h
    simp only [renameRelationship, Relationship.mk.injEq] at h2
    cases ro with
    | none => cases h2.1
    | some ro => exact hy ro (Option.some.inj h2.1)
  induction t with
  | rule r =>
    cases r with
    | this => rintro ⟨sub, h, _⟩; exact hrel _ _ h
    | cu target =>
      intro h
      obtain ⟨y, h2⟩ := hV _ h
      exact hy y.object (congrArg USet.object h2)
    | ttu a b => rintro ⟨sub, e, h, _⟩; exact hrel _ _ h
    | unset => exact id
  | op l o r ihl ihr =>
    cases o
    · exact fun h => h.elim ihl ihr
    · exact fun h => ihl h.1
    · exact fun h => ihl h.1
    · exact id
  | nil => exact id
  | unset => exact id

/-- The usersets of `V` under their other names. -/
def imageV (ρ : Entity → Entity) (V : USet → Prop) (y' : USet) : Prop := ∃ y, V y ∧ renameUSet ρ y = y'

theorem imageV_iff (hρ : Renaming ρ) (V : USet → Prop) (y : USet) : V y ↔ imageV ρ V (renameUSet ρ y) := by
  constructor
  · exact fun h => ⟨y, h, rfl⟩
  · rintro ⟨z, h1, h2⟩
    obtain rfl := renameUSet_inj hρ h2
    exact h1

/-- A derived userset of the renamed relationships is a renamed one. -/
theorem derived_image (hρ : Renaming ρ) (hR : Renamed ρ R R') {V : USet → Prop} {y' : USet} (h : Derived U p R' (ρ u) (imageV ρ V) y') :
    ∃ y, renameUSet ρ y = y' ∧ Derived U p R u V y := by
  by_cases hy : ∃ o, ρ o = y'.object
  · obtain ⟨o, ho⟩ := hy
    have he : renameUSet ρ ⟨o, y'.relation⟩ = y' := by
      obtain ⟨o', r'⟩ := y'
      dsimp only at ho
      subst ho
      rfl
    exact ⟨_, he, (derived_rename hρ hR (imageV_iff hρ V) _).2 (he ▸ h)⟩
  · obtain ⟨t, _, h2⟩ := h
    exact absurd h2 (exprIn_outside hR (fun y' ⟨y, _, e⟩ => ⟨y, e⟩) (fun o ho => hy ⟨o, ho⟩) _ t)

theorem granted_rename (hρ : Renaming ρ) (hR : Renamed ρ R R') (x : USet) : Granted U p R' (ρ u) (renameUSet ρ x) ↔ Granted U p R u x := by
  constructor
  · intro h V hV
    rw [imageV_iff hρ V]
    refine h (imageV ρ V) (fun y' hd => ?_)
    obtain ⟨y, rfl, h2⟩ := derived_image hρ hR hd
    exact ⟨y, hV y h2, rfl⟩
  · intro h V' hV'
    exact h (fun y => V' (renameUSet ρ y)) (fun y hd => hV' _ ((derived_rename hρ hR (fun _ => Iff.rfl) y).1 hd))

theorem solution_rename (hρ : Renaming ρ) (hR : Renamed ρ R R') {V : USet → Prop} (h : Solution U p R u V) : Solution U p R' (ρ u) (imageV ρ V) := by
  intro y'
  constructor
  · rintro ⟨y, h1, rfl⟩
    exact (derived_rename hρ hR (imageV_iff hρ V) y).1 ((h y).1 h1)
  · intro hd
    obtain ⟨y, rfl, h2⟩ := derived_image hρ hR hd
    exact ⟨y, (h y).2 h2, rfl⟩

end Zanzi
