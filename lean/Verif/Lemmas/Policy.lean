import Verif.Lemmas.Kv
import Verif.Lemmas.Validate
import Verif.Spec.Policy
import Verif.Props.Parser

/-
Lemmas about the validation loops and the lookup table.
-/

namespace Zanzi
open Spec

/-! ### Loops -/

theorem forEach_ok_iff {α : Type} (f : α → Res Unit) (as : List α) :
    forEach f as = .ok () ↔ ∀ a ∈ as, f a = .ok () := by
  induction as with
  | nil => simp [forEach]
  | cons a as ih =>
    unfold forEach
    cases h : f a with
    | ok u => cases u; simp [h, ih]
    | err e => simp [h]
    | panic => simp [h]
    | fuel => simp [h]

theorem forEach_err {α : Type} {f : α → Res Unit} {as : List α} {e : Err} (h : forEach f as = .err e) :
    ∃ a ∈ as, f a = .err e := by
  induction as with
  | nil => simp [forEach] at h
  | cons a as ih =>
    unfold forEach at h
    cases h1 : f a with
    | ok u => rw [h1] at h; obtain ⟨b, hb, h2⟩ := ih h; exact ⟨b, .tail _ hb, h2⟩
    | err e' => rw [h1] at h; cases h; exact ⟨a, .head _, h1⟩
    | panic => rw [h1] at h; cases h
    | fuel => rw [h1] at h; cases h

theorem forEach_panic {α : Type} {f : α → Res Unit} {as : List α} (h : forEach f as = .panic) :
    ∃ a ∈ as, f a = .panic := by
  induction as with
  | nil => simp [forEach] at h
  | cons a as ih =>
    unfold forEach at h
    cases h1 : f a with
    | ok u => rw [h1] at h; obtain ⟨b, hb, h2⟩ := ih h; exact ⟨b, .tail _ hb, h2⟩
    | err e' => rw [h1] at h; cases h
    | panic => rw [h1] at h; exact ⟨a, .head _, h1⟩
    | fuel => rw [h1] at h; cases h

theorem forEach_fuel {α : Type} {f : α → Res Unit} {as : List α} (h : forEach f as = .fuel) :
    ∃ a ∈ as, f a = .fuel := by
  induction as with
  | nil => simp [forEach] at h
  | cons a as ih =>
    unfold forEach at h
    cases h1 : f a with
    | ok u => rw [h1] at h; obtain ⟨b, hb, h2⟩ := ih h; exact ⟨b, .tail _ hb, h2⟩
    | err e' => rw [h1] at h; cases h
    | panic => rw [h1] at h; cases h
    | fuel => rw [h1] at h; exact ⟨a, .head _, h1⟩

theorem uniqueLoop_ok_iff {α : Type} (f : α → String × Res Unit) (as : List α) (names : List String) :
    uniqueLoop f as names = .ok () ↔
      (as.map (fun a => (f a).1)).Nodup ∧ (∀ a ∈ as, (f a).1 ∉ names) ∧ ∀ a ∈ as, (f a).2 = .ok () := by
  induction as generalizing names with
  | nil => simp [uniqueLoop]
  | cons a as ih =>
    unfold uniqueLoop
    by_cases hc : (f a).1 ∈ names
    · simp [hc]
    · rw [if_neg (by simpa using hc)]
      cases h : (f a).2 with
      | ok u =>
        cases u
        simp only [ih, List.map_cons, List.nodup_cons, List.mem_cons, forall_eq_or_imp, hc, h, not_false_eq_true,
          true_and, List.mem_map, not_or, not_exists, not_and]
        constructor
        · rintro ⟨h1, h2, h3⟩
          exact ⟨⟨fun b hb => (h2 b hb).1, h1⟩, fun b hb => (h2 b hb).2, h3⟩
        · rintro ⟨⟨h1, h2⟩, h3, h4⟩
          exact ⟨h2, fun b hb => ⟨h1 b hb, h3 b hb⟩, h4⟩
      | err e => simp [h]
      | panic => simp [h]
      | fuel => simp [h]

theorem uniqueLoop_total {α : Type} (f : α → String × Res Unit) (as : List α) (names : List String)
    (h : ∀ a ∈ as, (f a).2 = .ok () ∨ (f a).2 = .err .duplicateDefinition) :
    uniqueLoop f as names = .ok () ∨ uniqueLoop f as names = .err .duplicateDefinition := by
  induction as generalizing names with
  | nil => simp [uniqueLoop]
  | cons a as ih =>
    unfold uniqueLoop
    split
    · simp
    · rcases h a (.head _) with h1 | h1
      · rw [h1]
        exact ih _ (fun b hb => h b (.tail _ hb))
      · rw [h1]; simp

theorem uniqueRelationNames_ok_iff (r : Resource) :
    uniqueRelationNames r = .ok () ↔ (r.relations.map (·.name)).Nodup := by
  unfold uniqueRelationNames
  rw [uniqueLoop_ok_iff]
  simp

theorem uniqueNames_ok_iff (p : Policy) : uniqueNames p = .ok () ↔ NamesUnique p := by
  unfold uniqueNames NamesUnique
  rw [uniqueLoop_ok_iff]
  simp [uniqueRelationNames_ok_iff]

theorem uniqueNames_total (p : Policy) : uniqueNames p = .ok () ∨ uniqueNames p = .err .duplicateDefinition := by
  apply uniqueLoop_total
  intro r _
  apply uniqueLoop_total
  intro d _
  exact .inl rfl

/-! ### Lookup table -/

theorem lutAddRelations_get {res : String} {rels : List Relation} {m : List ((String × String) × Relation)}
    {a b : String} {d : Relation} (h : kvGet (lutAddRelations res m rels) (a, b) = some d) :
    (a = res ∧ d ∈ rels ∧ d.name = b) ∨ kvGet m (a, b) = some d := by
  induction rels generalizing m with
  | nil => exact .inr h
  | cons x rels ih =>
    unfold lutAddRelations at h ih
    simp only [List.foldl_cons] at h
    rcases ih h with ⟨h1, h2, h3⟩ | h1
    · exact .inl ⟨h1, .tail _ h2, h3⟩
    · rw [kvGet_put] at h1
      split at h1
      · next he =>
        cases h1
        obtain ⟨h2, h3⟩ := Prod.mk.inj he
        exact .inl ⟨h2, .head _, h3.symm⟩
      · exact .inr h1

theorem lutAddRelations_isSome {res : String} {rels : List Relation} {m : List ((String × String) × Relation)}
    {a b : String} : (kvGet (lutAddRelations res m rels) (a, b)).isSome = true ↔
      (a = res ∧ ∃ d ∈ rels, d.name = b) ∨ (kvGet m (a, b)).isSome = true := by
  induction rels generalizing m with
  | nil => simp [lutAddRelations]
  | cons x rels ih =>
    unfold lutAddRelations at ih ⊢
    simp only [List.foldl_cons]
    rw [ih, kvGet_put]
    constructor
    · rintro (⟨h1, d, h2, h3⟩ | h1)
      · exact .inl ⟨h1, d, .tail _ h2, h3⟩
      · split at h1
        · next he =>
          obtain ⟨h2, h3⟩ := Prod.mk.inj he
          exact .inl ⟨h2, x, .head _, h3.symm⟩
        · exact .inr h1
    · rintro (⟨h1, d, h2, h3⟩ | h1)
      · rcases List.mem_cons.1 h2 with h4 | h4
        · subst h4
          right
          rw [if_pos (by rw [h1, h3])]
          rfl
        · exact .inl ⟨h1, d, h4, h3⟩
      · right
        split
        · rfl
        · exact h1

/-- the fold of `newLut` -/
def lutFold (l : Lut) (rs : List Resource) : Lut :=
  rs.foldl
    (fun lut res =>
      { resources := kvPut (fun _ _ => false) lut.resources res.name res
        relations := lutAddRelations res.name lut.relations res.relations }) l

theorem lutFold_relation {rs : List Resource} {l : Lut} {a b : String} {d : Relation}
    (h : (lutFold l rs).getRelation a b = some d) :
    (∃ r ∈ rs, r.name = a ∧ d ∈ r.relations ∧ d.name = b) ∨ l.getRelation a b = some d := by
  induction rs generalizing l with
  | nil => exact .inr h
  | cons x rs ih =>
    unfold lutFold at h ih
    simp only [List.foldl_cons] at h
    rcases ih h with ⟨r, h1, h2⟩ | h1
    · exact .inl ⟨r, .tail _ h1, h2⟩
    · rcases lutAddRelations_get h1 with ⟨h2, h3, h4⟩ | h2
      · exact .inl ⟨x, .head _, h2.symm, h3, h4⟩
      · exact .inr h2

theorem lutFold_relation_isSome {rs : List Resource} {l : Lut} {a b : String} :
    ((lutFold l rs).getRelation a b).isSome = true ↔
    (∃ r ∈ rs, r.name = a ∧ ∃ d ∈ r.relations, d.name = b) ∨ (l.getRelation a b).isSome = true := by
  induction rs generalizing l with
  | nil => simp [lutFold]
  | cons x rs ih =>
    unfold lutFold at ih ⊢
    simp only [List.foldl_cons]
    rw [ih]
    unfold Lut.getRelation
    rw [lutAddRelations_isSome]
    simp only [List.mem_cons, exists_eq_or_imp]
    constructor
    · rintro (h | ⟨h1, h2⟩ | h)
      · exact .inl (.inr h)
      · exact .inl (.inl ⟨h1.symm, h2⟩)
      · exact .inr h
    · rintro ((⟨h1, h2⟩ | h) | h)
      · exact .inr (.inl ⟨h1.symm, h2⟩)
      · exact .inl h
      · exact .inr (.inr h)

theorem lutFold_resource {rs : List Resource} {l : Lut} {a : String} {r : Resource}
    (h : (lutFold l rs).getResource a = some r) :
    (r ∈ rs ∧ r.name = a) ∨ l.getResource a = some r := by
  induction rs generalizing l with
  | nil => exact .inr h
  | cons x rs ih =>
    unfold lutFold at h ih
    simp only [List.foldl_cons] at h
    rcases ih h with ⟨h1, h2⟩ | h1
    · exact .inl ⟨.tail _ h1, h2⟩
    · unfold Lut.getResource at h1
      rw [kvGet_put] at h1
      split at h1
      · next he => cases h1; exact .inl ⟨.head _, he.symm⟩
      · exact .inr h1

theorem lutFold_resource_isSome {rs : List Resource} {l : Lut} {a : String} :
    ((lutFold l rs).getResource a).isSome = true ↔
    (∃ r ∈ rs, r.name = a) ∨ (l.getResource a).isSome = true := by
  induction rs generalizing l with
  | nil => simp [lutFold]
  | cons x rs ih =>
    unfold lutFold at ih ⊢
    simp only [List.foldl_cons]
    rw [ih]
    unfold Lut.getResource
    rw [kvGet_put]
    simp only [List.mem_cons, exists_eq_or_imp]
    by_cases h : a = x.name
    · simp [h]
    · simp [h, Ne.symm h]

theorem newLut_eq (p : Policy) : newLut p = lutFold ⟨[], []⟩ p.resources := rfl

theorem newLut_relation {p : Policy} {a b : String} {d : Relation}
    (h : (newLut p).getRelation a b = some d) : Declares p a b d := by
  rw [newLut_eq] at h
  rcases lutFold_relation h with h | h
  · exact h
  · simp [Lut.getRelation, kvGet] at h

theorem newLut_relation_isSome {p : Policy} {a b : String} :
    ((newLut p).getRelation a b).isSome = true ↔ HasRelation p a b := by
  rw [newLut_eq, lutFold_relation_isSome]
  unfold HasRelation Declares
  constructor
  · rintro (⟨r, h1, h2, d, h3, h4⟩ | h)
    · exact ⟨d, r, h1, h2, h3, h4⟩
    · simp [Lut.getRelation, kvGet] at h
  · rintro ⟨d, r, h1, h2, h3, h4⟩
    exact .inl ⟨r, h1, h2, d, h3, h4⟩

theorem newLut_relation_isNone {p : Policy} {a b : String} :
    ((newLut p).getRelation a b).isNone = true ↔ ¬ HasRelation p a b := by
  rw [← newLut_relation_isSome]
  cases (newLut p).getRelation a b <;> simp

theorem newLut_resource {p : Policy} {a : String} {r : Resource}
    (h : (newLut p).getResource a = some r) : r ∈ p.resources ∧ r.name = a := by
  rw [newLut_eq] at h
  rcases lutFold_resource h with h | h
  · exact h
  · simp [Lut.getResource, kvGet] at h

theorem newLut_resource_isSome {p : Policy} {a : String} :
    ((newLut p).getResource a).isSome = true ↔ HasResource p a := by
  rw [newLut_eq, lutFold_resource_isSome]
  simp [HasResource, Lut.getResource, kvGet]

theorem newLut_resource_isNone {p : Policy} {a : String} :
    ((newLut p).getResource a).isNone = true ↔ ¬ HasResource p a := by
  rw [← newLut_resource_isSome]
  cases (newLut p).getResource a <;> simp

theorem newLut_resource_none {p : Policy} {a : String} :
    (newLut p).getResource a = none ↔ ¬ HasResource p a := by
  rw [← newLut_resource_isNone, Option.isNone_iff_eq_none]

theorem newLut_relation_none {p : Policy} {a b : String} :
    (newLut p).getRelation a b = none ↔ ¬ HasRelation p a b := by
  rw [← newLut_relation_isNone, Option.isNone_iff_eq_none]

theorem nodup_map_inj {α : Type} {f : α → String} {l : List α} (h : (l.map f).Nodup) {a b : α}
    (ha : a ∈ l) (hb : b ∈ l) (he : f a = f b) : a = b := by
  induction l with
  | nil => cases ha
  | cons x l ih =>
    rw [List.map_cons, List.nodup_cons] at h
    rcases List.mem_cons.1 ha with h1 | h1 <;> rcases List.mem_cons.1 hb with h2 | h2
    · rw [h1, h2]
    · subst h1; exact absurd (List.mem_map.2 ⟨b, h2, he.symm⟩) h.1
    · subst h2; exact absurd (List.mem_map.2 ⟨a, h1, he⟩) h.1
    · exact ih h.2 h1 h2

theorem declares_unique {p : Policy} (hu : NamesUnique p) {a b : String} {d d' : Relation}
    (h : Declares p a b d) (h' : Declares p a b d') : d = d' := by
  obtain ⟨r, h1, h2, h3, h4⟩ := h
  obtain ⟨r', h1', h2', h3', h4'⟩ := h'
  have : r = r' := nodup_map_inj hu.1 h1 h1' (h2.trans h2'.symm)
  subst this
  exact nodup_map_inj (hu.2 r h1) h3 h3' (h4.trans h4'.symm)

theorem newLut_relation_iff {p : Policy} (hu : NamesUnique p) {a b : String} {d : Relation} :
    (newLut p).getRelation a b = some d ↔ Declares p a b d := by
  constructor
  · exact newLut_relation
  · intro h
    have := newLut_relation_isSome.2 (⟨d, h⟩ : HasRelation p a b)
    obtain ⟨d', hd'⟩ := Option.isSome_iff_exists.1 this
    rw [hd', declares_unique hu h (newLut_relation hd')]

/-! ### Restrictions, expressions -/

theorem validRestriction_ok_iff (p : Policy) (x : Restriction) :
    validRestriction (newLut p) x = .ok () ↔ RestrictionOK p x := by
  cases x with
  | unset => simp [validRestriction, RestrictionOK]
  | entity n =>
    simp only [validRestriction, RestrictionOK]
    by_cases h : HasResource p n
    · simp only [newLut_resource_isNone, h, not_true_eq_false, if_false]
    · simp only [newLut_resource_isNone, h, not_false_eq_true, if_true, reduceCtorEq]
  | entitySet n r =>
    simp only [validRestriction, RestrictionOK]
    by_cases h : HasRelation p n r
    · simp only [newLut_relation_isNone, h, not_true_eq_false, if_false]
    · simp only [newLut_relation_isNone, h, not_false_eq_true, if_true, reduceCtorEq]

theorem validRestriction_total (l : Lut) (x : Restriction) :
    validRestriction l x = .ok () ∨ validRestriction l x = .err .restriction := by
  cases x <;> simp only [validRestriction] <;> (try split) <;> simp

theorem validSubjectRestriction_ok_iff (p : Policy) (x : SubjectRestriction) :
    validSubjectRestriction (newLut p) x = .ok () ↔ SubjectRestrictionOK p x := by
  cases x with
  | unset => simp [validSubjectRestriction, SubjectRestrictionOK]
  | universalSet => simp [validSubjectRestriction, SubjectRestrictionOK]
  | restrictionSet rs =>
    simp [validSubjectRestriction, SubjectRestrictionOK, forEach_ok_iff, validRestriction_ok_iff]

theorem validSubjectRestriction_total (l : Lut) (x : SubjectRestriction) :
    validSubjectRestriction l x = .ok () ∨ validSubjectRestriction l x = .err .restriction := by
  cases x with
  | unset => simp [validSubjectRestriction]
  | universalSet => simp [validSubjectRestriction]
  | restrictionSet rs =>
    simp only [validSubjectRestriction]
    cases h : forEach (validRestriction l) rs with
    | ok u => simp
    | err e =>
      obtain ⟨a, _, h1⟩ := forEach_err h
      rcases validRestriction_total l a with h2 | h2 <;> rw [h1] at h2 <;> cases h2
      exact .inr rfl
    | panic =>
      obtain ⟨a, _, h1⟩ := forEach_panic h
      rcases validRestriction_total l a with h2 | h2 <;> rw [h1] at h2 <;> cases h2
    | fuel =>
      obtain ⟨a, _, h1⟩ := forEach_fuel h
      rcases validRestriction_total l a with h2 | h2 <;> rw [h1] at h2 <;> cases h2

/-- A loop all of whose steps give ok or one fixed error gives ok or that error. -/
theorem forEach_total {α : Type} {f : α → Res Unit} {as : List α} {P : Err → Prop}
    (h : ∀ a ∈ as, f a = .ok () ∨ ∃ e, P e ∧ f a = .err e) :
    forEach f as = .ok () ∨ ∃ e, P e ∧ forEach f as = .err e := by
  cases h0 : forEach f as with
  | ok u => simp
  | err e =>
    obtain ⟨a, ha, h1⟩ := forEach_err h0
    rcases h a ha with h2 | ⟨e', he, h2⟩ <;> rw [h1] at h2 <;> cases h2
    exact .inr ⟨e, he, rfl⟩
  | panic =>
    obtain ⟨a, ha, h1⟩ := forEach_panic h0
    rcases h a ha with h2 | ⟨e', he, h2⟩ <;> rw [h1] at h2 <;> cases h2
  | fuel =>
    obtain ⟨a, ha, h1⟩ := forEach_fuel h0
    rcases h a ha with h2 | ⟨e', he, h2⟩ <;> rw [h1] at h2 <;> cases h2

theorem subjectRestrictionsConsistent_ok_iff (p : Policy) :
    subjectRestrictionsConsistent p (newLut p) = .ok () ↔ RestrictionsOK p := by
  unfold subjectRestrictionsConsistent RestrictionsOK
  simp only [forEach_ok_iff]
  refine forall_congr' fun r => forall_congr' fun _ => forall_congr' fun d => forall_congr' fun _ => ?_
  cases hd : d.subjectRestriction with
  | none => simp
  | some sr =>
    simp only [Option.some.injEq, forall_eq']
    rw [← validSubjectRestriction_ok_iff]
    rcases validSubjectRestriction_total (newLut p) sr with h | h <;> simp [h]

theorem subjectRestrictionsConsistent_total (p : Policy) :
    subjectRestrictionsConsistent p (newLut p) = .ok () ∨
    subjectRestrictionsConsistent p (newLut p) = .err .subjectRestriction := by
  have := forEach_total (P := fun e => e = .subjectRestriction) (as := p.resources)
    (f := fun (res : Resource) =>
    forEach (fun (rel : Relation) =>
      match rel.subjectRestriction with
      | none => .ok ()
      | some sr =>
        match validSubjectRestriction (newLut p) sr with
        | .ok () => .ok ()
        | .err _ => .err .subjectRestriction
        | .panic => .panic
        | .fuel => .fuel) res.relations) (by
      intro r _
      apply forEach_total
      intro d _
      cases hd : d.subjectRestriction with
      | none => simp
      | some sr =>
        rcases validSubjectRestriction_total (newLut p) sr with h | h <;> simp [h])
  rcases this with h | ⟨e, rfl, h⟩
  · exact .inl h
  · exact .inr h

theorem policyContains_ok_iff (p : Policy) (res : String) (x : Rule) :
    policyContainsRelationsInRule res (newLut p) x = .ok () ↔ RuleOK p res x := by
  cases x with
  | unset => simp [policyContainsRelationsInRule, RuleOK]
  | this => simp [policyContainsRelationsInRule, RuleOK]
  | cu n =>
    simp only [policyContainsRelationsInRule, RuleOK]
    by_cases h : HasRelation p res n
    · simp only [newLut_relation_isNone, h, not_true_eq_false, if_false]
    · simp only [newLut_relation_isNone, h, not_false_eq_true, if_true, reduceCtorEq]
  | ttu n m =>
    simp only [policyContainsRelationsInRule, RuleOK]
    by_cases h : HasRelation p res n
    · simp only [newLut_relation_isNone, h, not_true_eq_false, if_false]
    · simp only [newLut_relation_isNone, h, not_false_eq_true, if_true, reduceCtorEq]

theorem policyContains_total (l : Lut) (res : String) (x : Rule) :
    policyContainsRelationsInRule res l x = .ok () ∨
    ∃ e, (e = .relExpTree ∨ e = .invalidVariant) ∧ policyContainsRelationsInRule res l x = .err e := by
  cases x <;> simp only [policyContainsRelationsInRule] <;> (try split) <;> simp

theorem derives_noNil {nt : NT} {ss : List Sym} {t : ExprTree} (h : Derives nt ss t) : NoNil t := by
  induction h with
  | this => trivial
  | cu => trivial
  | ttu => trivial
  | group _ ih => exact ih
  | single _ ih => exact ih
  | binary _ _ _ ih1 ih2 => exact ⟨ih1, ih2⟩

theorem getExpressionTree_ok_iff (U : Unicode) (d : Relation) (t : ExprTree) :
    getExpressionTree U d = .ok t ↔ Denotes U.isIdent whiteSpace d t := by
  unfold getExpressionTree Denotes
  cases h : d.relationExpression with
  | none => simp
  | some x =>
    cases x with
    | unset => simp
    | tree t' => simp
    | expr text => simp [C02_parse_iff_grammar]

/-- One relation of `relationExpressionWellDefined`. -/
def wellDefinedOne (U : Unicode) (res : String) (lut : Lut) (rel : Relation) : Res Unit := do
  let tree ← getExpressionTree U rel
  let rules ← tree.getRules
  forEach (policyContainsRelationsInRule res lut) rules

theorem wellDefinedOne_ok_iff (U : Unicode) (p : Policy) (res : String) (d : Relation) :
    wellDefinedOne U res (newLut p) d = .ok () ↔
      ∃ t, Denotes U.isIdent whiteSpace d t ∧ NoNil t ∧ ∀ x ∈ leaves t, RuleOK p res x := by
  unfold wellDefinedOne
  rw [Res.bind_eq_ok]
  constructor
  · rintro ⟨t, h1, h2⟩
    rw [Res.bind_eq_ok] at h2
    obtain ⟨rules, h2, h3⟩ := h2
    by_cases hn : NoNil t
    · rw [(C57_rules_are_leaves t).1 hn] at h2
      cases h2
      refine ⟨t, (getExpressionTree_ok_iff U d t).1 h1, hn, ?_⟩
      simpa [forEach_ok_iff, policyContains_ok_iff] using h3
    · rw [(C57_rules_are_leaves t).2 hn] at h2
      cases h2
  · rintro ⟨t, h1, hn, h3⟩
    refine ⟨t, (getExpressionTree_ok_iff U d t).2 h1, ?_⟩
    rw [(C57_rules_are_leaves t).1 hn]
    simpa [forEach_ok_iff, policyContains_ok_iff] using h3

theorem wellDefinedOne_total (U : Unicode) (p : Policy) (res : String) (d : Relation)
    (hp : d.relationExpression ≠ none) (hn : ∀ t, d.relationExpression = some (.tree t) → NoNil t) :
    wellDefinedOne U res (newLut p) d = .ok () ∨
    ∃ e, (e = .relExpTree ∨ e = .invalidVariant ∨ e = .parse) ∧ wellDefinedOne U res (newLut p) d = .err e := by
  unfold wellDefinedOne
  have key : ∀ t, NoNil t → ((t.getRules >>= fun rules => forEach (policyContainsRelationsInRule res (newLut p)) rules) = .ok () ∨
      ∃ e, (e = .relExpTree ∨ e = .invalidVariant ∨ e = .parse) ∧
        (t.getRules >>= fun rules => forEach (policyContainsRelationsInRule res (newLut p)) rules) = .err e) := by
    intro t ht
    rw [(C57_rules_are_leaves t).1 ht]
    apply forEach_total
    intro x _
    rcases policyContains_total (newLut p) res x with h | ⟨e, h1, h2⟩
    · exact .inl h
    · exact .inr ⟨e, by rcases h1 with h1 | h1 <;> simp [h1], h2⟩
  unfold getExpressionTree
  cases h : d.relationExpression with
  | none => exact absurd h hp
  | some x =>
    cases x with
    | unset => simp
    | tree t => exact key t (hn t h)
    | expr text =>
      dsimp only
      rcases C03_parse_total U text with ⟨t, ht⟩ | ht
      · rw [ht]
        obtain ⟨_, _, hd⟩ := (C02_parse_iff_grammar U text t).1 ht
        exact key t (derives_noNil hd)
      · rw [ht]
        exact .inr ⟨_, by simp, rfl⟩

theorem relationExpressionWellDefined_eq (U : Unicode) (p : Policy) (l : Lut) :
    relationExpressionWellDefined U p l =
      forEach (fun (res : Resource) => forEach (wellDefinedOne U res.name l) res.relations) p.resources := rfl

theorem restrictionSet_entity (n : String) (rs : List Restriction) :
    rs.any (satisfiesRestriction n) = true ↔ .entity n ∈ rs := by
  rw [List.any_eq_true]
  constructor
  · rintro ⟨x, hx, h⟩
    cases x with
    | entity m => simp [satisfiesRestriction] at h; subst h; exact hx
    | entitySet _ _ => simp [satisfiesRestriction] at h
    | unset => simp [satisfiesRestriction] at h
  · intro h
    exact ⟨_, h, by simp [satisfiesRestriction]⟩

theorem restrictionSet_entitySet (n rel : String) (rs : List Restriction) :
    rs.any (satisfiesRestrictionForEntitySet n rel) = true ↔ .entitySet n rel ∈ rs := by
  rw [List.any_eq_true]
  constructor
  · rintro ⟨x, hx, h⟩
    cases x with
    | entity m => simp [satisfiesRestrictionForEntitySet] at h
    | entitySet a b =>
      simp only [satisfiesRestrictionForEntitySet, Bool.and_eq_true, beq_iff_eq] at h
      rw [← h.1, ← h.2]; exact hx
    | unset => simp [satisfiesRestrictionForEntitySet] at h
  · intro h
    exact ⟨_, h, by simp [satisfiesRestrictionForEntitySet]⟩

theorem checkSymbols_ok_iff (p : Policy) (r : Relationship) :
    checkSymbols (some r) (newLut p) = .ok () ↔ SymbolsKnown p r := by
  obtain ⟨ob, rn, sb⟩ := r
  unfold checkSymbols SymbolsKnown
  cases ob with
  | none => simp
  | some o =>
    by_cases h1 : HasResource p o.resource
    · by_cases h2 : HasRelation p o.resource rn
      · cases sb with
        | none => simp [h1, h2, newLut_resource_none, newLut_relation_none]
        | some s =>
          cases s with
          | unset => simp [SubjectKnown, h1, h2, newLut_resource_none, newLut_relation_none]
          | entity e =>
            by_cases h3 : HasResource p e.resource <;>
              simp [SubjectKnown, h3, h1, h2, newLut_resource_none, newLut_relation_none]
          | resourceSet n =>
            by_cases h3 : HasResource p n <;>
              simp [SubjectKnown, h3, h1, h2, newLut_resource_none, newLut_relation_none]
          | entitySet e rel =>
            cases e with
            | none => simp [SubjectKnown, h1, h2, newLut_resource_none, newLut_relation_none]
            | some e =>
              by_cases h3 : HasRelation p e.resource rel <;>
                simp [SubjectKnown, h3, h1, h2, newLut_resource_none, newLut_relation_none]
      · simp [h1, h2, newLut_resource_none, newLut_relation_none]
    · simp [h1, newLut_resource_none]

theorem satisfiesRestrictionSet_cases {s : Subject} (rs : List Restriction)
    (h : ∀ rel, s ≠ .entitySet none rel) (hu : s ≠ .unset) :
    (satisfiesRestrictionSet s rs = .ok () ∧ Permits (.restrictionSet rs) s) ∨
    (satisfiesRestrictionSet s rs = .err .restriction ∧ ¬ Permits (.restrictionSet rs) s) := by
  cases s with
  | unset => exact absurd rfl hu
  | entity e =>
    simp only [satisfiesRestrictionSet]
    by_cases h1 : rs.any (satisfiesRestriction e.resource) = true
    · rw [if_pos h1]
      exact .inl ⟨rfl, .entity ((restrictionSet_entity _ _).1 h1)⟩
    · rw [if_neg h1]
      refine .inr ⟨rfl, ?_⟩
      intro hp
      cases hp with
      | entity hp => exact h1 ((restrictionSet_entity _ _).2 hp)
  | resourceSet n =>
    simp only [satisfiesRestrictionSet]
    by_cases h1 : rs.any (satisfiesRestriction n) = true
    · rw [if_pos h1]
      exact .inl ⟨rfl, .all ((restrictionSet_entity _ _).1 h1)⟩
    · rw [if_neg h1]
      refine .inr ⟨rfl, ?_⟩
      intro hp
      cases hp with
      | all hp => exact h1 ((restrictionSet_entity _ _).2 hp)
  | entitySet e rel =>
    cases e with
    | none => exact absurd rfl (h rel)
    | some e =>
      simp only [satisfiesRestrictionSet]
      by_cases h1 : rs.any (satisfiesRestrictionForEntitySet e.resource rel) = true
      · rw [if_pos h1]
        exact .inl ⟨rfl, .entitySet ((restrictionSet_entitySet _ _ _).1 h1)⟩
      · rw [if_neg h1]
        refine .inr ⟨rfl, ?_⟩
        intro hp
        cases hp with
        | entitySet hp => exact h1 ((restrictionSet_entitySet _ _ _).2 hp)

theorem subjectKnown_shape {p : Policy} {s : Subject} (h : SubjectKnown p s) :
    (∀ rel, s ≠ .entitySet none rel) ∧ s ≠ .unset := by
  constructor
  · rintro rel rfl; exact h
  · rintro rfl; exact h

/-- Once the symbols are known, the restriction check decides `Permits`. -/
theorem subjectRestrictionSatisfies_cases (p : Policy) (hu : NamesUnique p) (r : Relationship) {o : Entity}
    {s : Subject} {d : Relation} (ho : r.object = some o) (hs : r.subject = some s) (hk : SubjectKnown p s)
    (hd : Declares p o.resource r.relation d) :
    (d.subjectRestriction = none ∧ subjectRestrictionSatisfies r (newLut p) = .panic) ∨
    ∃ sr, d.subjectRestriction = some sr ∧
      ((subjectRestrictionSatisfies r (newLut p) = .ok () ∧ Permits sr s) ∨
       (subjectRestrictionSatisfies r (newLut p) = .err .subjectNotAllowed ∧ ¬ Permits sr s)) := by
  have hsh := subjectKnown_shape hk
  unfold subjectRestrictionSatisfies
  rw [ho]
  simp only [Res.deref_some, Res.bind_ok]
  rw [(newLut_relation_iff hu).2 hd]
  dsimp only
  cases hr : d.subjectRestriction with
  | none => left; simp
  | some sr =>
    right
    refine ⟨sr, rfl, ?_⟩
    simp only [Res.deref_some, Res.bind_ok]
    cases sr with
    | unset => right; exact ⟨rfl, nofun⟩
    | universalSet => left; exact ⟨rfl, .universal s⟩
    | restrictionSet rs =>
      simp only [hs, Res.deref_some, Res.bind_ok]
      rcases satisfiesRestrictionSet_cases rs hsh.1 hsh.2 with ⟨h1, h2⟩ | ⟨h1, h2⟩
      · rw [h1]; exact .inl ⟨rfl, h2⟩
      · rw [h1]; exact .inr ⟨rfl, h2⟩

theorem hasResource_ne {p : Policy} (hf : PolicyFieldsOK p) {n : String} (h : HasResource p n) : n ≠ "" := by
  obtain ⟨r, hr, rfl⟩ := h
  exact (hf.2 r hr).1

theorem hasRelation_ne {p : Policy} (hf : PolicyFieldsOK p) {n m : String} (h : HasRelation p n m) :
    n ≠ "" ∧ m ≠ "" := by
  obtain ⟨d, r, hr, rfl, hd, rfl⟩ := h
  exact ⟨(hf.2 r hr).1, (hf.2 r hr).2 d hd⟩

theorem getResourceByName_iff {p : Policy} (hu : NamesUnique p) {n : String} {r : Resource} :
    p.getResourceByName n = some r ↔ r ∈ p.resources ∧ r.name = n := by
  unfold Policy.getResourceByName
  constructor
  · intro h
    exact ⟨List.mem_of_find?_eq_some h, by simpa using List.find?_some h⟩
  · rintro ⟨h1, h2⟩
    cases h : p.resources.find? (fun r => r.name == n) with
    | none =>
      have := List.find?_eq_none.1 h r h1
      simp [h2] at this
    | some r' =>
      have h3 := List.mem_of_find?_eq_some h
      have h4 : r'.name = n := by simpa using List.find?_some h
      rw [nodup_map_inj hu.1 h3 h1 (h4.trans h2.symm)]

theorem getResourceByName_none {p : Policy} {n : String} :
    p.getResourceByName n = none ↔ ¬ HasResource p n := by
  unfold Policy.getResourceByName HasResource
  rw [List.find?_eq_none]
  simp

theorem getRelationByName_isNone {p : Policy} (hu : NamesUnique p) {n rel : String} (hr : HasResource p n) :
    ∃ x, getRelationByName (p.getResourceByName n) rel = .ok x ∧ (x.isNone = true ↔ ¬ HasRelation p n rel) := by
  obtain ⟨r, h1, h2⟩ := hr
  rw [(getResourceByName_iff hu).2 ⟨h1, h2⟩]
  refine ⟨_, rfl, ?_⟩
  rw [Option.isNone_iff_eq_none, List.find?_eq_none]
  constructor
  · rintro h ⟨d, r', h3, h4, h5, h6⟩
    have : r' = r := nodup_map_inj hu.1 h3 h1 (h4.trans h2.symm)
    subst this
    have := h d h5
    simp [h6] at this
  · intro h d hd he
    exact h ⟨d, r, h1, h2, hd, by simpa using he⟩

end Zanzi
