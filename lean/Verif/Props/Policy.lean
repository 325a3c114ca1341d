import Verif.Lemmas.Policy

/-
Properties C07-C12 and C55: policy validation, relation lookup, relationship admission, selectors.
-/

namespace Zanzi
open Spec

/-! ### Example policy used for the non-vacuity checks -/

/-- file/owner, file/parent, file/viewer, dir/viewer -/
def exPolicy : Policy :=
  { id := "p1"
    resources := [
      { name := "user", relations := [] },
      { name := "dir", relations := [
        { name := "viewer", relationExpression := some (.expr "_this"),
          subjectRestriction := some (.restrictionSet [.entity "user"]) }] },
      { name := "file", relations := [
        { name := "owner", relationExpression := some (.expr "_this"),
          subjectRestriction := some (.restrictionSet [.entity "user"]) },
        { name := "parent", relationExpression := some (.tree (.rule .this)),
          subjectRestriction := some (.restrictionSet [.entity "dir", .entitySet "dir" "viewer"]) },
        { name := "viewer", relationExpression := some (.expr "_this + owner + parent->viewer"),
          subjectRestriction := some .universalSet }] }] }

example : verifyPolicy U0 exPolicy = .ok () := by decide +kernel

/-! ### C09: validation -/

/-- C09: a policy is accepted exactly when its names are unique, its subject restrictions are consistent,
and every expression has a meaning whose rules resolve.  Nothing else is checked. -/
theorem C09_validation_exact (U : Unicode) (p : Policy) :
    verifyPolicy U p = .ok () ↔
      NamesUnique p ∧ RestrictionsOK p ∧ ExpressionsOK U.isIdent whiteSpace p := by
  unfold verifyPolicy
  simp only [requiredFieldsPresent_ok]
  simp only [Res.bind_eq_ok, Res.bind_ok]
  constructor
  · rintro ⟨_, h1, _, h2, h3⟩
    refine ⟨(uniqueNames_ok_iff p).1 h1, (subjectRestrictionsConsistent_ok_iff p).1 h2, ?_⟩
    rw [relationExpressionWellDefined_eq] at h3
    simp only [forEach_ok_iff, wellDefinedOne_ok_iff] at h3
    exact h3
  · rintro ⟨h1, h2, h3⟩
    refine ⟨(), (uniqueNames_ok_iff p).2 h1, (), (subjectRestrictionsConsistent_ok_iff p).2 h2, ?_⟩
    rw [relationExpressionWellDefined_eq]
    simp only [forEach_ok_iff, wellDefinedOne_ok_iff]
    exact h3

/-- C09, rejections: when no expression is missing, validation never crashes, and the kind of error tells which
check failed first: duplicate names, then subject restrictions, then expressions. -/
theorem C09_rejections_exact (U : Unicode) (p : Policy) (hp : ExpressionsPresent p) :
    (¬ NamesUnique p → verifyPolicy U p = .err .duplicateDefinition) ∧
    (NamesUnique p → ¬ RestrictionsOK p → verifyPolicy U p = .err .subjectRestriction) ∧
    (NamesUnique p → RestrictionsOK p → ¬ ExpressionsOK U.isIdent whiteSpace p →
      verifyPolicy U p = .err .relExpTree ∨ verifyPolicy U p = .err .invalidVariant ∨
      verifyPolicy U p = .err .parse) := by
  refine ⟨?_, ?_, ?_⟩
  · intro h
    unfold verifyPolicy
    rcases uniqueNames_total p with h1 | h1
    · exact absurd ((uniqueNames_ok_iff p).1 h1) h
    · rw [h1]; rfl
  · intro h h2
    unfold verifyPolicy
    simp only [requiredFieldsPresent_ok]
    rw [(uniqueNames_ok_iff p).2 h]
    rcases subjectRestrictionsConsistent_total p with h1 | h1
    · exact absurd ((subjectRestrictionsConsistent_ok_iff p).1 h1) h2
    · simp [h1]
  · intro h h2 h3
    have : relationExpressionWellDefined U p (newLut p) = .ok () ∨
        ∃ e, (e = .relExpTree ∨ e = .invalidVariant ∨ e = .parse) ∧
          relationExpressionWellDefined U p (newLut p) = .err e := by
      rw [relationExpressionWellDefined_eq]
      apply forEach_total
      intro r hr
      apply forEach_total
      intro d hd
      exact wellDefinedOne_total U p r.name d (hp r hr d hd).1 (hp r hr d hd).2
    have hv : verifyPolicy U p = relationExpressionWellDefined U p (newLut p) := by
      unfold verifyPolicy
      simp only [requiredFieldsPresent_ok]
      rw [(uniqueNames_ok_iff p).2 h]
      simp [(subjectRestrictionsConsistent_ok_iff p).2 h2]
    rcases this with h4 | ⟨e, he, h4⟩
    · rw [← hv] at h4
      exact absurd ((C09_validation_exact U p).1 h4).2.2 h3
    · rw [hv, h4]
      rcases he with rfl | rfl | rfl <;> simp

example : ExpressionsPresent exPolicy := by
  unfold ExpressionsPresent exPolicy
  simp [NoNil]

/-! ### C07: names -/

/-- C07: an accepted policy has distinct resource names, and distinct relation names inside each
resource; any other policy whose expressions are present is rejected as a duplicate definition. -/
theorem C07_names_unique (U : Unicode) (p : Policy) :
    (verifyPolicy U p = .ok () → NamesUnique p) ∧
    (¬ NamesUnique p → verifyPolicy U p = .err .duplicateDefinition) := by
  refine ⟨fun h => ((C09_validation_exact U p).1 h).1, fun h => ?_⟩
  unfold verifyPolicy
  rcases uniqueNames_total p with h1 | h1
  · exact absurd ((uniqueNames_ok_iff p).1 h1) h
  · rw [h1]; rfl

example : ¬ NamesUnique { id := "p", resources := [⟨"a", "", []⟩, ⟨"b", "", []⟩, ⟨"a", "", []⟩] } := by
  simp [NamesUnique]

/-! ### C08: references -/

/-- A policy whose arrow leads to a relation that no resource has. -/
def danglingPolicy : Policy :=
  { id := "p"
    resources := [
      { name := "dir", relations := [] },
      { name := "file", relations := [
        { name := "parent", relationExpression := some (.expr "_this"),
          subjectRestriction := some (.restrictionSet [.entity "dir"]) },
        { name := "viewer", relationExpression := some (.tree (.rule (.ttu "parent" "ghost"))),
          subjectRestriction := some .universalSet }] }] }

/-- C08 is violated: a policy is accepted although the relation on the right of an arrow exists
in none of the resources the tupleset relation can point to. -/
theorem C08_references_violated :
    verifyPolicy U0 danglingPolicy = .ok () ∧ ¬ ArrowsOK U0.isIdent whiteSpace danglingPolicy := by
  refine ⟨by decide +kernel, ?_⟩
  intro h
  have h1 := h ⟨"file", "", _⟩ (.tail _ (.head _))
    ⟨"viewer", "", some (.tree (.rule (.ttu "parent" "ghost"))), some .universalSet⟩ (.tail _ (.head _))
    (.rule (.ttu "parent" "ghost")) (.inl rfl) "parent" "ghost" (by simp [leaves])
    ⟨"parent", "", some (.expr "_this"), some (.restrictionSet [.entity "dir"])⟩
    ⟨_, .tail _ (.head _), rfl, .head _, rfl⟩ "dir" (.inr ⟨[.entity "dir"], rfl, .inl (.head _)⟩)
  obtain ⟨d, r, hr, hn, hd, hdn⟩ := h1
  simp only [danglingPolicy, List.mem_cons, List.not_mem_nil, or_false] at hr
  rcases hr with rfl | rfl
  · simp at hd
  · simp at hn

/-- C08, the part that holds: in an accepted policy every relation and resource named by a subject
restriction exists, and every computed relation and every tupleset relation exists in the same
resource.  Missing: the relation on the right of an arrow. -/
theorem C08_references_partial (U : Unicode) (p : Policy) (h : verifyPolicy U p = .ok ()) :
    (∀ r ∈ p.resources, ∀ d ∈ r.relations, ∀ rs, d.subjectRestriction = some (.restrictionSet rs) →
      (∀ n, .entity n ∈ rs → HasResource p n) ∧ (∀ n rel, .entitySet n rel ∈ rs → HasRelation p n rel)) ∧
    (∀ r ∈ p.resources, ∀ d ∈ r.relations, ∃ t, Denotes U.isIdent whiteSpace d t ∧
      (∀ n, .cu n ∈ leaves t → HasRelation p r.name n) ∧
      (∀ a b, .ttu a b ∈ leaves t → HasRelation p r.name a)) := by
  obtain ⟨_, h2, h3⟩ := (C09_validation_exact U p).1 h
  constructor
  · intro r hr d hd rs hrs
    have := h2 r hr d hd _ hrs
    exact ⟨fun n hn => this _ hn, fun n rel hn => this _ hn⟩
  · intro r hr d hd
    obtain ⟨t, h4, _, h5⟩ := h3 r hr d hd
    exact ⟨t, h4, fun n hn => h5 _ hn, fun a b hn => h5 _ hn⟩

/-! ### C11: lookup -/

/-- C11: in a policy with unique names (every accepted policy), looking up a pair of names gives the
relation declared under that resource with that name, and nothing when there is none; the same for
resources. -/
theorem C11_lookup_exact (p : Policy) (hu : NamesUnique p) (res rel : String) :
    (∀ d, (newLut p).getRelation res rel = some d ↔ Declares p res rel d) ∧
    ((newLut p).getRelation res rel = none ↔ ¬ HasRelation p res rel) ∧
    (∀ r, (newLut p).getResource res = some r ↔ (r ∈ p.resources ∧ r.name = res)) ∧
    ((newLut p).getResource res = none ↔ ¬ HasResource p res) := by
  refine ⟨fun d => newLut_relation_iff hu, ?_, fun r => ⟨newLut_resource, ?_⟩, ?_⟩
  · rw [← newLut_relation_isNone]; simp
  · rintro ⟨h1, h2⟩
    obtain ⟨r', hr'⟩ := Option.isSome_iff_exists.1 (newLut_resource_isSome.2 (⟨r, h1, h2⟩ : HasResource p res))
    have := newLut_resource hr'
    rw [hr', nodup_map_inj hu.1 h1 this.1 (h2.trans this.2.symm)]
  · rw [← newLut_resource_isNone]; simp

/-- C11, no aliasing: lookups of two pairs give the same declared relation object only where the policy
declares it under both; a lookup never answers with a relation of another name. -/
theorem C11_no_aliasing (p : Policy) (res rel : String) (d : Relation)
    (h : (newLut p).getRelation res rel = some d) :
    d.name = rel ∧ ∃ r ∈ p.resources, r.name = res ∧ d ∈ r.relations := by
  obtain ⟨r, h1, h2, h3, h4⟩ := newLut_relation h
  exact ⟨h4, r, h1, h2, h3⟩

example : NamesUnique exPolicy := by simp [NamesUnique, exPolicy]
example : ((newLut exPolicy).getRelation "file" "owner").isSome = true := by decide +kernel

/-! ### C12: admission -/

/-- C12: for a policy with unique names, a relationship passes admission exactly when its object, relation and
subject are declared and the relation's subject restriction permits the subject. -/
theorem C12_admission_exact (p : Policy) (hu : NamesUnique p) (r : Relationship) :
    allowedRelationship (some r) (newLut p) = .ok () ↔ Admissible p r := by
  unfold allowedRelationship
  simp only [relRequiredFields_ok]
  simp only [Res.bind_ok, Res.deref_some]
  rw [Res.bind_eq_ok]
  constructor
  · rintro ⟨_, h1, h2⟩
    have hk := (checkSymbols_ok_iff p r).1 h1
    obtain ⟨o, s, ho, hs, _, ⟨d, hd⟩, hsk⟩ := id hk
    rcases subjectRestrictionSatisfies_cases p hu r ho hs hsk hd with ⟨_, h3⟩ | ⟨sr, h3, ⟨_, h5⟩ | ⟨h4, _⟩⟩
    · rw [h2] at h3; cases h3
    · exact ⟨hk, o, s, d, sr, ho, hs, hd, h3, h5⟩
    · rw [h2] at h4; cases h4
  · rintro ⟨hk, o, s, d, sr, ho, hs, hd, h3, h5⟩
    obtain ⟨_, s', _, hs', _, _, hsk⟩ := id hk
    rw [hs] at hs'; cases hs'
    refine ⟨(), (checkSymbols_ok_iff p r).2 hk, ?_⟩
    rcases subjectRestrictionSatisfies_cases p hu r ho hs hsk hd with ⟨h6, _⟩ | ⟨sr', h6, ⟨h7, _⟩ | ⟨_, h8⟩⟩
    · rw [h3] at h6; cases h6
    · exact h7
    · rw [h3] at h6; cases h6; exact absurd h5 h8

/-- C12, reason: the subject restriction is blamed exactly when all names are declared but the restriction
does not permit the subject. -/
theorem C12_subject_not_allowed_exact (p : Policy) (hu : NamesUnique p) (r : Relationship) :
    allowedRelationship (some r) (newLut p) = .err .subjectNotAllowed ↔
      SymbolsKnown p r ∧ ∃ o s d sr, r.object = some o ∧ r.subject = some s ∧
        Declares p o.resource r.relation d ∧ d.subjectRestriction = some sr ∧ ¬ Permits sr s := by
  unfold allowedRelationship
  simp only [relRequiredFields_ok]
  simp only [Res.bind_ok, Res.deref_some]
  constructor
  · intro h
    by_cases hk : SymbolsKnown p r
    · rw [(checkSymbols_ok_iff p r).2 hk, Res.bind_ok] at h
      refine ⟨hk, ?_⟩
      obtain ⟨o, s, ho, hs, _, ⟨d, hd⟩, hsk⟩ := hk
      rcases subjectRestrictionSatisfies_cases p hu r ho hs hsk hd with ⟨_, h3⟩ | ⟨sr, h3, ⟨h4, _⟩ | ⟨_, h5⟩⟩
      · rw [h] at h3; cases h3
      · rw [h] at h4; cases h4
      · exact ⟨o, s, d, sr, ho, hs, hd, h3, h5⟩
    · exfalso
      have hc : checkSymbols (some r) (newLut p) ≠ .ok () := fun hc => hk ((checkSymbols_ok_iff p r).1 hc)
      have hn : checkSymbols (some r) (newLut p) ≠ .err .subjectNotAllowed := by
        unfold checkSymbols
        simp only [Res.deref_some, Res.bind_ok]
        cases r.object with
        | none => simp
        | some o =>
          simp only [Res.deref_some, Res.bind_ok]
          split
          · simp
          · split
            · simp
            · cases r.subject with
              | none => simp
              | some s =>
                simp only [Res.deref_some, Res.bind_ok]
                cases s with
                | unset => simp
                | entity e => simp only; split <;> simp
                | resourceSet e => simp only; split <;> simp
                | entitySet e rel =>
                  cases e with
                  | none => simp
                  | some e => simp only [Res.deref_some, Res.bind_ok]; split <;> simp
      cases hr : checkSymbols (some r) (newLut p) with
      | ok u => exact hc hr
      | err e => rw [hr] at h; simp at h; subst h; exact hn hr
      | panic => rw [hr] at h; simp at h
      | fuel => rw [hr] at h; simp at h
  · rintro ⟨hk, o, s, d, sr, ho, hs, hd, h3, h5⟩
    obtain ⟨_, s', _, hs', _, _, hsk⟩ := id hk
    rw [hs] at hs'; cases hs'
    rw [(checkSymbols_ok_iff p r).2 hk, Res.bind_ok]
    rcases subjectRestrictionSatisfies_cases p hu r ho hs hsk hd with ⟨h6, _⟩ | ⟨sr', h6, ⟨_, h7⟩ | ⟨h7, _⟩⟩
    · rw [h3] at h6; cases h6
    · rw [h3] at h6; cases h6; exact absurd h7 h5
    · exact h7

/-- Non-vacuity: an admitted relationship and one refused by the restriction. -/
example : allowedRelationship (some ⟨some ⟨"file", "readme"⟩, "parent", some (.entitySet (some ⟨"dir", "root"⟩) "viewer")⟩)
    (newLut exPolicy) = .ok () := by decide +kernel
example : allowedRelationship (some ⟨some ⟨"file", "readme"⟩, "parent", some (.entity ⟨"user", "bob"⟩)⟩)
    (newLut exPolicy) = .err .subjectNotAllowed := by decide +kernel

/-! ### C10: required fields -/

/-- C10 is violated: a policy with an empty id, an empty resource name and an empty relation name is
accepted, and so is a relationship with empty names and ids. -/
theorem C10_required_fields_violated :
    (∃ p, verifyPolicy U0 p = .ok () ∧ ¬ PolicyFieldsOK p ∧
      ∃ r, allowedRelationship (some r) (newLut p) = .ok () ∧ ¬ RelationshipNamesOK r ∧ ¬ RelationshipIdsOK r) ∧
    (∃ r, allowedRelationship (some r) (newLut exPolicy) = .ok () ∧ ¬ RelationshipIdsOK r) := by
  refine ⟨⟨{ id := "", resources := [{ name := "", relations := [
    { name := "", relationExpression := some (.tree (.rule .this)), subjectRestriction := some .universalSet }] }] },
    by decide +kernel, by simp [PolicyFieldsOK],
    ⟨some ⟨"", ""⟩, "", some (.entity ⟨"", ""⟩)⟩, by decide +kernel,
      by simp [RelationshipNamesOK], by simp [RelationshipIdsOK]⟩,
    ⟨some ⟨"file", ""⟩, "owner", some (.entity ⟨"user", ""⟩)⟩, by decide +kernel, by simp [RelationshipIdsOK]⟩

/-- C10, why: the checks for required fields refuse no policy and no relationship. -/
theorem C10_required_fields_unchecked (p : Policy) (r : Option Relationship) :
    requiredFieldsPresent p = .ok () ∧ relRequiredFields r = .ok () :=
  ⟨requiredFieldsPresent_ok p, relRequiredFields_ok r⟩

/-- C10, the part that holds: if the policy itself has no empty name, no admitted relationship has an
empty resource or relation name.  Missing: the policy's own names and id, and entity ids. -/
theorem C10_required_fields_partial (p : Policy) (hf : PolicyFieldsOK p) (r : Relationship)
    (h : checkSymbols (some r) (newLut p) = .ok ()) : RelationshipNamesOK r := by
  obtain ⟨o, s, ho, hs, h1, h2, h3⟩ := (checkSymbols_ok_iff p r).1 h
  refine ⟨?_, (hasRelation_ne hf h2).2, ?_, ?_, ?_⟩
  · intro o' ho'; rw [ho] at ho'; cases ho'; exact hasResource_ne hf h1
  · intro e he; rw [hs] at he; cases he; exact hasResource_ne hf h3
  · intro e rel he; rw [hs] at he; cases he; exact hasRelation_ne hf h3
  · intro n he; rw [hs] at he; cases he; exact hasResource_ne hf h3

example : PolicyFieldsOK exPolicy := by simp [PolicyFieldsOK, exPolicy]

/-! ### C55: selector validation -/

/-- C55 is violated: with "any object" and a relation name the policy does declare, validation panics; and a
selector for an entity-set subject whose resource and relation are declared is rejected. -/
theorem C55_selector_validation_violated :
    (SelectorKnown exPolicy ⟨some .wildcard, some (.relationName "owner"), some .wildcard⟩ ∧
      validSelector (some ⟨some .wildcard, some (.relationName "owner"), some .wildcard⟩) exPolicy = .panic) ∧
    (SelectorKnown exPolicy ⟨some .wildcard, some .wildcard,
        some (.subjectSpec (.entitySet (some ⟨"dir", "root"⟩) "viewer"))⟩ ∧
      validSelector (some ⟨some .wildcard, some .wildcard,
        some (.subjectSpec (.entitySet (some ⟨"dir", "root"⟩) "viewer"))⟩) exPolicy = .err .resourceNotFound) := by
  refine ⟨⟨?_, by decide +kernel⟩, ⟨?_, by decide +kernel⟩⟩
  · simp only [SelectorKnown, Option.some.injEq, RelationSelector.relationName.injEq, reduceCtorEq, false_imp_iff,
      implies_true, true_and, and_true, forall_eq', true_imp_iff]
    exact ⟨"file", _, _, .tail _ (.tail _ (.head _)), rfl, .head _, rfl⟩
  · simp only [SelectorKnown, Option.some.injEq, reduceCtorEq, false_imp_iff, implies_true, true_and,
      SubjectSelector.subjectSpec.injEq, forall_eq']
    exact ⟨_, _, .tail _ (.head _), rfl, .head _, rfl⟩

/-- C55, the part that holds: for selectors that set all three parts, name a relation only together with an
object or a resource, and whose subject (if given) is an entity or a wildcard, validation never crashes and accepts
exactly the selectors that name only declared things.  Missing: relation name with any object, and
entity-set subjects. -/
theorem C55_selector_validation_partial (p : Policy) (hu : NamesUnique p) (s : Selector)
    (hc : SelectorComplete s) (hs : SelectorSet s)
    (hw : s.object = some .wildcard → s.relation = some .wildcard)
    (hsub : ∀ sub, s.subject = some (.subjectSpec sub) → (∃ e, sub = .entity e) ∨ ∃ n, sub = .resourceSet n) :
    (validSelector (some s) p).Normal ∧ (validSelector (some s) p = .ok () ↔ SelectorKnown p s) := by
  obtain ⟨o, rl, sb⟩ := s
  obtain ⟨hc1, hc2, hc3⟩ := hc
  obtain ⟨hs1, hs2, hs3⟩ := hs
  simp only at hc1 hc2 hc3 hs1 hs2 hs3 hw hsub
  cases o with
  | none => exact absurd rfl hc1
  | some o =>
  cases rl with
  | none => exact absurd rfl hc2
  | some rl =>
  cases sb with
  | none => exact absurd rfl hc3
  | some sb =>
  -- subject part
  have hS : (validSubjectSelector (some sb) p = .ok () ∧
        ((∀ n, sb = .resourceSpec n → HasResource p n) ∧ (∀ x, sb = .subjectSpec x → SubjectKnown p x))) ∨
      (validSubjectSelector (some sb) p = .err .resourceNotFound ∧
        ¬ ((∀ n, sb = .resourceSpec n → HasResource p n) ∧ (∀ x, sb = .subjectSpec x → SubjectKnown p x))) := by
    cases sb with
    | unset => exact absurd rfl hs3
    | wildcard => left; simp [validSubjectSelector]
    | resourceSpec n =>
      by_cases h : HasResource p n <;> simp [validSubjectSelector, getResourceByName_none, h]
    | subjectSpec x =>
      rcases hsub x rfl with ⟨e, rfl⟩ | ⟨n, rfl⟩
      · by_cases h : HasResource p e.resource <;>
          simp [validSubjectSelector, getResourceByName_none, h, SubjectKnown, Subject.getResourceName]
      · by_cases h : HasResource p n <;>
          simp [validSubjectSelector, getResourceByName_none, h, SubjectKnown, Subject.getResourceName]
  have key : ∀ n, (objectSelectorResourceName o = n) → (o = .resourceSpec n ∨ ∃ i, o = .objectSpec ⟨n, i⟩) →
      (validSelector (some ⟨some o, some rl, some sb⟩) p).Normal ∧
      (validSelector (some ⟨some o, some rl, some sb⟩) p = .ok () ↔
        HasResource p n ∧ (∀ rel, rl = .relationName rel → HasRelation p n rel) ∧
        ((∀ n, sb = .resourceSpec n → HasResource p n) ∧ (∀ x, sb = .subjectSpec x → SubjectKnown p x))) := by
    intro n hn ho
    have hO : (validObjectSelector (some o) p = .ok () ∧ HasResource p n) ∨
        (validObjectSelector (some o) p = .err .resourceNotFound ∧ ¬ HasResource p n) := by
      rcases ho with rfl | ⟨i, rfl⟩ <;> by_cases h : HasResource p n <;>
        simp [validObjectSelector, getResourceByName_none, h]
    unfold validSelector
    simp only [Res.deref_some, Res.bind_ok]
    rcases hO with ⟨h1, h2⟩ | ⟨h1, h2⟩
    · rw [h1, Res.bind_ok]
      have hR : (validRelationSelector (some o) (some rl) p = .ok () ∧ (∀ rel, rl = .relationName rel → HasRelation p n rel)) ∨
          (validRelationSelector (some o) (some rl) p = .err .relationNotFound ∧
            ¬ (∀ rel, rl = .relationName rel → HasRelation p n rel)) := by
        cases rl with
        | unset => exact absurd rfl hs2
        | wildcard => left; simp [validRelationSelector]
        | relationName rel =>
          obtain ⟨x, hx1, hx2⟩ := getRelationByName_isNone hu (rel := rel) h2
          unfold validRelationSelector
          simp only [Res.deref_some, Res.bind_ok, hn, hx1]
          cases hx : x.isNone <;> rw [hx] at hx2 <;> simpa using hx2
      rcases hR with ⟨h3, h4⟩ | ⟨h3, h4⟩
      · rw [h3, Res.bind_ok]
        rcases hS with ⟨h5, h6⟩ | ⟨h5, h6⟩
        · rw [h5]; exact ⟨trivial, iff_of_true rfl ⟨h2, h4, h6⟩⟩
        · rw [h5]; exact ⟨trivial, ⟨nofun, fun h => absurd h.2.2 h6⟩⟩
      · rw [h3]; exact ⟨trivial, ⟨nofun, fun h => absurd h.2.1 h4⟩⟩
    · rw [h1]; exact ⟨trivial, ⟨nofun, fun h => absurd h.1 h2⟩⟩
  cases o with
  | unset => exact absurd rfl hs1
  | wildcard =>
    have := hw rfl
    cases this
    unfold validSelector
    simp only [Res.deref_some, Res.bind_ok, validObjectSelector, validRelationSelector]
    rcases hS with ⟨h5, h6⟩ | ⟨h5, h6⟩
    · rw [h5]; exact ⟨trivial, by simpa [SelectorKnown] using h6⟩
    · rw [h5]; exact ⟨trivial, ⟨nofun, fun h => absurd (by simpa [SelectorKnown] using h) h6⟩⟩
  | resourceSpec n =>
    have := key n rfl (.inl rfl)
    refine ⟨this.1, this.2.trans ?_⟩
    simp [SelectorKnown]
  | objectSpec e =>
    have := key e.resource rfl (.inr ⟨e.id, rfl⟩)
    refine ⟨this.1, this.2.trans ?_⟩
    simp [SelectorKnown]

example : SelectorKnown exPolicy ⟨some (.objectSpec ⟨"file", "readme"⟩), some (.relationName "owner"),
    some (.subjectSpec (.entity ⟨"user", "bob"⟩))⟩ ∧
    validSelector (some ⟨some (.objectSpec ⟨"file", "readme"⟩), some (.relationName "owner"),
      some (.subjectSpec (.entity ⟨"user", "bob"⟩))⟩) exPolicy = .ok () := by
  have h : validSelector (some ⟨some (.objectSpec ⟨"file", "readme"⟩), some (.relationName "owner"),
      some (.subjectSpec (.entity ⟨"user", "bob"⟩))⟩) exPolicy = .ok () := by decide +kernel
  refine ⟨?_, h⟩
  exact (C55_selector_validation_partial exPolicy (by simp [NamesUnique, exPolicy]) _
    (by simp [SelectorComplete]) (by simp [SelectorSet]) (by simp) (by simp)).2.1 h

end Zanzi
