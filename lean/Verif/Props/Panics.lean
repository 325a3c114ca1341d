import Verif.Spec.Panics
import Verif.Lemmas.NoPanic
import Verif.Lemmas.Definition
import Verif.Lemmas.CheckRun
import Verif.Props.Refinement

/-
Property C14 exactly: which policy-service requests crash.
-/

namespace Zanzi

open Spec

theorem toInternal_panic_iff (r : Relationship) : toInternal r = .panic ↔ ¬ RelationshipComplete r := by
  obtain ⟨o, rel, sb⟩ := r
  cases sb with
  | none => simp [toInternal, RelationshipComplete]
  | some sb =>
    cases o with
    | none =>
      cases sb with
      | entitySet e rel => cases e <;> simp [toInternal, RelationshipComplete]
      | _ => simp [toInternal, RelationshipComplete]
    | some o =>
      cases sb with
      | entitySet e rel => cases e <;> simp [toInternal, RelationshipComplete]
      | _ => simp [toInternal, RelationshipComplete]

theorem forEach_panic_iff {α : Type} {f : α → Res Unit} {as : List α} :
    forEach f as = .panic ↔ ∃ b a c, as = b ++ a :: c ∧ (∀ x ∈ b, f x = .ok ()) ∧ f a = .panic := by
  induction as with
  | nil => simp [forEach]
  | cons x as ih =>
    constructor
    · intro h
      unfold forEach at h
      cases h1 : f x with
      | ok u =>
        rw [h1] at h
        obtain ⟨b, a, c, rfl, h2, h3⟩ := ih.1 h
        exact ⟨x :: b, a, c, rfl, by simpa using ⟨h1, h2⟩, h3⟩
      | err e' => rw [h1] at h; cases h
      | panic => exact ⟨[], x, as, rfl, nofun, h1⟩
      | fuel => rw [h1] at h; cases h
    · rintro ⟨b, a, c, he, h2, h3⟩
      cases b with
      | nil =>
        cases he
        unfold forEach
        rw [h3]
      | cons y b =>
        cases he
        unfold forEach
        rw [h2 x (by simp)]
        exact ih.2 ⟨b, a, c, rfl, fun z hz => h2 z (by simp [hz]), h3⟩

theorem wellDefinedOne_panic_iff (U : Unicode) (p : Policy) (res : String) (d : Relation) :
    wellDefinedOne U res (newLut p) d = .panic ↔ ExpressionMissing d := by
  constructor
  · intro h
    by_cases h1 : d.relationExpression = none
    · exact .inl h1
    · right
      by_cases h2 : ∀ t, d.relationExpression = some (.tree t) → NoNil t
      · rcases wellDefinedOne_total U p res d h1 h2 with h' | ⟨e, _, h'⟩ <;> rw [h'] at h <;> cases h
      · exact Classical.byContradiction fun h3 => h2 fun t ht => Classical.byContradiction fun h4 => h3 ⟨t, ht, h4⟩
  · rintro (h | ⟨t, h, hn⟩)
    · unfold wellDefinedOne getExpressionTree
      rw [h]; rfl
    · unfold wellDefinedOne getExpressionTree
      rw [h]
      dsimp only
      rw [Res.bind_ok, (C57_rules_are_leaves t).2 hn]
      rfl

theorem verifyPolicy_panic_iff (U : Unicode) (p : Policy) : verifyPolicy U p = .panic ↔ PolicyCrashes U p := by
  unfold verifyPolicy PolicyCrashes
  simp only [requiredFieldsPresent_ok]
  rcases uniqueNames_total p with h1 | h1
  · have hu := (uniqueNames_ok_iff p).1 h1
    simp only [h1, Res.bind_ok, hu, true_and]
    rcases subjectRestrictionsConsistent_total p with h2 | h2
    · have hr := (subjectRestrictionsConsistent_ok_iff p).1 h2
      simp only [h2, Res.bind_ok, hr, true_and]
      rw [relationExpressionWellDefined_eq, forEach_panic_iff]
      constructor
      · rintro ⟨rs, r, rs', h3, h4, h5⟩
        obtain ⟨ds, d, ds', h6, h7, h8⟩ := forEach_panic_iff.1 h5
        refine ⟨rs, r, rs', ds, d, ds', h3, h6, fun r' hr' d' hd' => ?_, fun d' hd' => ?_, (wellDefinedOne_panic_iff U p r.name d).1 h8⟩
        · exact (wellDefinedOne_ok_iff U p r'.name d').1 ((forEach_ok_iff _ _).1 (h4 r' hr') d' hd')
        · exact (wellDefinedOne_ok_iff U p r.name d').1 (h7 d' hd')
      · rintro ⟨rs, r, rs', ds, d, ds', h3, h6, h4, h7, h8⟩
        refine ⟨rs, r, rs', h3, fun r' hr' => (forEach_ok_iff _ _).2 fun d' hd' => (wellDefinedOne_ok_iff U p r'.name d').2 (h4 r' hr' d' hd'), forEach_panic_iff.2 ?_⟩
        exact ⟨ds, d, ds', h6, fun d' hd' => (wellDefinedOne_ok_iff U p r.name d').2 (h7 d' hd'), (wellDefinedOne_panic_iff U p r.name d).2 h8⟩
    · have hr : ¬ RestrictionsOK p := fun h => by rw [(subjectRestrictionsConsistent_ok_iff p).2 h] at h2; cases h2
      simp [h2, hr]
  · have hu : ¬ NamesUnique p := fun h => by rw [(uniqueNames_ok_iff p).2 h] at h1; cases h1
    simp [h1, hu]

theorem getPolicyFromDefinition_panic_iff (env : Env) (d : Option PolicyDefinition) :
    getPolicyFromDefinition env d = .panic ↔ DefinitionCrashes env d := by
  unfold getPolicyFromDefinition DefinitionCrashes
  cases d with
  | none => simp
  | some d =>
    cases d with
    | policy p => simp
    | unset => simp
    | yaml text =>
      simp only [Res.deref_some, Res.bind_ok, Env.yaml, reduceCtorEq, Option.some.injEq, PolicyDefinition.yaml.injEq, false_or, exists_eq_left']
      cases env.decode text with
      | ok d => rw [Res.bind_ok, policyFromDef_ok]; simp
      | err => simp
      | panic => simp
      | fuel => simp

theorem checkSymbols_panic_iff (p : Policy) (x : Relationship) :
    checkSymbols (some x) (newLut p) = .panic ↔ x.object = none ∨ ∃ o, x.object = some o ∧ HasRelation p o.resource x.relation ∧
      (x.subject = none ∨ ∃ rel, x.subject = some (.entitySet none rel)) := by
  obtain ⟨o, rel, sb⟩ := x
  unfold checkSymbols
  cases o with
  | none => simp
  | some o =>
    simp only [Res.deref_some, Res.bind_ok, reduceCtorEq, Option.some.injEq, false_or, exists_eq_left']
    by_cases h1 : HasRelation p o.resource rel
    · have h0 : HasResource p o.resource := by
        obtain ⟨d, r, hr, hn, _⟩ := h1
        exact ⟨r, hr, hn⟩
      have e0 : ((newLut p).getResource o.resource).isNone = false := by rw [← Bool.not_eq_true, newLut_resource_isNone]; exact fun h => h h0
      have e1 : ((newLut p).getRelation o.resource rel).isNone = false := by rw [← Bool.not_eq_true, newLut_relation_isNone]; exact fun h => h h1
      simp only [e0, e1, Bool.false_eq_true, if_false, h1, true_and]
      cases sb with
      | none => simp
      | some sb =>
        cases sb with
        | entitySet e r2 =>
          cases e with
          | none => simp
          | some e => simp only [Res.deref_some, Res.bind_ok]; split <;> simp
        | entity e => simp only [Res.deref_some, Res.bind_ok]; split <;> simp
        | resourceSet n => simp only [Res.deref_some, Res.bind_ok]; split <;> simp
        | unset => simp
    · have e1 : ((newLut p).getRelation o.resource rel).isNone = true := newLut_relation_isNone.2 h1
      simp only [e1, if_true, h1, false_and, iff_false]
      split <;> nofun

theorem allowed_panic_iff {p : Policy} (hu : NamesUnique p) (r : Option Relationship) :
    allowedRelationship r (newLut p) = .panic ↔ SetCrashes p r := by
  unfold allowedRelationship SetCrashes
  simp only [relRequiredFields_ok]
  cases r with
  | none => simp [checkSymbols]
  | some x =>
    simp only [Res.bind_ok, Res.deref_some, reduceCtorEq, Option.some.injEq, false_or, exists_eq_left']
    cases hk : checkSymbols (some x) (newLut p) with
    | ok u =>
      obtain ⟨o, s, ho, hs, _, ⟨d, hd⟩, hsk⟩ := (checkSymbols_ok_iff p x).1 hk
      rw [Res.bind_ok]
      have hns : ∀ rel, s ≠ .entitySet none rel := by rintro rel rfl; exact hsk
      constructor
      · intro h
        rcases subjectRestrictionSatisfies_cases p hu x ho hs hsk hd with ⟨h3, _⟩ | ⟨sr, h3, ⟨h4, _⟩ | ⟨h4, _⟩⟩
        · exact .inr ⟨o, d, ho, hd, .inr (.inr ⟨s, hs, hsk, h3⟩)⟩
        · rw [h4] at h; cases h
        · rw [h4] at h; cases h
      · rintro (h | ⟨o', d', ho', hd', h | ⟨rel, h⟩ | ⟨s', hs', _, h⟩⟩)
        · rw [ho] at h; cases h
        · rw [hs] at h; cases h
        · rw [hs] at h; cases h; exact absurd rfl (hns rel)
        · rw [ho] at ho'; cases ho'
          have := declares_unique hu hd hd'
          subst this
          rcases subjectRestrictionSatisfies_cases p hu x ho hs hsk hd with ⟨_, h3⟩ | ⟨sr, h3, _⟩
          · exact h3
          · rw [h] at h3; cases h3
    | err e =>
      have h2 := checkSymbols_panic_iff p x
      have h3 := checkSymbols_ok_iff p x
      rw [hk] at h2 h3
      simp only [Res.bind_err, reduceCtorEq, false_iff] at h2 h3 ⊢
      rintro (h | ⟨o', d', ho', hd', h | ⟨rel, h⟩ | ⟨s', hs', hk', h⟩⟩)
      · exact h2 (.inl h)
      · exact h2 (.inr ⟨o', ho', ⟨d', hd'⟩, .inl h⟩)
      · exact h2 (.inr ⟨o', ho', ⟨d', hd'⟩, .inr ⟨rel, h⟩⟩)
      · obtain ⟨r, hr, hn, _⟩ := id hd'
        exact h3 ⟨o', s', ho', hs', ⟨r, hr, hn⟩, ⟨d', hd'⟩, hk'⟩
    | panic =>
      have h2 := (checkSymbols_panic_iff p x).1 hk
      simp only [Res.bind_panic, true_iff]
      rcases h2 with h | ⟨o, ho, ⟨d, hd⟩, h⟩
      · exact .inl h
      · exact .inr ⟨o, d, ho, hd, h.imp id .inl⟩
    | fuel =>
      exfalso
      revert hk
      unfold checkSymbols
      obtain ⟨o, rel, sb⟩ := x
      cases o with
      | none => simp
      | some o =>
        simp only [Res.deref_some, Res.bind_ok]
        split
        · nofun
        · split
          · nofun
          · cases sb with
            | none => simp
            | some sb =>
              cases sb with
              | entitySet e r2 =>
                cases e with
                | none => simp
                | some e => simp only [Res.deref_some, Res.bind_ok]; split <;> simp
              | entity e => simp only [Res.deref_some, Res.bind_ok]; split <;> simp
              | resourceSet n => simp only [Res.deref_some, Res.bind_ok]; split <;> simp
              | unset => simp

theorem newSelectorSpec_panic_iff (sel : Option Selector) : newSelectorSpec sel = .panic ↔ SelectorCrashes sel := by
  unfold newSelectorSpec SelectorCrashes
  cases sel with
  | none => simp
  | some x =>
    obtain ⟨o, r, sb⟩ := x
    simp only [Res.deref_some, Res.bind_ok, reduceCtorEq, Option.some.injEq, false_or, exists_eq_left']
    cases o with
    | none => simp
    | some o =>
      by_cases ho : o = .unset
      · simp [ho]
      · simp only [Res.deref_some, Res.bind_ok, ho, if_false]
        cases r with
        | none => simp [ho]
        | some r =>
          by_cases hr : r = .unset
          · simp [hr]
          · simp only [Res.deref_some, Res.bind_ok, hr, if_false]
            cases sb with
            | none => simp [ho, hr]
            | some sb => simp only [Res.deref_some, Res.bind_ok]; split <;> simp

theorem validObjectSelector_cases (p : Policy) (o : ObjectSelector) :
    (ObjectKnown p o ∧ validObjectSelector (some o) p = .ok ()) ∨ (¬ ObjectKnown p o ∧ ∃ e, validObjectSelector (some o) p = .err e) := by
  unfold validObjectSelector ObjectKnown
  simp only [Res.deref_some, Res.bind_ok]
  cases o with
  | unset => right; simp
  | wildcard => left; simp
  | objectSpec e =>
    by_cases h : HasResource p e.resource
    · have : (p.getResourceByName e.resource).isNone = false := by
        rw [← Bool.not_eq_true, Option.isNone_iff_eq_none, getResourceByName_none]; exact fun hn => hn h
      left; simp [this, h]
    · have : (p.getResourceByName e.resource).isNone = true := by rw [Option.isNone_iff_eq_none, getResourceByName_none]; exact h
      right; simp [this, h]
  | resourceSpec n =>
    by_cases h : HasResource p n
    · have : (p.getResourceByName n).isNone = false := by
        rw [← Bool.not_eq_true, Option.isNone_iff_eq_none, getResourceByName_none]; exact fun hn => hn h
      left; simp [this, h]
    · have : (p.getResourceByName n).isNone = true := by rw [Option.isNone_iff_eq_none, getResourceByName_none]; exact h
      right; simp [this, h]

/-- The relation part: crashes for "any object", is fine for "any relation" and declared names, is refused otherwise. -/
theorem validRelationSelector_cases {p : Policy} (hu : NamesUnique p) (hf : PolicyFieldsOK p) {o : ObjectSelector} (ho : ObjectKnown p o)
    (r : Option RelationSelector) :
    ((o = .wildcard ∧ r ≠ some .wildcard) ∧ validRelationSelector (some o) r p = .panic) ∨
    ((r = some .wildcard ∨ ∃ n, r = some (.relationName n) ∧ RelationOf p o n) ∧ validRelationSelector (some o) r p = .ok ()) ∨
    (¬ (o = .wildcard ∧ r ≠ some .wildcard) ∧ ¬ (r = some .wildcard ∨ ∃ n, r = some (.relationName n) ∧ RelationOf p o n) ∧
      ∃ e, validRelationSelector (some o) r p = .err e) := by
  by_cases hw : r = some .wildcard
  · subst hw
    exact .inr (.inl ⟨.inl rfl, rfl⟩)
  obtain ⟨name, hname⟩ : ∃ name : String, name = (match (r : Option RelationSelector) with | some (.relationName n) => n | _ => "") := ⟨_, rfl⟩
  have hv : validRelationSelector (some o) r p = (do
      let relation ← getRelationByName (p.getResourceByName (objectSelectorResourceName o)) name
      if relation.isNone then .err .relationNotFound else .ok ()) := by
    unfold validRelationSelector
    subst hname
    cases r with
    | none => rfl
    | some r => cases r <;> first | rfl | exact absurd rfl hw
  by_cases how : o = .wildcard
  · subst how
    refine .inl ⟨⟨rfl, hw⟩, ?_⟩
    have : p.getResourceByName "" = none := getResourceByName_none.2 fun h => hasResource_ne hf h rfl
    rw [hv]
    simp only [objectSelectorResourceName, this, getRelationByName]
    rfl
  · have key : ∀ n, objectSelectorResourceName o = n → HasResource p n → (∀ m, RelationOf p o m ↔ HasRelation p n m) →
        ((r = some .wildcard ∨ ∃ n, r = some (.relationName n) ∧ RelationOf p o n) ∧ validRelationSelector (some o) r p = .ok ()) ∨
        (¬ (o = .wildcard ∧ r ≠ some .wildcard) ∧ ¬ (r = some .wildcard ∨ ∃ n, r = some (.relationName n) ∧ RelationOf p o n) ∧
          ∃ e, validRelationSelector (some o) r p = .err e) := by
      intro n hn hr hm
      have none_of : ∀ m, ¬ HasRelation p n m → name = m →
          ∃ e, validRelationSelector (some o) r p = .err e := by
        intro m hnm he
        obtain ⟨x, hx1, hx2⟩ := getRelationByName_isNone hu (rel := m) hr
        rw [hv, hn, he, hx1, Res.bind_ok, if_pos (hx2.2 hnm)]
        exact ⟨_, rfl⟩
      cases r with
      | none =>
        exact .inr ⟨fun h => how h.1, fun h => by simp at h, none_of "" (fun h => (hasRelation_ne hf h).2 rfl) hname⟩
      | some r =>
        cases r with
        | wildcard => exact absurd rfl hw
        | unset => exact .inr ⟨fun h => how h.1, fun h => by simp at h, none_of "" (fun h => (hasRelation_ne hf h).2 rfl) hname⟩
        | relationName m =>
          by_cases hm' : HasRelation p n m
          · left
            refine ⟨.inr ⟨m, rfl, (hm m).2 hm'⟩, ?_⟩
            obtain ⟨x, hx1, hx2⟩ := getRelationByName_isNone hu (rel := m) hr
            rw [hv, hn, show name = m from hname]
            rw [hx1, Res.bind_ok, if_neg (fun h => hx2.1 h hm')]
          · refine .inr ⟨fun h => how h.1, ?_, none_of m hm' hname⟩
            rintro (h | ⟨m', h, h'⟩)
            · cases h
            · cases h; exact hm' ((hm _).1 h')
    right
    cases o with
    | wildcard => exact absurd rfl how
    | unset => exact absurd rfl ho.1
    | objectSpec e => exact key e.resource rfl (ho.2.1 e rfl) fun m => by simp [RelationOf]
    | resourceSpec n => exact key n rfl (ho.2.2 n rfl) fun m => by simp [RelationOf]

theorem validSubjectSelector_cases (p : Policy) (sb : SubjectSelector) :
    (sb ≠ .unset ∧ validSubjectSelector (some sb) p = .ok ()) ∨ ∃ e, validSubjectSelector (some sb) p = .err e := by
  unfold validSubjectSelector
  simp only [Res.deref_some, Res.bind_ok]
  cases sb with
  | unset => right; exact ⟨_, rfl⟩
  | wildcard => left; simp
  | _ => dsimp only; split <;> simp

/-- What checking a selector against a policy yields. -/
theorem validSelector_cases {p : Policy} (hu : NamesUnique p) (hf : PolicyFieldsOK p) (sel : Option Selector) :
    (FindCrashes p sel ∧ validSelector sel p = .panic) ∨
    (¬ FindCrashes p sel ∧ ((∃ e, validSelector sel p = .err e) ∨
      ∃ x, sel = some x ∧ SelectorComplete x ∧ SelectorSet x ∧ validSelector sel p = .ok ())) := by
  unfold FindCrashes
  cases sel with
  | none => exact .inl ⟨.inl rfl, rfl⟩
  | some x =>
    obtain ⟨o, r, sb⟩ := x
    simp only [reduceCtorEq, Option.some.injEq, false_or, exists_eq_left']
    unfold validSelector
    simp only [Res.deref_some, Res.bind_ok]
    cases o with
    | none => left; exact ⟨.inl rfl, rfl⟩
    | some o =>
      simp only [reduceCtorEq, Option.some.injEq, false_or, exists_eq_left']
      rcases validObjectSelector_cases p o with ⟨h1, h2⟩ | ⟨h1, e, h2⟩
      · rw [h2, Res.bind_ok]
        rcases validRelationSelector_cases hu hf h1 r with ⟨h3, h4⟩ | ⟨h3, h4⟩ | ⟨h3, h3', e, h4⟩
        · left; rw [h4]; exact ⟨⟨h1, .inl h3⟩, rfl⟩
        · rw [h4, Res.bind_ok]
          by_cases h5 : o = .wildcard ∧ r ≠ some .wildcard
          · exfalso
            rcases h3 with h | ⟨n, h, h' | h'⟩
            · exact h5.2 h
            · obtain ⟨e, he, _⟩ := h'; rw [h5.1] at he; cases he
            · obtain ⟨e, he, _⟩ := h'; rw [h5.1] at he; cases he
          cases sb with
          | none => left; exact ⟨⟨h1, .inr ⟨rfl, h3⟩⟩, rfl⟩
          | some sb =>
            right
            refine ⟨?_, ?_⟩
            · rintro ⟨_, h | h⟩
              · exact h5 h
              · exact absurd h.1 nofun
            · rcases validSubjectSelector_cases p sb with ⟨h6, h7⟩ | h6
              · refine .inr ⟨⟨nofun, ?_, nofun⟩, ⟨?_, ?_, ?_⟩, h7⟩
                · rcases h3 with h | ⟨n, h, _⟩ <;> simp [h]
                · simpa using h1.1
                · rcases h3 with h | ⟨n, h, _⟩ <;> simp [h]
                · simpa using h6
              · exact .inl h6
        · right
          rw [h4]
          refine ⟨?_, .inl ⟨e, rfl⟩⟩
          rintro ⟨_, h | h⟩
          · exact h3 h
          · exact h3' h.2
      · right
        rw [h2]
        exact ⟨fun h => h1 h.1, .inl ⟨e, rfl⟩⟩

theorem serve_find_bad {env : Env} {s : Store} {pid : String} {sel : Option Selector} {rec : PolicyRecord} (hp : kvGet s.policies pid = some rec) :
    (validSelector sel rec.policy = .panic → (serve env (.findRelationshipRecords pid sel) s).1 = .panic) ∧
    ∀ e, validSelector sel rec.policy = .err e → (serve env (.findRelationshipRecords pid sel) s).1 = .err e := by
  have key : (serve env (.findRelationshipRecords pid sel) s) = Res.andThen ((do
      Prog.lift (validSelector sel rec.policy)
      Repo.findRelationshipRecords env.H pid sel : Prog _).run s) (fun b s => (.ok (.records b), s)) := by
    show Prog.run (do let x ← Service.findRelationshipRecords env pid sel; return Answer.records x) s = _
    rw [run_map]
    unfold Service.findRelationshipRecords
    rw [Prog.run_bind, show (Repo.getPolicy pid).run s = (.ok (kvGet s.policies pid), s) from rfl, andThen_ok, hp]
  refine ⟨fun h => ?_, fun e h => ?_⟩ <;> rw [key, h] <;> rfl

theorem serve_find_none {env : Env} {s : Store} {pid : String} {sel : Option Selector} (hp : kvGet s.policies pid = none) :
    (serve env (.findRelationshipRecords pid sel) s).1 = .err .policyNotFound := by
  show (Prog.run (do let x ← Service.findRelationshipRecords env pid sel; return Answer.records x) s).1 = _
  rw [run_map]
  unfold Service.findRelationshipRecords
  rw [Prog.run_bind, show (Repo.getPolicy pid).run s = (.ok (kvGet s.policies pid), s) from rfl, andThen_ok, hp]
  rfl

/-- Full claim (C14): no request makes a service method panic.  This says exactly which requests to the policy service do, on every reachable store (`WF`).  For FindRelationshipRecords
only under policies whose names are not empty (others are accepted, `C10_required_fields_violated`). -/
theorem C14_policy_service_exact {env : Env} {s : Store} (hs : WF env s) (now : Timestamp) (pid : String) (a : Bytes)
    (d : Option PolicyDefinition) (r : Option Relationship) (sel : Option Selector) :
    ((serve env (.createPolicy now d a) s).1 = .panic ↔
      DefinitionCrashes env d ∨ ∃ p, Defines env d p ∧ policyAt s p.id = none ∧ PolicyCrashes env.U p) ∧
    ((serve env (.updatePolicy d a) s).1 = .panic ↔
      DefinitionCrashes env d ∨ ∃ p, Defines env d p ∧ policyAt s p.id ≠ none ∧ PolicyCrashes env.U p) ∧
    ((serve env (.setRelationship now pid r a) s).1 = .panic ↔ ∃ rec, policyAt s pid = some rec ∧ SetCrashes rec.policy r) ∧
    ((serve env (.getRelationship pid r) s).1 = .panic ↔ Incomplete r) ∧
    ((serve env (.deleteRelationship pid r) s).1 = .panic ↔ Incomplete r) ∧
    ((serve env (.deleteRelationships pid sel) s).1 = .panic ↔ SelectorCrashes sel) ∧
    ((∀ rec, policyAt s pid = some rec → PolicyFieldsOK rec.policy) →
      ((serve env (.findRelationshipRecords pid sel) s).1 = .panic ↔ ∃ rec, policyAt s pid = some rec ∧ FindCrashes rec.policy sel)) ∧
    (serve env (.deletePolicy pid) s).1 ≠ .panic ∧ (serve env (.getPolicy pid) s).1 ≠ .panic ∧ (serve env .listPolicyIds s).1 ≠ .panic := by
  simp only [policyAt_eq]
  have hdef : ∀ {p}, getPolicyFromDefinition env d = .ok p → ¬ DefinitionCrashes env d := fun h h' => by
    rw [(getPolicyFromDefinition_panic_iff env d).2 h'] at h; cases h
  refine ⟨?_, ?_, ?_, ?_, ?_, ?_, ?_, ?_, nofun, nofun⟩
  · rw [serve_create]
    cases hd : getPolicyFromDefinition env d with
    | ok p =>
      have hD := getPolicyFromDefinition_ok_iff.1 hd
      simp only [hdef hd, false_or]
      have hiff : (∃ p', Defines env d p' ∧ kvGet s.policies p'.id = none ∧ PolicyCrashes env.U p') ↔ kvGet s.policies p.id = none ∧ PolicyCrashes env.U p := by
        constructor
        · rintro ⟨p', h1, h2⟩
          have := (getPolicyFromDefinition_ok_iff (env := env)).2 h1
          rw [hd] at this; cases this
          exact h2
        · exact fun h => ⟨p, hD, h⟩
      rw [hiff]
      cases kvGet s.policies p.id with
      | some rec => simp
      | none =>
        dsimp only
        rw [← verifyPolicy_panic_iff]
        cases verifyPolicy env.U p <;> simp
    | err e =>
      have h1 : ¬ DefinitionCrashes env d := fun h' => by rw [(getPolicyFromDefinition_panic_iff env d).2 h'] at hd; cases hd
      have h2 : ∀ p, ¬ Defines env d p := fun p h' => by rw [getPolicyFromDefinition_ok_iff.2 h'] at hd; cases hd
      simp [h1, h2]
    | panic => simp [(getPolicyFromDefinition_panic_iff env d).1 hd]
    | fuel =>
      have h1 : ¬ DefinitionCrashes env d := fun h' => by rw [(getPolicyFromDefinition_panic_iff env d).2 h'] at hd; cases hd
      have h2 : ∀ p, ¬ Defines env d p := fun p h' => by rw [getPolicyFromDefinition_ok_iff.2 h'] at hd; cases hd
      simp [h1, h2]
  · rw [serve_update]
    cases hd : getPolicyFromDefinition env d with
    | ok p =>
      have hD := getPolicyFromDefinition_ok_iff.1 hd
      simp only [hdef hd, false_or]
      have hiff : (∃ p', Defines env d p' ∧ kvGet s.policies p'.id ≠ none ∧ PolicyCrashes env.U p') ↔ kvGet s.policies p.id ≠ none ∧ PolicyCrashes env.U p := by
        constructor
        · rintro ⟨p', h1, h2⟩
          have := (getPolicyFromDefinition_ok_iff (env := env)).2 h1
          rw [hd] at this; cases this
          exact h2
        · exact fun h => ⟨p, hD, h⟩
      rw [hiff]
      cases kvGet s.policies p.id with
      | none => simp
      | some rec =>
        dsimp only
        rw [← verifyPolicy_panic_iff]
        cases verifyPolicy env.U p <;> simp
    | err e =>
      have h1 : ¬ DefinitionCrashes env d := fun h' => by rw [(getPolicyFromDefinition_panic_iff env d).2 h'] at hd; cases hd
      have h2 : ∀ p, ¬ Defines env d p := fun p h' => by rw [getPolicyFromDefinition_ok_iff.2 h'] at hd; cases hd
      simp [h1, h2]
    | panic => simp [(getPolicyFromDefinition_panic_iff env d).1 hd]
    | fuel =>
      have h1 : ¬ DefinitionCrashes env d := fun h' => by rw [(getPolicyFromDefinition_panic_iff env d).2 h'] at hd; cases hd
      have h2 : ∀ p, ¬ Defines env d p := fun p h' => by rw [getPolicyFromDefinition_ok_iff.2 h'] at hd; cases hd
      simp [h1, h2]
  · cases hp : kvGet s.policies pid with
    | none => rw [serve_set, hp]; simp
    | some rec =>
      simp only [Option.some.injEq, exists_eq_left']
      have hu : NamesUnique rec.policy := (hs.policy_valid (pid := pid) (by rw [policyAt_eq]; exact hp)).1
      rw [← allowed_panic_iff hu]
      cases ha : allowedRelationship r (newLut rec.policy) with
      | ok u =>
        obtain ⟨r', e, rfl, he⟩ := allowed_complete ha
        rw [serve_set_ok hp ha he]
        simp
      | err e => rw [serve_set, hp]; simp [ha]
      | panic => rw [serve_set, hp]; simp [ha]
      | fuel => rw [serve_set, hp]; simp [ha]
  · unfold Incomplete
    cases r with
    | none => exact ⟨fun _ => nofun, fun _ => rfl⟩
    | some r =>
      simp only [Option.some.injEq, forall_eq']
      rw [← toInternal_panic_iff]
      rcases toInternal_normal_or_panic r with ⟨e, he⟩ | he
      · rw [serve_get he, he]; simp
      · refine iff_of_true ?_ he
        show (Prog.run (do let x ← Repo.getRelationship env.H pid (some r); return Answer.relationship x) s).1 = _
        unfold Repo.getRelationship
        simp only [Res.deref_some, lift_ok_bind, he]
        rfl
  · unfold Incomplete
    cases r with
    | none => exact ⟨fun _ => nofun, fun _ => rfl⟩
    | some r =>
      simp only [Option.some.injEq, forall_eq']
      rw [← toInternal_panic_iff]
      rcases toInternal_normal_or_panic r with ⟨e, he⟩ | he
      · rw [serve_delete he, he]; simp
      · exact iff_of_true (by rw [serve_delete_panic he]) he
  · have bad : ∀ x, (∀ y, x ≠ .ok y) → newSelectorSpec sel = x → (serve env (.deleteRelationships pid sel) s).1 = x.bind fun _ => .fuel := by
      intro x hx hn
      show (Prog.run (do let x ← Repo.deleteRelationships env.H pid sel; return Answer.affected x) s).1 = _
      unfold Repo.deleteRelationships Repo.findRelationships
      rw [hn]
      cases x with
      | ok y => exact absurd rfl (hx y)
      | _ => rfl
    cases hn : newSelectorSpec sel with
    | ok sp =>
      obtain ⟨x, rfl, hc, hset⟩ := newSelectorSpec_complete hn
      rw [serve_deleteMatching hc hset, ← newSelectorSpec_panic_iff, hn]
      simp
    | panic => exact iff_of_true (bad _ (by nofun) hn) ((newSelectorSpec_panic_iff sel).1 hn)
    | err e => rw [bad _ (by nofun) hn, ← newSelectorSpec_panic_iff, hn]; exact ⟨nofun, nofun⟩
    | fuel => rw [bad _ (by nofun) hn, ← newSelectorSpec_panic_iff, hn]; exact ⟨nofun, nofun⟩
  · intro hf
    cases hp : kvGet s.policies pid with
    | none => exact iff_of_false (by rw [serve_find_none hp]; nofun) nofun
    | some rec =>
      simp only [Option.some.injEq, exists_eq_left']
      have hu : NamesUnique rec.policy := (hs.policy_valid (pid := pid) (by rw [policyAt_eq]; exact hp)).1
      rcases validSelector_cases hu (hf rec hp) sel with ⟨h1, h2⟩ | ⟨h1, ⟨e, h2⟩ | ⟨x, rfl, h2, h3, h4⟩⟩
      · exact iff_of_true ((serve_find_bad hp).1 h2) h1
      · rw [(serve_find_bad hp).2 e h2]; simp [h1]
      · rw [serve_find h2 h3, hp]
        simp [h4, h1]
  · rw [serve_deletePolicy]
    split <;> nofun

/-- Each disjunct of the descriptions above is met by some request on the store of one policy, and a complete request meets none. -/
example : SetCrashes (docPolicy "p") none ∧ SetCrashes (docPolicy "p") (some ⟨none, "owner", none⟩) ∧
    SetCrashes (docPolicy "p") (some ⟨some ⟨"doc", "1"⟩, "owner", none⟩) ∧ SetCrashes openPolicy (some ⟨some ⟨"doc", "1"⟩, "owner", some (.entity ⟨"doc", "2"⟩)⟩) ∧
    ¬ SetCrashes (docPolicy "p") (some rA) ∧ ¬ SetCrashes (docPolicy "p") (some ⟨some ⟨"doc", "1"⟩, "no such", none⟩) ∧
    FindCrashes (docPolicy "p") (some ⟨some .wildcard, none, none⟩) ∧ ¬ FindCrashes (docPolicy "p") (some allSelector) ∧
    SelectorCrashes (some ⟨some .wildcard, some .wildcard, none⟩) ∧ ¬ SelectorCrashes (some ⟨some .unset, none, none⟩) := by
  simp [SetCrashes, FindCrashes, SelectorCrashes, ObjectKnown, RelationOf, SubjectKnown, HasResource, HasRelation, Declares, docPolicy, openPolicy, allSelector, rA]
  exact ⟨_, ⟨rfl, rfl⟩, rfl⟩

/-- A relation without expression after one with an unreadable expression is never reached; before it, validation crashes. -/
example : PolicyCrashes U0 { id := "x", resources := [{ name := "doc", relations := [
      { name := "a", relationExpression := none, subjectRestriction := none },
      { name := "b", relationExpression := some (.expr "->"), subjectRestriction := none }] }] } ∧
    ¬ PolicyCrashes U0 { id := "x", resources := [{ name := "doc", relations := [
      { name := "b", relationExpression := some (.expr "->"), subjectRestriction := none },
      { name := "a", relationExpression := none, subjectRestriction := none }] }] } := by
  rw [← verifyPolicy_panic_iff, ← verifyPolicy_panic_iff]
  exact ⟨by decide +kernel, by decide +kernel⟩

example : WF (wEnv fun _ => 0) wStore ∧ policyAt wStore "p" = some ⟨docPolicy "p", [], 0⟩ ∧ PolicyFieldsOK (docPolicy "p") := by
  refine ⟨wStore_wf _, by decide +kernel, by simp [PolicyFieldsOK, docPolicy]⟩

end Zanzi
