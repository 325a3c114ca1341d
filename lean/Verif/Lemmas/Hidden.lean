import Verif.Spec.Hidden
import Verif.Lemmas.Serve

/-
Selectors over messages in memory.
-/

namespace Zanzi

open Spec Prog

theorem literal_value (e : Entity) : e.literal.value = e := rfl

theorem literal_untouched (e : Entity) : Pristine e.literal := ⟨rfl, rfl, rfl⟩

theorem hidden_zero {h : Hidden} (h1 : h.info = false) (h2 : h.size = 0) (h3 : h.unknown = []) : h = .zero := by
  cases h; simp_all [Hidden.zero]

theorem untouched_iff {e : MEntity} : Pristine e ↔ e = e.value.literal := by
  constructor
  · rintro ⟨h1, h2, h3⟩
    obtain ⟨h, r, i⟩ := e
    obtain rfl := hidden_zero h1 h2 h3
    rfl
  · intro h
    rw [h]
    exact literal_untouched _

/-- A subject made of composite literals. -/
def _root_.Zanzi.Subject.literal (s : Subject) : MSubject :=
  ⟨.zero,
    match s with
    | .unset => .unset
    | .entity e => .entity e.literal
    | .entitySet e r => .entitySet .zero (e.map Entity.literal) r
    | .resourceSet n => .resourceSet .zero n⟩

theorem fromInternalM_eq (i : IRel) :
    fromInternalM i = ⟨(fromInternal i).object.map Entity.literal, (fromInternal i).relation, (fromInternal i).subject.map Subject.literal⟩ := rfl

theorem subject_literal_value (s : Subject) : s.literal.value = s := by
  cases s with
  | entitySet e r => cases e <;> rfl
  | _ => rfl

theorem untouchedSubject_iff {s : MSubject} : PristineSubject s ↔ s = s.value.literal := by
  obtain ⟨h, k⟩ := s
  constructor
  · rintro ⟨⟨h1, h2, h3⟩, h4, h5, h6⟩
    obtain rfl := hidden_zero h1 h2 h3
    cases k with
    | unset => rfl
    | entity e =>
      have := untouched_iff.1 (h4 e rfl)
      show (⟨_, .entity e⟩ : MSubject) = ⟨_, .entity e.value.literal⟩
      rw [← this]
    | entitySet h e r =>
      obtain ⟨⟨g1, g2, g3⟩, g4⟩ := h5 h e r rfl
      obtain rfl := hidden_zero g1 g2 g3
      cases e with
      | none => rfl
      | some e =>
        have := untouched_iff.1 (g4 e rfl)
        show (⟨_, .entitySet _ (some e) r⟩ : MSubject) = ⟨_, .entitySet _ (some e.value.literal) r⟩
        rw [← this]
    | resourceSet h n =>
      obtain ⟨g1, g2, g3⟩ := h6 h n rfl
      obtain rfl := hidden_zero g1 g2 g3
      rfl
  · intro he
    obtain ⟨rfl, hk⟩ := MSubject.mk.inj he
    refine ⟨⟨rfl, rfl, rfl⟩, ?_, ?_, ?_⟩
    · rintro e rfl
      exact untouched_iff.2 (MSubjectKind.entity.inj hk)
    · rintro h e r rfl
      obtain ⟨rfl, h2, _⟩ := MSubjectKind.entitySet.inj hk
      refine ⟨⟨rfl, rfl, rfl⟩, ?_⟩
      rintro x rfl
      exact untouched_iff.2 (Option.some.inj h2)
    · rintro h n rfl
      obtain ⟨rfl, _⟩ := MSubjectKind.resourceSet.inj hk
      exact ⟨rfl, rfl, rfl⟩

theorem fromInternalM_value (i : IRel) : (fromInternalM i).value = fromInternal i := by
  rw [fromInternalM_eq]
  generalize fromInternal i = r
  obtain ⟨o, rel, s⟩ := r
  cases o <;> cases s <;> simp [MRelationship.value, literal_value, subject_literal_value]

/-! ### Predicates -/

theorem objectPredicateM_untouched {o : MObjectSelector} (ho : ∀ e, o = .objectSpec e → Pristine e) (i : IRel) :
    objectPredicateM o (fromInternalM i) = objectPredicate o.value (fromInternal i) := by
  rw [fromInternalM_eq]
  generalize fromInternal i = r
  obtain ⟨ob, rel, s⟩ := r
  cases o with
  | objectSpec e =>
    have he := untouched_iff.1 (ho e rfl)
    simp only [objectPredicateM, objectPredicate, MObjectSelector.value]
    congr 2
    cases ob with
    | none => simp
    | some ob =>
      simp only [Option.map_some, Option.some.injEq, eq_iff_iff]
      constructor
      · rintro rfl; rfl
      · rintro rfl; exact he
  | resourceSpec n => cases ob <;> rfl
  | _ => rfl

theorem subjectPredicateM_untouched {o : MSubjectSelector} (ho : ∀ e, o = .subjectSpec e → PristineSubject e) (i : IRel) :
    subjectPredicateM o (fromInternalM i) = subjectPredicate o.value (fromInternal i) := by
  rw [fromInternalM_eq]
  generalize fromInternal i = r
  obtain ⟨ob, rel, s⟩ := r
  cases o with
  | subjectSpec e =>
    have he := untouchedSubject_iff.1 (ho e rfl)
    simp only [subjectPredicateM, subjectPredicate, MSubjectSelector.value]
    congr 2
    cases s with
    | none => simp
    | some s =>
      simp only [Option.map_some, Option.some.injEq, eq_iff_iff]
      constructor
      · rintro rfl; exact (subject_literal_value s).symm
      · rintro rfl; exact he.symm
  | resourceSpec n =>
    cases s with
    | none => rfl
    | some s =>
      cases s with
      | entitySet e r => cases e <;> rfl
      | _ => rfl
  | _ => rfl

theorem satisfiesM_untouched {o : MObjectSelector} {rl : RelationSelector} {s : MSubjectSelector} (ho : ∀ e, o = .objectSpec e → Pristine e)
    (hs : ∀ e, s = .subjectSpec e → PristineSubject e) (i : IRel) :
    selectorSatisfiesM (o, rl, s) (fromInternalM i) = selectorSatisfies (o.value, rl, s.value) (fromInternal i) := by
  unfold selectorSatisfiesM selectorSatisfies
  simp only [objectPredicateM_untouched ho, subjectPredicateM_untouched hs, fromInternalM_value]

theorem satisfiesM_touched {o : MObjectSelector} {rl : RelationSelector} {s : MSubjectSelector} (h1 : o ≠ .unset) (h2 : rl ≠ .unset)
    (h : (∃ e, o = .objectSpec e ∧ ¬ Pristine e) ∨ (∃ e, s = .subjectSpec e ∧ ¬ PristineSubject e)) (i : IRel) :
    selectorSatisfiesM (o, rl, s) (fromInternalM i) = .ok false := by
  have hval := fromInternalM_value i
  have hc := fromInternal_complete i
  rw [fromInternalM_eq] at *
  generalize fromInternal i = r at *
  obtain ⟨ob, rel, sb⟩ := r
  have hobj : ∃ b, objectPredicateM o ⟨ob.map Entity.literal, rel, sb.map Subject.literal⟩ = .ok b := by
    cases o with
    | unset => exact absurd rfl h1
    | objectSpec e => exact ⟨_, rfl⟩
    | wildcard => exact ⟨_, rfl⟩
    | resourceSpec n =>
      cases ob with
      | none => exact absurd rfl hc.1
      | some ob => exact ⟨_, rfl⟩
  have hrel : ∃ b, relationPredicate rl ⟨ob, rel, sb⟩ = .ok b := by
    cases rl with
    | unset => exact absurd rfl h2
    | relationName n => exact ⟨_, rfl⟩
    | wildcard => exact ⟨_, rfl⟩
  obtain ⟨b1, h3⟩ := hobj
  obtain ⟨b2, h4⟩ := hrel
  unfold selectorSatisfiesM
  dsimp only
  rcases h with ⟨e, rfl, he⟩ | ⟨e, rfl, he⟩
  · have : objectPredicateM (.objectSpec e) ⟨ob.map Entity.literal, rel, sb.map Subject.literal⟩ = .ok false := by
      simp only [objectPredicateM]
      congr 1
      refine decide_eq_false (fun hh => ?_)
      cases ob with
      | none => cases hh
      | some ob =>
        cases hh
        exact he (literal_untouched _)
    rw [this]
    rfl
  · have h5 : subjectPredicateM (.subjectSpec e) ⟨ob.map Entity.literal, rel, sb.map Subject.literal⟩ = .ok false := by
      simp only [subjectPredicateM]
      congr 1
      refine decide_eq_false (fun hh => ?_)
      cases sb with
      | none => cases hh
      | some sb =>
        cases hh
        exact he (untouchedSubject_iff.2 (by rw [subject_literal_value]))
    rw [h3, hval, h4, h5]
    cases b1 <;> cases b2 <;> rfl

theorem newSelectorSpecM_value (m : Option MSelector) :
    newSelectorSpec (m.map MSelector.value) = (newSelectorSpecM m >>= fun x => .ok (x.1.value, x.2.1, x.2.2.value)) := by
  cases m with
  | none => rfl
  | some m =>
    obtain ⟨o, r, s⟩ := m
    cases o with
    | none => rfl
    | some o =>
      have ho : o.value = .unset ↔ o = .unset := by cases o <;> simp [MObjectSelector.value]
      by_cases h1 : o = .unset
      · subst h1; rfl
      · cases r with
        | none => cases o <;> first | exact absurd rfl h1 | rfl
        | some r =>
          cases s with
          | none => cases o <;> cases r <;> first | exact absurd rfl h1 | rfl
          | some s => cases o <;> cases r <;> cases s <;> first | exact absurd rfl h1 | rfl

theorem newSelectorSpecM_ok {m : MSelector} {x : MObjectSelector × RelationSelector × MSubjectSelector} (h : newSelectorSpecM (some m) = .ok x) :
    m.object = some x.1 ∧ m.relation = some x.2.1 ∧ m.subject = some x.2.2 ∧ x.1 ≠ .unset ∧ x.2.1 ≠ .unset := by
  obtain ⟨o, r, s⟩ := m
  cases o with
  | none => cases h
  | some o =>
    by_cases h1 : o = .unset
    · subst h1; cases h
    · cases r with
      | none => cases o <;> first | exact absurd rfl h1 | cases h
      | some r =>
        by_cases h2 : r = .unset
        · subst h2; cases o <;> first | exact absurd rfl h1 | cases h
        · cases s with
          | none => cases o <;> cases r <;> first | exact absurd rfl h1 | cases h
          | some s =>
            by_cases h3 : s = .unset
            · subst h3; cases o <;> cases r <;> first | exact absurd rfl h1 | cases h
            · have : newSelectorSpecM (some ⟨some o, some r, some s⟩) = .ok (o, r, s) := by simp [newSelectorSpecM, h1, h2, h3]
              rw [this] at h
              cases h
              exact ⟨rfl, rfl, rfl, h1, h2⟩

/-! ### Filtering -/

theorem filterRes_value {f : MRelationship → Res Bool} {g : Relationship → Res Bool} (l : List IRel)
    (h : ∀ i, f (fromInternalM i) = g (fromInternal i)) :
    filterRes g (l.map fromInternal) = (filterRes f (l.map fromInternalM) >>= fun x => .ok (x.map MRelationship.value)) := by
  induction l with
  | nil => rfl
  | cons i l ih =>
    simp only [List.map_cons]
    unfold filterRes
    rw [h i, ih]
    cases g (fromInternal i) with
    | ok b =>
      cases filterRes f (l.map fromInternalM) with
      | ok x => cases b <;> simp [fromInternalM_value]
      | _ => rfl
    | _ => rfl

theorem filterRes_false {α : Type} {f : α → Res Bool} (l : List α) (h : ∀ a ∈ l, f a = .ok false) : filterRes f l = .ok [] := by
  induction l with
  | nil => rfl
  | cons a l ih =>
    unfold filterRes
    rw [h a (by simp), ih (fun x hx => h x (by simp [hx]))]
    rfl

theorem lift_bind_lift {α β : Type} (x : Res α) (f : α → Res β) : (Prog.lift x >>= fun a => Prog.lift (f a)) = Prog.lift (x >>= f) := by
  cases x <;> rfl

/-- With an untouched selector the two programs are the same. -/
theorem findRelationshipsM_untouched (pid : String) {m : MSelector} (hm : PristineSelector m) :
    Repo.findRelationshipsM pid (some m) = Repo.findRelationships pid (some m.value) := by
  have hv := newSelectorSpecM_value (some m)
  unfold Repo.findRelationshipsM Repo.findRelationships
  congr 1
  funext rels
  rw [show (some m.value) = (some m).map MSelector.value from rfl, hv]
  cases hx : newSelectorSpecM (some m) with
  | ok x =>
    obtain ⟨h1, h2, h3, _, _⟩ := newSelectorSpecM_ok hx
    have := filterRes_value (f := selectorSatisfiesM x) (g := selectorSatisfies (x.1.value, x.2.1, x.2.2.value)) rels
      (satisfiesM_untouched (fun e he => hm.1 e (by rw [h1, he])) (fun e he => hm.2 e (by rw [h3, he])))
    show (Prog.lift (filterRes (selectorSatisfiesM x) (rels.map fromInternalM)) >>= fun found => Prog.lift (.ok (found.map MRelationship.value))) =
      Prog.lift (filterRes (selectorSatisfies (x.1.value, x.2.1, x.2.2.value)) (rels.map fromInternal))
    rw [lift_bind_lift, this]
  | _ => rfl

/-- With a touched one nothing is found. -/
theorem findRelationshipsM_touched {pid : String} {m : MSelector} (hm : ¬ PristineSelector m) {s s' : Store} {l : List Relationship}
    (h : (Repo.findRelationships pid (some m.value)).run s = (.ok l, s')) : (Repo.findRelationshipsM pid (some m)).run s = (.ok [], s) := by
  have hv := newSelectorSpecM_value (some m)
  unfold Repo.findRelationships at h
  unfold Repo.findRelationshipsM
  simp only [run_bind, run_edgeList, andThen_ok, run_lift] at h ⊢
  rw [show (some m.value) = (some m).map MSelector.value from rfl, hv] at h
  cases hx : newSelectorSpecM (some m) with
  | ok x =>
    obtain ⟨h1, h2, h3, h4, h5⟩ := newSelectorSpecM_ok hx
    simp only [andThen_ok]
    rw [filterRes_false]
    · rfl
    · intro a ha
      obtain ⟨i, _, rfl⟩ := List.mem_map.1 ha
      refine satisfiesM_touched h4 h5 ?_ i
      by_cases hc : ∃ e, x.1 = .objectSpec e ∧ ¬ Pristine e
      · exact .inl hc
      · refine .inr (Classical.byContradiction fun hd => hm ⟨fun e he => ?_, fun e he => ?_⟩)
        · exact Classical.byContradiction fun hn => hc ⟨e, Option.some.inj (h1.symm.trans he), hn⟩
        · exact Classical.byContradiction fun hn => hd ⟨e, Option.some.inj (h3.symm.trans he), hn⟩
  | err e => rw [hx] at h; cases h
  | panic => rw [hx] at h; cases h
  | fuel => rw [hx] at h; cases h

end Zanzi
