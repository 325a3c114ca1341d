import Verif.Spec.Builder
import Verif.Props.Store
import Verif.Props.Policy
import Verif.Props.Check

/-
Property C68: selectors and relationships built with the builders of pkg/domain.
-/

namespace Zanzi

open Spec

theorem run_snoc (h : List SelectorOp) (op : SelectorOp) : SelectorBuilder.run (h ++ [op]) = (SelectorBuilder.run h).apply op := by
  simp [SelectorBuilder.run]

/-- What the object part of a builder stands for. -/
def objectMeans : Option ObjectSelector → Option (Relationship → Prop)
  | some .wildcard => some (fun _ => True)
  | some (.objectSpec e) => some (fun r => r.object = some e)
  | _ => none

def relationMeans : Option RelationSelector → Option (Relationship → Prop)
  | some .wildcard => some (fun _ => True)
  | some (.relationName n) => some (fun r => r.relation = n)
  | _ => none

def subjectMeans : Option SubjectSelector → Option (Relationship → Prop)
  | some .wildcard => some (fun _ => True)
  | some (.subjectSpec s) => some (fun r => r.subject = some s)
  | _ => none

theorem chosen_snoc {α : Type} {part : SelectorOp → Option α} {h : List SelectorOp} {op : SelectorOp} {a : α} :
    Chosen part (h ++ [op]) a ↔ part op = some a ∨ (part op = none ∧ op ≠ .reset ∧ Chosen part h a) := by
  constructor
  · rintro ⟨b, o, after, h1, h2, h3⟩
    rcases List.eq_nil_or_concat after with rfl | ⟨after', x, rfl⟩
    · have := List.append_inj' h1 rfl
      cases this.2
      exact .inl h2
    · have : h ++ [op] = (b ++ o :: after') ++ [x] := by rw [h1]; simp
      obtain ⟨rfl, hx⟩ := List.append_inj' this rfl
      cases hx
      have := h3 op (by simp)
      exact .inr ⟨this.1, this.2, b, o, after', rfl, h2, fun y hy => h3 y (by simp [hy])⟩
  · rintro (h1 | ⟨h1, h2, b, o, after, rfl, h3, h4⟩)
    · exact ⟨h, op, [], rfl, h1, by simp⟩
    · refine ⟨b, o, after ++ [op], by simp, h3, fun x hx => ?_⟩
      rcases List.mem_append.1 hx with hx | hx
      · exact h4 x hx
      · rw [List.mem_singleton] at hx
        subst hx
        exact ⟨h1, h2⟩

theorem not_chosen_nil {α : Type} {part : SelectorOp → Option α} {a : α} : ¬ Chosen part [] a := by
  rintro ⟨b, o, after, h, _⟩
  simp at h

/-- The parts of a builder are the choices in force. -/
theorem builder_parts (h : List SelectorOp) :
    (∀ P, objectMeans (SelectorBuilder.run h).objSelector = some P ↔ Chosen objectPart h P) ∧
    (∀ P, relationMeans (SelectorBuilder.run h).relSelector = some P ↔ Chosen relationPart h P) ∧
    (∀ P, subjectMeans (SelectorBuilder.run h).subjSelector = some P ↔ Chosen subjectPart h P) := by
  induction hn : h.length generalizing h with
  | zero =>
    have : h = [] := List.length_eq_zero_iff.1 hn
    subst this
    refine ⟨fun P => ?_, fun P => ?_, fun P => ?_⟩ <;>
      exact ⟨nofun, fun h => absurd h not_chosen_nil⟩
  | succ n ih =>
    rcases List.eq_nil_or_concat h with rfl | ⟨h', op, rfl⟩
    · cases hn
    · obtain ⟨i1, i2, i3⟩ := ih h' (by simpa using hn)
      rw [List.concat_eq_append, run_snoc]
      refine ⟨fun P => ?_, fun P => ?_, fun P => ?_⟩ <;> rw [chosen_snoc] <;> cases op <;>
        simp only [SelectorBuilder.apply, i1, i2, i3, objectPart, relationPart, subjectPart] <;>
        simp [objectMeans, relationMeans, subjectMeans]

theorem builder_shapes (h : List SelectorOp) :
    (∀ o, (SelectorBuilder.run h).objSelector = some o → o = .wildcard ∨ ∃ e, o = .objectSpec e) ∧
    (∀ o, (SelectorBuilder.run h).relSelector = some o → o = .wildcard ∨ ∃ n, o = .relationName n) ∧
    (∀ o, (SelectorBuilder.run h).subjSelector = some o → o = .wildcard ∨ ∃ s, o = .subjectSpec s) := by
  induction hn : h.length generalizing h with
  | zero =>
    have : h = [] := List.length_eq_zero_iff.1 hn
    subst this
    exact ⟨nofun, nofun, nofun⟩
  | succ n ih =>
    rcases List.eq_nil_or_concat h with rfl | ⟨h', op, rfl⟩
    · cases hn
    · obtain ⟨i1, i2, i3⟩ := ih h' (by simpa using hn)
      rw [List.concat_eq_append, run_snoc]
      refine ⟨fun o ho => ?_, fun o ho => ?_, fun o ho => ?_⟩ <;> cases op <;>
        simp only [SelectorBuilder.apply, Option.some.injEq, reduceCtorEq] at ho <;>
        first | exact i1 o ho | exact i2 o ho | exact i3 o ho | (subst ho; first | exact .inl rfl | exact .inr ⟨_, rfl⟩)

/-- C68, meaning: when all three parts are chosen, the built selector is complete and matches exactly the relationships satisfying the choices in force, whatever was called before
and in whatever order. -/
theorem C68_built_selector (h : List SelectorOp) (O R S : Relationship → Prop) (ho : Chosen objectPart h O) (hr : Chosen relationPart h R)
    (hs : Chosen subjectPart h S) :
    SelectorComplete (SelectorBuilder.run h).build ∧ SelectorSet (SelectorBuilder.run h).build ∧
    ∀ r, Matches (SelectorBuilder.run h).build r ↔ O r ∧ R r ∧ S r := by
  obtain ⟨p1, p2, p3⟩ := builder_parts h
  have h1 := (p1 O).2 ho
  have h2 := (p2 R).2 hr
  have h3 := (p3 S).2 hs
  unfold SelectorBuilder.build SelectorComplete SelectorSet Matches
  generalize (SelectorBuilder.run h).objSelector = a at h1 ⊢
  generalize (SelectorBuilder.run h).relSelector = b at h2 ⊢
  generalize (SelectorBuilder.run h).subjSelector = c at h3 ⊢
  have ha : ∃ x, a = some x ∧ x ≠ .unset ∧ ∀ r, O r ↔ ((∀ e, x = .objectSpec e → r.object = some e) ∧ (∀ n, x = .resourceSpec n → ∃ o, r.object = some o ∧ o.resource = n)) := by
    cases a with
    | none => cases h1
    | some x =>
      cases x with
      | wildcard => cases h1; exact ⟨_, rfl, by simp, by simp⟩
      | objectSpec e => cases h1; exact ⟨_, rfl, by simp, by simp⟩
      | unset => cases h1
      | resourceSpec => cases h1
  have hb : ∃ x, b = some x ∧ x ≠ .unset ∧ ∀ r, R r ↔ ∀ n, x = .relationName n → r.relation = n := by
    cases b with
    | none => cases h2
    | some x =>
      cases x with
      | wildcard => cases h2; exact ⟨_, rfl, by simp, by simp⟩
      | relationName e => cases h2; exact ⟨_, rfl, by simp, by simp⟩
      | unset => cases h2
  have hc : ∃ x, c = some x ∧ x ≠ .unset ∧ ∀ r, S r ↔ ((∀ s, x = .subjectSpec s → r.subject = some s) ∧
      (∀ n, x = .resourceSpec n → ∃ sub, r.subject = some sub ∧ subjectResource sub = some n)) := by
    cases c with
    | none => cases h3
    | some x =>
      cases x with
      | wildcard => cases h3; exact ⟨_, rfl, by simp, by simp⟩
      | subjectSpec e => cases h3; exact ⟨_, rfl, by simp, by simp⟩
      | unset => cases h3
      | resourceSpec => cases h3
  obtain ⟨x, rfl, hx, h4⟩ := ha
  obtain ⟨y, rfl, hy, h5⟩ := hb
  obtain ⟨z, rfl, hz, h6⟩ := hc
  refine ⟨by simp, by simp [hx, hy, hz], fun r => ?_⟩
  simp only [Option.some.injEq, h4, h5, h6]
  constructor
  · rintro ⟨a, b, c, d, e⟩; exact ⟨⟨a, b⟩, c, d, e⟩
  · rintro ⟨⟨a, b⟩, c, d, e⟩; exact ⟨a, b, c, d, e⟩

/-- C68, use: a bulk deletion with a built selector removes exactly the stored relationships satisfying the choices in force, and counts them. -/
theorem C68_built_delete (env : Env) (s : Store) (pid : String) (hw : WF env s) (h : List SelectorOp) (O R S : Relationship → Prop)
    (ho : Chosen objectPart h O) (hr : Chosen relationPart h R) (hs : Chosen subjectPart h S) :
    ∃ (l : List Relationship) (s' : Store),
      serve env (.deleteRelationships pid (some (SelectorBuilder.run h).build)) s = (.ok (.affected l.length), s') ∧ l.Nodup ∧
      (∀ r, r ∈ l ↔ Present s pid r ∧ O r ∧ R r ∧ S r) ∧ (∀ r, Present s' pid r ↔ Present s pid r ∧ ¬ (O r ∧ R r ∧ S r)) := by
  obtain ⟨h1, h2, h3⟩ := C68_built_selector h O R S ho hr hs
  obtain ⟨l, s', h4, h5, h6, h7, _⟩ := C19_bulk_delete_partial env s pid _ hw h1 h2
  refine ⟨l, s', h4, h5, fun r => ?_, fun r => ?_⟩
  · rw [h6, h3]
  · rw [h7, h3]

/-- C68 is false for parts not chosen: a selector built without choosing them (or after a Reset) does not match every value, it crashes the request; for every store, policy and history.  A part is
not chosen when no choice for it is in force. -/
theorem C68_unchosen_violated (env : Env) (s : Store) (pid : String) (h : List SelectorOp)
    (hn : (∀ P, ¬ Chosen objectPart h P) ∨ (∀ P, ¬ Chosen relationPart h P) ∨ ∀ P, ¬ Chosen subjectPart h P) :
    serve env (.deleteRelationships pid (some (SelectorBuilder.run h).build)) s = (.panic, s) := by
  obtain ⟨p1, p2, p3⟩ := builder_parts h
  obtain ⟨q1, q2, q3⟩ := builder_shapes h
  have hpanic : newSelectorSpec (some (SelectorBuilder.run h).build) = .panic := by
    unfold newSelectorSpec SelectorBuilder.build
    simp only [Res.deref_some, Res.bind_ok]
    simp only [← p1, ← p2, ← p3] at hn
    generalize (SelectorBuilder.run h).objSelector = a at *
    generalize (SelectorBuilder.run h).relSelector = b at *
    generalize (SelectorBuilder.run h).subjSelector = c at *
    cases a with
    | none => rfl
    | some a =>
      have ha : a ≠ .unset := by rcases q1 a rfl with rfl | ⟨_, rfl⟩ <;> nofun
      rw [Res.deref_some, Res.bind_ok, if_neg ha]
      cases b with
      | none => rfl
      | some b =>
        have hb : b ≠ .unset := by rcases q2 b rfl with rfl | ⟨_, rfl⟩ <;> nofun
        rw [Res.deref_some, Res.bind_ok, if_neg hb]
        cases c with
        | none => rfl
        | some c =>
          exfalso
          rcases hn with hn | hn | hn
          · rcases q1 a rfl with rfl | ⟨_, rfl⟩ <;> exact hn _ rfl
          · rcases q2 b rfl with rfl | ⟨_, rfl⟩ <;> exact hn _ rfl
          · rcases q3 c rfl with rfl | ⟨_, rfl⟩ <;> exact hn _ rfl
  show Prog.run (do let x ← Repo.deleteRelationships env.H pid _; return Answer.affected x) s = _
  rw [run_map]
  unfold Repo.deleteRelationships Repo.findRelationships
  simp [Prog.run_bind, hpanic, Prog.run_done]

/-- Choices overwritten, a Reset, then a choice of every part. -/
example : Chosen objectPart [.anyObject, .reset, .withObject doc1, .anySubject, .withRelation "a", .anyRelation] (fun r => r.object = some doc1) ∧
    Chosen relationPart [.anyObject, .reset, .withObject doc1, .anySubject, .withRelation "a", .anyRelation] (fun _ => True) ∧
    Chosen subjectPart [.anyObject, .reset, .withObject doc1, .anySubject, .withRelation "a", .anyRelation] (fun _ => True) := by
  refine ⟨⟨[.anyObject, .reset], _, _, rfl, rfl, by simp [objectPart]⟩, ⟨[.anyObject, .reset, .withObject doc1, .anySubject, .withRelation "a"], _, _, rfl, rfl, by simp⟩,
    ⟨[.anyObject, .reset, .withObject doc1], _, _, rfl, rfl, by simp [subjectPart]⟩⟩

/-- No choice of a relation in force. -/
example : ∀ P, ¬ Chosen relationPart [.anyRelation, .reset, .anyObject, .anySubject] P := by
  intro P
  rw [← (builder_parts _).2.1]
  nofun

theorem admissible_iff_one (p : Policy) (o : Entity) (rel : String) (x : Subject) :
    Admissible p ⟨some o, rel, some x⟩ ↔ SubjectKnown p x ∧ ∃ D sr, Declares p o.resource rel D ∧ D.subjectRestriction = some sr ∧ Permits sr x := by
  constructor
  · rintro ⟨⟨o', s', h1, h2, _, _, h3⟩, o'', s'', D, sr, h4, h5, h6, h7, h8⟩
    cases h1; cases h2; cases h4; cases h5
    exact ⟨h3, D, sr, h6, h7, h8⟩
  · rintro ⟨h3, D, sr, h6, h7, h8⟩
    have hr : HasResource p o.resource := by
      obtain ⟨r, hr, hn, _⟩ := h6
      exact ⟨r, hr, hn⟩
    exact ⟨⟨o, x, rfl, rfl, hr, ⟨D, h6⟩, h3⟩, o, x, D, sr, rfl, rfl, h6, h7, h8⟩

/-- C68, relationships: what the builder makes has all its parts, and a policy with unique names accepts it exactly when it declares the relation on the object's resource and the subject's
resource (or relation), and the relation takes every subject or lists that kind of subject. -/
theorem C68_built_relationship (p : Policy) (hu : NamesUnique p) (a b rel c d rel' : String) :
    (RelationshipComplete (RelationshipBuilder.relationship a b rel c d) ∧ RelationshipComplete (RelationshipBuilder.entitySet a b rel c d rel') ∧
      RelationshipComplete (RelationshipBuilder.wildcard a b rel c)) ∧
    (allowedRelationship (some (RelationshipBuilder.relationship a b rel c d)) (newLut p) = .ok () ↔ HasResource p c ∧ ∃ D, Declares p a rel D ∧
      (D.subjectRestriction = some .universalSet ∨ ∃ rs, D.subjectRestriction = some (.restrictionSet rs) ∧ .entity c ∈ rs)) ∧
    (allowedRelationship (some (RelationshipBuilder.entitySet a b rel c d rel')) (newLut p) = .ok () ↔ HasRelation p c rel' ∧ ∃ D, Declares p a rel D ∧
      (D.subjectRestriction = some .universalSet ∨ ∃ rs, D.subjectRestriction = some (.restrictionSet rs) ∧ .entitySet c rel' ∈ rs)) ∧
    (allowedRelationship (some (RelationshipBuilder.wildcard a b rel c)) (newLut p) = .ok () ↔ HasResource p c ∧ ∃ D, Declares p a rel D ∧
      (D.subjectRestriction = some .universalSet ∨ ∃ rs, D.subjectRestriction = some (.restrictionSet rs) ∧ .entity c ∈ rs)) := by
  refine ⟨by simp [RelationshipComplete, RelationshipBuilder.relationship, RelationshipBuilder.entitySet, RelationshipBuilder.wildcard], ?_, ?_, ?_⟩ <;>
    rw [C12_admission_exact p hu] <;>
    refine (admissible_iff_one p _ _ _).trans (and_congr_right fun _ => exists_congr fun D => ⟨?_, ?_⟩)
  all_goals first
    | (rintro ⟨sr, h1, h2, h3⟩
       refine ⟨h1, ?_⟩
       cases h3 with
       | universal => exact .inl h2
       | _ hm => exact .inr ⟨_, h2, hm⟩)
    | (rintro ⟨h1, h2 | ⟨rs, h2, h3⟩⟩
       · exact ⟨_, h1, h2, .universal _⟩
       · exact ⟨_, h1, h2, by constructor; exact h3⟩)

/-- A policy accepting a built relationship. -/
example : NamesUnique exPolicy ∧ allowedRelationship (some (RelationshipBuilder.relationship "file" "f" "owner" "user" "bob")) (newLut exPolicy) = .ok () :=
  ⟨by simp [NamesUnique, exPolicy], by decide +kernel⟩

end Zanzi
