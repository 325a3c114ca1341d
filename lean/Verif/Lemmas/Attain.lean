import Verif.Spec.Types
import Verif.Props.Unions
import Verif.Props.Outcome
import Verif.Props.Admission
import Verif.Lemmas.Abstract

/-
Lemmas for C110: relationships that give a user a relation, and the store they make.
-/

namespace Zanzi

open Spec

section
variable {U : Unicode} {p : Policy} {i : String} {u : Entity}

/-- Relationships the policy admits, of objects with id `i`, to such objects, usersets of theirs, or user `u`. -/
def Small (p : Policy) (i : String) (u : Entity) (r : Relationship) : Prop :=
  Admissible p r ∧ (∃ res, r.object = some ⟨res, i⟩) ∧
    (r.subject = some (.entity u) ∨ (∃ res, r.subject = some (.entity ⟨res, i⟩)) ∨ ∃ res rel, r.subject = some (.entitySet (some ⟨res, i⟩) rel))

theorem granted_mono (hdf : ∀ x t, DefinedBy U p x t → DiffFree t) {R R' : Relationship → Prop} (hR : ∀ r, R r → R' r) {x : USet} (h : Granted U p R u x) :
    Granted U p R' u x :=
  fun V hV => h V (fun y ⟨t, hd, he⟩ => hV y ⟨t, hd, ExprIn.mono hR (hdf y t hd) he⟩)

theorem has_of_declares {res rel : String} {d : Relation} (h : Declares p res rel d) : HasResource p res ∧ HasRelation p res rel :=
  ⟨let ⟨r, h1, h2, _⟩ := h; ⟨r, h1, h2⟩, d, h⟩

theorem restriction_ok (hv : ValidPolicy U p) {res rel : String} {d : Relation} (h : Declares p res rel d) {rs : List Restriction}
    (hr : d.subjectRestriction = some (.restrictionSet rs)) {x : Restriction} (hx : x ∈ rs) : RestrictionOK p x := by
  obtain ⟨r, h1, _, h2, _⟩ := h
  exact hv.2.1 r h1 d h2 _ hr x hx

/-- What a relation may be given to, it can be given to. -/
theorem admits_entity (hv : ValidPolicy U p) {res rel : String} {d : Relation} (h : Declares p res rel d) {e : Entity} (ht : Takes p d e.resource) :
    Admissible p ⟨some ⟨res, i⟩, rel, some (.entity e)⟩ := by
  have hh := has_of_declares h
  rcases ht with ⟨h1, h2⟩ | ⟨rs, h1, h2⟩
  · exact ⟨⟨_, _, rfl, rfl, hh.1, hh.2, h2⟩, _, _, d, _, rfl, rfl, h, h1, .universal _⟩
  · exact ⟨⟨_, _, rfl, rfl, hh.1, hh.2, restriction_ok hv h h1 h2⟩, _, _, d, _, rfl, rfl, h, h1, .entity h2⟩

theorem admits_set (hv : ValidPolicy U p) {res rel : String} {d : Relation} (h : Declares p res rel d) {e : Entity} {rel' : String} (ht : TakesSet p d e.resource rel') :
    Admissible p ⟨some ⟨res, i⟩, rel, some (.entitySet (some e) rel')⟩ := by
  have hh := has_of_declares h
  rcases ht with ⟨h1, h2⟩ | ⟨rs, h1, h2⟩
  · exact ⟨⟨_, _, rfl, rfl, hh.1, hh.2, h2⟩, _, _, d, _, rfl, rfl, h, h1, .universal _⟩
  · exact ⟨⟨_, _, rfl, rfl, hh.1, hh.2, restriction_ok hv h h1 h2⟩, _, _, d, _, rfl, rfl, h, h1, .entitySet h2⟩

/-- Whatever the restrictions leave room for follows from some relationships. -/
theorem mayHold_attained (hv : ValidPolicy U p) (hdf : ∀ x t, DefinedBy U p x t → DiffFree t) (i : String) {res rel : String}
    (h : MayHold U p u.resource res rel) : ∃ rs : List Relationship, (∀ r ∈ rs, Small p i u r) ∧ Granted U p (· ∈ rs) u ⟨⟨res, i⟩, rel⟩ := by
  refine h (fun res rel => ∃ rs : List Relationship, (∀ r ∈ rs, Small p i u r) ∧ Granted U p (· ∈ rs) u ⟨⟨res, i⟩, rel⟩) ?_
  intro res rel d e hd ht he
  have both : ∀ {a b : List Relationship}, (∀ r ∈ a, Small p i u r) → (∀ r ∈ b, Small p i u r) → ∀ r ∈ a ++ b, Small p i u r :=
    fun ha hb r hr => (List.mem_append.1 hr).elim (ha r) (hb r)
  have grow : ∀ {a b : List Relationship}, (∀ r ∈ a, r ∈ b) → ∀ {e : ExprTree}, DiffFree e → ExprIn (· ∈ a) u (Granted U p (· ∈ a) u) ⟨⟨res, i⟩, rel⟩ e →
      ExprIn (· ∈ b) u (Granted U p (· ∈ b) u) ⟨⟨res, i⟩, rel⟩ e :=
    fun hab e hdf' h => ExprIn.monoV (fun y hy => granted_mono hdf hab hy) hdf' (ExprIn.mono hab hdf' h)
  have key : ∀ e, DiffFree e → ExprMay p u.resource (fun res rel => ∃ rs : List Relationship, (∀ r ∈ rs, Small p i u r) ∧ Granted U p (· ∈ rs) u ⟨⟨res, i⟩, rel⟩) res d e →
      ∃ rs : List Relationship, (∀ r ∈ rs, Small p i u r) ∧ ExprIn (· ∈ rs) u (Granted U p (· ∈ rs) u) ⟨⟨res, i⟩, rel⟩ e := by
    intro e
    induction e with
    | nil => intro _ h; exact h.elim
    | unset => intro _ h; exact h.elim
    | rule r =>
      intro _ h
      match r, h with
      | .this, .inl h =>
        refine ⟨[⟨some ⟨res, i⟩, rel, some (.entity u)⟩], ?_, .entity u, List.mem_singleton.2 rfl, rfl⟩
        intro r hr
        obtain rfl := List.mem_singleton.1 hr
        exact ⟨admits_entity hv hd h, ⟨res, rfl⟩, .inl rfl⟩
      | .this, .inr ⟨res', rel', h, rs, h1, h2⟩ =>
        refine ⟨⟨some ⟨res, i⟩, rel, some (.entitySet (some ⟨res', i⟩) rel')⟩ :: rs, ?_, .entitySet (some ⟨res', i⟩) rel', .head _, ?_⟩
        · intro r hr
          rcases List.mem_cons.1 hr with rfl | hr
          · exact ⟨admits_set hv hd h, ⟨res, rfl⟩, .inr (.inr ⟨_, _, rfl⟩)⟩
          · exact h1 r hr
        · exact granted_mono hdf (fun r hr => .tail _ hr) h2
      | .cu c, ⟨rs, h1, h2⟩ => exact ⟨rs, h1, h2⟩
      | .ttu a b, ⟨d', res', hd', hp, rs, h1, h2⟩ =>
        have : ∃ sub, Small p i u ⟨some ⟨res, i⟩, a, some sub⟩ ∧ pointsTo sub = some ⟨res', i⟩ := by
          rcases hp with h | ⟨l, hl, h | ⟨rel', h⟩⟩
          · exact ⟨.entity ⟨res', i⟩, ⟨admits_entity hv hd' (.inl h), ⟨res, rfl⟩, .inr (.inl ⟨_, rfl⟩)⟩, rfl⟩
          · exact ⟨.entity ⟨res', i⟩, ⟨admits_entity hv hd' (.inr ⟨l, hl, h⟩), ⟨res, rfl⟩, .inr (.inl ⟨_, rfl⟩)⟩, rfl⟩
          · exact ⟨.entitySet (some ⟨res', i⟩) rel', ⟨admits_set hv hd' (.inr ⟨l, hl, h⟩), ⟨res, rfl⟩, .inr (.inr ⟨_, _, rfl⟩)⟩, rfl⟩
        obtain ⟨sub, hs, hpt⟩ := this
        refine ⟨⟨some ⟨res, i⟩, a, some sub⟩ :: rs, ?_, sub, _, .head _, hpt, granted_mono hdf (fun r hr => .tail _ hr) h2⟩
        intro r hr
        rcases List.mem_cons.1 hr with rfl | hr
        · exact hs
        · exact h1 r hr
    | op l o r ihl ihr =>
      intro hdf' h
      match o, hdf', h with
      | .union, hdf', .inl h =>
        obtain ⟨rs, h1, h2⟩ := ihl hdf'.1 h
        exact ⟨rs, h1, .inl h2⟩
      | .union, hdf', .inr h =>
        obtain ⟨rs, h1, h2⟩ := ihr hdf'.2 h
        exact ⟨rs, h1, .inr h2⟩
      | .intersection, hdf', h =>
        obtain ⟨rs, h1, h2⟩ := ihl hdf'.1 h.1
        obtain ⟨rs', h1', h2'⟩ := ihr hdf'.2 h.2
        exact ⟨rs ++ rs', both h1 h1', grow (fun r hr => List.mem_append_left _ hr) hdf'.1 h2, grow (fun r hr => List.mem_append_right _ hr) hdf'.2 h2'⟩
      | .unknown, _, h => exact h.elim
  obtain ⟨rs, h1, h2⟩ := key e (hdf ⟨⟨res, i⟩, rel⟩ e ⟨d, hd, ht⟩) he
  exact ⟨rs, h1, fun V hV => hV _ ⟨e, ⟨d, hd, ht⟩, ExprIn.monoV (fun y hy => hy V hV) (hdf ⟨⟨res, i⟩, rel⟩ e ⟨d, hd, ht⟩) h2⟩⟩

end

/-- Setting relationships the policy admits, all with keys of their own, adds them. -/
theorem stored_all {env : Env} {pid : String} {rec : PolicyRecord} (now : Timestamp) (a : Bytes) : ∀ (rs : List Relationship) {s : Store}, WF env s → policyAt s pid = some rec →
    (∀ r ∈ rs, Admissible rec.policy r) → (∀ r r', (r ∈ rs ∨ Present s pid r) → r' ∈ rs → relKey env.H r = relKey env.H r' → r = r') →
    (∀ x ∈ (runCalls env (rs.map (fun r => .setRelationship now pid (some r) a)) s).1, ∃ ans, x = .ok ans) ∧
    policyAt (runCalls env (rs.map (fun r => .setRelationship now pid (some r) a)) s).2 pid = some rec ∧
    ∀ r, Present (runCalls env (rs.map (fun r => .setRelationship now pid (some r) a)) s).2 pid r ↔ r ∈ rs ∨ Present s pid r
  | [], s, hs, hp, _, _ => ⟨(fun x hx => by cases hx), hp, (fun r => by simp [runCalls])⟩
  | r :: rs, s, hs, hp, ha, hk => by
    have hadm := ha r (.head _)
    have hall := (C12_admission_exact rec.policy (hs.policy_valid hp).1 r).2 hadm
    obtain ⟨r', e, hr', he⟩ := allowed_complete hall
    cases hr'
    have hp' : kvGet s.policies pid = some rec := policyAt_eq s pid ▸ hp
    have hset := serve_set_ok (env := env) (now := now) (a := a) hp' hall he
    have hne : r.subject ≠ some .unset := by
      obtain ⟨⟨_, sub, _, h1, _, _, h2⟩, _⟩ := hadm
      rw [h1]
      rintro h
      cases h
      exact h2
    have hs1 : WF env (s.putRel env.H pid e a now) := by
      have := (hs.runCalls [.setRelationship now pid (some r) a])
      have h2 : (runCalls env [.setRelationship now pid (some r) a] s).2 = (serve env (.setRelationship now pid (some r) a) s).2 := rfl
      rw [h2, hset] at this
      exact this
    have hpr := present_putRel (pid := pid) hs he hne a now pid
    have ih := stored_all now a rs hs1 (s := s.putRel env.H pid e a now) (rec := rec) (pid := pid) hp (fun r hr => ha r (.tail _ hr)) (fun r1 r2 h1 h2 => by
      refine hk r1 r2 ?_ (.tail _ h2)
      rcases h1 with h1 | h1
      · exact .inl (.tail _ h1)
      · rcases (hpr r1).1 h1 with ⟨_, rfl⟩ | ⟨h1, _⟩
        · exact .inl (.head _)
        · exact .inr h1)
    have hrun : runCalls env (.setRelationship now pid (some r) a :: rs.map (fun r => .setRelationship now pid (some r) a)) s =
        (.ok (.overwritten (kvGet (s.edges pid) (e.key env.H)).isSome) :: (runCalls env (rs.map (fun r => .setRelationship now pid (some r) a)) (s.putRel env.H pid e a now)).1,
          (runCalls env (rs.map (fun r => .setRelationship now pid (some r) a)) (s.putRel env.H pid e a now)).2) := by
      show (let (r0, s') := serve env (.setRelationship now pid (some r) a) s
            let (rs', s'') := runCalls env (rs.map (fun r => .setRelationship now pid (some r) a)) s'
            (r0 :: rs', s'')) = _
      rw [hset]
    simp only [List.map_cons]
    rw [hrun]
    refine ⟨fun x hx => ?_, ih.2.1, fun x => ?_⟩
    · rcases List.mem_cons.1 hx with rfl | hx
      · exact ⟨_, rfl⟩
      · exact ih.1 x hx
    · rw [ih.2.2 x, hpr x, List.mem_cons]
      constructor
      · rintro (h | ⟨_, h⟩ | ⟨h, _⟩)
        · exact .inl (.inr h)
        · exact .inl (.inl h)
        · exact .inr h
      · rintro ((h | h) | h)
        · exact .inr (.inl ⟨rfl, h⟩)
        · exact .inl h
        · by_cases hx : relKey env.H x = relKey env.H r
          · exact .inr (.inl ⟨rfl, hk x r (.inr h) (.head _) hx⟩)
          · exact .inr (.inr ⟨h, fun h => hx h.2⟩)

end Zanzi
