import Verif.Spec.Trace
import Verif.Lemmas.Writes
import Verif.Props.Policy

/-
Whatever is stored was asked for: an invariant of all schedules.
-/

namespace Zanzi

open Spec Prog

section
variable {env : Env} {A : Call → Prop}

/-- Data stored under key `k` is that of a relationship with this key. -/
def DataAsked (env : Env) (A : Call → Prop) (k : EdgeKey) (d : RelData) : Prop :=
  ∃ pid r, A (.setRelationship d.createdAt pid (some r) d.appData) ∧ RelationshipComplete r ∧ relKey env.H r = k

structure Traced (env : Env) (A : Call → Prop) (s : Store) : Prop where
  policies : ∀ id rec, kvGet s.policies id = some rec → PolicyAsked env A id rec
  edges : ∀ pid, ∀ p ∈ s.edges pid, RelationshipAsked env A pid (fromInternal p.2)
  data : ∀ k d, kvGet s.data k = some d → DataAsked env A k d

/-- Writes of what was asked for. -/
def Asked (env : Env) (A : Call → Prop) : Op → Prop
  | .polSet rec => PolicyAsked env A rec.policy.id rec
  | .edgeSet pid _ e => RelationshipAsked env A pid (fromInternal e)
  | .dataSet d => DataAsked env A d.relationshipId d
  | _ => True

/-- A program that writes only what was asked for, provided the policies it reads were. -/
inductive Prog.Lawful (env : Env) (A : Call → Prop) {α : Type} : Prog α → Prop
  | done (r : Res α) : Lawful env A (.done r)
  | get {id : String} {k : Option (Option PolicyRecord) → Prog α} : (∀ rec, PolicyAsked env A id rec → Lawful env A (k (some (some rec)))) →
      Lawful env A (k (some none)) → Lawful env A (k none) → Lawful env A (.call (.polGet id) k)
  | call {o : Op} {k : Option o.Resp → Prog α} : Asked env A o → (∀ r, Lawful env A (k r)) → Lawful env A (.call o k)

theorem Prog.Lawful.of {α : Type} {p : Prog α} (h : p.AllOps (Asked env A)) : p.Lawful env A := by
  induction h with
  | done r => exact .done r
  | call ho _ ih => exact .call ho ih

theorem Prog.Lawful.bind {α β : Type} {p : Prog α} {k : α → Prog β} (hp : p.Lawful env A) (hk : ∀ a, (k a).Lawful env A) : (p >>= k).Lawful env A := by
  show (p.bind k).Lawful env A
  induction hp with
  | done r => cases r <;> first | exact hk _ | exact .done _
  | get _ _ _ h1 h2 h3 => exact .get h1 h2 h3
  | call ho _ ih => exact .call ho ih

/-- Reading a policy. -/
theorem Prog.Lawful.getPolicy {α : Type} {id : String} {k : Option PolicyRecord → Prog α} (h1 : ∀ rec, PolicyAsked env A id rec → (k (some rec)).Lawful env A)
    (h2 : (k none).Lawful env A) : (Repo.getPolicy id >>= k).Lawful env A :=
  .get h1 h2 (.done _)

theorem asked_read {o : Op} (h : o.isRead = true) : Asked env A o := by
  cases o <;> first | trivial | cases h

theorem setPolicy_lawful {rec : PolicyRecord} (h : PolicyAsked env A rec.policy.id rec) : (Repo.setPolicy rec).Lawful env A :=
  .of (AllOps.bind (AllOps.op trivial) (fun _ => AllOps.bind (AllOps.op h) (fun _ => .done _)))

theorem prog_lawful (env : Env) {c : Call} (hc : A c) : (c.prog env).Lawful env A := by
  have hread : ∀ {α : Type} {p : Prog α}, p.ReadOnly → p.Lawful env A := fun hp => .of (hp.mono (fun o ho => asked_read ho))
  by_cases hw : c.writesPolicy = true ∨ ∃ now q r a, c = .setRelationship now q r a
  · rcases hw with hw | ⟨now, q, r, a, rfl⟩
    · cases c <;> simp [Call.writesPolicy] at hw
      case createPolicy now d a =>
        refine Prog.Lawful.bind ?_ (fun _ => .done _)
        unfold Service.createPolicy
        cases hd : getPolicyFromDefinition env d with
        | err => exact .done _
        | panic => exact .done _
        | fuel => exact .done _
        | ok p =>
          rw [lift_ok_bind]
          have hd' := getPolicyFromDefinition_ok_iff.1 hd
          refine .getPolicy (fun _ _ => .done _) ?_
          cases hv : verifyPolicy env.U p with
          | err => exact .done _
          | panic => exact .done _
          | fuel => exact .done _
          | ok =>
            rw [lift_ok_bind]
            exact Prog.Lawful.bind (setPolicy_lawful ⟨rfl, (C09_validation_exact _ _).1 hv, ⟨d, .inl ⟨now, hc⟩, hd'⟩, d, p, a, hc, hd', rfl⟩) (fun _ => .done _)
      case updatePolicy d a =>
        refine Prog.Lawful.bind ?_ (fun _ => .done _)
        unfold Service.updatePolicy
        cases hd : getPolicyFromDefinition env d with
        | err => exact .done _
        | panic => exact .done _
        | fuel => exact .done _
        | ok p =>
          rw [lift_ok_bind]
          have hd' := getPolicyFromDefinition_ok_iff.1 hd
          refine .getPolicy (fun rec hrec => ?_) (.done _)
          dsimp only
          cases hv : verifyPolicy env.U p with
          | err => exact .done _
          | panic => exact .done _
          | fuel => exact .done _
          | ok =>
            rw [lift_ok_bind]
            exact Prog.Lawful.bind (setPolicy_lawful ⟨rfl, (C09_validation_exact _ _).1 hv, ⟨d, .inr hc, hd'⟩, hrec.2.2.2⟩) (fun _ => .done _)
    · refine Prog.Lawful.bind ?_ (fun _ => .done _)
      unfold Service.setRelationship
      refine .getPolicy (fun rec hrec => ?_) (.done _)
      dsimp only
      cases r with
      | none =>
        refine Prog.Lawful.bind (.done _) (fun _ => .done _)
      | some r =>
        cases ha : allowedRelationship (some r) (newLut rec.policy) with
        | err => exact .done _
        | panic => exact .done _
        | fuel => exact .done _
        | ok =>
          rw [lift_ok_bind, Res.deref_some, lift_ok_bind]
          unfold Repo.setRelationship
          cases he : toInternal r with
          | err => exact .done _
          | panic => exact .done _
          | fuel => exact .done _
          | ok e =>
            rw [lift_ok_bind]
            refine .of (AllOps.bind (AllOps.op trivial) (fun _ => AllOps.bind (AllOps.op ?_) (fun _ => AllOps.bind (AllOps.op ?_) (fun _ => .done _))))
            · show RelationshipAsked env A q (fromInternal e)
              rw [fromInternal_toInternal he]
              exact ⟨⟨now, a, hc⟩, rec, hrec, (C12_admission_exact _ hrec.2.1.1 _).1 ha⟩
            · exact ⟨q, r, hc, toInternal_complete.1 ⟨e, he⟩, relKey_of he⟩
  · rw [not_or] at hw
    refine .of (prog_ops env c (fun o ho => asked_read ho) (fun h => absurd h hw.1) (fun _ => trivial) (fun now q r a e h => ?_) (fun _ _ _ _ _ => ⟨trivial, trivial⟩))
    exact absurd ⟨now, q, some r, a, h⟩ hw.2

theorem traced_exec {o : Op} {s : Store} (ho : Asked env A o) (h : Traced env A s) : Traced env A (o.exec s).2 := by
  obtain ⟨h1, h2, h3⟩ := h
  cases o <;> try exact ⟨h1, h2, h3⟩
  case polSet rec =>
    refine ⟨fun id rec' hg => ?_, h2, h3⟩
    replace hg : kvGet (kvPut strLt s.policies rec.policy.id rec) id = some rec' := hg
    rw [kvGet_put] at hg
    split at hg
    · next he =>
      cases hg
      rw [he]
      exact ho
    · exact h1 _ _ hg
  case polDel q =>
    refine ⟨fun id rec' hg => ?_, h2, h3⟩
    replace hg : kvGet (kvDel s.policies q) id = some rec' := hg
    rw [kvGet_del] at hg
    split at hg
    · cases hg
    · exact h1 _ _ hg
  case edgeSet q k e =>
    refine ⟨h1, fun pid p hp => ?_, h3⟩
    replace hp : p ∈ (s.setEdges q _).edges pid := hp
    rw [setEdges_edges] at hp
    split at hp
    · next hq =>
      subst hq
      rcases kvPut_mem hp with rfl | hp
      · exact ho
      · exact h2 _ _ hp
    · exact h2 _ _ hp
  case edgeDel q k =>
    refine ⟨h1, fun pid p hp => ?_, h3⟩
    replace hp : p ∈ (s.setEdges q _).edges pid := hp
    rw [setEdges_edges] at hp
    split at hp
    · next hq => subst hq; exact h2 _ _ (kvDel_mem hp)
    · exact h2 _ _ hp
  case dataSet d =>
    refine ⟨h1, h2, fun k d' hg => ?_⟩
    replace hg : kvGet (kvPut edgeLt s.data d.relationshipId d) k = some d' := hg
    rw [kvGet_put] at hg
    split at hg
    · next he =>
      cases hg
      rw [he]
      exact ho
    · exact h3 _ _ hg
  case dataDel q =>
    refine ⟨h1, h2, fun k d' hg => ?_⟩
    replace hg : kvGet (kvDel s.data q) k = some d' := hg
    rw [kvGet_del] at hg
    split at hg
    · cases hg
    · exact h3 _ _ hg

/-- Every schedule from a traced store with no request in flight leads to traced stores. -/
theorem path_traced {y : Sys} (h : Sys.Path env A ⟨[], Store.empty⟩ y) : Traced env A y.store :=
  (Sys.Path.inv (I := Traced env A) (J := fun _ t => t.Lawful env A) (St := fun _ _ => True) (fun _ => trivial)
    (fun _ _ _ hc => prog_lawful env hc)
    (fun s o k hI hJ => ⟨by
      cases hJ with
      | get _ _ _ => exact hI
      | call ho _ => exact traced_exec ho hI, trivial⟩)
    (fun _ _ _ h _ => h)
    (fun s o k resp b s' hI hJ hst => by
      cases hJ with
      | @get id k h1 h2 h3 =>
        cases hst with
        | ok =>
          show (k (some (kvGet s.policies id))).Lawful env A
          cases hg : kvGet s.policies id with
          | none => exact h2
          | some rec => exact h1 _ (hI.policies _ _ hg)
        | failBefore => exact h3
        | failAfter => exact h3
      | call _ hk => exact hk _)
    h ⟨fun _ _ h => by simp [Store.empty, kvGet] at h, fun _ _ h => by simp [Store.empty] at h, fun _ _ h => by simp [Store.empty, kvGet] at h⟩ (by simp)).1

end

end Zanzi
