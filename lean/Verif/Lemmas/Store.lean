import Verif.Spec.Store
import Verif.Lemmas.Prog
import Verif.Lemmas.Policy

/-
Facts about the mapper, the store invariant and sequential runs of repository methods.
-/

namespace Zanzi

open Spec

/-! ### Mapper -/

theorem toInternal_complete {r : Relationship} : (∃ e, toInternal r = .ok e) ↔ RelationshipComplete r := by
  obtain ⟨o, rel, s⟩ := r
  unfold toInternal RelationshipComplete
  cases s with
  | none => simp
  | some s =>
    cases o with
    | none => cases s <;> simp <;> rename_i e _ <;> cases e <;> simp
    | some o =>
      cases s <;> simp
      rename_i e _
      cases e <;> simp

theorem toInternal_normal_or_panic (r : Relationship) : (∃ e, toInternal r = .ok e) ∨ toInternal r = .panic := by
  obtain ⟨o, rel, s⟩ := r
  unfold toInternal
  cases s with
  | none => simp
  | some s =>
    cases o with
    | none => cases s <;> simp <;> rename_i e _ <;> cases e <;> simp
    | some o =>
      cases s <;> simp
      rename_i e _
      cases e <;> simp

theorem fromInternal_toInternal {r : Relationship} {e : IRel} (h : toInternal r = .ok e) : fromInternal e = r := by
  obtain ⟨o, rel, s⟩ := r
  unfold toInternal at h
  cases s with
  | none => simp at h
  | some s =>
    cases o with
    | none => cases s <;> simp at h <;> rename_i e _ <;> cases e <;> simp at h
    | some o =>
      cases s <;> simp at h
      case unset => subst h; rfl
      case entity => subst h; rfl
      case resourceSet => subst h; rfl
      case entitySet e _ =>
        cases e <;> simp at h
        subst h; rfl

/-- Internal records the mapper produces from real (set) subjects. -/
def NormRel (e : IRel) : Prop := ∃ r, toInternal r = .ok e ∧ r.subject ≠ some .unset

theorem NormRel.back {e : IRel} (h : NormRel e) : toInternal (fromInternal e) = .ok e := by
  obtain ⟨r, hr, _⟩ := h
  rw [fromInternal_toInternal hr, hr]

theorem fromInternal_inj {e e' : IRel} (h : NormRel e) (h' : NormRel e') (he : fromInternal e = fromInternal e') : e = e' := by
  have h1 := h.back
  rw [he, h'.back] at h1
  exact (Res.ok.inj h1).symm

theorem toInternal_inj {r r' : Relationship} {e : IRel} (h : toInternal r = .ok e) (h' : toInternal r' = .ok e) : r = r' := by
  rw [← fromInternal_toInternal h, ← fromInternal_toInternal h']

theorem fromInternal_complete (e : IRel) : RelationshipComplete (fromInternal e) := by
  unfold fromInternal subjectFromInternal RelationshipComplete
  cases e.dest.type <;> simp

/-! ### The store invariant -/

/-- Invariant of every store the service produces. -/
structure WF (env : Env) (s : Store) : Prop where
  polNodup : KeysNodup s.policies
  polSorted : KeysSorted strLt s.policies
  polKey : ∀ id rec, (id, rec) ∈ s.policies → rec.policy.id = id
  polValid : ∀ id rec, (id, rec) ∈ s.policies → verifyPolicy env.U rec.policy = .ok ()
  edgeNodup : ∀ pid, KeysNodup (s.edges pid)
  edgeSorted : ∀ pid, KeysSorted edgeLt (s.edges pid)
  edgeKey : ∀ pid k e, (k, e) ∈ s.edges pid → k = e.key env.H
  edgeNorm : ∀ pid k e, (k, e) ∈ s.edges pid → NormRel e
  dataNodup : KeysNodup s.data
  dataKey : ∀ k d, (k, d) ∈ s.data → d.relationshipId = k

theorem strLt_irrefl (a : String) : strLt a a = false := by simp [strLt]
theorem strLt_trans {a b c : String} (h : strLt a b = true) (h' : strLt b c = true) : strLt a c = true := by
  simp only [strLt, decide_eq_true_eq] at *
  exact String.lt_trans h h'
theorem strLt_total {a b : String} (h : strLt a b = false) (hne : a ≠ b) : strLt b a = true := by
  simp only [strLt, decide_eq_true_eq, decide_eq_false_iff_not] at *
  rcases String.le_total a b with h1 | h1
  · exact absurd (String.le_antisymm h1 (String.not_lt.1 h)) hne
  · exact String.not_le.1 (fun h2 => hne (String.le_antisymm h2 h1))

theorem strPut_sorted {V : Type} {m : List (String × V)} (h : KeysSorted strLt m) (k : String) (v : V) :
    KeysSorted strLt (kvPut strLt m k v) :=
  kvPut_sorted (lt := strLt) (fun _ _ _ h h' => strLt_trans h h') (fun _ _ hne h => strLt_total h hne) h

theorem edgeLt_trans {a b c : EdgeKey} (h : edgeLt a b = true) (h' : edgeLt b c = true) : edgeLt a c = true := by
  simp only [edgeLt, Bool.or_eq_true, Bool.and_eq_true, decide_eq_true_eq] at *
  omega
theorem edgeLt_total {a b : EdgeKey} (h : edgeLt a b = false) (hne : a ≠ b) : edgeLt b a = true := by
  have : ¬ (a.1 = b.1 ∧ a.2 = b.2) := fun ⟨h1, h2⟩ => hne (Prod.ext h1 h2)
  simp only [edgeLt, Bool.or_eq_true, Bool.and_eq_true, decide_eq_true_eq, Bool.or_eq_false_iff, Bool.and_eq_false_iff, decide_eq_false_iff_not] at *
  omega
theorem edgeLt_irrefl (a : EdgeKey) : edgeLt a a = false := by simp [edgeLt]

theorem edgePut_sorted {V : Type} {m : List (EdgeKey × V)} (h : KeysSorted edgeLt m) (k : EdgeKey) (v : V) :
    KeysSorted edgeLt (kvPut edgeLt m k v) :=
  kvPut_sorted (lt := edgeLt) (fun _ _ _ h h' => edgeLt_trans h h') (fun _ _ hne h => edgeLt_total h hne) h

theorem WF.empty (env : Env) : WF env Store.empty := by
  constructor <;> simp [Store.empty, KeysNodup, KeysSorted]

/-- Storage calls that keep the invariant. -/
def OpOK (env : Env) : Op → Prop
  | .polSet rec => verifyPolicy env.U rec.policy = .ok ()
  | .edgeSet _ k e => k = e.key env.H ∧ NormRel e
  | _ => True

theorem mem_kvPut {K V : Type} [DecidableEq K] {lt : K → K → Bool} {m : List (K × V)} {k : K} {v : V} {p : K × V}
    (h : p ∈ kvPut lt m k v) : p = (k, v) ∨ p ∈ m := by
  unfold kvPut at h
  split at h
  · obtain ⟨q, hq, he⟩ := List.mem_map.1 h
    split at he
    · exact .inl he.symm
    · exact .inr (he ▸ hq)
  · rcases mem_kvInsert.1 h with h | h
    · exact .inl h
    · exact .inr h

theorem mem_kvDel {K V : Type} [DecidableEq K] {m : List (K × V)} {k : K} {p : K × V} :
    p ∈ kvDel m k ↔ p ∈ m ∧ p.1 ≠ k := by
  simp [kvDel]

theorem setEdges_edges (s : Store) (pid : String) (m : List (EdgeKey × IRel)) (q : String) :
    (s.setEdges pid m).edges q = if q = pid then m else s.edges q := rfl

theorem WF.exec {env : Env} (o : Op) (s : Store) (ho : OpOK env o) (hs : WF env s) : WF env (o.exec s).2 := by
  cases o with
  | polSet rec =>
    show WF env { s with policies := kvPut strLt s.policies rec.policy.id rec }
    exact { hs with
      polNodup := kvPut_nodup hs.polNodup
      polSorted := strPut_sorted hs.polSorted _ _
      polKey := by
        intro id r h
        rcases mem_kvPut h with h | h
        · cases h; rfl
        · exact hs.polKey id r h
      polValid := by
        intro id r h
        rcases mem_kvPut h with h | h
        · cases h; exact ho
        · exact hs.polValid id r h }
  | polDel id =>
    exact { hs with
      polNodup := kvDel_nodup hs.polNodup
      polSorted := kvDel_sorted hs.polSorted
      polKey := fun id r h => hs.polKey id r (mem_kvDel.1 h).1
      polValid := fun id r h => hs.polValid id r (mem_kvDel.1 h).1 }
  | edgeSet pid k e =>
    exact { hs with
      edgeNodup := by
        intro q; show KeysNodup ((s.setEdges pid _).edges q); rw [setEdges_edges]; split
        · exact kvPut_nodup (hs.edgeNodup pid)
        · exact hs.edgeNodup q
      edgeSorted := by
        intro q; show KeysSorted edgeLt ((s.setEdges pid _).edges q); rw [setEdges_edges]; split
        · exact edgePut_sorted (hs.edgeSorted pid) _ _
        · exact hs.edgeSorted q
      edgeKey := by
        intro q k' e' h
        replace h : _ ∈ (s.setEdges pid _).edges q := h
        rw [setEdges_edges] at h
        split at h
        · rcases mem_kvPut h with h | h
          · cases h; exact ho.1
          · exact hs.edgeKey pid _ _ h
        · exact hs.edgeKey q _ _ h
      edgeNorm := by
        intro q k' e' h
        replace h : _ ∈ (s.setEdges pid _).edges q := h
        rw [setEdges_edges] at h
        split at h
        · rcases mem_kvPut h with h | h
          · cases h; exact ho.2
          · exact hs.edgeNorm pid _ _ h
        · exact hs.edgeNorm q _ _ h }
  | edgeDel pid k =>
    exact { hs with
      edgeNodup := by
        intro q; show KeysNodup ((s.setEdges pid _).edges q); rw [setEdges_edges]; split
        · exact kvDel_nodup (hs.edgeNodup pid)
        · exact hs.edgeNodup q
      edgeSorted := by
        intro q; show KeysSorted edgeLt ((s.setEdges pid _).edges q); rw [setEdges_edges]; split
        · exact kvDel_sorted (hs.edgeSorted pid)
        · exact hs.edgeSorted q
      edgeKey := by
        intro q k' e' h
        replace h : _ ∈ (s.setEdges pid _).edges q := h
        rw [setEdges_edges] at h
        split at h
        · exact hs.edgeKey pid _ _ (mem_kvDel.1 h).1
        · exact hs.edgeKey q _ _ h
      edgeNorm := by
        intro q k' e' h
        replace h : _ ∈ (s.setEdges pid _).edges q := h
        rw [setEdges_edges] at h
        split at h
        · exact hs.edgeNorm pid _ _ (mem_kvDel.1 h).1
        · exact hs.edgeNorm q _ _ h }
  | dataSet d =>
    exact { hs with
      dataNodup := kvPut_nodup hs.dataNodup
      dataKey := by
        intro k d' h
        rcases mem_kvPut h with h | h
        · cases h; rfl
        · exact hs.dataKey k d' h }
  | dataDel k =>
    exact { hs with
      dataNodup := kvDel_nodup hs.dataNodup
      dataKey := fun k d h => hs.dataKey k d (mem_kvDel.1 h).1 }
  | polHas => exact hs
  | polGet => exact hs
  | polList => exact hs
  | edgeGet => exact hs
  | edgeList => exact hs
  | edgeSucc => exact hs
  | dataGet => exact hs


/-! ### Calls made by the service methods -/

/-- Storage calls that only read. -/
def Op.isRead : Op → Bool
  | .polSet _ | .polDel _ | .edgeSet _ _ _ | .edgeDel _ _ | .dataSet _ | .dataDel _ => false
  | _ => true

theorem read_exec {o : Op} (h : o.isRead = true) (s : Store) : (o.exec s).2 = s := by
  cases o <;> first | rfl | simp [Op.isRead] at h

/-- A program that only reads. -/
abbrev Prog.ReadOnly {α : Type} (p : Prog α) : Prop := p.AllOps (fun o => o.isRead = true)

theorem Prog.ReadOnly.run {α : Type} {p : Prog α} (h : p.ReadOnly) (s : Store) : (p.run s).2 = s :=
  AllOps.run (I := fun s' => s' = s) (fun o s' ho hs => by rw [read_exec ho, hs]) h rfl

theorem Prog.ReadOnly.runF {α : Type} {p : Prog α} (h : p.ReadOnly) {s s' : Store} {b : Bool} {r : Res α}
    (hr : RunF p s b r s') : s' = s :=
  AllOps.runF (I := fun s' => s' = s) (fun o s' ho hs => by rw [read_exec ho, hs]) h hr rfl

open Prog in
/-- Discharge obligations about all storage calls of straight-line programs. -/
macro "all_ops" : tactic =>
  `(tactic| repeat' (first
    | exact AllOps.lift _
    | exact AllOps.pure _
    | exact AllOps.op (by first | trivial | rfl)
    | exact AllOps.done _
    | exact FailStop.lift _
    | exact FailStop.pure _
    | exact FailStop.op _
    | exact FailStop.done _
    | refine AllOps.bind ?_ (fun _ => ?_)
    | refine FailStop.bind ?_ (fun _ => ?_)
    | refine AllOps.mapSlice (fun _ _ => ?_)
    | refine FailStop.mapSlice (fun _ => ?_) _
    | split
    | assumption))

namespace Repo
open Prog

theorem getPolicy_read (id : String) : (getPolicy id).ReadOnly := by unfold getPolicy polGet; all_ops
theorem getSuccessors_read (H pid o rel) : (getSuccessors H pid o rel).ReadOnly := by
  unfold getSuccessors edgeSucc; all_ops
theorem listEdges_read (pid) : (listEdges pid).ReadOnly := by unfold listEdges edgeList; all_ops
theorem findRelationships_read (pid sel) : (findRelationships pid sel).ReadOnly := by
  unfold findRelationships edgeList; all_ops
theorem getRelationship_read (H pid r) : (getRelationship H pid r).ReadOnly := by
  unfold getRelationship dataGet; all_ops
theorem findRelationshipRecords_read (H pid sel) : (findRelationshipRecords H pid sel).ReadOnly := by
  unfold findRelationshipRecords
  refine AllOps.bind (findRelationships_read _ _) (fun _ => AllOps.mapSlice fun _ _ => getRelationship_read _ _ _)

theorem getPolicy_fs (id : String) : (getPolicy id).FailStop := by unfold getPolicy polGet; all_ops
theorem getSuccessors_fs (H pid o rel) : (getSuccessors H pid o rel).FailStop := by
  unfold getSuccessors edgeSucc; all_ops
theorem listEdges_fs (pid) : (listEdges pid).FailStop := by unfold listEdges edgeList; all_ops
theorem findRelationships_fs (pid sel) : (findRelationships pid sel).FailStop := by
  unfold findRelationships edgeList; all_ops
theorem getRelationship_fs (H pid r) : (getRelationship H pid r).FailStop := by
  unfold getRelationship dataGet; all_ops
theorem findRelationshipRecords_fs (H pid sel) : (findRelationshipRecords H pid sel).FailStop := by
  unfold findRelationshipRecords
  refine FailStop.bind (findRelationships_fs _ _) (fun _ => FailStop.mapSlice (fun _ => getRelationship_fs _ _ _) _)
theorem deleteRelationship_fs (H pid r) : (deleteRelationship H pid r).FailStop := by
  unfold deleteRelationship edgeGet edgeDel dataDel; all_ops
theorem deleteRelationships_fs (H pid sel) : (deleteRelationships H pid sel).FailStop := by
  unfold deleteRelationships
  refine FailStop.bind (findRelationships_fs _ _) (fun _ => FailStop.bind
    (FailStop.mapSlice (fun _ => deleteRelationship_fs _ _ _) _) (fun _ => .done _))
theorem setRelationship_fs (H r) : (setRelationship H r).FailStop := by
  unfold setRelationship edgeGet edgeSet dataSet; all_ops
theorem setPolicy_fs (r) : (setPolicy r).FailStop := by unfold setPolicy polHas polSet; all_ops
theorem deletePolicy_fs (r) : (deletePolicy r).FailStop := by unfold deletePolicy polHas polDel; all_ops
theorem listPolicyIds_fs : listPolicyIds.FailStop := by unfold listPolicyIds polList; all_ops
theorem listPolicyIds_read : listPolicyIds.ReadOnly := by unfold listPolicyIds polList; all_ops

variable {env : Env}

theorem read_opOK {α : Type} {p : Prog α} (h : p.ReadOnly) : p.AllOps (OpOK env) :=
  h.mono (fun o ho => by cases o <;> first | trivial | simp [Op.isRead] at ho)

theorem deleteRelationship_ok (pid r) : (deleteRelationship env.H pid r).AllOps (OpOK env) := by
  unfold deleteRelationship edgeGet edgeDel dataDel; all_ops
theorem deleteRelationships_ok (pid sel) : (deleteRelationships env.H pid sel).AllOps (OpOK env) := by
  unfold deleteRelationships
  refine AllOps.bind (read_opOK (findRelationships_read _ _)) (fun _ => AllOps.bind
    (AllOps.mapSlice (fun _ _ => deleteRelationship_ok _ _)) (fun _ => .done _))
theorem setPolicy_ok {r : PolicyRecord} (h : verifyPolicy env.U r.policy = .ok ()) :
    (setPolicy r).AllOps (OpOK env) := by
  unfold setPolicy
  refine AllOps.bind (AllOps.op trivial) (fun _ => AllOps.bind (AllOps.op h) (fun _ => .done _))
theorem deletePolicy_ok (id) : (deletePolicy id).AllOps (OpOK env) := by
  unfold deletePolicy polHas polDel; all_ops

theorem setRelationship_ok {rec : RelationshipRecord} (h : rec.relationship.subject ≠ some .unset) :
    (setRelationship env.H rec).AllOps (OpOK env) := by
  unfold setRelationship
  cases hr : toInternal rec.relationship with
  | ok e =>
    rw [lift_ok_bind]
    refine AllOps.bind (AllOps.op trivial) (fun _ => AllOps.bind (AllOps.op (P := OpOK env) ⟨rfl, _, hr, h⟩) (fun _ =>
      AllOps.bind (AllOps.op trivial) (fun _ => .done _)))
  | err => exact .done _
  | panic => exact .done _
  | fuel => exact .done _

end Repo

end Zanzi
