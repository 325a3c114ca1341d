import Verif.Spec.Trial
import Verif.Lemmas.Undo
import Verif.Lemmas.Copy

/-
Trying out a policy: two stores that differ in one policy record.
-/

namespace Zanzi

open Spec Prog

theorem kv_ext {K V : Type} [DecidableEq K] : ∀ {m m' : List (K × V)}, KeysNodup m → KeysNodup m' → m.map (·.1) = m'.map (·.1) → (∀ k, kvGet m k = kvGet m' k) → m = m'
  | [], [], _, _, _, _ => rfl
  | [], _ :: _, _, _, h, _ => nomatch h
  | _ :: _, [], _, _, h, _ => nomatch h
  | (k, v) :: m, (k', v') :: m', h1, h2, h3, h4 => by
    simp only [List.map_cons, List.cons.injEq] at h3
    obtain ⟨rfl, h3⟩ := h3
    have hn : ∀ {m : List (K × V)} {v : V}, KeysNodup ((k, v) :: m) → kvGet m k = none := by
      intro m v h
      cases hg : kvGet m k with
      | none => rfl
      | some x => exact absurd (List.mem_map.2 ⟨_, kvGet_mem hg, rfl⟩) (List.nodup_cons.1 h).1
    have hv : v = v' := by
      have := h4 k
      simp [kvGet] at this
      exact this
    subst hv
    have := kv_ext (List.nodup_cons.1 h1).2 (List.nodup_cons.1 h2).2 h3 (fun j => by
      by_cases hj : j = k
      · subst hj; rw [hn h1, hn h2]
      · have := h4 j
        simp [kvGet, Ne.symm hj] at this
        exact this)
    rw [this]

/-- Stores that differ in the record of one policy at most. -/
structure Swapped (pid : String) (rec rec' : PolicyRecord) (s s' : Store) : Prop where
  edges : s.edges = s'.edges
  data : s.data = s'.data
  here : kvGet s.policies pid = some rec
  there : kvGet s'.policies pid = some rec'
  others : ∀ q, q ≠ pid → kvGet s.policies q = kvGet s'.policies q
  nodup : KeysNodup s.policies ∧ KeysNodup s'.policies
  sorted : KeysSorted strLt s.policies ∧ KeysSorted strLt s'.policies

/-- Storage calls on relationships and their data. -/
def noPolicy : Op → Prop
  | .polHas _ | .polGet _ | .polSet _ | .polDel _ | .polList => False
  | _ => True

theorem noPolicy_exec {o : Op} (h : noPolicy o) {s s' : Store} (he : s.edges = s'.edges) (hd : s.data = s'.data) :
    (o.exec s).1 = (o.exec s').1 ∧ (o.exec s).2.edges = (o.exec s').2.edges ∧ (o.exec s).2.data = (o.exec s').2.data ∧ (o.exec s).2.policies = s.policies ∧ (o.exec s').2.policies = s'.policies := by
  cases o <;> first | exact h.elim | skip
  all_goals
    refine ⟨?_, ?_, ?_, rfl, rfl⟩ <;> simp only [Op.exec, Store.setEdges, he, hd] <;> rfl

theorem noPolicy_run {α : Type} {p : Prog α} (h : p.AllOps noPolicy) : ∀ {s s' : Store}, s.edges = s'.edges → s.data = s'.data →
    (p.run s).1 = (p.run s').1 ∧ (p.run s).2.edges = (p.run s').2.edges ∧ (p.run s).2.data = (p.run s').2.data ∧ (p.run s).2.policies = s.policies ∧ (p.run s').2.policies = s'.policies := by
  induction h with
  | done r => exact fun he hd => ⟨rfl, he, hd, rfl, rfl⟩
  | @call o k ho _ ih =>
    intro s s' he hd
    obtain ⟨h1, h2, h3, h4, h5⟩ := noPolicy_exec ho he hd
    obtain ⟨g1, g2, g3, g4, g5⟩ := ih (some (o.exec s).1) h2 h3
    show ((k (some (o.exec s).1)).run (o.exec s).2).1 = ((k (some (o.exec s').1)).run (o.exec s').2).1 ∧ ((k (some (o.exec s).1)).run (o.exec s).2).2.edges = ((k (some (o.exec s').1)).run (o.exec s').2).2.edges ∧
      ((k (some (o.exec s).1)).run (o.exec s).2).2.data = ((k (some (o.exec s').1)).run (o.exec s').2).2.data ∧ ((k (some (o.exec s).1)).run (o.exec s).2).2.policies = s.policies ∧
      ((k (some (o.exec s').1)).run (o.exec s').2).2.policies = s'.policies
    rw [← h1]
    exact ⟨g1, g2, g3, g4.trans h4, g5.trans h5⟩

theorem Swapped.of_run {pid : String} {rec rec' : PolicyRecord} {s s' : Store} (hs : Swapped pid rec rec' s s') {α : Type} {p : Prog α} (h : p.AllOps noPolicy) :
    (p.run s).1 = (p.run s').1 ∧ Swapped pid rec rec' (p.run s).2 (p.run s').2 := by
  obtain ⟨h1, h2, h3, h4, h5⟩ := noPolicy_run h hs.edges hs.data
  exact ⟨h1, h2, h3, by rw [h4]; exact hs.here, by rw [h5]; exact hs.there, fun q hq => by rw [h4, h5]; exact hs.others q hq, by rw [h4, h5]; exact hs.nodup, by rw [h4, h5]; exact hs.sorted⟩

theorem repo_noPolicy (H : String → Nat) (q : String) : (∀ r, (Repo.deleteRelationship H q r).AllOps noPolicy) ∧ (∀ sel, (Repo.deleteRelationships H q sel).AllOps noPolicy) ∧
    ∀ r, (Repo.setRelationship H r).AllOps noPolicy := by
  have h1 : ∀ r, (Repo.deleteRelationship H q r).AllOps noPolicy := fun r =>
    AllOps.bind (AllOps.lift _) (fun _ => AllOps.bind (AllOps.lift _) (fun _ => AllOps.bind (AllOps.op trivial) (fun _ =>
      AllOps.bind (AllOps.op trivial) (fun _ => AllOps.bind (AllOps.op trivial) (fun _ => .done _)))))
  have h2 : ∀ sel, (Repo.findRelationships q sel).AllOps noPolicy := fun sel =>
    AllOps.bind (AllOps.op trivial) (fun _ => AllOps.bind (AllOps.lift _) (fun _ => AllOps.lift _))
  exact ⟨h1, fun sel => AllOps.bind (h2 sel) (fun _ => AllOps.bind (AllOps.mapSlice (fun r _ => h1 _)) (fun _ => .done _)), fun r =>
    AllOps.bind (AllOps.lift _) (fun _ => AllOps.bind (AllOps.op trivial) (fun _ => AllOps.bind (AllOps.op trivial) (fun _ => AllOps.bind (AllOps.op trivial) (fun _ => .done _))))⟩

theorem Swapped.put {pid : String} {rec rec' x : PolicyRecord} {s s' : Store} (hs : Swapped pid rec rec' s s') (hx : x.policy.id ≠ pid) : Swapped pid rec rec' (s.putPolicy x) (s'.putPolicy x) := by
  refine ⟨hs.edges, hs.data, ?_, ?_, fun q hq => ?_, ⟨kvPut_nodup hs.nodup.1, kvPut_nodup hs.nodup.2⟩, ⟨strPut_sorted hs.sorted.1 _ _, strPut_sorted hs.sorted.2 _ _⟩⟩
  · show kvGet (kvPut strLt s.policies _ _) pid = _
    rw [kvGet_put, if_neg (Ne.symm hx)]; exact hs.here
  · show kvGet (kvPut strLt s'.policies _ _) pid = _
    rw [kvGet_put, if_neg (Ne.symm hx)]; exact hs.there
  · show kvGet (kvPut strLt s.policies _ _) q = kvGet (kvPut strLt s'.policies _ _) q
    rw [kvGet_put, kvGet_put, hs.others q hq]

theorem Swapped.serve {env : Env} {pid : String} {rec rec' : PolicyRecord} {s s' : Store} (hs : Swapped pid rec rec' s s') (hu : NamesUnique rec.policy) (hu' : NamesUnique rec'.policy) {c : Call}
    (hc : Indifferent env pid rec.policy rec'.policy c) : (c.isRead = false → (serve env c s).1 = (serve env c s').1) ∧ Swapped pid rec rec' (serve env c s).2 (serve env c s').2 := by
  by_cases hr : c.isRead = true
  · rw [read_stays env hr, read_stays env hr]
    exact ⟨fun h => absurd (hr.symm.trans h) (by decide), hs⟩
  cases c with
  | createPolicy now d a =>
    rw [serve_create, serve_create]
    cases getPolicyFromDefinition env d with
    | ok p =>
      dsimp only
      by_cases hp : p.id = pid
      · rw [hp, hs.here, hs.there]
        exact ⟨fun _ => rfl, hs⟩
      · rw [hs.others _ hp]
        cases kvGet s'.policies p.id with
        | some _ => exact ⟨fun _ => rfl, hs⟩
        | none =>
          dsimp only
          cases verifyPolicy env.U p with
          | ok _ => exact ⟨fun _ => rfl, hs.put hp⟩
          | _ => exact ⟨fun _ => rfl, hs⟩
    | _ => exact ⟨fun _ => rfl, hs⟩
  | updatePolicy d a =>
    rw [serve_update, serve_update]
    cases hd : getPolicyFromDefinition env d with
    | ok p =>
      dsimp only
      have hp : p.id ≠ pid := hc p (getPolicyFromDefinition_ok_iff.1 hd)
      rw [hs.others _ hp]
      cases kvGet s'.policies p.id with
      | none => exact ⟨fun _ => rfl, hs⟩
      | some _ =>
        dsimp only
        cases verifyPolicy env.U p with
        | ok _ => exact ⟨fun _ => rfl, hs.put hp⟩
        | _ => exact ⟨fun _ => rfl, hs⟩
    | _ => exact ⟨fun _ => rfl, hs⟩
  | deletePolicy q =>
    have hq : q ≠ pid := hc
    rw [serve_deletePolicy, serve_deletePolicy, hs.others q hq]
    split
    · have hrel : relationships s q = relationships s' q := by unfold relationships; rw [hs.edges]
      rw [hrel]
      refine ⟨fun _ => rfl, ?_, ?_, ?_, ?_, fun q' hq' => ?_, ⟨kvDel_nodup hs.nodup.1, kvDel_nodup hs.nodup.2⟩, ⟨kvDel_sorted hs.sorted.1, kvDel_sorted hs.sorted.2⟩⟩
      · simp only [Store.delRels, hs.edges]
      · simp only [Store.delRels, hs.data]
      · show kvGet (kvDel s.policies q) pid = _
        rw [kvGet_del, if_neg (Ne.symm hq)]; exact hs.here
      · show kvGet (kvDel s'.policies q) pid = _
        rw [kvGet_del, if_neg (Ne.symm hq)]; exact hs.there
      · show kvGet (kvDel s.policies q) q' = kvGet (kvDel s'.policies q) q'
        rw [kvGet_del, kvGet_del, hs.others q' hq']
    · exact ⟨fun _ => rfl, hs⟩
  | setRelationship now q r a =>
    have hrun : ∀ r : Relationship, (Repo.setRelationship env.H ⟨q, r, now, a⟩).AllOps noPolicy := fun r => (repo_noPolicy env.H q).2.2 _
    by_cases hq : q = pid
    · subst hq
      cases r with
      | none => exact absurd rfl hc
      | some r =>
        obtain ⟨h1, h2⟩ := hc rfl
        obtain ⟨g1, g2⟩ := hs.of_run (hrun r)
        have e1 : allowedRelationship (some r) (newLut rec.policy) = .ok () := (C12_admission_exact _ hu r).2 h1
        have e2 : allowedRelationship (some r) (newLut rec'.policy) = .ok () := (C12_admission_exact _ hu' r).2 h2
        obtain ⟨r', e, hr', he⟩ := allowed_complete e1
        cases hr'
        rw [run_repo_setRelationship he, run_repo_setRelationship he] at g1 g2
        rw [serve_set_ok hs.here e1 he, serve_set_ok hs.there e2 he]
        exact ⟨fun _ => by rw [hs.edges], g2⟩
    · cases hg : kvGet s'.policies q with
      | none =>
        rw [serve_set, serve_set, hs.others q hq, hg]
        exact ⟨fun _ => rfl, hs⟩
      | some x =>
        cases ha : allowedRelationship r (newLut x.policy) with
        | ok _ =>
          obtain ⟨r', e, rfl, he⟩ := allowed_complete ha
          obtain ⟨g1, g2⟩ := hs.of_run (hrun r')
          rw [run_repo_setRelationship he, run_repo_setRelationship he] at g1 g2
          rw [serve_set_ok (by rw [hs.others q hq]; exact hg) ha he, serve_set_ok hg ha he]
          exact ⟨fun _ => by rw [hs.edges], g2⟩
        | _ =>
          rw [serve_set, serve_set, hs.others q hq, hg]
          simp only [ha]
          exact ⟨fun _ => trivial, hs⟩
  | deleteRelationship q r =>
    obtain ⟨h1, h2⟩ := hs.of_run (AllOps.bind ((repo_noPolicy env.H q).1 r) (fun x => AllOps.done (.ok (Answer.found x))))
    exact ⟨fun _ => h1, h2⟩
  | deleteRelationships q sel =>
    obtain ⟨h1, h2⟩ := hs.of_run (AllOps.bind ((repo_noPolicy env.H q).2.1 sel) (fun x => AllOps.done (.ok (Answer.affected x))))
    exact ⟨fun _ => h1, h2⟩
  | _ => exact absurd rfl hr

theorem Swapped.runCalls {env : Env} {pid : String} {rec rec' : PolicyRecord} (hu : NamesUnique rec.policy) (hu' : NamesUnique rec'.policy) (cs : List Call) : ∀ {s s' : Store}, Swapped pid rec rec' s s' →
    (∀ c ∈ cs, Indifferent env pid rec.policy rec'.policy c) →
    SameButReads cs (runCalls env cs s).1 (runCalls env cs s').1 ∧ Swapped pid rec rec' (runCalls env cs s).2 (runCalls env cs s').2 := by
  induction cs with
  | nil => exact fun hs _ => ⟨fun i c hi => by simp at hi, hs⟩
  | cons c cs ih =>
    intro s s' hs h
    obtain ⟨h1, h2⟩ := hs.serve hu hu' (h c (by simp))
    obtain ⟨h3, h4⟩ := ih h2 (fun d hd => h d (by simp [hd]))
    rw [runCalls_cons, runCalls_cons]
    refine ⟨fun i d hi hd => ?_, h4⟩
    cases i with
    | zero => cases hi; exact congrArg some (h1 hd)
    | succ i => exact h3 i d hi hd

/-- Putting the record back makes the stores the same. -/
theorem Swapped.back {pid : String} {rec rec' : PolicyRecord} {s s' : Store} (hs : Swapped pid rec rec' s s') (hid : rec.policy.id = pid) : s'.putPolicy rec = s := by
  have hg : ∀ q, kvGet (kvPut strLt s'.policies rec.policy.id rec) q = kvGet s.policies q := by
    intro q
    rw [kvGet_put, hid]
    by_cases hq : q = pid
    · rw [if_pos hq, hq, hs.here]
    · rw [if_neg hq, hs.others q hq]
  have hn := kvPut_nodup (lt := strLt) (k := rec.policy.id) (v := rec) hs.nodup.2
  have hk : (kvPut strLt s'.policies rec.policy.id rec).map (·.1) = s.policies.map (·.1) := by
    refine strings_ext (List.pairwise_map.2 (strPut_sorted hs.sorted.2 _ _)) (List.pairwise_map.2 hs.sorted.1) (fun k => ?_)
    have : ∀ m : List (String × PolicyRecord), KeysNodup m → (k ∈ m.map (·.1) ↔ (kvGet m k).isSome = true) := by
      intro m hm
      constructor
      · intro h
        obtain ⟨⟨k', v⟩, h1, rfl⟩ := List.mem_map.1 h
        rw [(mem_iff_kvGet hm).1 h1]; rfl
      · intro h
        obtain ⟨v, hv⟩ := Option.isSome_iff_exists.1 h
        exact List.mem_map.2 ⟨_, kvGet_mem hv, rfl⟩
    rw [this _ hn, this _ hs.nodup.1, hg]
  have := kv_ext hn hs.nodup.1 hk hg
  obtain ⟨p, e, d⟩ := s
  obtain ⟨p', e', d'⟩ := s'
  have h1 := hs.edges
  have h2 := hs.data
  dsimp only at this h1 h2
  simp only [Store.putPolicy, this, h1, h2]

theorem serve_update_ok {env : Env} {s : Store} {d : Option PolicyDefinition} {a : Bytes} {p : Policy} {rec : PolicyRecord} (hd : Defines env d p) (hp : kvGet s.policies p.id = some rec)
    (hv : verifyPolicy env.U p = .ok ()) : serve env (.updatePolicy d a) s = (.ok .updated, s.putPolicy ⟨p, a, rec.createdAt⟩) := by
  rw [serve_update, getPolicyFromDefinition_ok_iff.2 hd]
  dsimp only
  rw [hp]
  dsimp only
  rw [hv]

end Zanzi
