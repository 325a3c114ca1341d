import Verif.Spec.Undo
import Verif.Lemmas.Order
import Verif.Lemmas.Clock
import Verif.Props.Concurrency

/-
Taking changes back: a write moved past other requests.
-/

namespace Zanzi

open Spec

theorem read_stays (env : Env) {c : Call} (h : c.isRead = true) (s : Store) : (serve env c s).2 = s := by
  refine (C34_reads_never_write env c ?_).1 s
  cases c <;> simp [Call.isRead] at h <;> trivial

/-- Requests between a write and its being taken back: reads, and writes of relationships with other keys. -/
def Between (env : Env) (w c : Call) : Prop := c.isRead = true ∨ IsRelWrite c ∧ Apart env w c

theorem between_policies {env : Env} {w c : Call} (h : Between env w c) (s : Store) : (serve env c s).2.policies = s.policies := by
  rcases h with h | ⟨h, _⟩
  · rw [read_stays env h]
  · exact relWrite_policies env h s

theorem between_ordered {env : Env} {w c : Call} (h : Between env w c) {s : Store} (ho : EdgesOrdered s) : EdgesOrdered (serve env c s).2 := by
  rcases h with h | ⟨h, _⟩
  · rw [read_stays env h]; exact ho
  · exact relWrite_ordered env h ho

theorem between_runs {env : Env} {w : Call} (cs : List Call) : ∀ {s : Store}, EdgesOrdered s → (∀ c ∈ cs, Between env w c) →
    (runCalls env cs s).2.policies = s.policies ∧ EdgesOrdered (runCalls env cs s).2 := by
  induction cs with
  | nil => exact fun ho _ => ⟨rfl, ho⟩
  | cons c cs ih =>
    intro s ho h
    rw [runCalls_cons]
    obtain ⟨h1, h2⟩ := ih (between_ordered (h c (by simp)) ho) (fun d hd => h d (by simp [hd]))
    exact ⟨h1.trans (between_policies (h c (by simp)) s), h2⟩

/-- Nothing stored under the key of a write changes by what comes between. -/
theorem between_key {env : Env} {w : Call} {r : Relationship} (hw : WritesRel w r) (hr : RelationshipComplete r) (cs : List Call) : ∀ {s : Store}, (∀ c ∈ cs, Between env w c) →
    (∀ pid, kvGet ((runCalls env cs s).2.edges pid) (relKey env.H r) = kvGet (s.edges pid) (relKey env.H r)) ∧
    kvGet (runCalls env cs s).2.data (relKey env.H r) = kvGet s.data (relKey env.H r) := by
  induction cs with
  | nil => exact fun _ => ⟨fun _ => rfl, rfl⟩
  | cons c cs ih =>
    intro s h
    rw [runCalls_cons]
    obtain ⟨h1, h2⟩ := ih (s := (serve env c s).2) (fun d hd => h d (by simp [hd]))
    have hc : (∀ pid, kvGet ((serve env c s).2.edges pid) (relKey env.H r) = kvGet (s.edges pid) (relKey env.H r)) ∧ kvGet (serve env c s).2.data (relKey env.H r) = kvGet s.data (relKey env.H r) := by
      rcases h c (by simp) with h | ⟨h, ha⟩
      · rw [read_stays env h]; exact ⟨fun _ => rfl, rfl⟩
      · rcases relWrite_cases env h s.policies with ⟨res, h3⟩ | ⟨r', q, v, f, hw', hr', h3⟩
        · rw [h3 s rfl]; exact ⟨fun _ => rfl, rfl⟩
        · have hk := ha r r' hw hw' hr hr'
          rw [h3 s rfl]
          exact ⟨fun pid => by rw [write_get, if_neg (fun h => hk h.2)], by rw [write_data, if_neg hk]⟩
    exact ⟨fun pid => (h1 pid).trans (hc.1 pid), h2.trans hc.2⟩

/-- A write can be made after what comes between instead. -/
theorem between_move {env : Env} {w : Call} (hw : IsRelWrite w) (cs : List Call) : ∀ {s : Store}, EdgesOrdered s → (∀ c ∈ cs, Between env w c) →
    SameForWrites cs (runCalls env cs (serve env w s).2).1 (runCalls env cs s).1 ∧ SameMaps (runCalls env cs (serve env w s).2).2 (serve env w (runCalls env cs s).2).2 := by
  induction cs with
  | nil => exact fun _ _ => ⟨fun i c hi => by simp at hi, .refl _⟩
  | cons c cs ih =>
    intro s ho h
    obtain ⟨h1, h2⟩ := ih (between_ordered (h c (by simp)) ho) (fun d hd => h d (by simp [hd]))
    have key : (IsRelWrite c → (serve env c (serve env w s).2).1 = (serve env c s).1) ∧ SameMaps (serve env c (serve env w s).2).2 (serve env w (serve env c s).2).2 := by
      rcases h c (by simp) with h | ⟨hc, ha⟩
      · rw [read_stays env h, read_stays env h]
        refine ⟨fun hc => ?_, .refl _⟩
        rcases hc with ⟨_, _, _, _, rfl⟩ | ⟨_, _, rfl⟩ <;> simp [Call.isRead] at h
      · obtain ⟨h3, _, h4⟩ := relWrite_comm env hw hc ha ho
        exact ⟨fun _ => h3, h4⟩
    obtain ⟨h3, h4⟩ := SameMaps.runCalls env cs key.2
    rw [runCalls_cons, runCalls_cons]
    refine ⟨fun i d hi hd => ?_, h4.trans h2⟩
    cases i with
    | zero =>
      cases hi
      exact congrArg some (key.1 hd)
    | succ i =>
      show (runCalls env cs _).1[i]? = (runCalls env cs _).1[i]?
      rw [h3]
      exact h1 i d hi hd

/-- Writing under a key and then putting back what was there. -/
theorem write_back {s : Store} (ho : EdgesOrdered s) (pid : String) (k : EdgeKey) (v v' : Option (IRel × RelData)) (he : kvGet (s.edges pid) k = v'.map (·.1)) :
    ((s.write pid k v).write pid k v').edges = s.edges := by
  refine funext fun q => ?_
  have h1 := write_ordered (write_ordered ho pid k v) pid k v' q
  refine sorted_ext h1.2 (ho q).2 (fun p => ?_)
  obtain ⟨k', e⟩ := p
  rw [mem_iff_kvGet h1.1, mem_iff_kvGet (ho q).1]
  simp only [write_get]
  by_cases h : q = pid ∧ k' = k
  · rw [if_pos h, h.1, h.2, he]
  · rw [if_neg h, if_neg h]

theorem serve_set_write {env : Env} {now : Timestamp} {pid : String} {r : Relationship} {e : IRel} {a : Bytes} {s : Store} {rec : PolicyRecord}
    (hp : kvGet s.policies pid = some rec) (ha : allowedRelationship (some r) (newLut rec.policy) = .ok ()) (he : toInternal r = .ok e) :
    serve env (.setRelationship now pid (some r) a) s = (.ok (.overwritten (kvGet (s.edges pid) (relKey env.H r)).isSome), s.write pid (relKey env.H r) (some (e, ⟨relKey env.H r, now, a⟩))) := by
  rw [serve_set_ok hp ha he, relKey_of he]
  rfl

theorem serve_delete_write {env : Env} {pid : String} {r : Relationship} {e : IRel} {s : Store} (he : toInternal r = .ok e) :
    serve env (.deleteRelationship pid (some r)) s = (.ok (.found (kvGet (s.edges pid) (relKey env.H r)).isSome), s.write pid (relKey env.H r) none) := by
  rw [serve_delete he, relKey_of he]
  unfold Store.write Store.delRels kvDel
  simp

end Zanzi
