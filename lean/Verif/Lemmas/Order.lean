import Verif.Lemmas.Frame
import Verif.Lemmas.Abstract
import Verif.Props.Locality
import Verif.Spec.Order

/-
Writes of relationships with different storage keys commute.
-/

namespace Zanzi

open Spec Prog

/-- Stores no request tells apart: record data may be listed in different order. -/
def SameMaps (s t : Store) : Prop := s.policies = t.policies ∧ s.edges = t.edges ∧ ∀ k, kvGet s.data k = kvGet t.data k

theorem SameMaps.refl (s : Store) : SameMaps s s := ⟨rfl, rfl, fun _ => rfl⟩

theorem SameMaps.symm {s t : Store} (h : SameMaps s t) : SameMaps t s := ⟨h.1.symm, h.2.1.symm, fun k => (h.2.2 k).symm⟩

theorem SameMaps.trans {s t u : Store} (h : SameMaps s t) (h' : SameMaps t u) : SameMaps s u :=
  ⟨h.1.trans h'.1, h.2.1.trans h'.2.1, fun k => (h.2.2 k).trans (h'.2.2 k)⟩

theorem SameMaps.exec {s t : Store} (h : SameMaps s t) (o : Op) : (o.exec s).1 = (o.exec t).1 ∧ SameMaps (o.exec s).2 (o.exec t).2 := by
  obtain ⟨p, e, d⟩ := s
  obtain ⟨p', e', d'⟩ := t
  obtain ⟨h1, h2, h3⟩ := h
  cases h1
  cases h2
  cases o
  case dataGet k => exact ⟨h3 k, rfl, rfl, h3⟩
  case dataSet d => exact ⟨rfl, rfl, rfl, fun k => by simp only [Op.exec, kvGet_put, h3 k]⟩
  case dataDel d => exact ⟨rfl, rfl, rfl, fun k => by simp only [Op.exec, kvGet_del, h3 k]⟩
  all_goals exact ⟨rfl, rfl, rfl, h3⟩

theorem SameMaps.run {α : Type} (p : Prog α) {s t : Store} (h : SameMaps s t) : (p.run s).1 = (p.run t).1 ∧ SameMaps (p.run s).2 (p.run t).2 := by
  induction p generalizing s t with
  | done r => exact ⟨rfl, h⟩
  | call o k ih =>
    obtain ⟨h1, h2⟩ := h.exec o
    unfold Prog.run
    rw [h1]
    exact ih _ h2

theorem SameMaps.runCalls (env : Env) (cs : List Call) {s t : Store} (h : SameMaps s t) :
    (runCalls env cs s).1 = (runCalls env cs t).1 ∧ SameMaps (runCalls env cs s).2 (runCalls env cs t).2 := by
  induction cs generalizing s t with
  | nil => exact ⟨rfl, h⟩
  | cons c cs ih =>
    obtain ⟨h1, h2⟩ := SameMaps.run (c.prog env) h
    obtain ⟨h3, h4⟩ := ih h2
    rw [runCalls_cons, runCalls_cons]
    exact ⟨by rw [h1, h3], h4⟩

/-- Effect of a write: the edge and the data under one key are set, or both removed. -/
def Store.write (s : Store) (pid : String) (k : EdgeKey) (v : Option (IRel × RelData)) : Store :=
  match v with
  | some (e, d) => { policies := s.policies, edges := fun q => if q = pid then kvPut edgeLt (s.edges pid) k e else s.edges q, data := kvPut edgeLt s.data k d }
  | none => { policies := s.policies, edges := fun q => if q = pid then kvDel (s.edges pid) k else s.edges q, data := kvDel s.data k }

theorem write_policies (s : Store) (pid : String) (k : EdgeKey) (v : Option (IRel × RelData)) : (s.write pid k v).policies = s.policies := by
  unfold Store.write; split <;> rfl

theorem write_get (s : Store) (pid : String) (k : EdgeKey) (v : Option (IRel × RelData)) (q : String) (k' : EdgeKey) :
    kvGet ((s.write pid k v).edges q) k' = if q = pid ∧ k' = k then v.map (·.1) else kvGet (s.edges q) k' := by
  unfold Store.write
  by_cases hq : q = pid
  · subst hq
    cases v with
    | none => simp only [if_true, kvGet_del, true_and, Option.map_none]
    | some v => obtain ⟨e, d⟩ := v; simp only [if_true, kvGet_put, true_and, Option.map_some]
  · cases v <;> simp [hq]

theorem write_data (s : Store) (pid : String) (k : EdgeKey) (v : Option (IRel × RelData)) (k' : EdgeKey) :
    kvGet (s.write pid k v).data k' = if k' = k then v.map (·.2) else kvGet s.data k' := by
  unfold Store.write
  cases v with
  | none => simp only [kvGet_del, Option.map_none]
  | some v => obtain ⟨e, d⟩ := v; simp only [kvGet_put, Option.map_some]

/-- The relationship stores are sorted, without repeated keys. -/
def EdgesOrdered (s : Store) : Prop := ∀ q, KeysNodup (s.edges q) ∧ KeysSorted edgeLt (s.edges q)

theorem write_ordered {s : Store} (h : EdgesOrdered s) (pid : String) (k : EdgeKey) (v : Option (IRel × RelData)) : EdgesOrdered (s.write pid k v) := by
  intro q
  unfold Store.write
  by_cases hq : q = pid
  · subst hq
    cases v with
    | none => simp only [if_true]; exact ⟨kvDel_nodup (h q).1, kvDel_sorted (h q).2⟩
    | some v => simp only [if_true]; exact ⟨kvPut_nodup (h q).1, edgePut_sorted (h q).2 _ _⟩
  · cases v <;> simp only [hq, if_false] <;> exact h q

theorem write_comm {s : Store} (h : EdgesOrdered s) {pid pid' : String} {k k' : EdgeKey} (hk : k ≠ k') (v v' : Option (IRel × RelData)) :
    SameMaps ((s.write pid k v).write pid' k' v') ((s.write pid' k' v').write pid k v) := by
  refine ⟨by simp only [write_policies], funext fun q => ?_, fun k'' => ?_⟩
  · have h1 := write_ordered (write_ordered h pid k v) pid' k' v' q
    have h2 := write_ordered (write_ordered h pid' k' v') pid k v q
    refine sorted_ext h1.2 h2.2 (fun p => ?_)
    obtain ⟨k'', e⟩ := p
    rw [mem_iff_kvGet h1.1, mem_iff_kvGet h2.1]
    simp only [write_get]
    by_cases h3 : q = pid ∧ k'' = k
    · have h4 : ¬ (q = pid' ∧ k'' = k') := fun h4 => hk (h3.2.symm.trans h4.2)
      simp only [if_pos h3, if_neg h4]
    · simp only [if_neg h3]
  · simp only [write_data]
    by_cases h3 : k'' = k
    · have h4 : ¬ k'' = k' := fun h4 => hk (h3.symm.trans h4)
      simp only [if_pos h3, if_neg h4]
    · simp only [if_neg h3]

/-- What a request writing relationships does, given the policies: nothing, or one write, its answer telling what was stored under that key before. -/
theorem relWrite_cases (env : Env) {c : Call} (hc : IsRelWrite c) (P : List (String × PolicyRecord)) :
    (∃ res, ∀ s : Store, s.policies = P → serve env c s = (res, s)) ∨
    ∃ r pid v, ∃ f : Bool → Res Answer, WritesRel c r ∧ RelationshipComplete r ∧ ∀ s : Store, s.policies = P →
      serve env c s = (f (kvGet (s.edges pid) (relKey env.H r)).isSome, s.write pid (relKey env.H r) v) := by
  rcases hc with ⟨now, pid, r, a, rfl⟩ | ⟨pid, r, rfl⟩
  · cases hp : kvGet P pid with
    | none => exact .inl ⟨_, fun s hs => by rw [serve_set, hs, hp]⟩
    | some rec =>
      cases ha : allowedRelationship r (newLut rec.policy) with
      | ok _ =>
        obtain ⟨r', e, rfl, he⟩ := allowed_complete ha
        refine .inr ⟨r', pid, some (e, ⟨e.key env.H, now, a⟩), fun b => .ok (.overwritten b), .inl ⟨_, _, _, rfl⟩, toInternal_complete.1 ⟨e, he⟩, fun s hs => ?_⟩
        rw [serve_set_ok (by rw [hs, hp]) ha he, relKey_of he]
        rfl
      | err x => exact .inl ⟨.err x, fun s hs => by rw [serve_set, hs, hp]; simp only [ha]⟩
      | panic => exact .inl ⟨.panic, fun s hs => by rw [serve_set, hs, hp]; simp only [ha]⟩
      | fuel => exact .inl ⟨.fuel, fun s hs => by rw [serve_set, hs, hp]; simp only [ha]⟩
  · cases r with
    | none => exact .inl ⟨.panic, fun s _ => rfl⟩
    | some r =>
      rcases toInternal_normal_or_panic r with ⟨e, he⟩ | he
      · refine .inr ⟨r, pid, none, fun b => .ok (.found b), .inr ⟨_, rfl⟩, toInternal_complete.1 ⟨e, he⟩, fun s _ => ?_⟩
        rw [serve_delete he, relKey_of he]
        unfold Store.write Store.delRels kvDel
        simp
      · exact .inl ⟨.panic, fun s _ => serve_delete_panic he⟩

theorem relWrite_policies (env : Env) {c : Call} (hc : IsRelWrite c) (s : Store) : (serve env c s).2.policies = s.policies := by
  rcases relWrite_cases env hc s.policies with ⟨res, h⟩ | ⟨r, pid, v, f, _, _, h⟩
  · rw [h s rfl]
  · rw [h s rfl]; exact write_policies _ _ _ _

theorem relWrite_ordered (env : Env) {c : Call} (hc : IsRelWrite c) {s : Store} (ho : EdgesOrdered s) : EdgesOrdered (serve env c s).2 := by
  rcases relWrite_cases env hc s.policies with ⟨res, h⟩ | ⟨r, pid, v, f, _, _, h⟩
  · rw [h s rfl]; exact ho
  · rw [h s rfl]; exact write_ordered ho _ _ _

/-- Requests writing relationships with different keys. -/
def Apart (env : Env) (c d : Call) : Prop :=
  ∀ r r', WritesRel c r → WritesRel d r' → RelationshipComplete r → RelationshipComplete r' → relKey env.H r ≠ relKey env.H r'

theorem Apart.symm {env : Env} {c d : Call} (h : Apart env c d) : Apart env d c := fun r r' h1 h2 h3 h4 => (h r' r h2 h1 h4 h3).symm

theorem relWrite_comm (env : Env) {c d : Call} (hc : IsRelWrite c) (hd : IsRelWrite d) (ha : Apart env c d) {s : Store} (ho : EdgesOrdered s) :
    (serve env d (serve env c s).2).1 = (serve env d s).1 ∧ (serve env c (serve env d s).2).1 = (serve env c s).1 ∧
    SameMaps (serve env d (serve env c s).2).2 (serve env c (serve env d s).2).2 := by
  rcases relWrite_cases env hc s.policies with ⟨res, h⟩ | ⟨r, pid, v, f, hw, hr, h⟩
  · have h1 := h _ (relWrite_policies env hd s)
    rw [h1, h s rfl]
    exact ⟨rfl, rfl, .refl _⟩
  · rcases relWrite_cases env hd s.policies with ⟨res, h'⟩ | ⟨r', pid', v', f', hw', hr', h'⟩
    · have h1 := h' _ (relWrite_policies env hc s)
      rw [h1, h' s rfl]
      exact ⟨rfl, rfl, .refl _⟩
    · have hk := ha r r' hw hw' hr hr'
      have e1 : (serve env c s).2 = s.write pid (relKey env.H r) v := by rw [h s rfl]
      have e2 : (serve env d s).2 = s.write pid' (relKey env.H r') v' := by rw [h' s rfl]
      rw [e1, e2, h' _ (write_policies _ _ _ _), h _ (write_policies _ _ _ _), h s rfl, h' s rfl]
      refine ⟨?_, ?_, write_comm ho hk v v'⟩
      · show f' _ = f' _
        rw [write_get, if_neg (fun h => hk h.2.symm)]
      · show f _ = f _
        rw [write_get, if_neg (fun h => hk h.2)]

theorem relWrites_perm (env : Env) {cs ds : List Call} (hp : cs.Perm ds) : ∀ {s : Store}, EdgesOrdered s → (∀ c ∈ cs, IsRelWrite c) → cs.Pairwise (Apart env) →
    (cs.zip (runCalls env cs s).1).Perm (ds.zip (runCalls env ds s).1) ∧ SameMaps (runCalls env cs s).2 (runCalls env ds s).2 := by
  induction hp with
  | nil => exact fun _ _ _ => ⟨.refl _, .refl _⟩
  | cons c _ ih =>
    intro s ho hw ha
    obtain ⟨h1, h2⟩ := ih (relWrite_ordered env (hw c (by simp)) ho) (fun d hd => hw d (by simp [hd])) (List.pairwise_cons.1 ha).2
    rw [runCalls_cons, runCalls_cons]
    exact ⟨h1.cons _, h2⟩
  | swap c d cs =>
    intro s ho hw ha
    obtain ⟨h1, h2, h3⟩ := relWrite_comm env (hw d (by simp)) (hw c (by simp)) ((List.pairwise_cons.1 ha).1 c (by simp)) ho
    obtain ⟨h4, h5⟩ := SameMaps.runCalls env cs h3
    simp only [runCalls_cons, List.zip_cons_cons]
    rw [h1, h2, h4]
    exact ⟨.swap _ _ _, h5⟩
  | trans hp _ ih1 ih2 =>
    intro s ho hw ha
    obtain ⟨h1, h2⟩ := ih1 ho hw ha
    obtain ⟨h3, h4⟩ := ih2 ho (fun c hc => hw c (hp.mem_iff.2 hc)) ((hp.pairwise_iff (fun h => h.symm)).1 ha)
    exact ⟨h1.trans h3, h2.trans h4⟩

end Zanzi
