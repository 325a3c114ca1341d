import Verif.Lemmas.Serve
import Verif.Spec.Sched

/-
What a request can and cannot depend on or touch outside its own policy.
-/

namespace Zanzi

open Spec Prog

/-- Reads of the relationships of one policy. -/
def edgeLocal (pid : String) (o : Op) : Prop := (∃ n, o = .edgeSucc pid n) ∨ o = .edgeList pid

theorem run_agree {α : Type} {pid : String} {p : Prog α} (hp : p.AllOps (edgeLocal pid)) {s s' : Store}
    (h : s.edges pid = s'.edges pid) : (p.run s).1 = (p.run s').1 := by
  induction hp with
  | done r => rfl
  | @call o k ho hk ih =>
    rcases ho with ⟨n, rfl⟩ | rfl
    · show ((k (some ((Op.edgeSucc pid n).exec s).1)).run s).1 = ((k (some ((Op.edgeSucc pid n).exec s').1)).run s').1
      have : ((Op.edgeSucc pid n).exec s).1 = ((Op.edgeSucc pid n).exec s').1 := by simp only [Op.exec, h]; rfl
      rw [this]
      exact ih _
    · show ((k (some ((Op.edgeList pid).exec s).1)).run s).1 = ((k (some ((Op.edgeList pid).exec s').1)).run s').1
      have : ((Op.edgeList pid).exec s).1 = ((Op.edgeList pid).exec s').1 := by simp only [Op.exec, h]; rfl
      rw [this]
      exact ih _

theorem run_getPolicy_bind {α : Type} {pid : String} {k : PolicyRecord → Prog α} {s s' : Store}
    (hp : kvGet s.policies pid = kvGet s'.policies pid)
    (hk : ∀ rec, kvGet s.policies pid = some rec → ((k rec).run s).1 = ((k rec).run s').1) :
    ((GraphService.getPolicy pid >>= k).run s).1 = ((GraphService.getPolicy pid >>= k).run s').1 := by
  have h1 : ∀ s, (GraphService.getPolicy pid).run s =
      (match kvGet s.policies pid with | none => (.err .policyNotFound, s) | some r => (.ok r, s)) := by
    intro s
    unfold GraphService.getPolicy
    rw [run_bind]
    have : (Repo.getPolicy pid).run s = (.ok (kvGet s.policies pid), s) := rfl
    rw [this, andThen_ok]
    cases kvGet s.policies pid <;> rfl
  rw [run_bind, run_bind, h1, h1, ← hp]
  cases h : kvGet s.policies pid with
  | none => rfl
  | some rec => exact hk rec h

theorem map_fst_congr {α : Type} {p : Prog α} {f : α → Answer} {s s' : Store} (h : (p.run s).1 = (p.run s').1) :
    ((do let x ← p; return f x : Prog Answer).run s).1 = ((do let x ← p; return f x : Prog Answer).run s').1 := by
  rw [run_map, run_map]
  generalize p.run s = a at *
  generalize p.run s' = b at *
  obtain ⟨a1, a2⟩ := a
  obtain ⟨b1, b2⟩ := b
  dsimp only at h
  subst h
  cases a1 <;> rfl

/-- Graph queries of a policy depend only on that policy and its relationships. -/
theorem graphQuery_agree {env : Env} {pid : String} {s s' : Store} (hid : ∀ rec, kvGet s.policies pid = some rec → rec.policy.id = pid)
    (hp : kvGet s.policies pid = kvGet s'.policies pid) (he : s.edges pid = s'.edges pid) {c : Call} (hc : c.graphQuery pid) :
    (serve env c s).1 = (serve env c s').1 := by
  have hops : ∀ rec, kvGet s.policies pid = some rec → ∀ n, edgeLocal pid (.edgeSucc rec.policy.id n) := by
    intro rec hr n
    rw [hid rec hr]
    exact .inl ⟨n, rfl⟩
  cases c <;> simp only [Call.graphQuery] at hc <;> subst hc
  case getPolicy => rw [serve_getPolicy, serve_getPolicy, hp]
  case check fuel _ req =>
    apply map_fst_congr
    apply run_getPolicy_bind hp
    intro rec hr
    exact run_agree (AllOps.bind (AllOps.bind (AllOps.lift _) (fun _ => searchGoal_ops (fun _ => hops rec hr _) _ _ _)) (fun _ => .done _)) he
  case explainCheck fuel _ req f =>
    apply map_fst_congr (p := GraphService.explainCheck env fuel _ req f) (f := fun x => .explained x.1 x.2.1 x.2.2)
    unfold GraphService.explainCheck
    cases serializerFactory f with
    | err => rfl
    | panic => rfl
    | fuel => rfl
    | ok u =>
      rw [lift_ok_bind]
      apply run_getPolicy_bind hp
      intro rec hr
      exact run_agree (AllOps.bind (AllOps.bind (AllOps.lift _) (fun _ => searchGoal_ops (fun _ => hops rec hr _) _ _ _))
        (fun _ => AllOps.bind (AllOps.lift _) (fun _ => .done _))) he
  case expand fuel _ req f =>
    apply map_fst_congr (p := GraphService.expand env fuel _ req f) (f := fun x => .expanded x.1 x.2)
    unfold GraphService.expand
    cases serializerFactory f with
    | err => rfl
    | panic => rfl
    | fuel => rfl
    | ok u =>
      rw [lift_ok_bind]
      apply run_getPolicy_bind hp
      intro rec hr
      exact run_agree (AllOps.bind (searchGoal_ops (fun _ => hops rec hr _) _ _ _)
        (fun _ => AllOps.bind (AllOps.lift _) (fun _ => .done _))) he
  case dumpRelationships fuel order _ f =>
    apply map_fst_congr (p := GraphService.dumpRelationships env fuel order _ f) (f := fun x => .dumped x)
    unfold GraphService.dumpRelationships
    apply run_getPolicy_bind hp
    intro rec hr
    refine run_agree (AllOps.bind (AllOps.bind (AllOps.op ?_) (fun _ => .done _)) (fun _ => AllOps.bind (AllOps.lift _) (fun _ => ?_))) he
    · rw [hid rec hr]; exact .inr rfl
    · cases f <;> exact .done _

/-! ### Foreign requests -/

/-- Storage calls that leave a policy and its relationships alone. -/
def foreignOp (pid : String) : Op → Prop
  | .polSet rec => rec.policy.id ≠ pid
  | .polDel id => id ≠ pid
  | .edgeSet q _ _ | .edgeDel q _ => q ≠ pid
  | _ => True

theorem read_foreign {α : Type} {pid : String} {p : Prog α} (h : p.ReadOnly) : p.AllOps (foreignOp pid) :=
  h.mono (fun o ho => by cases o <;> first | trivial | simp [Op.isRead] at ho)

theorem deleteRelationship_foreign {pid q : String} (h : q ≠ pid) (H r) :
    (Repo.deleteRelationship H q r).AllOps (foreignOp pid) := by
  unfold Repo.deleteRelationship
  refine AllOps.bind (AllOps.lift _) (fun _ => AllOps.bind (AllOps.lift _) (fun _ => AllOps.bind (AllOps.op trivial) (fun _ =>
    AllOps.bind (AllOps.op h) (fun _ => AllOps.bind (AllOps.op trivial) (fun _ => .done _)))))

theorem deleteRelationships_foreign {pid q : String} (h : q ≠ pid) (H sel) :
    (Repo.deleteRelationships H q sel).AllOps (foreignOp pid) := by
  unfold Repo.deleteRelationships
  refine AllOps.bind (read_foreign (Repo.findRelationships_read _ _)) (fun _ => AllOps.bind
    (AllOps.mapSlice (fun _ _ => deleteRelationship_foreign h _ _)) (fun _ => .done _))

theorem setPolicy_foreign {pid : String} {rec : PolicyRecord} (h : rec.policy.id ≠ pid) :
    (Repo.setPolicy rec).AllOps (foreignOp pid) := by
  unfold Repo.setPolicy
  exact AllOps.bind (AllOps.op trivial) (fun _ => AllOps.bind (AllOps.op h) (fun _ => .done _))

theorem Call.prog_foreign {env : Env} {c : Call} {pid : String} (h : c.target env ≠ some pid) :
    (c.prog env).AllOps (foreignOp pid) := by
  by_cases hr : c.isRead = true
  · exact read_foreign (Call.prog_read env hr)
  · cases c <;> simp [Call.isRead] at hr <;> refine AllOps.bind ?_ (fun _ => .done _)
    case createPolicy now d a =>
      unfold Service.createPolicy
      simp only [Call.target] at h
      cases hd : getPolicyFromDefinition env d with
      | ok p =>
        rw [hd] at h
        rw [lift_ok_bind]
        refine AllOps.bind (read_foreign (Repo.getPolicy_read _)) (fun x => ?_)
        cases x with
        | some _ => exact .done _
        | none =>
          refine AllOps.bind (AllOps.lift _) (fun _ => AllOps.bind (setPolicy_foreign ?_) (fun _ => .done _))
          intro he; exact h (by rw [← he])
      | err => exact .done _
      | panic => exact .done _
      | fuel => exact .done _
    case updatePolicy d a =>
      unfold Service.updatePolicy
      simp only [Call.target] at h
      cases hd : getPolicyFromDefinition env d with
      | ok p =>
        rw [hd] at h
        rw [lift_ok_bind]
        refine AllOps.bind (read_foreign (Repo.getPolicy_read _)) (fun x => ?_)
        cases x with
        | none => exact .done _
        | some _ =>
          refine AllOps.bind (AllOps.lift _) (fun _ => AllOps.bind (setPolicy_foreign ?_) (fun _ => .done _))
          intro he; exact h (by rw [← he])
      | err => exact .done _
      | panic => exact .done _
      | fuel => exact .done _
    case deletePolicy id =>
      have hne : id ≠ pid := fun he => h (by simp [Call.target, he])
      unfold Service.deletePolicy Repo.deletePolicy
      refine AllOps.bind (AllOps.bind (AllOps.op trivial) (fun x => ?_)) (fun x => ?_)
      · split
        · exact AllOps.bind (AllOps.op hne) (fun _ => .done _)
        · exact .done _
      · split
        · exact AllOps.bind (deleteRelationships_foreign hne _ _) (fun _ => .done _)
        · exact .done _
    case setRelationship now q r a =>
      have hne : q ≠ pid := fun he => h (by simp [Call.target, he])
      unfold Service.setRelationship
      refine AllOps.bind (read_foreign (Repo.getPolicy_read _)) (fun x => ?_)
      cases x with
      | none => exact .done _
      | some _ =>
        refine AllOps.bind (AllOps.lift _) (fun _ => AllOps.bind (AllOps.lift _) (fun r => ?_))
        unfold Repo.setRelationship
        exact AllOps.bind (AllOps.lift _) (fun _ => AllOps.bind (AllOps.op trivial) (fun _ => AllOps.bind (AllOps.op hne) (fun _ =>
          AllOps.bind (AllOps.op trivial) (fun _ => .done _))))
    case deleteRelationship q r =>
      exact deleteRelationship_foreign (fun he => h (by simp [Call.target, he])) _ _
    case deleteRelationships q sel =>
      exact deleteRelationships_foreign (fun he => h (by simp [Call.target, he])) _ _

theorem foreignOp_exec {pid : String} (o : Op) (s : Store) (h : foreignOp pid o) :
    kvGet (o.exec s).2.policies pid = kvGet s.policies pid ∧ (o.exec s).2.edges pid = s.edges pid := by
  cases o <;> try exact ⟨rfl, rfl⟩
  case polSet rec =>
    refine ⟨?_, rfl⟩
    show kvGet (kvPut strLt s.policies rec.policy.id rec) pid = _
    rw [kvGet_put, if_neg (Ne.symm h)]
  case polDel id =>
    refine ⟨?_, rfl⟩
    show kvGet (kvDel s.policies id) pid = _
    rw [kvGet_del, if_neg (Ne.symm h)]
  case edgeSet q k e =>
    refine ⟨rfl, ?_⟩
    show (s.setEdges q _).edges pid = _
    rw [setEdges_edges, if_neg (Ne.symm h)]
  case edgeDel q k =>
    refine ⟨rfl, ?_⟩
    show (s.setEdges q _).edges pid = _
    rw [setEdges_edges, if_neg (Ne.symm h)]

/-- A foreign request leaves the policy and its relationships as they are. -/
theorem serve_foreign {env : Env} {c : Call} {pid : String} (h : c.target env ≠ some pid) (s : Store) :
    kvGet (serve env c s).2.policies pid = kvGet s.policies pid ∧ (serve env c s).2.edges pid = s.edges pid := by
  refine AllOps.run (I := fun x => kvGet x.policies pid = kvGet s.policies pid ∧ x.edges pid = s.edges pid) ?_
    (Call.prog_foreign h) ⟨rfl, rfl⟩
  intro o x ho ⟨h1, h2⟩
  have := foreignOp_exec o x ho
  exact ⟨this.1.trans h1, this.2.trans h2⟩

/-! ### Relationship data -/

theorem kvGet_filter_keys {ks : List EdgeKey} {m : List (EdgeKey × RelData)} {k : EdgeKey} (h : k ∉ ks) :
    kvGet (m.filter (fun p => decide (p.1 ∉ ks))) k = kvGet m k := by
  induction m with
  | nil => rfl
  | cons p m ih =>
    obtain ⟨k', v⟩ := p
    by_cases hk : k' ∈ ks
    · have : k' ≠ k := fun he => h (he ▸ hk)
      simp only [List.filter_cons, hk, not_true_eq_false, decide_false, Bool.false_eq_true, if_false, kvGet, this]
      exact ih
    · simp only [List.filter_cons, hk, not_false_eq_true, decide_true, if_true, kvGet]
      rw [ih]

theorem delRels_data {s : Store} {pid : String} {ks : List EdgeKey} {k : EdgeKey} (h : k ∉ ks) :
    kvGet (s.delRels pid ks).data k = kvGet s.data k := kvGet_filter_keys h

/-- A request leaves data records alone unless it affects a relationship with the same key. -/
theorem serve_data {env : Env} (c : Call) (s : Store) (k : EdgeKey)
    (h : ∀ x, c.affects s x → RelationshipComplete x → relKey env.H x ≠ k) :
    kvGet (serve env c s).2.data k = kvGet s.data k := by
  by_cases hr : c.isRead = true
  · rw [(Call.prog_read env hr).run s]
  · cases c <;> simp [Call.isRead] at hr
    case createPolicy now d a =>
      rw [serve_create]
      split
      · split
        · rfl
        · split <;> rfl
      all_goals rfl
    case updatePolicy d a =>
      rw [serve_update]
      split
      · split
        · rfl
        · split <;> rfl
      all_goals rfl
    case deletePolicy id =>
      rw [serve_deletePolicy]
      split
      · apply delRels_data
        intro hm
        obtain ⟨x, hx, he⟩ := List.mem_map.1 hm
        exact h x hx (present_complete hx) he
      · rfl
    case setRelationship now pid r a =>
      cases hs : serve env (.setRelationship now pid r a) s with
      | mk res s' =>
        cases res with
        | ok ans =>
          obtain ⟨r', e, rec, rfl, he, _, _, _, rfl⟩ := serve_set_inv hs
          have hc : RelationshipComplete r' := toInternal_complete.1 ⟨e, he⟩
          have := h r' rfl hc
          rw [relKey_of he] at this
          simp [Store.putRel, kvGet_put, Ne.symm this]
        | err => rw [serve_set_unchanged hs (by simp)]
        | panic => rw [serve_set_unchanged hs (by simp)]
        | fuel => rw [serve_set_unchanged hs (by simp)]
    case deleteRelationship pid r =>
      cases r with
      | none => rfl
      | some r =>
        rcases toInternal_normal_or_panic r with ⟨e, he⟩ | he
        · rw [serve_delete he]
          apply delRels_data
          have := h r rfl (toInternal_complete.1 ⟨e, he⟩)
          rw [relKey_of he] at this
          simpa using Ne.symm this
        · rw [serve_delete_panic he]
    case deleteRelationships pid sel =>
      rcases serve_bulk_cases (env := env) (s := s) pid sel with ⟨x, rfl, h1, h2⟩ | h1
      · rw [serve_deleteMatching h1 h2]
        apply delRels_data
        intro hm
        obtain ⟨x, hx, he⟩ := List.mem_map.1 hm
        have := (mem_matching.1 hx).1
        exact h x this (present_complete this) he
      · rw [h1.2]

end Zanzi
