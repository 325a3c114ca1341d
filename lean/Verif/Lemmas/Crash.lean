import Verif.Lemmas.Frame

/-
Interrupted requests: the states a crash or a storage failure can leave behind.
-/

namespace Zanzi

open Spec Prog

/-- `t` is the store left when serving `p` from `s` stops after some number of storage calls. -/
def Prog.Interrupted {α : Type} (p : Prog α) (s t : Store) : Prop := ∃ n, t = p.crash n s

namespace Prog

theorem interrupted_done {α : Type} {r : Res α} {s t : Store} (h : (done r).Interrupted s t) : t = s := by
  obtain ⟨n, rfl⟩ := h
  cases n <;> rfl

theorem interrupted_pure {α : Type} {a : α} {s t : Store} (h : (pure a : Prog α).Interrupted s t) : t = s :=
  interrupted_done h

theorem interrupted_op {o : Op} {s t : Store} (h : (op o).Interrupted s t) : t = s ∨ t = (o.exec s).2 := by
  obtain ⟨n, rfl⟩ := h
  cases n with
  | zero => exact .inl rfl
  | succ n => right; cases n <;> rfl

theorem interrupted_bind {α β : Type} {p : Prog α} {k : α → Prog β} {s t : Store} (h : (p >>= k).Interrupted s t) :
    p.Interrupted s t ∨ ∃ a s', p.run s = (.ok a, s') ∧ (k a).Interrupted s' t := by
  obtain ⟨n, rfl⟩ := h
  show Prog.Interrupted p s ((p.bind k).crash n s) ∨ ∃ a s', p.run s = (.ok a, s') ∧ (k a).Interrupted s' ((p.bind k).crash n s)
  induction p generalizing n s with
  | done r =>
    cases r with
    | ok a => exact .inr ⟨a, s, rfl, n, rfl⟩
    | err => left; exact ⟨0, by cases n <;> rfl⟩
    | panic => left; exact ⟨0, by cases n <;> rfl⟩
    | fuel => left; exact ⟨0, by cases n <;> rfl⟩
  | call o f ih =>
    cases n with
    | zero => exact .inl ⟨0, rfl⟩
    | succ n =>
      rcases ih (some (o.exec s).1) (s := (o.exec s).2) n with ⟨m, hm⟩ | ⟨a, s', h1, h2⟩
      · exact .inl ⟨m + 1, hm⟩
      · exact .inr ⟨a, s', h1, h2⟩

theorem interrupted_left {α β : Type} {p : Prog α} {k : α → Prog β} {s t : Store} (h : p.Interrupted s t) :
    (p >>= k).Interrupted s t := by
  obtain ⟨n, rfl⟩ := h
  show (p.bind k).Interrupted s _
  induction p generalizing n s with
  | done r =>
    refine ⟨0, ?_⟩
    cases n <;> rfl
  | call o f ih =>
    cases n with
    | zero => exact ⟨0, rfl⟩
    | succ n =>
      obtain ⟨m, hm⟩ := ih (some (o.exec s).1) (s := (o.exec s).2) n
      exact ⟨m + 1, hm⟩

theorem interrupted_right {α β : Type} {p : Prog α} {k : α → Prog β} {s s' t : Store} {a : α} (hr : p.run s = (.ok a, s'))
    (h : (k a).Interrupted s' t) : (p >>= k).Interrupted s t := by
  show (p.bind k).Interrupted s t
  induction p generalizing s with
  | done r => cases hr; exact h
  | call o f ih =>
    obtain ⟨n, hn⟩ := ih _ hr
    exact ⟨n + 1, hn⟩

theorem interrupted_zero {α : Type} (p : Prog α) (s : Store) : p.Interrupted s s := ⟨0, by cases p <;> rfl⟩

theorem interrupted_run {α : Type} (p : Prog α) (s : Store) : p.Interrupted s (p.run s).2 := by
  induction p generalizing s with
  | done r => exact ⟨0, rfl⟩
  | call o k ih =>
    obtain ⟨n, hn⟩ := ih (some (o.exec s).1) (o.exec s).2
    exact ⟨n + 1, hn⟩

/-- A request that stops at the first storage error leaves a store that a crash could have left as well. -/
theorem FailStop.interrupted {α : Type} {p : Prog α} (hp : p.FailStop) {s s' : Store} {r : Res α} {b : Bool}
    (h : RunF p s b r s') : p.Interrupted s s' := by
  induction h with
  | done r s => exact ⟨0, rfl⟩
  | @call o k s s1 s2 resp b b' r hstep hrest ih =>
    cases hp with
    | call hn hk =>
      cases hstep with
      | ok =>
        obtain ⟨n, hn⟩ := ih (hk _)
        exact ⟨n + 1, hn⟩
      | failBefore => rw [hn] at hrest; cases hrest; exact ⟨0, rfl⟩
      | failAfter => rw [hn] at hrest; cases hrest; exact ⟨1, rfl⟩

theorem AllOps.interrupted {α : Type} {P : Op → Prop} {I : Store → Prop} (hI : ∀ o s, P o → I s → I (o.exec s).2) {p : Prog α}
    (hp : p.AllOps P) {s t : Store} (h : p.Interrupted s t) (hs : I s) : I t := by
  obtain ⟨n, rfl⟩ := h
  exact hp.crash hI n hs

end Prog

variable {env : Env} {s t : Store}

theorem WF.interrupted (hs : WF env s) {c : Call} (h : (c.prog env).Interrupted s t) : WF env t :=
  (Call.prog_ok env c).interrupted WF.exec h hs

/-- Store with only the edge of a relationship written. -/
def Store.putEdge (s : Store) (H : String → Nat) (pid : String) (e : IRel) : Store :=
  s.setEdges pid (kvPut edgeLt (s.edges pid) (e.key H) e)

/-- Store with only the edge of a relationship deleted. -/
def Store.delEdge (s : Store) (pid : String) (k : EdgeKey) : Store := s.setEdges pid (kvDel (s.edges pid) k)

theorem interrupted_read_op {o : Op} {s t : Store} (ho : (o.exec s).2 = s) (h : (Prog.op o).Interrupted s t) : t = s := by
  rcases interrupted_op h with h | h
  · exact h
  · rw [h, ho]

theorem interrupted_set {now : Timestamp} {pid : String} {r : Relationship} {a : Bytes} {e : IRel} (he : toInternal r = .ok e)
    (h : ((Call.setRelationship now pid (some r) a).prog env).Interrupted s t) :
    t = s ∨ t = s.putEdge env.H pid e ∨ t = s.putRel env.H pid e a now := by
  replace h : Prog.Interrupted (do let x ← Service.setRelationship env now pid (some r) a; return Answer.overwritten x) s t := h
  have key : ∀ s t, (Repo.setRelationship env.H ⟨pid, r, now, a⟩).Interrupted s t →
      t = s ∨ t = s.putEdge env.H pid e ∨ t = s.putRel env.H pid e a now := by
    intro s t h
    unfold Repo.setRelationship at h
    simp only [he, lift_ok_bind] at h
    rcases interrupted_bind h with h | ⟨_, _, h1, h⟩
    · exact .inl (interrupted_read_op rfl h)
    · cases h1
      rcases interrupted_bind h with h | ⟨_, _, h1, h⟩
      · rcases interrupted_op h with h | h
        · exact .inl h
        · exact .inr (.inl h)
      · cases h1
        rcases interrupted_bind h with h | ⟨_, _, h1, h⟩
        · rcases interrupted_op h with h | h
          · exact .inr (.inl h)
          · exact .inr (.inr h)
        · cases h1
          exact .inr (.inr (interrupted_pure h))
  have key2 : ∀ s t, (Service.setRelationship env now pid (some r) a).Interrupted s t →
      t = s ∨ t = s.putEdge env.H pid e ∨ t = s.putRel env.H pid e a now := by
    intro s t h
    unfold Service.setRelationship at h
    rcases interrupted_bind h with h | ⟨rec, _, h1, h⟩
    · exact .inl (interrupted_read_op rfl h)
    · cases h1
      cases hp : kvGet s.policies pid with
      | none => rw [show ((Op.polGet pid).exec s).1 = _ from hp] at h; exact .inl (interrupted_done h)
      | some rec =>
        rw [show ((Op.polGet pid).exec s).1 = _ from hp] at h
        dsimp only at h
        rcases interrupted_bind h with h | ⟨_, _, h1, h⟩
        · exact .inl (interrupted_done h)
        · rw [run_lift] at h1
          obtain ⟨_, rfl⟩ := Prod.mk.inj h1
          simp only [Res.deref_some, lift_ok_bind] at h
          exact key _ _ h
  rcases interrupted_bind h with h | ⟨_, _, h1, h⟩
  · exact key2 _ _ h
  · rw [interrupted_pure h]
    exact key2 _ _ (by have := interrupted_run (Service.setRelationship env now pid (some r) a) s; rw [h1] at this; exact this)

theorem interrupted_repo_delete {H : String → Nat} {pid : String} {r : Relationship} {e : IRel} (he : toInternal r = .ok e)
    (h : (Repo.deleteRelationship H pid (some r)).Interrupted s t) :
    t = s ∨ t = s.delEdge pid (e.key H) ∨ t = s.delRels pid [e.key H] := by
  have hrun := run_repo_deleteRelationship (H := H) (pid := pid) he s
  unfold Repo.deleteRelationship at h hrun
  simp only [Res.deref_some, he, lift_ok_bind] at h hrun
  have hfin : ({ s.delEdge pid (e.key H) with data := kvDel s.data (e.key H) } : Store) = s.delRels pid [e.key H] := by
    simp [Store.delRels, Store.delEdge, Store.setEdges, kvDel]
  rcases interrupted_bind h with h | ⟨_, _, h1, h⟩
  · exact .inl (interrupted_read_op rfl h)
  · cases h1
    rcases interrupted_bind h with h | ⟨_, _, h1, h⟩
    · rcases interrupted_op h with h | h
      · exact .inl h
      · exact .inr (.inl h)
    · cases h1
      rcases interrupted_bind h with h | ⟨_, _, h1, h⟩
      · rcases interrupted_op h with h | h
        · exact .inr (.inl h)
        · exact .inr (.inr (h.trans hfin))
      · cases h1
        exact .inr (.inr ((interrupted_pure h).trans hfin))

theorem interrupted_delete {pid : String} {r : Relationship} {e : IRel} (he : toInternal r = .ok e)
    (h : ((Call.deleteRelationship pid (some r)).prog env).Interrupted s t) :
    t = s ∨ t = s.delEdge pid (e.key env.H) ∨ t = s.delRels pid [e.key env.H] := by
  replace h : Prog.Interrupted (do let x ← Repo.deleteRelationship env.H pid (some r); return Answer.found x) s t := h
  rcases interrupted_bind h with h | ⟨_, _, h1, h⟩
  · exact interrupted_repo_delete he h
  · rw [interrupted_pure h]
    rw [run_repo_deleteRelationship he] at h1
    cases h1
    exact .inr (.inr rfl)

/-- What an interrupted run over deletions can have done: relationships with keys in `K` may be missing, nothing else changed except data. -/
structure Thinned (s : Store) (pid : String) (K : List EdgeKey) (t : Store) : Prop where
  pol : t.policies = s.policies
  other : ∀ q, q ≠ pid → t.edges q = s.edges q
  sub : ∀ p, p ∈ t.edges pid → p ∈ s.edges pid
  keep : ∀ p, p ∈ s.edges pid → p.1 ∉ K → p ∈ t.edges pid

theorem Thinned.refl (s : Store) (pid : String) (K : List EdgeKey) : Thinned s pid K s :=
  ⟨rfl, fun _ _ => rfl, fun _ h => h, fun _ h _ => h⟩

/-- Storage calls of a bulk deletion. -/
def delOp (pid : String) (K : List EdgeKey) : Op → Prop
  | .edgeDel q k => q = pid ∧ k ∈ K
  | .dataDel _ => True
  | .polSet _ | .polDel _ | .edgeSet _ _ _ | .dataSet _ => False
  | _ => True

theorem Thinned.exec {s0 : Store} {pid : String} {K : List EdgeKey} (o : Op) (s : Store) (ho : delOp pid K o) (h : Thinned s0 pid K s) :
    Thinned s0 pid K (o.exec s).2 := by
  cases o with
  | edgeDel q k =>
    obtain ⟨rfl, hk⟩ := ho
    refine ⟨h.pol, fun q' hq => ?_, fun p hp => ?_, fun p hp hpK => ?_⟩
    · show (s.setEdges q _).edges q' = _
      rw [setEdges_edges, if_neg hq]; exact h.other q' hq
    · replace hp : p ∈ (s.setEdges q (kvDel (s.edges q) k)).edges q := hp
      rw [setEdges_edges, if_pos rfl] at hp
      exact h.sub p (mem_kvDel.1 hp).1
    · show p ∈ (s.setEdges q (kvDel (s.edges q) k)).edges q
      rw [setEdges_edges, if_pos rfl]
      exact mem_kvDel.2 ⟨h.keep p hp hpK, fun he => hpK (he ▸ hk)⟩
  | dataDel k => exact ⟨h.pol, h.other, h.sub, h.keep⟩
  | polSet => exact ho.elim
  | polDel => exact ho.elim
  | edgeSet => exact ho.elim
  | dataSet => exact ho.elim
  | polHas => exact h
  | polGet => exact h
  | polList => exact h
  | edgeGet => exact h
  | edgeList => exact h
  | edgeSucc => exact h
  | dataGet => exact h

theorem deleteRelationship_delOp {H : String → Nat} {pid : String} {K : List EdgeKey} {r : Relationship} {e : IRel}
    (he : toInternal r = .ok e) (hk : e.key H ∈ K) : (Repo.deleteRelationship H pid (some r)).AllOps (delOp pid K) := by
  unfold Repo.deleteRelationship
  simp only [Res.deref_some, he, lift_ok_bind]
  exact AllOps.bind (AllOps.op trivial) (fun _ => AllOps.bind (AllOps.op (P := delOp pid K) ⟨rfl, hk⟩)
    (fun _ => AllOps.bind (AllOps.op trivial) (fun _ => .done _)))

theorem interrupted_repo_bulk {H : String → Nat} {sel : Selector} (hc : SelectorComplete sel) (hset : SelectorSet sel) {pid : String}
    (h : (Repo.deleteRelationships H pid (some sel)).Interrupted s t) :
    Thinned s pid ((matching s pid sel).map (relKey H)) t := by
  unfold Repo.deleteRelationships at h
  rcases interrupted_bind h with h | ⟨l, s1, h1, h⟩
  · have : t = s := by
      have hr := Repo.findRelationships_read pid (some sel)
      obtain ⟨n, rfl⟩ := h
      exact hr.crash (I := fun x => x = s) (fun o x ho hx => by
        subst hx
        cases o <;> first | rfl | simp [Op.isRead] at ho) n rfl
    rw [this]; exact Thinned.refl _ _ _
  · rw [run_findRelationships hc hset] at h1
    cases h1
    have hops : (do let founds ← mapSlice (fun r => Repo.deleteRelationship H pid (some r)) (matching s pid sel)
                    return founds.length : Prog Nat).AllOps (delOp pid ((matching s pid sel).map (relKey H))) := by
      refine AllOps.bind (AllOps.mapSlice (fun r hr => ?_)) (fun _ => .done _)
      obtain ⟨e, he⟩ := toInternal_complete.2 (present_complete (mem_matching.1 hr).1)
      refine deleteRelationship_delOp he ?_
      rw [← relKey_of he]
      exact List.mem_map_of_mem hr
    exact hops.interrupted Thinned.exec h (Thinned.refl _ _ _)

theorem interrupted_bulk {sel : Selector} (hc : SelectorComplete sel) (hset : SelectorSet sel) {pid : String}
    (h : ((Call.deleteRelationships pid (some sel)).prog env).Interrupted s t) :
    Thinned s pid ((matching s pid sel).map (relKey env.H)) t := by
  replace h : Prog.Interrupted (do let x ← Repo.deleteRelationships env.H pid (some sel); return Answer.affected x) s t := h
  rcases interrupted_bind h with h | ⟨_, _, h1, h⟩
  · exact interrupted_repo_bulk hc hset h
  · rw [interrupted_pure h]
    refine interrupted_repo_bulk hc hset ?_
    have := interrupted_run (Repo.deleteRelationships env.H pid (some sel)) s
    rw [h1] at this
    exact this

theorem interrupted_deletePolicy {id : String} (h : ((Call.deletePolicy id).prog env).Interrupted s t) :
    t = s ∨ ((kvGet s.policies id).isSome = true ∧
      Thinned { s with policies := kvDel s.policies id } id ((relationships s id).map (relKey env.H)) t) := by
  have key : ∀ t, (Service.deletePolicy env id).Interrupted s t → t = s ∨ ((kvGet s.policies id).isSome = true ∧
      Thinned { s with policies := kvDel s.policies id } id ((relationships s id).map (relKey env.H)) t) := by
    intro t h
    unfold Service.deletePolicy Repo.deletePolicy at h
    cases hp : (kvGet s.policies id).isSome
    · rcases interrupted_bind h with h | ⟨f, s1, h1, h⟩
      · rcases interrupted_bind h with h | ⟨f, s1, h1, h⟩
        · exact .inl (interrupted_read_op rfl h)
        · rw [run_polHas, hp] at h1
          cases h1
          exact .inl (interrupted_pure h)
      · simp only [run_bind, run_polHas, andThen_ok, hp] at h1
        cases h1
        exact .inl (interrupted_pure h)
    · rcases interrupted_bind h with h | ⟨f, s1, h1, h⟩
      · rcases interrupted_bind h with h | ⟨f, s1, h1, h⟩
        · exact .inl (interrupted_read_op rfl h)
        · rw [run_polHas, hp] at h1
          cases h1
          simp only [if_true] at h
          rcases interrupted_bind h with h | ⟨f, s1, h1, h⟩
          · rcases interrupted_op h with h | h
            · exact .inl h
            · rw [h]; exact .inr ⟨rfl, Thinned.refl _ _ _⟩
          · cases h1
            rw [interrupted_pure h]; exact .inr ⟨rfl, Thinned.refl _ _ _⟩
      · simp only [run_bind, run_polHas, andThen_ok, hp, if_true, run_polDel, run_pure] at h1
        cases h1
        simp only [if_true] at h
        have h2 : (Repo.deleteRelationships env.H id (some allSelector)).Interrupted { s with policies := kvDel s.policies id } t := by
          rcases interrupted_bind h with h | ⟨_, _, h1, h⟩
          · exact h
          · rw [interrupted_pure h]
            have := interrupted_run (Repo.deleteRelationships env.H id (some allSelector)) { s with policies := kvDel s.policies id }
            rw [h1] at this
            exact this
        have := interrupted_repo_bulk allSelector_complete.1 allSelector_complete.2 h2
        rw [matching_all] at this
        exact .inr ⟨rfl, this⟩
  replace h : Prog.Interrupted (do let x ← Service.deletePolicy env id; return Answer.deletedPolicy x.1 x.2) s t := h
  rcases interrupted_bind h with h | ⟨_, _, h1, h⟩
  · exact key _ h
  · rw [interrupted_pure h]
    refine key _ ?_
    have := interrupted_run (Service.deletePolicy env id) s
    rw [h1] at this
    exact this

/-! ### Writing twice -/

theorem kvPut_idem {K V : Type} [DecidableEq K] {lt : K → K → Bool} {m : List (K × V)} {k : K} {v : V} :
    kvPut lt (kvPut lt m k v) k v = kvPut lt m k v := by
  have hg : (kvGet (kvPut lt m k v) k).isSome = true := by rw [kvGet_put, if_pos rfl]; rfl
  have : kvPut lt (kvPut lt m k v) k v = (kvPut lt m k v).map (fun p => if p.1 = k then (k, v) else p) := by
    generalize kvPut lt m k v = m' at hg
    unfold kvPut
    rw [if_pos hg]
  rw [this]
  conv => rhs; rw [← List.map_id (kvPut lt m k v)]
  apply List.map_congr_left
  intro p hp
  by_cases hk : p.1 = k
  · rw [if_pos hk]
    unfold kvPut at hp
    split at hp
    · obtain ⟨q, hq, he⟩ := List.mem_map.1 hp
      split at he
      · exact he
      · next hne => rw [← he] at hk; exact absurd hk hne
    · next hn =>
      rcases mem_kvInsert.1 hp with h | h
      · exact h.symm
      · exfalso
        apply hn
        rw [kvGet_isSome_iff]
        exact ⟨p.2, by rw [← hk]; exact h⟩
  · rw [if_neg hk]; rfl

theorem kvPut_same {K V : Type} [DecidableEq K] {lt : K → K → Bool} {m : List (K × V)} (hn : KeysNodup m) {k : K} {v : V}
    (h : kvGet m k = some v) : kvPut lt m k v = m := by
  unfold kvPut
  rw [h, if_pos (show (some v).isSome = true from rfl)]
  conv => rhs; rw [← List.map_id m]
  apply List.map_congr_left
  intro p hp
  split
  · next hk =>
    have := mem_kvGet hn (show (p.1, p.2) ∈ m from hp)
    rw [hk, h] at this
    cases this
    rw [← hk]; rfl
  · rfl

theorem putRel_putEdge (s : Store) (H : String → Nat) (pid : String) (e : IRel) (a : Bytes) (now : Timestamp) :
    (s.putEdge H pid e).putRel H pid e a now = s.putRel H pid e a now := by
  unfold Store.putRel Store.putEdge Store.setEdges
  simp only [if_true, kvPut_idem]
  congr 1
  funext q
  split <;> rfl

theorem putRel_putRel (s : Store) (H : String → Nat) (pid : String) (e : IRel) (a : Bytes) (now : Timestamp) :
    (s.putRel H pid e a now).putRel H pid e a now = s.putRel H pid e a now := by
  unfold Store.putRel
  simp only [if_true, kvPut_idem]
  congr 1
  funext q
  split <;> rfl

end Zanzi
