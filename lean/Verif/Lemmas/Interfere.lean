import Verif.Lemmas.RelySem
import Verif.Lemmas.Frame
import Verif.Lemmas.Concrete

/-
Lemmas for requests among others: invariants of the stores passed, requests that see constant stores, and weakest preconditions under
interference.
-/

namespace Zanzi

open Spec Prog

namespace Sys

variable {env : Env} {A : Call → Prop} {x : Sys} {c : Call}

theorem Path.mono {B : Call → Prop} (hab : ∀ d, A d → B d) {y : Sys} (h : Path env A x y) : Path env B x y := by
  induction h with
  | refl => exact .refl
  | arrive c hc _ ih => exact .arrive c (hab _ hc) ih
  | op _ hs ih => exact .op ih hs
  | leave _ ih => exact .leave ih
  | crash _ ih => exact .crash ih

theorem Path.trans {y z : Sys} (h1 : Path env A x y) (h2 : Path env A y z) : Path env A x z := by
  induction h2 with
  | refl => exact h1
  | arrive c hc _ ih => exact .arrive c hc ih
  | op _ hs ih => exact .op ih hs
  | leave _ ih => exact .leave ih
  | crash _ ih => exact .crash ih

/-- A property of stores kept by all storage calls the requests can make. -/
theorem Path.keeps {I : Store → Prop} {P : Op → Prop} (hI : ∀ o s, P o → I s → I (o.exec s).2) (hA : ∀ d, A d → (d.prog env).AllOps P)
    {y : Sys} (h : Path env A x y) (h0 : I x.store) (hx : ∀ t ∈ x.threads, t.AllOps P) : I y.store ∧ ∀ t ∈ y.threads, t.AllOps P :=
  Path.inv (I := I) (J := fun _ t => t.AllOps P) (St := fun _ _ => True) (fun _ => trivial) (fun _ d _ hd => hA d hd)
    (fun s o k hs hJ => by cases hJ with | call ho _ => exact ⟨hI o s ho hs, trivial⟩)
    (fun _ _ _ h _ => h)
    (fun s o k resp b s' _ hJ _ => by cases hJ with | call _ hk => exact hk _)
    h h0 hx

theorem Flight.keeps {I : Store → Prop} {P : Op → Prop} (hI : ∀ o s, P o → I s → I (o.exec s).2) (hA : ∀ d, A d → (d.prog env).AllOps P)
    (hc : (c.prog env).AllOps P) {h : List Store} {y : Sys} {t : Prog Answer} (hf : Flight env A x c h y t) (h0 : I x.store)
    (hx : ∀ t ∈ x.threads, t.AllOps P) : ∀ s ∈ h, I s := by
  intro s hs
  obtain ⟨z, hz, rfl⟩ := hf.hist.2 s hs
  exact (hz.keeps hI (fun d hd => hd.elim (hA d) (fun e => e ▸ hc)) h0 hx).1

/-- The stores passed are well formed. -/
theorem Flight.wf {h : List Store} {y : Sys} {t : Prog Answer} (hf : Flight env A x c h y t) (hx : Reachable env x) : ∀ s ∈ h, WF env s :=
  hf.keeps (fun o s ho hs => WF.exec o s ho hs) (fun d _ => Call.prog_ok env d) (Call.prog_ok env c) hx.wf.1 hx.wf.2

theorem Path.reachable {y : Sys} (h : Path env A x y) (hx : Reachable env x) : Reachable env y := by
  rw [reachable_iff] at hx ⊢
  exact hx.trans (h.mono (fun _ _ => trivial))

theorem Flight.head {h : List Store} {y : Sys} {t : Prog Answer} (hf : Flight env A x c h y t) : ∃ l, h = y.store :: l := by
  induction hf with
  | start => exact ⟨_, rfl⟩
  | own => exact ⟨_, rfl⟩
  | op => exact ⟨_, rfl⟩
  | arrive _ _ _ ih => exact ih
  | leave _ ih => exact ih

theorem Flight.own_run {h : List Store} {ts : List (Prog Answer)} {s : Store} {p : Prog Answer} (hf : Flight env A x c h ⟨ts, s⟩ p) :
    ∃ h', Flight env A x c h' ⟨ts, (p.run s).2⟩ (.done (p.run s).1) := by
  induction p generalizing h s with
  | done r => exact ⟨_, hf⟩
  | call o f ih => exact ih _ (.own hf (.ok o s))

theorem Flight.own_bind {α : Type} {h : List Store} {ts : List (Prog Answer)} {s s' : Store} {p : Prog α} {k : α → Prog Answer} {a : α}
    (hf : Flight env A x c h ⟨ts, s⟩ (p >>= k)) (hr : p.run s = (.ok a, s')) : ∃ h', Flight env A x c h' ⟨ts, s'⟩ (k a) := by
  replace hf : Flight env A x c h ⟨ts, s⟩ (p.bind k) := hf
  induction p generalizing h s with
  | done r => cases hr; exact ⟨_, hf⟩
  | call o f ih => exact ih _ hr (.own hf (.ok o s))

/-- Another request is served completely meanwhile. -/
theorem Flight.served {h : List Store} {s : Store} {t : Prog Answer} (hf : Flight env A x c h ⟨[], s⟩ t) (d : Call) (hd : A d) :
    ∃ h', Flight env A x c h' ⟨[], (serve env d s).2⟩ t := by
  have : ∀ (p : Prog Answer) (h : List Store) (s : Store), Flight env A x c h ⟨[] ++ p :: [], s⟩ t →
      ∃ h', Flight env A x c h' ⟨[], (p.run s).2⟩ t := by
    intro p
    induction p with
    | done r => intro h s hf; exact ⟨_, .leave hf⟩
    | call o f ih => intro h s hf; exact ih _ _ _ (.op hf (.ok o s))
  exact this _ _ _ (.arrive d hd hf)

end Sys

/-! ### Stepping concrete requests -/

/-- The rest of a request after its next storage call. -/
def Prog.next {α : Type} (s : Store) : Prog α → Prog α
  | .done r => .done r
  | .call o k => k (some (o.exec s).1)

/-- The stores passed while a request is served alone. -/
def Prog.trace {α : Type} : Prog α → Store → List Store
  | .done _, _ => []
  | .call o k, s => (o.exec s).2 :: (k (some (o.exec s).1)).trace (o.exec s).2

theorem Prog.ReadOnly.next {α : Type} {p : Prog α} (h : p.ReadOnly) {s : Store} : (p.next s).ReadOnly := by
  cases h with
  | done r => exact .done r
  | call _ hk => exact hk _

namespace Sys.Flight

variable {env : Env} {A : Call → Prop} {x : Sys} {c : Call}

theorem own_read {h : List Store} {ts : List (Prog Answer)} {s : Store} {p : Prog Answer} (hf : Flight env A x c h ⟨ts, s⟩ p) (hp : p.ReadOnly) :
    ∃ h', Flight env A x c h' ⟨ts, s⟩ (p.next s) ∧ ∀ z ∈ h', z ∈ h ∨ z = s := by
  cases hp with
  | done r => exact ⟨h, hf, fun z hz => .inl hz⟩
  | @call o k ho hk =>
    have h1 := Flight.own hf (.ok o s)
    rw [read_exec ho s] at h1
    refine ⟨_, h1, fun z hz => ?_⟩
    rcases List.mem_cons.1 hz with h | h
    · exact .inr h
    · exact .inl h

theorem own_reads {h : List Store} {ts : List (Prog Answer)} {s : Store} {p : Prog Answer} (hf : Flight env A x c h ⟨ts, s⟩ p) (hp : p.ReadOnly) :
    ∃ h', Flight env A x c h' ⟨ts, s⟩ (.done (p.run s).1) ∧ ∀ z ∈ h', z ∈ h ∨ z = s := by
  induction hp generalizing h with
  | done r => exact ⟨h, hf, fun z hz => .inl hz⟩
  | @call o k ho hk ih =>
    have h1 := Flight.own hf (.ok o s)
    rw [read_exec ho s] at h1
    obtain ⟨h2, h3, h4⟩ := ih _ h1
    have he : ((Prog.call o k).run s).1 = ((k (some (o.exec s).1)).run s).1 := by
      show ((k (some (o.exec s).1)).run (o.exec s).2).1 = _
      rw [read_exec ho s]
    rw [he]
    refine ⟨h2, h3, fun z hz => ?_⟩
    rcases h4 z hz with h | h
    · rcases List.mem_cons.1 h with h | h
      · exact .inr h
      · exact .inl h
    · exact .inr h

theorem served_trace {h : List Store} {s : Store} {t : Prog Answer} (hf : Flight env A x c h ⟨[], s⟩ t) (d : Call) (hd : A d) :
    ∃ h', Flight env A x c h' ⟨[], (serve env d s).2⟩ t ∧ ∀ z ∈ h', z ∈ h ∨ z ∈ (d.prog env).trace s := by
  have : ∀ (p : Prog Answer) (h : List Store) (s : Store), Flight env A x c h ⟨[] ++ p :: [], s⟩ t →
      ∃ h', Flight env A x c h' ⟨[], (p.run s).2⟩ t ∧ ∀ z ∈ h', z ∈ h ∨ z ∈ p.trace s := by
    intro p
    induction p with
    | done r => intro h s hf; exact ⟨_, .leave hf, fun z hz => .inl hz⟩
    | call o f ih =>
      intro h s hf
      obtain ⟨h', h1, h2⟩ := ih _ _ _ (.op hf (.ok o s))
      refine ⟨h', h1, fun z hz => ?_⟩
      rcases h2 z hz with h | h
      · rcases List.mem_cons.1 h with h | h
        · exact .inr (h ▸ List.mem_cons_self)
        · exact .inl h
      · exact .inr (List.mem_cons_of_mem _ h)
  exact this _ _ _ (.arrive d hd hf)

end Sys.Flight

theorem answers_of {r : Res Answer} {b : Bool} (h : authOf r = some b) : r = .ok (.authorized b) := by
  unfold authOf at h
  split at h
  · cases h; rfl
  · cases h

theorem checks_all {env : Env} {l : List Store} {fuel : Nat} {pid : String} {x : USet} {u : Entity} {b : Bool}
    (h : l.all (fun s => decide (authOf (serve env (.check fuel pid (ask x u)) s).1 = some b)) = true) :
    ∀ s ∈ l, Checks env s fuel pid x u b := by
  intro s hs
  exact checks_of (by simpa using List.all_eq_true.1 h s hs)

namespace Prog

variable {I : Store → Prop}

/-- How a sequence can answer. -/
theorem Reads.bind {α β : Type} {p : Prog α} {k : α → Prog β} {r : Res β} (h : (p >>= k).Reads I r) :
    ∃ r', p.Reads I r' ∧
      ((∃ a, r' = .ok a ∧ (k a).Reads I r) ∨ (∃ e, r' = .err e ∧ r = .err e) ∨ (r' = .panic ∧ r = .panic) ∨ (r' = .fuel ∧ r = .fuel)) := by
  replace h : (p.bind k).Reads I r := h
  induction p with
  | done q =>
    refine ⟨q, .done, ?_⟩
    cases q with
    | ok a => exact .inl ⟨a, rfl, h⟩
    | err e => cases h; exact .inr (.inl ⟨e, rfl, rfl⟩)
    | panic => cases h; exact .inr (.inr (.inl ⟨rfl, rfl⟩))
    | fuel => cases h; exact .inr (.inr (.inr ⟨rfl, rfl⟩))
  | call o f ih =>
    cases h with
    | ok hs hr =>
      obtain ⟨a, h1, h2⟩ := ih _ hr
      exact ⟨a, .ok hs h1, h2⟩
    | fail hr =>
      obtain ⟨a, h1, h2⟩ := ih _ hr
      exact ⟨a, .fail h1, h2⟩

/-- Whatever stores of `I` it reads, the program answers as on `s`, or reports a storage fault. -/
def Const {α : Type} (I : Store → Prop) (s : Store) (p : Prog α) : Prop := ∀ r, p.Reads I r → r = (p.run s).1 ∨ r = .err .store

theorem Const.bind {α β : Type} {s : Store} {p : Prog α} {k : α → Prog β} (hp : p.Const I s) (hr : p.ReadOnly)
    (hk : ∀ a, (p.run s).1 = .ok a → (k a).Const I s) : (p >>= k).Const I s := by
  intro r h
  have hs : p.run s = ((p.run s).1, s) := Prod.ext rfl (hr.run s)
  rw [run_bind, hs]
  obtain ⟨r', h1, h2⟩ := h.bind
  rcases hp _ h1 with h3 | h3
  · rw [← h3]
    rcases h2 with ⟨a, rfl, h2⟩ | ⟨e, rfl, rfl⟩ | ⟨rfl, rfl⟩ | ⟨rfl, rfl⟩
    · exact hk a h3.symm _ h2
    · exact .inl rfl
    · exact .inl rfl
    · exact .inl rfl
  · subst h3
    rcases h2 with ⟨a, h', _⟩ | ⟨e, h', h2⟩ | ⟨h', _⟩ | ⟨h', _⟩
    · cases h'
    · cases h'; exact .inr h2
    · cases h'
    · cases h'

theorem Const.lift {α : Type} {s : Store} (r : Res α) : (Prog.lift r).Const I s := fun _ h => .inl h.lift.symm
theorem Const.pure {α : Type} {s : Store} (a : α) : (Pure.pure a : Prog α).Const I s := fun _ h => .inl h.pure

theorem Const.edges {α : Type} {s : Store} {pid : String} (hI : ∀ s', I s' → s'.edges pid = s.edges pid) {p : Prog α}
    (hp : p.AllOps (edgeLocal pid)) (hf : p.FailStop) : p.Const I s := by
  intro r h
  refine h.const (P := edgeLocal pid) ?_ hp hf
  intro o ho
  rcases ho with ⟨n, rfl⟩ | rfl
  · refine ⟨rfl, fun s' hs' => ?_⟩
    simp only [Op.exec, hI s' hs']; rfl
  · refine ⟨rfl, fun s' hs' => ?_⟩
    simp only [Op.exec, hI s' hs']; rfl

theorem Const.getPolicy {s : Store} {pid : String} (hI : ∀ s', I s' → kvGet s'.policies pid = kvGet s.policies pid) :
    (GraphService.getPolicy pid).Const I s := by
  intro r h
  obtain ⟨r', h1, h2⟩ := h.bind
  have hc : (Repo.getPolicy pid).Const I s := by
    intro r h
    refine h.const (P := fun o => o = .polGet pid) ?_ (AllOps.op rfl) (Repo.getPolicy_fs _)
    rintro o rfl
    exact ⟨rfl, hI⟩
  rcases hc _ h1 with h3 | h3
  · have h4 : r' = .ok (kvGet s.policies pid) := h3
    subst h4
    rcases h2 with ⟨a, ha, h2⟩ | ⟨e, h, _⟩ | ⟨h, _⟩ | ⟨h, _⟩
    · cases ha
      left
      unfold GraphService.getPolicy
      rw [run_bind]
      have : (Repo.getPolicy pid).run s = (.ok (kvGet s.policies pid), s) := rfl
      rw [this, andThen_ok]
      revert h2
      cases kvGet s.policies pid with
      | none => intro h2; cases h2; rfl
      | some rec => intro h2; cases h2; rfl
    · cases h
    · cases h
    · cases h
  · subst h3
    rcases h2 with ⟨a, h', _⟩ | ⟨e, h', h2⟩ | ⟨h', _⟩ | ⟨h', _⟩
    · cases h'
    · cases h'; exact .inr h2
    · cases h'
    · cases h'

end Prog

/-- A graph query that reads stores agreeing on the policy and its relationships. -/
theorem graphQuery_const {env : Env} {I : Store → Prop} {s : Store} {pid : String} {c : Call} (hs : WF env s) (hc : c.graphQuery pid)
    (hp : ∀ s', I s' → kvGet s'.policies pid = kvGet s.policies pid) (he : ∀ s', I s' → s'.edges pid = s.edges pid) :
    (c.prog env).Const I s := by
  have hpr : (GraphService.getPolicy pid).ReadOnly := GraphService.getPolicy_read pid
  have hops : ∀ rec : PolicyRecord, ((GraphService.getPolicy pid).run s).1 = .ok rec → rec.policy.id = pid := by
    intro rec hr
    have h1 : (GraphService.getPolicy pid).Reads (fun s' => s' = s) (.ok rec) := hr ▸ Reads.of_run hpr rfl
    obtain ⟨_, rfl, h2⟩ := getPolicy_reads h1
    exact hs.policy_id h2
  cases c <;> simp only [Call.graphQuery] at hc <;> subst hc
  case getPolicy =>
    refine Const.bind ?_ (Repo.getPolicy_read _) (fun _ _ => .pure _)
    intro r h
    refine Reads.const (P := fun o => o = .polGet _) ?_ (AllOps.op rfl) (Repo.getPolicy_fs _) h
    rintro o rfl
    exact ⟨rfl, hp⟩
  case check fuel _ req =>
    refine Const.bind (Const.bind (.getPolicy hp) hpr (fun rec hr => ?_)) (GraphService.check_read _ _ _ _) (fun _ _ => .pure _)
    refine Const.edges he (AllOps.bind (AllOps.bind (AllOps.lift _) (fun _ => searchGoal_ops (P := edgeLocal _) ?_ _ _ _)) (fun _ => .done _))
      (FailStop.bind (GraphService.checkTree_fs _ _ _ _) (fun _ => .done _))
    intro n; rw [hops rec hr]; exact .inl ⟨_, rfl⟩
  case explainCheck fuel _ req f =>
    refine Const.bind (p := GraphService.explainCheck env fuel _ req f) (Const.bind (.lift _) (AllOps.lift _) (fun _ _ => Const.bind (.getPolicy hp) hpr (fun rec hr => ?_)))
      (GraphService.explainCheck_read _ _ _ _ _) (fun _ _ => .pure _)
    refine Const.edges he (AllOps.bind (AllOps.bind (AllOps.lift _) (fun _ => searchGoal_ops (P := edgeLocal _) ?_ _ _ _))
      (fun _ => AllOps.bind (AllOps.lift _) (fun _ => .done _)))
      (FailStop.bind (GraphService.checkTree_fs _ _ _ _) (fun _ => FailStop.bind (FailStop.lift _) (fun _ => .done _)))
    intro n; rw [hops rec hr]; exact .inl ⟨_, rfl⟩
  case expand fuel _ req f =>
    refine Const.bind (p := GraphService.expand env fuel _ req f) (Const.bind (.lift _) (AllOps.lift _) (fun _ _ => Const.bind (.getPolicy hp) hpr (fun rec hr => ?_)))
      (GraphService.expand_read _ _ _ _ _) (fun _ _ => .pure _)
    refine Const.edges he (AllOps.bind (searchGoal_ops (P := edgeLocal _) ?_ _ _ _)
      (fun _ => AllOps.bind (AllOps.lift _) (fun _ => .done _)))
      (FailStop.bind (searchGoal_fs _ _ _ _ _) (fun _ => FailStop.bind (FailStop.lift _) (fun _ => .done _)))
    intro n; rw [hops rec hr]; exact .inl ⟨_, rfl⟩
  case dumpRelationships fuel order _ f =>
    refine Const.bind (p := GraphService.dumpRelationships env fuel order _ f) (Const.bind (.getPolicy hp) hpr (fun rec hr => ?_))
      (GraphService.dump_read _ _ _ _ _) (fun _ _ => .pure _)
    refine Const.edges he (AllOps.bind (AllOps.bind (AllOps.op ?_) (fun _ => .done _)) (fun _ => AllOps.bind (AllOps.lift _) (fun _ => ?_)))
      (FailStop.bind (Repo.listEdges_fs _) (fun _ => FailStop.bind (FailStop.lift _) (fun _ => ?_)))
    · rw [hops rec hr]; exact .inr rfl
    · cases f <;> exact .done _
    · cases f <;> exact .done _

/-! ### Relationships naming a user -/

theorem kvPut_mem {K V : Type} [DecidableEq K] {lt : K → K → Bool} {m : List (K × V)} {k : K} {v : V} {p : K × V} (h : p ∈ kvPut lt m k v) :
    p = (k, v) ∨ p ∈ m := by
  unfold kvPut at h
  split at h
  · obtain ⟨q, hq, rfl⟩ := List.mem_map.1 h
    split
    · exact .inl rfl
    · exact .inr hq
  · exact mem_kvInsert.1 h

theorem kvDel_mem {K V : Type} [DecidableEq K] {m : List (K × V)} {k : K} {p : K × V} (h : p ∈ kvDel m k) : p ∈ m := (List.mem_filter.1 h).1

/-- No relationship written names the user. -/
def noNaming (pid : String) (u : Entity) (o : Op) : Prop := ∀ k e, o = .edgeSet pid k e → ¬ NamesUser u (fromInternal e)

theorem noNaming_exec {pid : String} {u : Entity} {o : Op} {s : Store} (ho : noNaming pid u o) (h : ∀ r, Present s pid r → ¬ NamesUser u r) :
    ∀ r, Present (o.exec s).2 pid r → ¬ NamesUser u r := by
  intro r hr
  have key : ∀ p ∈ (o.exec s).2.edges pid, p ∈ s.edges pid ∨ ¬ NamesUser u (fromInternal p.2) := by
    intro p hp
    cases o <;> try exact .inl hp
    case edgeSet q k e =>
      replace hp : p ∈ (s.setEdges q _).edges pid := hp
      rw [setEdges_edges] at hp
      split at hp
      · next hq =>
        subst hq
        rcases kvPut_mem hp with rfl | hp
        · exact .inr (ho _ _ rfl)
        · exact .inl hp
      · exact .inl hp
    case edgeDel q k =>
      replace hp : p ∈ (s.setEdges q _).edges pid := hp
      rw [setEdges_edges] at hp
      split at hp
      · next hq => subst hq; exact .inl (kvDel_mem hp)
      · exact .inl hp
  obtain ⟨p, hp, rfl⟩ := List.mem_map.1 (show r ∈ ((o.exec s).2.edges pid).map _ from hr)
  rcases key p hp with h1 | h1
  · exact h _ (List.mem_map.2 ⟨p, h1, rfl⟩)
  · exact h1

/-- Requests other than SetRelationship naming the user write no such relationship. -/
theorem prog_noNaming (env : Env) {c : Call} {pid : String} {u : Entity}
    (hc : ∀ now r a, c = .setRelationship now pid (some r) a → ¬ NamesUser u r) : (c.prog env).AllOps (noNaming pid u) := by
  by_cases h : ∃ now r a, c = .setRelationship now pid r a
  · obtain ⟨now, r, a, rfl⟩ := h
    refine AllOps.bind (AllOps.bind (AllOps.op (fun _ _ h => nomatch h)) (fun x => ?_)) (fun _ => .done _)
    cases x with
    | none => exact .done _
    | some rec =>
      refine AllOps.bind (AllOps.lift _) (fun _ => ?_)
      cases r with
      | none => exact .done _
      | some r =>
        rw [Res.deref_some, lift_ok_bind]
        unfold Repo.setRelationship
        cases he : toInternal r with
        | err => exact .done _
        | panic => exact .done _
        | fuel => exact .done _
        | ok e =>
          rw [lift_ok_bind]
          refine AllOps.bind (AllOps.op (fun _ _ h => nomatch h)) (fun _ => AllOps.bind (AllOps.op ?_) (fun _ =>
            AllOps.bind (AllOps.op (fun _ _ h => nomatch h)) (fun _ => .done _)))
          intro k e' h
          cases h
          rw [fromInternal_toInternal he]
          exact hc _ _ _ rfl
  · exact (prog_notSet env c pid h).mono (fun o ho k e he => absurd he (ho k e))

/-! ### Weakest preconditions under interference -/

/-- Whatever storage faults happen, and if others change the store only along `R`, the program ends with `Q`. -/
def Prog.Wp (R : Store → Store → Prop) {α : Type} (Q : Res α → Store → Prop) : Prog α → Store → Prop
  | .done r, s => ∀ s', R s s' → Q r s'
  | .call o k, s => ∀ s', R s s' → (k (some (o.exec s').1)).Wp R Q (o.exec s').2 ∧ (k none).Wp R Q s' ∧ (k none).Wp R Q (o.exec s').2

section wp
variable {R : Store → Store → Prop} {α β : Type}

theorem Prog.Wp.stable (ht : ∀ a b c, R a b → R b c → R a c) {Q : Res α → Store → Prop} {p : Prog α} {s s' : Store} (h : p.Wp R Q s)
    (hr : R s s') : p.Wp R Q s' := by
  cases p with
  | done r => exact fun s'' h' => h s'' (ht _ _ _ hr h')
  | call o k => exact fun s'' h' => h s'' (ht _ _ _ hr h')

theorem Prog.Wp.mono {Q Q' : Res α → Store → Prop} (hq : ∀ r s, Q r s → Q' r s) {p : Prog α} {s : Store} (h : p.Wp R Q s) : p.Wp R Q' s := by
  induction p generalizing s with
  | done r => exact fun s' hs' => hq _ _ (h s' hs')
  | call o k ih => exact fun s' hs' => ⟨ih _ (h s' hs').1, ih _ (h s' hs').2.1, ih _ (h s' hs').2.2⟩

theorem Prog.Wp.bind (hrefl : ∀ s, R s s) {Q : Res β → Store → Prop} {p : Prog α} {k : α → Prog β} {s : Store}
    (h : p.Wp R (fun r s' => match r with
      | .ok a => (k a).Wp R Q s'
      | .err e => Q (.err e) s'
      | .panic => Q .panic s'
      | .fuel => Q .fuel s') s) : (p >>= k).Wp R Q s := by
  show (p.bind k).Wp R Q s
  induction p generalizing s with
  | done r =>
    cases r with
    | ok a => exact h s (hrefl s)
    | err e => exact h
    | panic => exact h
    | fuel => exact h
  | call o f ih => exact fun s' hs' => ⟨ih _ (h s' hs').1, ih _ (h s' hs').2.1, ih _ (h s' hs').2.2⟩

/-- What a request in flight ends with, when the others change the store only along `R`. -/
theorem Sys.Flight.wp_from {env : Env} {A : Call → Prop} {x : Sys} {c : Call} {P : Op → Prop} (hrefl : ∀ s, R s s)
    (ht : ∀ a b c, R a b → R b c → R a c) (hP : ∀ o s, P o → R s (o.exec s).2) (hA : ∀ d, A d → (d.prog env).AllOps P)
    (hx : ∀ t ∈ x.threads, t.AllOps P) {Q : Res Answer → Store → Prop} (hc : ∀ y, Sys.Path env A x y → (c.prog env).Wp R Q y.store)
    {h : List Store} {y : Sys} {t : Prog Answer} (hf : Flight env A x c h y t) : t.Wp R Q y.store ∧ ∀ t' ∈ y.threads, t'.AllOps P := by
  induction hf with
  | @start y hp =>
    exact ⟨hc _ hp, (hp.keeps (I := fun _ => True) (P := P) (fun _ _ _ _ => trivial) hA trivial hx).2⟩
  | @own o k h ts s s' resp b _ hs ih =>
    have h1 := ih.1 s (hrefl s)
    refine ⟨?_, ih.2⟩
    cases hs with
    | ok => exact h1.1
    | failBefore => exact h1.2.1
    | failAfter => exact h1.2.2
  | arrive d hd _ ih =>
    refine ⟨ih.1, fun t ht' => ?_⟩
    rcases List.mem_append.1 ht' with h | h
    · exact ih.2 t h
    · rw [List.mem_singleton.1 h]; exact hA _ hd
  | @op o k h ts₁ ts₂ s s' t resp b _ hs ih =>
    have hj := ih.2 _ (List.mem_append.2 (.inr List.mem_cons_self))
    cases hj with
    | call ho hk =>
      refine ⟨?_, fun t' ht' => ?_⟩
      · cases hs with
        | ok => exact Prog.Wp.stable ht ih.1 (hP o s ho)
        | failBefore => exact ih.1
        | failAfter => exact Prog.Wp.stable ht ih.1 (hP o s ho)
      · rcases List.mem_append.1 ht' with h | h
        · exact ih.2 t' (List.mem_append.2 (.inl h))
        · rcases List.mem_cons.1 h with h | h
          · rw [h]; exact hk _
          · exact ih.2 t' (List.mem_append.2 (.inr (List.mem_cons_of_mem _ h)))
  | leave _ ih =>
    refine ⟨ih.1, fun t' ht' => ih.2 t' ?_⟩
    rcases List.mem_append.1 ht' with h | h
    · exact List.mem_append.2 (.inl h)
    · exact List.mem_append.2 (.inr (List.mem_cons_of_mem _ h))

/-- The same for requests that end so from every store. -/
theorem Sys.Flight.wp {env : Env} {A : Call → Prop} {x : Sys} {c : Call} {P : Op → Prop} (hrefl : ∀ s, R s s)
    (ht : ∀ a b c, R a b → R b c → R a c) (hP : ∀ o s, P o → R s (o.exec s).2) (hA : ∀ d, A d → (d.prog env).AllOps P)
    (hx : ∀ t ∈ x.threads, t.AllOps P) {Q : Res Answer → Store → Prop} (hc : ∀ s, (c.prog env).Wp R Q s)
    {h : List Store} {y : Sys} {t : Prog Answer} (hf : Flight env A x c h y t) : t.Wp R Q y.store ∧ ∀ t' ∈ y.threads, t'.AllOps P :=
  wp_from hrefl ht hP hA hx (fun _ _ => hc _) hf

end wp

end Zanzi
