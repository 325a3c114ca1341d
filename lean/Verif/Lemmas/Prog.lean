import Verif.Model.Exec
import Verif.Lemmas.Kv

/-
General facts about request programs.
-/

namespace Zanzi

/-! ### Sequential execution -/

/-- Continue with the value of a successful outcome. -/
def Res.andThen {α β : Type} (x : Res α × Store) (k : α → Store → Res β × Store) : Res β × Store :=
  match x with
  | (.ok a, s) => k a s
  | (.err e, s) => (.err e, s)
  | (.panic, s) => (.panic, s)
  | (.fuel, s) => (.fuel, s)

namespace Prog

theorem run_done {α : Type} (r : Res α) (s : Store) : (done r).run s = (r, s) := rfl

theorem run_bind {α β : Type} (p : Prog α) (k : α → Prog β) (s : Store) :
    (p >>= k).run s = Res.andThen (p.run s) (fun a s => (k a).run s) := by
  show (p.bind k).run s = _
  induction p generalizing s with
  | done r => cases r <;> rfl
  | call op f ih => exact ih _ _

@[simp] theorem run_pure {α : Type} (a : α) (s : Store) : (pure a : Prog α).run s = (.ok a, s) := rfl
@[simp] theorem run_lift {α : Type} (r : Res α) (s : Store) : (lift r).run s = (r, s) := rfl
theorem run_op (o : Op) (s : Store) : (op o).run s = (.ok (o.exec s).1, (o.exec s).2) := rfl
@[simp] theorem run_polHas (id : String) (s : Store) :
    (polHas id).run s = (.ok (kvGet s.policies id).isSome, s) := rfl
@[simp] theorem run_polGet (id : String) (s : Store) : (polGet id).run s = (.ok (kvGet s.policies id), s) := rfl
@[simp] theorem run_polSet (r : PolicyRecord) (s : Store) :
    (polSet r).run s = (.ok (), { s with policies := kvPut strLt s.policies r.policy.id r }) := rfl
@[simp] theorem run_polDel (id : String) (s : Store) :
    (polDel id).run s = (.ok (), { s with policies := kvDel s.policies id }) := rfl
@[simp] theorem run_polList (s : Store) : polList.run s = (.ok (s.policies.map (·.1)), s) := rfl
@[simp] theorem run_edgeGet (pid : String) (k : EdgeKey) (s : Store) :
    (edgeGet pid k).run s = (.ok (kvGet (s.edges pid) k), s) := rfl
@[simp] theorem run_edgeSet (pid : String) (k : EdgeKey) (r : IRel) (s : Store) :
    (edgeSet pid k r).run s = (.ok (), s.setEdges pid (kvPut edgeLt (s.edges pid) k r)) := rfl
@[simp] theorem run_edgeDel (pid : String) (k : EdgeKey) (s : Store) :
    (edgeDel pid k).run s = (.ok (), s.setEdges pid (kvDel (s.edges pid) k)) := rfl
@[simp] theorem run_edgeList (pid : String) (s : Store) :
    (edgeList pid).run s = (.ok ((s.edges pid).map (·.2)), s) := rfl
@[simp] theorem run_edgeSucc (pid : String) (n : Nat) (s : Store) :
    (edgeSucc pid n).run s = (.ok (((s.edges pid).filter (fun p => decide (p.1.1 = n))).map (·.2)), s) := rfl
@[simp] theorem run_dataGet (k : EdgeKey) (s : Store) : (dataGet k).run s = (.ok (kvGet s.data k), s) := rfl
@[simp] theorem run_dataSet (d : RelData) (s : Store) :
    (dataSet d).run s = (.ok (), { s with data := kvPut edgeLt s.data d.relationshipId d }) := rfl
@[simp] theorem run_dataDel (k : EdgeKey) (s : Store) :
    (dataDel k).run s = (.ok (), { s with data := kvDel s.data k }) := rfl

end Prog

@[simp] theorem andThen_ok {α β : Type} (a : α) (s : Store) (k : α → Store → Res β × Store) :
    Res.andThen (.ok a, s) k = k a s := rfl
@[simp] theorem andThen_err {α β : Type} (e : Err) (s : Store) (k : α → Store → Res β × Store) :
    Res.andThen (.err e, s) k = (.err e, s) := rfl
@[simp] theorem andThen_panic {α β : Type} (s : Store) (k : α → Store → Res β × Store) :
    Res.andThen (.panic, s) k = (.panic, s) := rfl
@[simp] theorem andThen_fuel {α β : Type} (s : Store) (k : α → Store → Res β × Store) :
    Res.andThen (.fuel, s) k = (.fuel, s) := rfl

@[simp] theorem lift_ok_bind {α β : Type} (a : α) (k : α → Prog β) : (Prog.lift (.ok a) >>= k) = k a := rfl
@[simp] theorem lift_err_bind {α β : Type} (e : Err) (k : α → Prog β) :
    ((Prog.lift (.err e) : Prog α) >>= k) = .done (.err e) := rfl
@[simp] theorem lift_panic_bind {α β : Type} (k : α → Prog β) :
    ((Prog.lift .panic : Prog α) >>= k) = .done .panic := rfl
@[simp] theorem lift_fuel_bind {α β : Type} (k : α → Prog β) :
    ((Prog.lift .fuel : Prog α) >>= k) = .done .fuel := rfl

/-! ### Predicates on all storage calls a program can make -/

/-- Every storage call the program can make, whatever the answers, satisfies `P`. -/
inductive Prog.AllOps {α : Type} (P : Op → Prop) : Prog α → Prop
  | done (r : Res α) : AllOps P (.done r)
  | call {op : Op} {k : Option op.Resp → Prog α} : P op → (∀ r, AllOps P (k r)) → AllOps P (.call op k)

namespace Prog

variable {P : Op → Prop}

theorem AllOps.bind {α β : Type} {p : Prog α} {k : α → Prog β} (hp : p.AllOps P) (hk : ∀ a, (k a).AllOps P) :
    (p >>= k).AllOps P := by
  show (p.bind k).AllOps P
  induction hp with
  | done r => cases r <;> first | exact hk _ | exact .done _
  | call h _ ih => exact .call h ih

theorem AllOps.op {o : Op} (h : P o) : (Prog.op o).AllOps P :=
  .call h (fun r => by cases r <;> exact .done _)

theorem AllOps.lift {α : Type} (r : Res α) : (Prog.lift r).AllOps P := .done _

theorem AllOps.pure {α : Type} (a : α) : (Pure.pure a : Prog α).AllOps P := .done _

theorem AllOps.mapSlice {α β : Type} {f : α → Prog β} {l : List α} (h : ∀ a ∈ l, (f a).AllOps P) :
    (Prog.mapSlice f l).AllOps P := by
  induction l with
  | nil => exact .done _
  | cons a l ih =>
    refine AllOps.bind (h a (by simp)) (fun b => AllOps.bind (ih (fun x hx => h x (by simp [hx]))) (fun bs => .done _))

theorem AllOps.mono {α : Type} {Q : Op → Prop} {p : Prog α} (h : p.AllOps P) (hpq : ∀ o, P o → Q o) : p.AllOps Q := by
  induction h with
  | done r => exact .done r
  | call ho _ ih => exact .call (hpq _ ho) ih

/-- A property of stores kept by all storage calls satisfying `P` is kept by the program, under any faults. -/
theorem AllOps.runF {α : Type} {I : Store → Prop} (hI : ∀ o s, P o → I s → I (o.exec s).2) {p : Prog α}
    (hp : p.AllOps P) {s s' : Store} {b : Bool} {r : Res α} (h : RunF p s b r s') (hs : I s) : I s' := by
  induction h with
  | done r s => exact hs
  | call hstep _ ih =>
    cases hp with
    | call ho hk =>
      apply ih (hk _)
      cases hstep with
      | ok => exact hI _ _ ho hs
      | failBefore => exact hs
      | failAfter => exact hI _ _ ho hs

theorem runF_of_run {α : Type} (p : Prog α) (s : Store) : RunF p s false (p.run s).1 (p.run s).2 := by
  induction p generalizing s with
  | done r => exact .done _ _
  | call op k ih => exact RunF.call (.ok op s) (ih _ _)

theorem run_of_runF {α : Type} {p : Prog α} {s s' : Store} {b : Bool} {r : Res α} (h : RunF p s b r s')
    (hb : b = false) : p.run s = (r, s') := by
  induction h with
  | done r s => rfl
  | call hstep _ ih =>
    cases hstep with
    | ok => exact ih (by simpa using hb)
    | failBefore => simp at hb
    | failAfter => simp at hb

theorem AllOps.run {α : Type} {I : Store → Prop} (hI : ∀ o s, P o → I s → I (o.exec s).2) {p : Prog α}
    (hp : p.AllOps P) {s : Store} (hs : I s) : I (p.run s).2 :=
  hp.runF hI (runF_of_run p s) hs

theorem AllOps.crash {α : Type} {I : Store → Prop} (hI : ∀ o s, P o → I s → I (o.exec s).2) {p : Prog α}
    (hp : p.AllOps P) (n : Nat) {s : Store} (hs : I s) : I (p.crash n s) := by
  induction hp generalizing n s with
  | done r => cases n <;> exact hs
  | call ho _ ih =>
    cases n with
    | zero => exact hs
    | succ n => exact ih _ n (hI _ _ ho hs)

/-- A program that reports every storage failure as a storage error. -/
inductive FailStop {α : Type} : Prog α → Prop
  | done (r : Res α) : FailStop (.done r)
  | call {op : Op} {k : Option op.Resp → Prog α} : k none = .done (.err .store) → (∀ r, FailStop (k (some r))) →
      FailStop (.call op k)

theorem FailStop.bind {α β : Type} {p : Prog α} {k : α → Prog β} (hp : p.FailStop) (hk : ∀ a, (k a).FailStop) :
    (p >>= k).FailStop := by
  show (p.bind k).FailStop
  induction hp with
  | done r => cases r <;> first | exact hk _ | exact .done _
  | call h _ ih => exact .call (by simp [h, Prog.bind]) ih

theorem FailStop.op (o : Op) : (Prog.op o).FailStop := .call rfl (fun _ => .done _)

theorem FailStop.lift {α : Type} (r : Res α) : (Prog.lift r).FailStop := .done _

theorem FailStop.pure {α : Type} (a : α) : (Pure.pure a : Prog α).FailStop := .done _

theorem FailStop.mapSlice {α β : Type} {f : α → Prog β} (h : ∀ a, (f a).FailStop) (l : List α) :
    (Prog.mapSlice f l).FailStop := by
  induction l with
  | nil => exact .done _
  | cons a l ih => exact FailStop.bind (h a) (fun b => FailStop.bind ih (fun bs => .done _))

theorem FailStop.runF {α : Type} {p : Prog α} (hp : p.FailStop) {s s' : Store} {r : Res α} {b : Bool}
    (h : RunF p s b r s') (hb : b = true) : r = .err .store := by
  induction h with
  | done r s => simp at hb
  | call hstep hrest ih =>
    cases hp with
    | call hn hk =>
      cases hstep with
      | ok => exact ih (hk _) (by simpa using hb)
      | failBefore => rw [hn] at hrest; cases hrest; rfl
      | failAfter => rw [hn] at hrest; cases hrest; rfl

end Prog

end Zanzi
