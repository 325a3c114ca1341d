import Verif.Lemmas.ByteStore
import Verif.Lemmas.Calls
import Verif.Props.Wire

/-
Requests on bytes: every storage call of a request that fits, fits.
-/

namespace Zanzi.Wire

open Spec Prog

/-- What a read returns from a store that fits. -/
def RespFits : (op : Op) → op.Resp → Prop
  | .polGet _, x => ∀ rec : PolicyRecord, x = some rec → ClockOK rec.createdAt
  | _, _ => True

/-- The request makes only storage calls that fit, as long as storage answers with what fits. -/
inductive Fits (limit : Nat) {α : Type} : Prog α → Prop
  | done (r : Res α) : Fits limit (.done r)
  | call {op : Op} {k : Option op.Resp → Prog α} : OpFits limit op → (∀ r, (∀ x, r = some x → RespFits op x) → Fits limit (k r)) →
      Fits limit (.call op k)

theorem Fits.of {limit : Nat} {α : Type} {p : Prog α} (h : p.AllOps (OpFits limit)) : Fits limit p := by
  induction h with
  | done r => exact .done r
  | call h _ ih => exact .call h (fun r _ => ih r)

theorem Fits.bind {limit : Nat} {α β : Type} {p : Prog α} {k : α → Prog β} (hp : Fits limit p) (hk : ∀ a, Fits limit (k a)) :
    Fits limit (p >>= k) := by
  induction hp with
  | done r => cases r with
    | ok a => exact hk a
    | err e => exact .done _
    | panic => exact .done _
    | fuel => exact .done _
  | call h _ ih => exact .call h ih

theorem exec_resp {limit : Nat} {s : Store} (hs : StoreFits limit s) (op : Op) : RespFits op (op.exec s).1 := by
  cases op <;> try trivial
  case polGet id =>
    intro rec h
    exact (hs.pol (id, rec) (kvGet_mem h)).2

/-- A request that fits runs on bytes as on values. -/
theorem run_sim {limit : Nat} {α : Type} {p : Prog α} (hp : Fits limit p) {s : Store} (hs : StoreFits limit s) :
    runB limit p (encStore s) = ((p.run s).1, encStore (p.run s).2) ∧ StoreFits limit (p.run s).2 := by
  induction hp generalizing s with
  | done r => exact ⟨rfl, hs⟩
  | @call op k h _ ih =>
    have := ih (some (op.exec s).1) (fun x hx => Option.some.inj hx ▸ exec_resp hs op) (exec_fits hs h)
    rw [runB, exec_sim hs h]
    exact this

variable {limit : Nat} {env : Env}

theorem key_fits (hH : Hash256 env.H) (e : IRel) : KeyFits (e.key env.H) := ⟨hH _, hH _⟩

theorem getRelationship_keys (hH : Hash256 env.H) (pid : String) (r : Option Relationship) :
    (Repo.getRelationship env.H pid r).AllOps (OpFits limit) :=
  AllOps.bind (AllOps.lift _) (fun _ => AllOps.bind (AllOps.lift _) (fun e => AllOps.bind (AllOps.op (P := OpFits limit) (key_fits hH e))
    (fun x => by cases x <;> exact .done _)))

theorem findRelationships_keys (pid : String) (sel : Option Selector) : (Repo.findRelationships pid sel).AllOps (OpFits limit) :=
  AllOps.bind (AllOps.op (P := OpFits limit) trivial) (fun _ => AllOps.bind (AllOps.lift _) (fun _ => AllOps.lift _))

theorem deleteRelationship_keys (hH : Hash256 env.H) (pid : String) (r : Option Relationship) :
    (Repo.deleteRelationship env.H pid r).AllOps (OpFits limit) :=
  AllOps.bind (AllOps.lift _) (fun _ => AllOps.bind (AllOps.lift _) (fun e => AllOps.bind (AllOps.op (P := OpFits limit) (key_fits hH e))
    (fun _ => AllOps.bind (AllOps.op (P := OpFits limit) (key_fits hH e)) (fun _ =>
      AllOps.bind (AllOps.op (P := OpFits limit) (key_fits hH e)) (fun _ => .done _)))))

theorem deleteRelationships_keys (hH : Hash256 env.H) (pid : String) (sel : Option Selector) :
    (Repo.deleteRelationships env.H pid sel).AllOps (OpFits limit) :=
  AllOps.bind (findRelationships_keys _ _) (fun _ => AllOps.bind (AllOps.mapSlice (fun _ _ => deleteRelationship_keys hH _ _)) (fun _ => .done _))

theorem getPolicy_keys (pid : String) : (Repo.getPolicy pid).AllOps (OpFits limit) := AllOps.op (P := OpFits limit) trivial

theorem graphGetPolicy_keys (pid : String) : (GraphService.getPolicy pid).AllOps (OpFits limit) := by
  refine AllOps.bind (getPolicy_keys _) (fun x => ?_)
  cases x <;> exact .done _

theorem searchGoal_keys (hH : Hash256 env.H) (n pol origin goal) : (searchGoal env n pol origin goal).AllOps (OpFits limit) :=
  searchGoal_ops (P := OpFits limit) (fun _ => hH _) _ _ _

theorem checkTree_keys (hH : Hash256 env.H) (n pol req) : (GraphService.checkTree env n pol req).AllOps (OpFits limit) :=
  AllOps.bind (AllOps.lift _) (fun _ => searchGoal_keys hH _ _ _ _)

theorem bytes_len {n : Nat} (hn : n < 16) (b : Bytes) (hb : b.length < 2 ^ 62) : (encFields (bytesField n b)).length ≤ b.length + 11 := by
  unfold bytesField
  split
  · simp [encFields]
  · rw [encFields, encFields, List.append_nil]
    exact encField_length hn b (by omega)

theorem str_len {n : Nat} (hn : n < 16) (s : String) (hs : NameFits s) : (encFields (strField n s)).length ≤ 2 ^ 56 + 11 := by
  unfold strField
  unfold NameFits at hs
  split
  · simp [encFields]
  · rw [encFields, encFields, List.append_nil]
    have := encField_length hn (utf8 s) (by omega)
    omega

theorem num_len {n v : Nat} (hn : n < 16) (hv : v < 2 ^ 64) : (encFields (numField n v)).length ≤ 12 := by
  unfold numField
  split
  · simp [encFields]
  · rw [encFields, encFields, List.append_nil, encField, List.length_append]
    have h1 := encVarint_length 1 (n * 8) (by omega)
    have h2 := encVarint_length 9 v (by omega)
    omega

theorem encFields_append (a b : List WField) : encFields (a ++ b) = encFields a ++ encFields b := by
  induction a with
  | nil => rfl
  | cons f a ih => rw [List.cons_append, encFields, ih, encFields, List.append_assoc]

theorem time_len {t : Nat} (h : ClockOK t) : (encTimestamp t).length ≤ 24 := by
  unfold ClockOK at h
  have h1 := num_len (n := 1) (v := t / 1000000000) (by omega) (by omega)
  have h2 := num_len (n := 2) (v := t % 1000000000) (by omega) (by omega)
  rw [encTimestamp, encFields_append, List.length_append]
  omega

theorem one_len {n : Nat} (hn : n < 16) (b : Bytes) (hb : b.length < 2 ^ 63) : (encFields [(n, .bytes b)]).length ≤ b.length + 11 := by
  rw [encFields, encFields, List.append_nil]
  exact encField_length hn b hb

theorem record_small {p : Policy} {a : Bytes} {t : Nat} (hp : (encPolicy p).length < 2 ^ 60) (ha : a.length < 2 ^ 60) (ht : ClockOK t) :
    Small (encPolicyRecord ⟨p, a, t⟩) := by
  have h0 := time_len ht
  have h1 := one_len (n := 1) (by omega) (encPolicy p) (by omega)
  have h2 := bytes_len (n := 2) (by omega) a (by omega)
  have h3 := one_len (n := 3) (by omega) (encTimestamp t) (by omega)
  rw [Small, encPolicyRecord, encFields_append, encFields_append, List.length_append, List.length_append]
  dsimp only
  omega

theorem data_small {k : EdgeKey} {a : Bytes} {t : Nat} (ha : a.length < 2 ^ 60) (ht : ClockOK t) : Small (encRelData ⟨k, t, a⟩) := by
  have h0 := time_len ht
  have hk : (encEdgeKey k).length = 64 := by rw [encEdgeKey, List.length_append, encKey_length, encKey_length]
  have h1 := bytes_len (n := 1) (by omega) (encEdgeKey k) (by omega)
  have h2 := one_len (n := 2) (by omega) (encTimestamp t) (by omega)
  have h3 := bytes_len (n := 3) (by omega) a (by omega)
  rw [Small, encRelData, encFields_append, encFields_append, List.length_append, List.length_append]
  dsimp only
  omega

theorem node_len {n : INode} (h1 : NameFits n.resource) (h2 : NameFits n.id) (h3 : NameFits n.relation) : (encINode n).length ≤ 2 ^ 60 := by
  have e1 := str_len (n := 1) (by omega) n.resource h1
  have e2 := str_len (n := 2) (by omega) n.id h2
  have e3 := str_len (n := 3) (by omega) n.relation h3
  have e4 := num_len (n := 4) (v := encRelType n.type) (by omega) (by cases n.type <;> simp [encRelType])
  rw [encINode, encFields_append, encFields_append, encFields_append, List.length_append, List.length_append, List.length_append]
  omega

theorem rel_small {x : Relationship} {e : IRel} (hx : RelFits x) (he : toInternal x = .ok e) : Small (encIRel e) := by
  obtain ⟨h1, h2, h3, h4, h5⟩ := hx
  have h0 : NameFits "" := by simp [NameFits, utf8]
  obtain ⟨o, rel, s⟩ := x
  have hd : (encINode e.source).length ≤ 2 ^ 60 ∧ (encINode e.dest).length ≤ 2 ^ 60 := by
    cases o with
    | none => cases s with
      | none => cases he
      | some s => cases s with
        | entitySet o' _ => cases o' <;> cases he
        | _ => cases he
    | some o =>
      obtain ⟨h6, h7⟩ := h2 o rfl
      cases s with
      | none => cases he
      | some s => cases s with
        | entity e' => cases he; exact ⟨node_len h6 h7 h1, node_len (h3 _ rfl).1 (h3 _ rfl).2 h0⟩
        | entitySet o' r => cases o' with
          | none => cases he
          | some o' => cases he; exact ⟨node_len h6 h7 h1, node_len (h4 _ _ rfl).1 (h4 _ _ rfl).2.1 (h4 _ _ rfl).2.2⟩
        | resourceSet n => cases he; exact ⟨node_len h6 h7 h1, node_len (h5 _ rfl) h0 h0⟩
        | unset => cases he; exact ⟨node_len h6 h7 h1, node_len h0 h0 h0⟩
  have e1 := encField_length (n := 1) (by omega) (encINode e.source) (by omega)
  have e2 := encField_length (n := 2) (by omega) (encINode e.dest) (by omega)
  rw [Small, encIRel, encFields, encFields, encFields, List.append_nil, List.length_append]
  omega

theorem record_fits {p : Policy} {a : Bytes} {t : Nat} (hv : verifyPolicy env.U p = .ok ()) (hp : PolicyFits limit p a) (ht : ClockOK t) :
    RecordFits limit ⟨p, a, t⟩ := by
  refine ⟨?_, ht⟩
  rw [decPolicyRecord_enc ⟨p, a, t⟩ (Props.valid_wholeTrees ((C09_validation_exact env.U p).1 hv)) hp.1 ht limit (record_small hp.2.2.1 hp.2.2.2 ht),
    if_pos (show Nest.policyRecord ⟨p, a, t⟩ ≤ limit from hp.2.1)]

theorem setPolicy_fits {rec : PolicyRecord} (h : RecordFits limit rec) : Fits limit (Repo.setPolicy rec) :=
  Fits.of (AllOps.bind (AllOps.op (P := OpFits limit) trivial) (fun _ => AllOps.bind (AllOps.op (P := OpFits limit) h) (fun _ => .done _)))

/-- Every request that brings only what fits makes only storage calls that fit. -/
theorem prog_fits (hH : Hash256 env.H) (hl : 2 ≤ limit) (c : Call) (hc : CallFits limit env c) : Fits limit (c.prog env) := by
  cases c <;> refine Fits.bind ?_ (fun _ => .done _)
  case createPolicy now d a =>
    obtain ⟨hn, hp⟩ := hc
    unfold Service.createPolicy
    cases hd : getPolicyFromDefinition env d with
    | err => exact .done _
    | panic => exact .done _
    | fuel => exact .done _
    | ok p =>
      rw [lift_ok_bind]
      refine Fits.bind (Fits.of (getPolicy_keys _)) (fun x => ?_)
      cases x with
      | some _ => exact .done _
      | none =>
        dsimp only
        cases hv : verifyPolicy env.U p with
        | err => exact .done _
        | panic => exact .done _
        | fuel => exact .done _
        | ok u =>
          rw [lift_ok_bind]
          exact Fits.bind (setPolicy_fits (record_fits hv (hp p hd) hn)) (fun _ => .done _)
  case updatePolicy d a =>
    unfold Service.updatePolicy
    cases hd : getPolicyFromDefinition env d with
    | err => exact .done _
    | panic => exact .done _
    | fuel => exact .done _
    | ok p =>
      rw [lift_ok_bind]
      refine .call (op := .polGet p.id) trivial (fun r hr => ?_)
      cases r with
      | none => exact .done _
      | some x =>
        cases x with
        | none => exact .done _
        | some rec =>
          have ht : ClockOK rec.createdAt := hr _ rfl _ rfl
          show Fits limit (Prog.lift (verifyPolicy env.U p) >>= _)
          cases hv : verifyPolicy env.U p with
          | err => exact .done _
          | panic => exact .done _
          | fuel => exact .done _
          | ok u =>
            rw [lift_ok_bind]
            exact Fits.bind (setPolicy_fits (record_fits hv (hc p hd) ht)) (fun _ => .done _)
  case deletePolicy id =>
    refine Fits.of (AllOps.bind (AllOps.bind (AllOps.op (P := OpFits limit) trivial) (fun x => ?_)) (fun x => ?_))
    · cases x
      · exact .done _
      · exact AllOps.bind (AllOps.op (P := OpFits limit) trivial) (fun _ => .done _)
    · cases x
      · exact .done _
      · exact AllOps.bind (deleteRelationships_keys hH _ _) (fun _ => .done _)
  case getPolicy id => exact Fits.of (getPolicy_keys _)
  case listPolicyIds => exact Fits.of (AllOps.op (P := OpFits limit) trivial)
  case setRelationship now pid r a =>
    obtain ⟨hn, ha, hc⟩ := hc
    refine Fits.bind (Fits.of (getPolicy_keys _)) (fun x => ?_)
    cases x with
    | none => exact .done _
    | some rec =>
      refine Fits.bind (Fits.of (AllOps.lift _)) (fun _ => ?_)
      cases r with
      | none => exact .done _
      | some r =>
        rw [Res.deref_some, lift_ok_bind]
        unfold Repo.setRelationship
        cases he : toInternal r with
        | err => exact .done _
        | panic => exact .done _
        | fuel => exact .done _
        | ok e =>
          rw [lift_ok_bind]
          have h1 := rel_small (hc r rfl) he
          have h2 := data_small (k := e.key env.H) ha hn
          have f1 : OpFits limit (.edgeSet pid (e.key env.H) e) := ⟨key_fits hH e, by rw [decIRel_enc e limit h1, if_pos hl]⟩
          have f2 : OpFits limit (.dataSet ⟨e.key env.H, now, a⟩) :=
            ⟨key_fits hH e, by rw [decRelData_enc ⟨e.key env.H, now, a⟩ (key_fits hH e).1 (key_fits hH e).2 hn limit h2, if_pos hl], hn⟩
          exact Fits.of (AllOps.bind (AllOps.op (P := OpFits limit) (key_fits hH e)) (fun _ => AllOps.bind (AllOps.op f1)
            (fun _ => AllOps.bind (AllOps.op f2) (fun _ => .done _))))
  case deleteRelationship pid r => exact Fits.of (deleteRelationship_keys hH _ _)
  case getRelationship pid r => exact Fits.of (getRelationship_keys hH _ _)
  case findRelationshipRecords pid sel =>
    refine Fits.of (AllOps.bind (getPolicy_keys _) (fun x => ?_))
    cases x with
    | none => exact .done _
    | some _ => exact AllOps.bind (AllOps.lift _) (fun _ => AllOps.bind (findRelationships_keys _ _)
        (fun _ => AllOps.mapSlice (fun _ _ => getRelationship_keys hH _ _)))
  case deleteRelationships pid sel => exact Fits.of (deleteRelationships_keys hH _ _)
  case check fuel pid req =>
    exact Fits.of (AllOps.bind (graphGetPolicy_keys _) (fun _ => AllOps.bind (checkTree_keys hH _ _ _) (fun _ => .done _)))
  case explainCheck fuel pid req f =>
    exact Fits.of (AllOps.bind (AllOps.lift _) (fun _ => AllOps.bind (graphGetPolicy_keys _) (fun _ => AllOps.bind (checkTree_keys hH _ _ _)
      (fun _ => AllOps.bind (AllOps.lift _) (fun _ => .done _)))))
  case expand fuel pid root f =>
    exact Fits.of (AllOps.bind (AllOps.lift _) (fun _ => AllOps.bind (graphGetPolicy_keys _) (fun _ => AllOps.bind (searchGoal_keys hH _ _ _ _)
      (fun _ => AllOps.bind (AllOps.lift _) (fun _ => .done _)))))
  case dumpRelationships fuel order pid f =>
    exact Fits.of (AllOps.bind (graphGetPolicy_keys _) (fun _ => AllOps.bind (AllOps.bind (AllOps.op (P := OpFits limit) trivial) (fun _ => .done _))
      (fun _ => AllOps.bind (AllOps.lift _) (fun _ => by cases f <;> exact .done _))))

theorem empty_fits : StoreFits limit Store.empty := ⟨nofun, fun _ => nofun, nofun⟩

theorem runCalls_sim (hH : Hash256 env.H) (hl : 2 ≤ limit) (cs : List Call) (hc : ∀ c ∈ cs, CallFits limit env c) {s : Store}
    (hs : StoreFits limit s) :
    runCallsB limit env cs (encStore s) = ((runCalls env cs s).1, encStore (runCalls env cs s).2) := by
  induction cs generalizing s with
  | nil => rfl
  | cons c cs ih =>
    have h := run_sim (prog_fits hH hl c (hc c (List.mem_cons_self ..))) hs
    have := ih (fun c h => hc c (List.mem_cons_of_mem _ h)) h.2
    rw [runCallsB, serveB, h.1]
    dsimp only
    rw [this]
    rfl

/-- Requests in flight and store fit. -/
def SysFits (limit : Nat) (x : Sys) : Prop := StoreFits limit x.store ∧ ∀ t ∈ x.threads, Fits limit t

theorem step_fits {op : Op} {k : Option op.Resp → Prog Answer} {ts₁ ts₂ : List (Prog Answer)} {s s' : Store} {resp : Option op.Resp} {b : Bool}
    (hst : OpStep op s resp b s') (h : SysFits limit ⟨ts₁ ++ .call op k :: ts₂, s⟩) : SysFits limit ⟨ts₁ ++ k resp :: ts₂, s'⟩ := by
  obtain ⟨hs, ht⟩ := h
  have hc := ht (.call op k) (by simp)
  cases hc with
  | call ho hk =>
    have hrest : Fits limit (k resp) → ∀ t ∈ ts₁ ++ k resp :: ts₂, Fits limit t := by
      intro hf t h
      rcases List.mem_append.1 h with h | h
      · exact ht t (List.mem_append_left _ h)
      · rcases List.mem_cons.1 h with rfl | h
        · exact hf
        · exact ht t (List.mem_append_right _ (List.mem_cons_of_mem _ h))
    cases hst with
    | ok => exact ⟨exec_fits hs ho, hrest (hk _ (fun x hx => Option.some.inj hx ▸ exec_resp hs op))⟩
    | failBefore => exact ⟨hs, hrest (hk _ nofun)⟩
    | failAfter => exact ⟨exec_fits hs ho, hrest (hk _ nofun)⟩

theorem path_fits (hH : Hash256 env.H) (hl : 2 ≤ limit) {x : Sys} (h : Sys.Path env (CallFits limit env) ⟨[], Store.empty⟩ x) :
    SysFits limit x := by
  induction h with
  | refl => exact ⟨empty_fits, nofun⟩
  | arrive c hc _ ih =>
    refine ⟨ih.1, fun t ht => ?_⟩
    rcases List.mem_append.1 ht with h | h
    · exact ih.2 t h
    · rw [List.mem_singleton.1 h]
      exact prog_fits hH hl c hc
  | op _ hst ih => exact step_fits hst ih
  | leave _ ih => exact ⟨ih.1, fun t ht => ih.2 t (by rcases List.mem_append.1 ht with h | h <;> simp [h])⟩
  | crash _ ih => exact ⟨ih.1, nofun⟩

theorem path_toB (hH : Hash256 env.H) (hl : 2 ≤ limit) {x : Sys} (h : Sys.Path env (CallFits limit env) ⟨[], Store.empty⟩ x) :
    PathB limit env (CallFits limit env) x.threads (encStore x.store) := by
  induction h with
  | refl => exact .init
  | arrive c hc _ ih => exact .arrive c hc ih
  | @op o k ts₁ ts₂ s s' resp b hp hst ih =>
    obtain ⟨hs, ht⟩ := path_fits hH hl hp
    have hc := ht (.call o k) (by simp)
    cases hc with
    | call ho hk =>
      have hx := exec_sim hs ho
      cases hst with
      | ok =>
        have := OpStepB.ok (limit := limit) o (encStore s)
        rw [hx] at this
        exact .op ih this
      | failBefore => exact .op ih (.failBefore o _)
      | failAfter =>
        have := OpStepB.failAfter (limit := limit) o (encStore s)
        rw [hx] at this
        exact .op ih this
  | leave _ ih => exact .leave ih
  | crash _ ih => exact .crash ih

theorem path_ofB (hH : Hash256 env.H) (hl : 2 ≤ limit) {ts : List (Prog Answer)} {b : BStore} (h : PathB limit env (CallFits limit env) ts b) :
    ∃ s, Sys.Path env (CallFits limit env) ⟨[], Store.empty⟩ ⟨ts, s⟩ ∧ b = encStore s := by
  induction h with
  | init => exact ⟨_, .refl, rfl⟩
  | arrive c hc _ ih => obtain ⟨s, hp, rfl⟩ := ih; exact ⟨s, .arrive c hc hp, rfl⟩
  | @op o k ts₁ ts₂ b b' resp _ hst ih =>
    obtain ⟨s, hp, rfl⟩ := ih
    obtain ⟨hs, ht⟩ := path_fits hH hl hp
    have hc := ht (.call o k) (by simp)
    cases hc with
    | call ho hk =>
      have hx := exec_sim hs ho
      cases hst with
      | ok =>
        rw [hx]
        exact ⟨_, .op hp (.ok o s), rfl⟩
      | failBefore => exact ⟨_, .op hp (.failBefore o s), rfl⟩
      | failAfter =>
        rw [hx]
        exact ⟨_, .op hp (.failAfter o s), rfl⟩
  | leave _ ih => obtain ⟨s, hp, rfl⟩ := ih; exact ⟨s, .leave hp, rfl⟩
  | crash _ ih => obtain ⟨s, hp, rfl⟩ := ih; exact ⟨s, .crash hp, rfl⟩

theorem encMap_inj {K V : Type} {f : K → Bytes} {g : V → Bytes} {m m' : List (K × V)}
    (hm : ∀ p ∈ m, ∀ p' ∈ m', f p.1 = f p'.1 → g p.2 = g p'.2 → p = p') (h : encMap f g m = encMap f g m') : m = m' := by
  induction m generalizing m' with
  | nil => cases m' with
    | nil => rfl
    | cons => cases h
  | cons p m ih => cases m' with
    | nil => cases h
    | cons p' m' =>
      rw [encMap, encMap, List.map_cons, List.map_cons, List.cons.injEq, Prod.mk.injEq] at h
      rw [hm p (List.mem_cons_self ..) p' (List.mem_cons_self ..) h.1.1 h.1.2,
        ih (fun q hq q' hq' => hm q (List.mem_cons_of_mem _ hq) q' (List.mem_cons_of_mem _ hq')) h.2]

theorem encStore_inj {s s' : Store} (hs : StoreFits limit s) (hs' : StoreFits limit s') (h : encStore s = encStore s') : s = s' := by
  have hp : s.policies = s'.policies := by
    refine encMap_inj (fun p hp p' hp' h1 h2 => ?_) (congrArg BStore.policies h)
    have h3 := (hs.pol p hp).1
    rw [h2, (hs'.pol p' hp').1] at h3
    exact Prod.ext (utf8_inj h1) (Option.some.inj h3).symm
  have he : s.edges = s'.edges := by
    funext q
    refine encMap_inj (fun p hp p' hp' h1 h2 => ?_) (congrFun (congrArg BStore.edges h) q)
    have h3 := (hs.edge q p hp).2
    rw [h2, (hs'.edge q p' hp').2] at h3
    exact Prod.ext (encEdgeKey_inj (hs.edge q p hp).1 (hs'.edge q p' hp').1 h1) (Option.some.inj h3).symm
  have hd : s.data = s'.data := by
    refine encMap_inj (fun p hp p' hp' h1 h2 => ?_) (congrArg BStore.data h)
    have h3 := (hs.data p hp).2.1
    rw [h2, (hs'.data p' hp').2.1] at h3
    exact Prod.ext (encEdgeKey_inj (hs.data p hp).1 (hs'.data p' hp').1 h1) (Option.some.inj h3).symm
  cases s
  cases s'
  cases hp
  cases he
  cases hd
  rfl

theorem kvDel_insert {K V : Type} [DecidableEq K] {lt : K → K → Bool} {m : List (K × V)} {k : K} {v : V} :
    kvDel (kvInsert lt m k v) k = kvDel m k := by
  induction m with
  | nil => simp [kvInsert, kvDel]
  | cons p m ih =>
    obtain ⟨k', v'⟩ := p
    rw [kvInsert]
    split
    · simp [kvDel]
    · unfold kvDel at ih ⊢
      rw [List.filter_cons, List.filter_cons, ih]

theorem kvDel_put {K V : Type} [DecidableEq K] {lt : K → K → Bool} {m : List (K × V)} {k : K} {v : V} :
    kvDel (kvPut lt m k v) k = kvDel m k := by
  unfold kvPut
  split
  · next h =>
    clear h
    unfold kvDel
    induction m with
    | nil => rfl
    | cons p m ih =>
      rw [List.map_cons, List.filter_cons, List.filter_cons, ih]
      by_cases hp : p.1 = k <;> simp [hp]
  · exact kvDel_insert

theorem delete_unreadable (hH : Hash256 env.H) {s : Store} (hs : StoreFits limit s) (pid : String) (bs : Bytes) (rec : PolicyRecord)
    (hr : rec.policy.id = pid) :
    serveB limit env (.deletePolicy pid) { encStore s with policies := kvPut bytesLt (encStore s).policies (utf8 pid) bs } =
      ((serve env (.deletePolicy pid) (s.putPolicy rec)).1, encStore (serve env (.deletePolicy pid) (s.putPolicy rec)).2) := by
  subst hr
  let s1 : Store := { s with policies := kvDel s.policies rec.policy.id }
  have hs1 : StoreFits limit s1 := ⟨fun p hp => hs.pol p (List.mem_filter.1 hp).1, hs.edge, hs.data⟩
  let k : Prog Answer := do
    let x ← (do
      let count ← Repo.deleteRelationships env.H rec.policy.id (some allSelector)
      return (true, count) : Prog (Bool × Nat))
    return Answer.deletedPolicy x.1 x.2
  have hk : Fits limit k := Fits.bind (Fits.bind (Fits.of (deleteRelationships_keys hH _ _)) (fun _ => .done _)) (fun _ => .done _)
  have e1 : serve env (.deletePolicy rec.policy.id) (s.putPolicy rec) = k.run s1 := by
    show Prog.run (.call (.polHas rec.policy.id) _) _ = _
    rw [Prog.run]
    have : ((Op.polHas rec.policy.id).exec (s.putPolicy rec)).1 = true := by
      show (kvGet (kvPut strLt s.policies rec.policy.id rec) rec.policy.id).isSome = true
      rw [kvGet_put, if_pos rfl]
      rfl
    rw [this]
    show k.run { s.putPolicy rec with policies := kvDel (kvPut strLt s.policies rec.policy.id rec) rec.policy.id } = _
    rw [kvDel_put]
    rfl
  have e2 : serveB limit env (.deletePolicy rec.policy.id)
      { encStore s with policies := kvPut bytesLt (encStore s).policies (utf8 rec.policy.id) bs } = runB limit k (encStore s1) := by
    show runB limit (.call (.polHas rec.policy.id) _) _ = _
    rw [runB]
    have : (execB limit (.polHas rec.policy.id) { encStore s with policies := kvPut bytesLt (encStore s).policies (utf8 rec.policy.id) bs }).1 = some true := by
      show some (kvGet (kvPut bytesLt (encStore s).policies (utf8 rec.policy.id) bs) (utf8 rec.policy.id)).isSome = some true
      rw [kvGet_put, if_pos rfl]
      rfl
    rw [this]
    show runB limit k { encStore s with policies := kvDel (kvPut bytesLt (encStore s).policies (utf8 rec.policy.id) bs) (utf8 rec.policy.id) } = _
    rw [kvDel_put]
    have : kvDel (encStore s).policies (utf8 rec.policy.id) = (encStore s1).policies :=
      kvDel_enc (P := fun _ => True) (fun _ _ _ _ => utf8_inj) (fun _ _ => trivial) trivial
    rw [this]
    rfl
  rw [e1, e2]
  exact (run_sim hk hs1).1

end Zanzi.Wire
