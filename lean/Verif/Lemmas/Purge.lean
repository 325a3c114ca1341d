import Verif.Lemmas.Frame
import Verif.Spec.Purge

/-
Leaving out the requests that concern other policies.
-/

namespace Zanzi

open Spec Prog

/-- Storage calls answered from, and changing, one policy and its relationships only (record data aside). -/
def ownOp (pid : String) : Op → Prop
  | .polHas id | .polDel id => id = pid
  | .polSet rec => rec.policy.id = pid
  | .edgeGet q _ | .edgeSet q _ _ | .edgeDel q _ | .edgeList q | .edgeSucc q _ => q = pid
  | .dataSet _ | .dataDel _ => True
  | .polGet _ | .polList | .dataGet _ => False

/-- Programs making only such calls, provided the policy read has the id it was read under. -/
inductive Prog.Own (pid : String) {α : Type} : Prog α → Prop
  | done (r : Res α) : Own pid (.done r)
  | op {o : Op} {k : Option o.Resp → Prog α} : ownOp pid o → (∀ r, Own pid (k r)) → Own pid (.call o k)
  | get {k : Option (Option PolicyRecord) → Prog α} : Own pid (k none) → (∀ r : Option PolicyRecord, (∀ rec, r = some rec → rec.policy.id = pid) → Own pid (k (some r))) →
      Own pid (.call (.polGet pid) k)

namespace Prog

theorem Own.bind {pid : String} {α β : Type} {p : Prog α} {k : α → Prog β} (h : p.Own pid) (hk : ∀ a, (k a).Own pid) : (p >>= k).Own pid := by
  show (p.bind k).Own pid
  induction h with
  | done r => cases r <;> first | exact hk _ | exact .done _
  | op ho _ ih => exact .op ho ih
  | get _ _ ih1 ih2 => exact .get ih1 ih2

theorem Own.lift {pid : String} {α : Type} (r : Res α) : (Prog.lift r).Own pid := .done r

theorem Own.of_ops {pid : String} {α : Type} {p : Prog α} (h : p.AllOps (ownOp pid)) : p.Own pid := by
  induction h with
  | done r => exact .done r
  | call ho _ ih => exact .op ho ih

theorem Own.prim {pid : String} {o : Op} (ho : ownOp pid o) : (Prog.op o).Own pid := .of_ops (.op ho)

theorem Own.getPolicy {pid : String} {α : Type} {k : Option PolicyRecord → Prog α} (hk : ∀ r : Option PolicyRecord, (∀ rec, r = some rec → rec.policy.id = pid) → (k r).Own pid) :
    (Repo.getPolicy pid >>= k).Own pid :=
  .get (.done _) (fun r hr => hk r hr)

theorem Own.graphPolicy {pid : String} {α : Type} {k : PolicyRecord → Prog α} (hk : ∀ rec : PolicyRecord, rec.policy.id = pid → (k rec).Own pid) :
    (GraphService.getPolicy pid >>= k).Own pid := by
  unfold GraphService.getPolicy
  refine .get (.done _) (fun r hr => ?_)
  cases r with
  | none => exact .done _
  | some rec => exact hk rec (hr rec rfl)

end Prog

theorem deleteRelationship_own (H : String → Nat) (pid : String) (r : Option Relationship) : (Repo.deleteRelationship H pid r).AllOps (ownOp pid) := by
  unfold Repo.deleteRelationship
  exact AllOps.bind (AllOps.lift _) (fun _ => AllOps.bind (AllOps.lift _) (fun _ => AllOps.bind (AllOps.op rfl) (fun _ =>
    AllOps.bind (AllOps.op rfl) (fun _ => AllOps.bind (AllOps.op trivial) (fun _ => .done _)))))

theorem deleteRelationships_own (H : String → Nat) (pid : String) (sel : Option Selector) : (Repo.deleteRelationships H pid sel).AllOps (ownOp pid) := by
  unfold Repo.deleteRelationships Repo.findRelationships
  exact AllOps.bind (AllOps.bind (AllOps.op rfl) (fun _ => AllOps.bind (AllOps.lift _) (fun _ => AllOps.lift _))) (fun _ => AllOps.bind
    (AllOps.mapSlice (fun _ _ => deleteRelationship_own _ _ _)) (fun _ => .done _))

theorem setPolicy_own {pid : String} {rec : PolicyRecord} (h : rec.policy.id = pid) : (Repo.setPolicy rec).AllOps (ownOp pid) := by
  unfold Repo.setPolicy
  exact AllOps.bind (AllOps.op h) (fun _ => AllOps.bind (AllOps.op h) (fun _ => .done _))

theorem Call.prog_own {env : Env} {c : Call} {pid : String} (h : Concerns env pid c) : (c.prog env).Own pid := by
  obtain ⟨ht, hg, hf⟩ := h
  cases c
  case listPolicyIds => cases ht
  case getRelationship q r => exact absurd rfl (hg q r)
  case findRelationshipRecords q sel => exact absurd rfl (hf q sel)
  case createPolicy now d a =>
    refine Own.bind ?_ (fun _ => .done _)
    unfold Service.createPolicy
    simp only [Call.target] at ht
    cases hd : getPolicyFromDefinition env d with
    | ok p =>
      rw [hd] at ht
      have hid : p.id = pid := Option.some.inj ht
      rw [lift_ok_bind, hid]
      refine Own.getPolicy (fun x _ => ?_)
      cases x with
      | some _ => exact .done _
      | none => exact Own.bind (Own.lift _) (fun _ => Own.bind (.of_ops (setPolicy_own hid)) (fun _ => .done _))
    | err => exact .done _
    | panic => exact .done _
    | fuel => exact .done _
  case updatePolicy d a =>
    refine Own.bind ?_ (fun _ => .done _)
    unfold Service.updatePolicy
    simp only [Call.target] at ht
    cases hd : getPolicyFromDefinition env d with
    | ok p =>
      rw [hd] at ht
      have hid : p.id = pid := Option.some.inj ht
      rw [lift_ok_bind, hid]
      refine Own.getPolicy (fun x _ => ?_)
      cases x with
      | none => exact .done _
      | some _ => exact Own.bind (Own.lift _) (fun _ => Own.bind (.of_ops (setPolicy_own hid)) (fun _ => .done _))
    | err => exact .done _
    | panic => exact .done _
    | fuel => exact .done _
  all_goals
    simp only [Call.target, Option.some.injEq] at ht
    subst ht
  case deletePolicy id =>
    refine Own.bind ?_ (fun _ => .done _)
    unfold Service.deletePolicy Repo.deletePolicy
    refine Own.bind (Own.bind (Own.prim rfl) (fun x => ?_)) (fun x => ?_)
    · split
      · exact Own.bind (Own.prim rfl) (fun _ => .done _)
      · exact .done _
    · split
      · exact Own.bind (.of_ops (deleteRelationships_own _ _ _)) (fun _ => .done _)
      · exact .done _
  case getPolicy id =>
    exact Own.getPolicy (fun _ _ => .done _)
  case setRelationship now q r a =>
    refine Own.bind ?_ (fun _ => .done _)
    unfold Service.setRelationship
    refine Own.getPolicy (fun x _ => ?_)
    cases x with
    | none => exact .done _
    | some _ =>
      refine Own.bind (Own.lift _) (fun _ => Own.bind (Own.lift _) (fun r => ?_))
      unfold Repo.setRelationship
      exact Own.bind (Own.lift _) (fun _ => Own.bind (Own.prim rfl) (fun _ => Own.bind (Own.prim rfl) (fun _ =>
        Own.bind (Own.prim trivial) (fun _ => .done _))))
  case deleteRelationship q r => exact Own.bind (.of_ops (deleteRelationship_own _ _ _)) (fun _ => .done _)
  case deleteRelationships q sel => exact Own.bind (.of_ops (deleteRelationships_own _ _ _)) (fun _ => .done _)
  case check fuel q req =>
    refine Own.bind (Own.graphPolicy (fun rec hr => ?_)) (fun _ => .done _)
    exact .of_ops (AllOps.bind (AllOps.bind (AllOps.lift _) (fun _ => searchGoal_ops (fun _ => hr) _ _ _)) (fun _ => .done _))
  case explainCheck fuel q req f =>
    refine Own.bind ?_ (fun _ => .done _)
    unfold GraphService.explainCheck
    refine Own.bind (Own.lift _) (fun _ => Own.graphPolicy (fun rec hr => ?_))
    exact .of_ops (AllOps.bind (AllOps.bind (AllOps.lift _) (fun _ => searchGoal_ops (fun _ => hr) _ _ _))
        (fun _ => AllOps.bind (AllOps.lift _) (fun _ => .done _)))
  case expand fuel q req f =>
    refine Own.bind ?_ (fun _ => .done _)
    unfold GraphService.expand
    refine Own.bind (Own.lift _) (fun _ => Own.graphPolicy (fun rec hr => ?_))
    exact .of_ops (AllOps.bind (searchGoal_ops (fun _ => hr) _ _ _) (fun _ => AllOps.bind (AllOps.lift _) (fun _ => .done _)))
  case dumpRelationships fuel order q f =>
    refine Own.bind ?_ (fun _ => .done _)
    unfold GraphService.dumpRelationships
    refine Own.graphPolicy (fun rec hr => ?_)
    refine .of_ops (AllOps.bind (AllOps.bind (AllOps.op hr) (fun _ => .done _)) (fun _ => AllOps.bind (AllOps.lift _) (fun _ => ?_)))
    cases f <;> exact .done _

/-- Requests not concerning a policy leave it and its relationships alone. -/
theorem Call.prog_other {env : Env} {c : Call} {pid : String} (h : ¬ Concerns env pid c) : (c.prog env).AllOps (foreignOp pid) := by
  by_cases ht : c.target env = some pid
  · refine read_foreign (Call.prog_read env ?_)
    cases c <;> first | rfl | exact absurd ⟨ht, by simp, by simp⟩ h
  · exact Call.prog_foreign ht

/-- Two stores with the same policy and relationships under one id. -/
structure SameUnder (pid : String) (s s' : Store) : Prop where
  policy : kvGet s.policies pid = kvGet s'.policies pid
  edges : s.edges pid = s'.edges pid
  key : ∀ rec, kvGet s.policies pid = some rec → rec.policy.id = pid

theorem SameUnder.symm {pid : String} {s s' : Store} (h : SameUnder pid s s') : SameUnder pid s' s :=
  ⟨h.policy.symm, h.edges.symm, fun rec hr => h.key rec (h.policy.trans hr)⟩

theorem SameUnder.foreign {pid : String} {s s' : Store} (h : SameUnder pid s s') {o : Op} (ho : foreignOp pid o) : SameUnder pid (o.exec s).2 s' := by
  obtain ⟨h1, h2⟩ := foreignOp_exec o s ho
  exact ⟨h1.trans h.policy, h2.trans h.edges, fun rec hr => h.key rec (h1.symm.trans hr)⟩

theorem SameUnder.own {pid : String} {s s' : Store} (h : SameUnder pid s s') {o : Op} (ho : ownOp pid o) :
    (o.exec s).1 = (o.exec s').1 ∧ SameUnder pid (o.exec s).2 (o.exec s').2 := by
  obtain ⟨h1, h2, h3⟩ := h
  cases o with
  | polHas id => cases ho; exact ⟨congrArg Option.isSome h1, h1, h2, h3⟩
  | polGet => exact ho.elim
  | polList => exact ho.elim
  | dataGet => exact ho.elim
  | dataSet d => exact ⟨rfl, h1, h2, h3⟩
  | dataDel k => exact ⟨rfl, h1, h2, h3⟩
  | polSet rec =>
    refine ⟨rfl, ?_, h2, fun r hr => ?_⟩
    · show kvGet (kvPut strLt s.policies rec.policy.id rec) pid = kvGet (kvPut strLt s'.policies rec.policy.id rec) pid
      rw [kvGet_put, kvGet_put, h1]
    · replace hr : kvGet (kvPut strLt s.policies rec.policy.id rec) pid = some r := hr
      rw [kvGet_put, if_pos (show rec.policy.id = pid from ho).symm] at hr
      cases hr
      exact ho
  | polDel id =>
    cases ho
    refine ⟨rfl, ?_, h2, fun r hr => ?_⟩
    · show kvGet (kvDel s.policies pid) pid = kvGet (kvDel s'.policies pid) pid
      rw [kvGet_del, kvGet_del, if_pos rfl, if_pos rfl]
    · replace hr : kvGet (kvDel s.policies pid) pid = some r := hr
      rw [kvGet_del, if_pos rfl] at hr
      cases hr
  | edgeGet q k => cases ho; exact ⟨congrArg (kvGet · k) h2, h1, h2, h3⟩
  | edgeSet q k r =>
    cases ho
    refine ⟨rfl, h1, ?_, h3⟩
    simp only [Op.exec, Store.setEdges, if_true, h2]
  | edgeDel q k =>
    cases ho
    refine ⟨rfl, h1, ?_, h3⟩
    simp only [Op.exec, Store.setEdges, if_true, h2]
  | edgeList q => cases ho; exact ⟨congrArg (List.map (fun p : EdgeKey × IRel => p.2)) h2, h1, h2, h3⟩
  | edgeSucc q n => cases ho; exact ⟨by simp only [Op.exec, h2]; rfl, h1, h2, h3⟩

theorem Prog.Own.opStep {pid : String} {α : Type} {o : Op} {k : Option o.Resp → Prog α} (hp : (Prog.call o k).Own pid) {s s' s1 : Store} (hs : SameUnder pid s s')
    {resp : Option o.Resp} {b : Bool} (h : OpStep o s resp b s1) : ∃ s1', OpStep o s' resp b s1' ∧ SameUnder pid s1 s1' ∧ (k resp).Own pid := by
  cases hp with
  | op ho hk =>
    have ha := hs.own ho
    cases h with
    | ok => exact ⟨_, by rw [ha.1]; exact .ok o s', ha.2, hk _⟩
    | failBefore => exact ⟨_, .failBefore o s', hs, hk _⟩
    | failAfter => exact ⟨_, .failAfter o s', ha.2, hk _⟩
  | get hn hk =>
    cases h with
    | ok =>
      refine ⟨s', ?_, hs, hk _ hs.key⟩
      rw [show ((Op.polGet pid).exec s).1 = ((Op.polGet pid).exec s').1 from hs.policy]
      exact .ok (.polGet pid) s'
    | failBefore => exact ⟨_, .failBefore _ s', hs, hn⟩
    | failAfter => exact ⟨_, .failAfter _ s', hs, hn⟩

theorem Prog.Own.run {pid : String} {α : Type} {p : Prog α} (hp : p.Own pid) {s s' : Store} (hs : SameUnder pid s s') :
    (p.run s).1 = (p.run s').1 ∧ SameUnder pid (p.run s).2 (p.run s').2 := by
  induction hp generalizing s s' with
  | done r => exact ⟨rfl, hs⟩
  | @op o k ho hk ih =>
    obtain ⟨h1, h2⟩ := hs.own ho
    simp only [Prog.run]
    rw [h1]
    exact ih _ h2
  | @get k hn hk _ ih =>
    simp only [Prog.run]
    rw [show ((Op.polGet pid).exec s).1 = ((Op.polGet pid).exec s').1 from hs.policy]
    exact ih _ (fun rec h => hs.symm.key rec h) hs

/-- The requests in progress, those leaving the policy alone left out. -/
inductive ThreadsPurged (pid : String) : List (Prog Answer) → List (Prog Answer) → Prop
  | nil : ThreadsPurged pid [] []
  | own {p : Prog Answer} {ts us : List (Prog Answer)} : p.Own pid → ThreadsPurged pid ts us → ThreadsPurged pid (p :: ts) (p :: us)
  | other {p : Prog Answer} {ts us : List (Prog Answer)} : p.AllOps (foreignOp pid) → ThreadsPurged pid ts us → ThreadsPurged pid (p :: ts) us

theorem ThreadsPurged.append {pid : String} {ts ts' us us' : List (Prog Answer)} (h : ThreadsPurged pid ts ts') (g : ThreadsPurged pid us us') :
    ThreadsPurged pid (ts ++ us) (ts' ++ us') := by
  induction h with
  | nil => exact g
  | own hp _ ih => exact .own hp ih
  | other hp _ ih => exact .other hp ih

theorem ThreadsPurged.split {pid : String} {ts₁ ts₂ us : List (Prog Answer)} {p : Prog Answer} (h : ThreadsPurged pid (ts₁ ++ p :: ts₂) us) :
    ∃ us₁ us₂, ThreadsPurged pid ts₁ us₁ ∧ ThreadsPurged pid ts₂ us₂ ∧ ((p.Own pid ∧ us = us₁ ++ p :: us₂) ∨ (p.AllOps (foreignOp pid) ∧ us = us₁ ++ us₂)) := by
  induction ts₁ generalizing us with
  | nil =>
    cases h with
    | own hp h => exact ⟨[], _, .nil, h, .inl ⟨hp, rfl⟩⟩
    | other hp h => exact ⟨[], _, .nil, h, .inr ⟨hp, rfl⟩⟩
  | cons t ts ih =>
    cases h with
    | own hp h =>
      obtain ⟨us₁, us₂, h1, h2, h3⟩ := ih h
      exact ⟨t :: us₁, us₂, .own hp h1, h2, h3.imp (fun h => ⟨h.1, by rw [h.2]; rfl⟩) (fun h => ⟨h.1, by rw [h.2]; rfl⟩)⟩
    | other hp h =>
      obtain ⟨us₁, us₂, h1, h2, h3⟩ := ih h
      exact ⟨us₁, us₂, .other hp h1, h2, h3⟩

/-- A server and the same server without the requests leaving the policy alone. -/
def SysPurged (pid : String) (x x' : Sys) : Prop := ThreadsPurged pid x.threads x'.threads ∧ SameUnder pid x.store x'.store

theorem foreign_step {pid : String} {o : Op} {k : Option o.Resp → Prog Answer} (hp : (Prog.call o k).AllOps (foreignOp pid)) {s s' s1 : Store} (hs : SameUnder pid s s')
    {resp : Option o.Resp} {b : Bool} (h : OpStep o s resp b s1) : SameUnder pid s1 s' ∧ (k resp).AllOps (foreignOp pid) := by
  cases hp with
  | call ho hk =>
    cases h with
    | ok => exact ⟨hs.foreign ho, hk _⟩
    | failBefore => exact ⟨hs, hk _⟩
    | failAfter => exact ⟨hs.foreign ho, hk _⟩

theorem Sys.Path.purge {env : Env} {pid : String} {A : Call → Prop} {x x' y : Sys} (h : Sys.Path env A x y) (hx : SysPurged pid x x') :
    ∃ y', Sys.Path env (fun d => A d ∧ Concerns env pid d) x' y' ∧ SysPurged pid y y' := by
  induction h with
  | refl => exact ⟨x', .refl, hx⟩
  | @arrive ts s c hc _ ih =>
    obtain ⟨⟨us, t⟩, h1, h2, h3⟩ := ih
    by_cases ho : Concerns env pid c
    · exact ⟨_, .arrive c ⟨hc, ho⟩ h1, h2.append (.own (Call.prog_own ho) .nil), h3⟩
    · refine ⟨_, h1, ?_, h3⟩
      have := ThreadsPurged.append h2 (.other (Call.prog_other ho) .nil)
      rwa [List.append_nil] at this
  | @op o k ts₁ ts₂ s s' resp b _ ho ih =>
    obtain ⟨⟨us, t⟩, h1, h2, h3⟩ := ih
    obtain ⟨us₁, us₂, h4, h5, ⟨h6, h7⟩ | ⟨h6, h7⟩⟩ := ThreadsPurged.split h2
    · cases h7
      obtain ⟨t', h8, h9, h10⟩ := h6.opStep h3 ho
      exact ⟨_, .op h1 h8, h4.append (.own h10 h5), h9⟩
    · cases h7
      obtain ⟨h8, h9⟩ := foreign_step h6 h3 ho
      exact ⟨_, h1, h4.append (.other h9 h5), h8⟩
  | @leave r ts₁ ts₂ s _ ih =>
    obtain ⟨⟨us, t⟩, h1, h2, h3⟩ := ih
    obtain ⟨us₁, us₂, h4, h5, ⟨h6, h7⟩ | ⟨h6, h7⟩⟩ := ThreadsPurged.split h2
    · cases h7
      exact ⟨_, .leave h1, h4.append h5, h3⟩
    · cases h7
      exact ⟨_, h1, h4.append h5, h3⟩
  | @crash ts s _ ih =>
    obtain ⟨⟨us, t⟩, h1, h2, h3⟩ := ih
    exact ⟨_, .crash h1, .nil, h3⟩

theorem Sys.Flight.purge {env : Env} {pid : String} {A : Call → Prop} {x x' y : Sys} {c : Call} {hist : List Store} {t : Prog Answer}
    (hc : Concerns env pid c) (h : Sys.Flight env A x c hist y t) (hx : SysPurged pid x x') :
    ∃ hist' y', Sys.Flight env (fun d => A d ∧ Concerns env pid d) x' c hist' y' t ∧ t.Own pid ∧ SysPurged pid y y' := by
  induction h with
  | start hp =>
    obtain ⟨y', h1, h2⟩ := hp.purge hx
    exact ⟨_, y', .start h1, Call.prog_own hc, h2⟩
  | @own o k h ts s s' resp b _ ho ih =>
    obtain ⟨l, ⟨us, t⟩, h1, h2, h3, h4⟩ := ih
    obtain ⟨t', h8, h9, h10⟩ := h2.opStep h4 ho
    exact ⟨_, _, .own h1 h8, h10, h3, h9⟩
  | @arrive h ts s t c ha _ ih =>
    obtain ⟨l, ⟨us, t⟩, h1, h2, h3, h4⟩ := ih
    by_cases ho : Concerns env pid c
    · exact ⟨_, _, .arrive c ⟨ha, ho⟩ h1, h2, h3.append (.own (Call.prog_own ho) .nil), h4⟩
    · refine ⟨_, _, h1, h2, ?_, h4⟩
      have := ThreadsPurged.append h3 (.other (Call.prog_other ho) .nil)
      rwa [List.append_nil] at this
  | @op o k h ts₁ ts₂ s s' t resp b _ ho ih =>
    obtain ⟨l, ⟨us, t⟩, h1, h2, h3, h4⟩ := ih
    obtain ⟨us₁, us₂, h5, h6, ⟨h7, h8⟩ | ⟨h7, h8⟩⟩ := ThreadsPurged.split h3
    · cases h8
      obtain ⟨t', h8, h9, h10⟩ := h7.opStep h4 ho
      exact ⟨_, _, .op h1 h8, h2, h5.append (.own h10 h6), h9⟩
    · cases h8
      obtain ⟨h8, h9⟩ := foreign_step h7 h4 ho
      exact ⟨_, _, h1, h2, h5.append (.other h9 h6), h8⟩
  | @leave r h ts₁ ts₂ s t _ ih =>
    obtain ⟨l, ⟨us, t⟩, h1, h2, h3, h4⟩ := ih
    obtain ⟨us₁, us₂, h5, h6, ⟨h7, h8⟩ | ⟨h7, h8⟩⟩ := ThreadsPurged.split h3
    · cases h8
      exact ⟨_, _, .leave h1, h2, h5.append h6, h4⟩
    · cases h8
      exact ⟨_, _, h1, h2, h5.append h6, h4⟩

theorem serve_other {env : Env} {pid : String} {c : Call} (h : ¬ Concerns env pid c) {s s' : Store} (hs : SameUnder pid s s') : SameUnder pid (serve env c s).2 s' :=
  (Call.prog_other h).run (I := fun u => SameUnder pid u s') (fun _ _ ho hu => hu.foreign ho) hs

theorem answersOf_purged {env : Env} {pid : String} {cs ds : List Call} (hp : Purged env pid cs ds) {s s' : Store} (hs : SameUnder pid s s') {l : List (Call × Res Answer)}
    (h : AnswersOf env pid cs s l) : AnswersOf env pid ds s' l := by
  induction hp generalizing s s' l with
  | nil => cases h; exact .nil
  | own hc _ ih =>
    cases h with
    | own _ h =>
      obtain ⟨h1, h2⟩ := (Call.prog_own hc).run hs
      rw [show (serve env _ s).1 = (serve env _ s').1 from h1]
      exact .own hc (ih h2 h)
    | other hn => exact absurd hc hn
  | other hn _ ih =>
    cases h with
    | own hc => exact absurd hc hn
    | other _ h => exact ih (serve_other hn hs) h

end Zanzi
