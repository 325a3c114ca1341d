import Verif.Spec.AppData
import Verif.Lemmas.Clock

/-
What becomes of application data: programs that read records differing in it.
-/

namespace Zanzi

open Spec Prog

variable {R : Bytes → Bytes → Prop}

/-- Record data that differ at most in their application data. -/
abbrev RelDataOver (R : Bytes → Bytes → Prop) (d d' : RelData) : Prop := d.relationshipId = d'.relationshipId ∧ d.createdAt = d'.createdAt ∧ R d.appData d'.appData

/-- Answers of storage calls that differ at most in application data. -/
def DataResp (R : Bytes → Bytes → Prop) : (o : Op) → o.Resp → o.Resp → Prop
  | .polGet _, x, y => BothOrNone (PolicyRecordOver R) x y
  | .dataGet _, x, y => BothOrNone (RelDataOver R) x y
  | .polHas _, x, y => x = y
  | .polSet _, x, y => x = y
  | .polDel _, x, y => x = y
  | .polList, x, y => x = y
  | .edgeGet _ _, x, y => x = y
  | .edgeSet _ _ _, x, y => x = y
  | .edgeDel _ _, x, y => x = y
  | .edgeList _, x, y => x = y
  | .edgeSucc _ _, x, y => x = y
  | .dataSet _, x, y => x = y
  | .dataDel _, x, y => x = y

/-- The two programs make the same storage calls, but for application data, and end alike. -/
inductive DataAlike (R : Bytes → Bytes → Prop) {α : Type} (E : α → α → Prop) : Prog α → Prog α → Prop
  | done {r r' : Res α} : ResAlike E r r' → DataAlike R E (.done r) (.done r')
  | same {o : Op} {k k' : Option o.Resp → Prog α} : timeless o → DataAlike R E (k none) (k' none) → (∀ x x', DataResp R o x x' → DataAlike R E (k (some x)) (k' (some x'))) →
      DataAlike R E (.call o k) (.call o k')
  | pol {r r' : PolicyRecord} {k k' : Option Unit → Prog α} : (PolicyRecordOver R) r r' → (∀ x, DataAlike R E (k x) (k' x)) → DataAlike R E (.call (.polSet r) k) (.call (.polSet r') k')
  | dat {d d' : RelData} {k k' : Option Unit → Prog α} : RelDataOver R d d' → (∀ x, DataAlike R E (k x) (k' x)) → DataAlike R E (.call (.dataSet d) k) (.call (.dataSet d') k')

theorem DataAlike.bind {α β : Type} {E : α → α → Prop} {F : β → β → Prop} {p p' : Prog α} {k k' : α → Prog β} (h : DataAlike R E p p') (hk : ∀ a a', E a a' → DataAlike R F (k a) (k' a')) :
    DataAlike R F (p >>= k) (p' >>= k') := by
  show DataAlike R F (p.bind k) (p'.bind k')
  induction h with
  | @done r r' h =>
    cases r <;> cases r' <;> simp only [ResAlike] at h <;> first | exact hk _ _ h | (cases h; done) | skip
    · cases h; exact .done rfl
    · exact .done rfl
    · exact .done rfl
  | same h0 _ _ ih1 ih2 => exact .same h0 ih1 ih2
  | pol h _ ih => exact .pol h ih
  | dat h _ ih => exact .dat h ih

theorem DataAlike.of_ops {α : Type} {E : α → α → Prop} (hE : ∀ a, E a a) {p : Prog α} (h : p.AllOps clockless) : DataAlike R E p p := by
  induction h with
  | done r => exact .done (resAlike_refl hE r)
  | @call o k ho _ ih =>
    cases o <;> simp only [clockless] at ho <;> exact .same trivial (ih none) (fun x x' hx => by cases hx; exact ih (some x))

theorem DataAlike.getPolicy {β : Type} {F : β → β → Prop} (q : String) {k k' : Option PolicyRecord → Prog β} (hk : ∀ x x', BothOrNone (PolicyRecordOver R) x x' → DataAlike R F (k x) (k' x')) :
    DataAlike R F (Repo.getPolicy q >>= k) (Repo.getPolicy q >>= k') :=
  .same trivial (.done rfl) hk

theorem DataAlike.graphPolicy {β : Type} {F : β → β → Prop} (q : String) {k k' : PolicyRecord → Prog β} (hk : ∀ r r', (PolicyRecordOver R) r r' → DataAlike R F (k r) (k' r')) :
    DataAlike R F (GraphService.getPolicy q >>= k) (GraphService.getPolicy q >>= k') := by
  refine .same trivial (.done rfl) (fun x x' hx => ?_)
  rcases both_none hx with ⟨rfl, rfl⟩ | ⟨a, a', rfl, rfl, h⟩
  · exact .done rfl
  · exact hk a a' h

theorem over_lift {β α : Type} {F : β → β → Prop} (r : Res α) {k k' : α → Prog β} (hk : ∀ a, DataAlike R F (k a) (k' a)) : DataAlike R F (Prog.lift r >>= k) (Prog.lift r >>= k') :=
  DataAlike.bind (E := Eq) (.done (resAlike_refl (fun _ => rfl) r)) (fun a _ h => h ▸ hk a)

theorem over_op {β : Type} {F : β → β → Prop} {o : Op} (ho : clockless o) {k k' : o.Resp → Prog β} (hk : ∀ a, DataAlike R F (k a) (k' a)) : DataAlike R F (Prog.op o >>= k) (Prog.op o >>= k') :=
  DataAlike.bind (E := Eq) (.of_ops (fun _ => rfl) (AllOps.op ho)) (fun a _ h => h ▸ hk a)

theorem over_setPolicy {r r' : PolicyRecord} (h : (PolicyRecordOver R) r r') : DataAlike R Eq (Repo.setPolicy r) (Repo.setPolicy r') := by
  have : r.policy.id = r'.policy.id := congrArg _ h.1
  unfold Repo.setPolicy
  rw [this]
  refine over_op (o := .polHas _) trivial (fun has => ?_)
  refine .pol h (fun x => ?_)
  cases x <;> exact .done rfl

theorem over_getRelationship (H : String → Nat) (q : String) (r : Option Relationship) :
    DataAlike R (BothOrNone (RelationshipRecordOver R)) (Repo.getRelationship H q r) (Repo.getRelationship H q r) := by
  refine over_lift _ (fun r => over_lift _ (fun i => ?_))
  refine .same trivial (.done rfl) (fun x x' hx => ?_)
  rcases both_none hx with ⟨rfl, rfl⟩ | ⟨a, a', rfl, rfl, h⟩
  · exact .done trivial
  · exact .done ⟨rfl, rfl, h.2⟩

theorem over_mapSlice {α β : Type} {E : β → β → Prop} {f : α → Prog β} (hf : ∀ a, DataAlike R E (f a) (f a)) (l : List α) : DataAlike R (PlaceByPlace E) (Prog.mapSlice f l) (Prog.mapSlice f l) := by
  induction l with
  | nil => exact .done trivial
  | cons a l ih => exact DataAlike.bind (hf a) (fun b b' hb => DataAlike.bind ih (fun bs bs' hbs => .done ⟨hb, hbs⟩))

/-- A request with two pieces of application data. -/
theorem Call.prog_over (env : Env) {c c' : Call} (h : RequestOver R c c') : DataAlike R (AnswerOver R) (c.prog env) (c'.prog env) := by
  have e := fun q => repo_clockless env.H q
  have nogr : ∀ (n : Nat) (pol : Policy) (o g : Option RelationNode), (searchGoal env n pol o g).AllOps clockless := fun n pol o g => searchGoal_ops (fun _ => trivial) _ _ _
  cases h with
  | @create a b now d hab =>
    refine DataAlike.bind (E := PolicyRecordOver R) (over_lift _ (fun p => DataAlike.getPolicy _ (fun x x' hx => ?_))) (fun _ _ h => .done h)
    rcases both_none hx with ⟨rfl, rfl⟩ | ⟨_, _, rfl, rfl, h⟩
    · exact over_lift _ (fun _ => DataAlike.bind (over_setPolicy ⟨rfl, rfl, hab⟩) (fun _ _ _ => .done ⟨rfl, rfl, hab⟩))
    · exact .done rfl
  | @update a b d hab =>
    refine DataAlike.bind (E := Eq) (over_lift _ (fun p => DataAlike.getPolicy _ (fun x x' hx => ?_))) (fun _ _ h => .done rfl)
    rcases both_none hx with ⟨rfl, rfl⟩ | ⟨_, _, rfl, rfl, h⟩
    · exact .done rfl
    · exact over_lift _ (fun _ => DataAlike.bind (over_setPolicy ⟨rfl, h.2.1, hab⟩) (fun _ _ _ => .done rfl))
  | @set a b now q r hab =>
    refine DataAlike.bind (E := Eq) (DataAlike.getPolicy _ (fun x x' hx => ?_)) (fun _ _ h => .done (by cases h; rfl))
    rcases both_none hx with ⟨rfl, rfl⟩ | ⟨_, _, rfl, rfl, h⟩
    · exact .done rfl
    · dsimp only
      rw [h.1]
      refine over_lift _ (fun _ => over_lift _ (fun r => over_lift _ (fun i => over_op (o := .edgeGet _ _) trivial (fun opt => over_op (o := .edgeSet _ _ _) trivial (fun _ => ?_)))))
      exact .dat ⟨rfl, rfl, hab⟩ (fun x => by cases x <;> exact .done rfl)
  | other h1 h2 h3 =>
    cases c with
    | createPolicy now d a => exact absurd rfl (h1 now d a)
    | updatePolicy d a => exact absurd rfl (h2 d a)
    | setRelationship now q r a => exact absurd rfl (h3 now q r a)
    | getPolicy q => exact DataAlike.getPolicy q (fun x x' hx => .done hx)
    | listPolicyIds => exact DataAlike.bind (E := Eq) (.of_ops (fun _ => rfl) (AllOps.op trivial)) (fun _ _ h => .done (by cases h; rfl))
    | deletePolicy q =>
      refine DataAlike.bind (E := Eq) (.of_ops (fun _ => rfl) (AllOps.bind (AllOps.bind (AllOps.op trivial) (fun x => ?_)) (fun x => ?_))) (fun _ _ h => .done (by cases h; rfl))
      · cases x
        · exact .done _
        · exact AllOps.bind (AllOps.op trivial) (fun _ => .done _)
      · cases x
        · exact .done _
        · exact AllOps.bind ((e _).2.2 _) (fun _ => .done _)
    | deleteRelationship q r => exact DataAlike.bind (E := Eq) (.of_ops (fun _ => rfl) ((e q).1 r)) (fun _ _ h => .done (by cases h; rfl))
    | getRelationship q r => exact DataAlike.bind (over_getRelationship _ _ _) (fun x x' hx => .done hx)
    | deleteRelationships q sel => exact DataAlike.bind (E := Eq) (.of_ops (fun _ => rfl) ((e q).2.2 sel)) (fun _ _ h => .done (by cases h; rfl))
    | findRelationshipRecords q sel =>
      refine DataAlike.bind (E := PlaceByPlace (BothOrNone (RelationshipRecordOver R))) (DataAlike.getPolicy _ (fun x x' hx => ?_)) (fun _ _ h => .done h)
      rcases both_none hx with ⟨rfl, rfl⟩ | ⟨_, _, rfl, rfl, h⟩
      · exact .done rfl
      · dsimp only
        rw [h.1]
        refine over_lift _ (fun _ => DataAlike.bind (E := Eq) (.of_ops (fun _ => rfl) ((e q).2.1 sel)) (fun l _ h => ?_))
        cases h
        exact over_mapSlice (fun r => over_getRelationship _ _ _) l
    | check fuel q req =>
      refine DataAlike.bind (E := Eq) (DataAlike.graphPolicy _ (fun r r' hx => ?_)) (fun _ _ h => .done (by cases h; rfl))
      rw [hx.1]
      exact .of_ops (fun _ => rfl) (AllOps.bind (AllOps.bind (AllOps.lift _) (fun _ => nogr _ _ _ _)) (fun _ => .done _))
    | explainCheck fuel q req f =>
      refine DataAlike.bind (E := Eq) (over_lift _ (fun _ => DataAlike.graphPolicy _ (fun r r' hx => ?_))) (fun _ _ h => .done (by cases h; rfl))
      rw [hx.1]
      exact .of_ops (fun _ => rfl) (AllOps.bind (AllOps.bind (AllOps.lift _) (fun _ => nogr _ _ _ _)) (fun _ => AllOps.bind (AllOps.lift _) (fun _ => .done _)))
    | expand fuel q root f =>
      refine DataAlike.bind (E := Eq) (over_lift _ (fun _ => DataAlike.graphPolicy _ (fun r r' hx => ?_))) (fun _ _ h => .done (by cases h; rfl))
      rw [hx.1]
      exact .of_ops (fun _ => rfl) (AllOps.bind (nogr _ _ _ _) (fun _ => AllOps.bind (AllOps.lift _) (fun _ => .done _)))
    | dumpRelationships fuel order q f =>
      refine DataAlike.bind (E := Eq) (DataAlike.graphPolicy _ (fun r r' hx => ?_)) (fun _ _ h => .done (by cases h; rfl))
      rw [hx.1]
      refine .of_ops (fun _ => rfl) (AllOps.bind (AllOps.bind (AllOps.op trivial) (fun _ => .done _)) (fun _ => AllOps.bind (AllOps.lift _) (fun _ => ?_)))
      cases f <;> exact .done _

/-! ### Stores -/

theorem StoreOver.exec {s s' : Store} (h : StoreOver R s s') {o : Op} (ho : timeless o) : DataResp R o (o.exec s).1 (o.exec s').1 ∧ StoreOver R (o.exec s).2 (o.exec s').2 := by
  cases o with
  | polHas q => exact ⟨both_isSome (h.policies q), h⟩
  | polGet q => exact ⟨h.policies q, h⟩
  | polSet r => exact ho.elim
  | polDel q =>
    refine ⟨rfl, ?_, fun id => ?_, h.edges, h.data⟩
    · have hf : ∀ m : List (String × PolicyRecord), (kvDel m q).map (·.1) = (m.map (·.1)).filter (fun x => decide (x ≠ q)) := by
        intro m
        unfold kvDel
        rw [List.filter_map]
        rfl
      show (kvDel s.policies q).map (·.1) = (kvDel s'.policies q).map (·.1)
      rw [hf, hf, h.ids]
    · show BothOrNone _ (kvGet (kvDel s.policies q) id) (kvGet (kvDel s'.policies q) id)
      rw [kvGet_del, kvGet_del]
      split
      · trivial
      · exact h.policies id
  | polList => exact ⟨h.ids, h⟩
  | edgeGet q e => exact ⟨by show kvGet (s.edges q) e = _; rw [h.edges]; rfl, h⟩
  | edgeList q => exact ⟨by show (s.edges q).map _ = _; rw [h.edges]; rfl, h⟩
  | edgeSucc q e => exact ⟨by show ((s.edges q).filter _).map _ = _; rw [h.edges]; rfl, h⟩
  | dataGet q => exact ⟨h.data q, h⟩
  | edgeSet q e r => exact ⟨rfl, { h with edges := by simp only [Op.exec, Store.setEdges, h.edges] }⟩
  | edgeDel q e => exact ⟨rfl, { h with edges := by simp only [Op.exec, Store.setEdges, h.edges] }⟩
  | dataSet d => exact ho.elim
  | dataDel q =>
    refine ⟨rfl, { h with data := fun k => ?_ }⟩
    show BothOrNone _ (kvGet (kvDel s.data q) k) (kvGet (kvDel s'.data q) k)
    rw [kvGet_del, kvGet_del]
    split
    · trivial
    · exact h.data k

theorem DataAlike.step {α : Type} {E : α → α → Prop} {p p' : Prog α} (hp : DataAlike R E p p') {s s' : Store} (hs : StoreOver R s s') {o : Op} {k : Option o.Resp → Prog α} (he : p = .call o k) :
    ∃ o' k', p' = .call o' k' ∧ DataAlike R E (k none) (k' none) ∧ DataAlike R E (k (some (o.exec s).1)) (k' (some (o'.exec s').1)) ∧ StoreOver R (o.exec s).2 (o'.exec s').2 := by
  cases hp with
  | done => cases he
  | same h0 h1 h2 =>
    cases he
    exact ⟨_, _, rfl, h1, h2 _ _ (StoreOver.exec hs h0).1, (StoreOver.exec hs h0).2⟩
  | @pol r r' k1 k2 h1 h2 =>
    cases he
    have hid : r.policy.id = r'.policy.id := congrArg _ h1.1
    refine ⟨_, _, rfl, h2 _, h2 _, ?_, fun id => ?_, hs.edges, hs.data⟩
    · show (kvPut strLt s.policies r.policy.id r).map (·.1) = (kvPut strLt s'.policies r'.policy.id r').map (·.1)
      rw [hid]
      exact kvPut_keys hs.ids (both_isSome (hs.policies _))
    · show BothOrNone _ (kvGet (kvPut strLt s.policies r.policy.id r) id) (kvGet (kvPut strLt s'.policies r'.policy.id r') id)
      rw [hid, kvGet_put, kvGet_put]
      split
      · exact h1
      · exact hs.policies id
  | @dat d d' k1 k2 h1 h2 =>
    cases he
    refine ⟨_, _, rfl, h2 _, h2 _, hs.ids, hs.policies, hs.edges, fun k => ?_⟩
    show BothOrNone _ (kvGet (kvPut edgeLt s.data d.relationshipId d) k) (kvGet (kvPut edgeLt s'.data d'.relationshipId d') k)
    rw [h1.1, kvGet_put, kvGet_put]
    split
    · exact h1
    · exact hs.data k

theorem DataAlike.run {α : Type} {E : α → α → Prop} (p : Prog α) : ∀ {p' : Prog α}, DataAlike R E p p' → ∀ {s s' : Store}, StoreOver R s s' →
    ResAlike E (p.run s).1 (p'.run s').1 ∧ StoreOver R (p.run s).2 (p'.run s').2 := by
  induction p with
  | done r => intro p' h s s' hs; cases h with | done h => exact ⟨h, hs⟩
  | call o k ih =>
    intro p' h s s' hs
    obtain ⟨o', k', rfl, _, h2, h3⟩ := h.step hs rfl
    exact ih _ h2 h3

theorem outcomeOver_iff {r r' : Res Answer} : ResAlike (AnswerOver R) r r' ↔ (OutcomeOver R) r r' := by
  cases r <;> cases r' <;> simp [ResAlike, OutcomeOver]

theorem runCalls_over {env : Env} (cs : List Call) : ∀ {cs' : List Call}, PlaceByPlace (RequestOver R) cs cs' → ∀ {s s' : Store}, StoreOver R s s' →
    PlaceByPlace (OutcomeOver R) (runCalls env cs s).1 (runCalls env cs' s').1 ∧ StoreOver R (runCalls env cs s).2 (runCalls env cs' s').2 := by
  induction cs with
  | nil =>
    intro cs' h s s' hs
    cases cs' with
    | nil => exact ⟨trivial, hs⟩
    | cons => exact h.elim
  | cons c cs ih =>
    intro cs' h s s' hs
    cases cs' with
    | nil => exact h.elim
    | cons c' cs' =>
      obtain ⟨h1, h2⟩ := (Call.prog_over env h.1).run _ hs
      obtain ⟨h3, h4⟩ := ih h.2 h2
      rw [runCalls_cons, runCalls_cons]
      exact ⟨⟨outcomeOver_iff.1 h1, h3⟩, h4⟩

/-! ### Schedules -/

/-- Requests in flight on two servers, one by one alike. -/
inductive ThreadsOver (R : Bytes → Bytes → Prop) : List (Prog Answer) → List (Prog Answer) → Prop
  | nil : ThreadsOver R [] []
  | cons {p p' : Prog Answer} {ts ts' : List (Prog Answer)} : DataAlike R (AnswerOver R) p p' → ThreadsOver R ts ts' → ThreadsOver R (p :: ts) (p' :: ts')

theorem ThreadsOver.append {ts ts' us us' : List (Prog Answer)} (h : ThreadsOver R ts ts') (g : ThreadsOver R us us') : ThreadsOver R (ts ++ us) (ts' ++ us') := by
  induction h with
  | nil => exact g
  | cons h _ ih => exact .cons h ih

theorem ThreadsOver.split {ts₁ ts₂ us : List (Prog Answer)} {p : Prog Answer} (h : ThreadsOver R (ts₁ ++ p :: ts₂) us) :
    ∃ us₁ p' us₂, us = us₁ ++ p' :: us₂ ∧ ThreadsOver R ts₁ us₁ ∧ DataAlike R (AnswerOver R) p p' ∧ ThreadsOver R ts₂ us₂ := by
  induction ts₁ generalizing us with
  | nil =>
    cases h with
    | cons h1 h2 => exact ⟨[], _, _, rfl, .nil, h1, h2⟩
  | cons t ts ih =>
    cases h with
    | cons h1 h2 =>
      obtain ⟨a, p', b, rfl, h3, h4, h5⟩ := ih h2
      exact ⟨_ :: a, p', b, rfl, .cons h1 h3, h4, h5⟩

theorem DataAlike.opStep {o : Op} {k : Option o.Resp → Prog Answer} {p' : Prog Answer} (hp : DataAlike R (AnswerOver R) (.call o k) p') {s s' t : Store} (hs : StoreOver R s s') {resp : Option o.Resp} {b : Bool}
    (h : OpStep o s resp b t) : ∃ (o' : Op) (k' : Option o'.Resp → Prog Answer) (resp' : Option o'.Resp) (t' : Store), p' = .call o' k' ∧ OpStep o' s' resp' b t' ∧
      DataAlike R (AnswerOver R) (k resp) (k' resp') ∧ StoreOver R t t' := by
  obtain ⟨o', k', rfl, h1, h2, h3⟩ := hp.step hs rfl
  cases h with
  | ok => exact ⟨o', k', _, _, rfl, .ok o' s', h2, h3⟩
  | failBefore => exact ⟨o', k', _, _, rfl, .failBefore o' s', h1, hs⟩
  | failAfter => exact ⟨o', k', _, _, rfl, .failAfter o' s', h1, h3⟩

/-- Two servers, one by one alike. -/
def SysOver (R : Bytes → Bytes → Prop) (x x' : Sys) : Prop := ThreadsOver R x.threads x'.threads ∧ StoreOver R x.store x'.store

theorem Sys.Path.over {env : Env} {A A' : Call → Prop} (hA : ∀ c, A c → ∃ c', A' c' ∧ (RequestOver R) c c') {x x' y : Sys} (h : Sys.Path env A x y) (hx : SysOver R x x') :
    ∃ y', Sys.Path env A' x' y' ∧ SysOver R y y' := by
  induction h with
  | refl => exact ⟨x', .refl, hx⟩
  | @arrive ts s c hc _ ih =>
    obtain ⟨⟨us, t⟩, h1, h2, h3⟩ := ih
    obtain ⟨c', hc', hs⟩ := hA c hc
    exact ⟨_, .arrive c' hc' h1, h2.append (.cons (Call.prog_over env hs) .nil), h3⟩
  | @op o k ts₁ ts₂ s s' resp b _ ho ih =>
    obtain ⟨⟨us, t⟩, h1, h2, h3⟩ := ih
    obtain ⟨us₁, p', us₂, rfl, h4, h5, h6⟩ := ThreadsOver.split h2
    obtain ⟨o', k', resp', t', rfl, h7, h8, h9⟩ := h5.opStep h3 ho
    exact ⟨_, .op h1 h7, h4.append (.cons h8 h6), h9⟩
  | @leave r ts₁ ts₂ s _ ih =>
    obtain ⟨⟨us, t⟩, h1, h2, h3⟩ := ih
    obtain ⟨us₁, p', us₂, rfl, h4, h5, h6⟩ := ThreadsOver.split h2
    cases h5
    exact ⟨_, .leave h1, h4.append h6, h3⟩
  | @crash ts s _ ih =>
    obtain ⟨⟨us, t⟩, h1, h2, h3⟩ := ih
    exact ⟨_, .crash h1, .nil, h3⟩

theorem Sys.Flight.over {env : Env} {A A' : Call → Prop} (hA : ∀ c, A c → ∃ c', A' c' ∧ (RequestOver R) c c') {x x' y : Sys} {c c' : Call} {hist : List Store} {t : Prog Answer}
    (hc : (RequestOver R) c c') (h : Sys.Flight env A x c hist y t) (hx : SysOver R x x') : ∃ hist' y' t', Sys.Flight env A' x' c' hist' y' t' ∧ DataAlike R (AnswerOver R) t t' ∧ SysOver R y y' := by
  induction h with
  | start hp =>
    obtain ⟨y', h1, h2⟩ := hp.over hA hx
    exact ⟨_, y', _, .start h1, Call.prog_over env hc, h2⟩
  | @own o k h ts s s' resp b _ ho ih =>
    obtain ⟨l, ⟨us, t⟩, p', h1, h2, h3, h4⟩ := ih
    obtain ⟨o', k', resp', t', rfl, h7, h8, h9⟩ := h2.opStep h4 ho
    exact ⟨_, _, _, .own h1 h7, h8, h3, h9⟩
  | @arrive h ts s t d hd _ ih =>
    obtain ⟨l, ⟨us, t⟩, p', h1, h2, h3, h4⟩ := ih
    obtain ⟨d', hd', hs⟩ := hA d hd
    exact ⟨_, _, _, .arrive d' hd' h1, h2, h3.append (.cons (Call.prog_over env hs) .nil), h4⟩
  | @op o k h ts₁ ts₂ s s' t resp b _ ho ih =>
    obtain ⟨l, ⟨us, t⟩, p', h1, h2, h3, h4⟩ := ih
    obtain ⟨us₁, q', us₂, rfl, h5, h6, h10⟩ := ThreadsOver.split h3
    obtain ⟨o', k', resp', t', rfl, h7, h8, h9⟩ := h6.opStep h4 ho
    exact ⟨_, _, _, .op h1 h7, h2, h5.append (.cons h8 h10), h9⟩
  | @leave r h ts₁ ts₂ s t _ ih =>
    obtain ⟨l, ⟨us, t⟩, p', h1, h2, h3, h4⟩ := ih
    obtain ⟨us₁, q', us₂, rfl, h5, h6, h10⟩ := ThreadsOver.split h3
    cases h6
    exact ⟨_, _, _, .leave h1, h2, h5.append h10, h4⟩

end Zanzi
