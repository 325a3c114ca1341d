import Verif.Spec.Clock
import Verif.Lemmas.Rewording

/-
What depends on the clock: programs that read records differing in their times.
-/

namespace Zanzi

open Spec Prog

/-- Record data that differ at most in their times. -/
abbrev SameData (d d' : RelData) : Prop := d.relationshipId = d'.relationshipId ∧ d.appData = d'.appData

/-- Answers of storage calls that differ at most in times. -/
def RespAlike : (o : Op) → o.Resp → o.Resp → Prop
  | .polGet _, x, y => BothOrNone SamePolicyRecord x y
  | .dataGet _, x, y => BothOrNone SameData x y
  | .polHas _, x, y => x = y
  | .polSet _, x, y => x = y
  | .polDel _, x, y => x = y
  | .polList, x, y => x = y
  | .edgeGet _ _, x, y => x = y
  | .edgeSet _ _ _, x, y => x = y
  | .edgeDel _ _, x, y => x = y
  | .edgeList _, x, y => x = y
  | .edgeSucc _ _, x, y => x = y
  | .dataSet _, x, y => x = y
  | .dataDel _, x, y => x = y

/-- Outcomes with alike values. -/
def ResAlike {α : Type} (E : α → α → Prop) : Res α → Res α → Prop
  | .ok a, .ok b => E a b
  | r, r' => r = r'

/-- Storage calls that write no times. -/
def timeless : Op → Prop
  | .polSet _ | .dataSet _ => False
  | _ => True

/-- The two programs make the same storage calls, but for times, and end alike. -/
inductive TimeAlike {α : Type} (E : α → α → Prop) : Prog α → Prog α → Prop
  | done {r r' : Res α} : ResAlike E r r' → TimeAlike E (.done r) (.done r')
  | same {o : Op} {k k' : Option o.Resp → Prog α} : timeless o → TimeAlike E (k none) (k' none) → (∀ x x', RespAlike o x x' → TimeAlike E (k (some x)) (k' (some x'))) →
      TimeAlike E (.call o k) (.call o k')
  | pol {r r' : PolicyRecord} {k k' : Option Unit → Prog α} : SamePolicyRecord r r' → (∀ x, TimeAlike E (k x) (k' x)) → TimeAlike E (.call (.polSet r) k) (.call (.polSet r') k')
  | dat {d d' : RelData} {k k' : Option Unit → Prog α} : SameData d d' → (∀ x, TimeAlike E (k x) (k' x)) → TimeAlike E (.call (.dataSet d) k) (.call (.dataSet d') k')

theorem resAlike_eq {α : Type} {r r' : Res α} (h : ResAlike Eq r r') : r = r' := by
  cases r <;> cases r' <;> simp_all [ResAlike]

theorem resAlike_refl {α : Type} {E : α → α → Prop} (hE : ∀ a, E a a) (r : Res α) : ResAlike E r r := by
  cases r <;> simp [ResAlike, hE]

theorem TimeAlike.bind {α β : Type} {E : α → α → Prop} {F : β → β → Prop} {p p' : Prog α} {k k' : α → Prog β} (h : TimeAlike E p p') (hk : ∀ a a', E a a' → TimeAlike F (k a) (k' a')) :
    TimeAlike F (p >>= k) (p' >>= k') := by
  show TimeAlike F (p.bind k) (p'.bind k')
  induction h with
  | @done r r' h =>
    cases r <;> cases r' <;> simp only [ResAlike] at h <;> first | exact hk _ _ h | (cases h; done) | skip
    · cases h; exact .done rfl
    · exact .done rfl
    · exact .done rfl
  | same h0 _ _ ih1 ih2 => exact .same h0 ih1 ih2
  | pol h _ ih => exact .pol h ih
  | dat h _ ih => exact .dat h ih

/-- Storage calls without times. -/
def clockless : Op → Prop
  | .polSet _ | .dataSet _ | .polGet _ | .dataGet _ => False
  | _ => True

theorem TimeAlike.of_ops {α : Type} {E : α → α → Prop} (hE : ∀ a, E a a) {p : Prog α} (h : p.AllOps clockless) : TimeAlike E p p := by
  induction h with
  | done r => exact .done (resAlike_refl hE r)
  | @call o k ho _ ih =>
    cases o <;> simp only [clockless] at ho <;> exact .same trivial (ih none) (fun x x' hx => by cases hx; exact ih (some x))

theorem TimeAlike.getPolicy {β : Type} {F : β → β → Prop} (q : String) {k k' : Option PolicyRecord → Prog β} (hk : ∀ x x', BothOrNone SamePolicyRecord x x' → TimeAlike F (k x) (k' x')) :
    TimeAlike F (Repo.getPolicy q >>= k) (Repo.getPolicy q >>= k') :=
  .same trivial (.done rfl) hk

theorem both_none {α : Type} {R : α → α → Prop} {x x' : Option α} (h : BothOrNone R x x') : (x = none ∧ x' = none) ∨ ∃ a a', x = some a ∧ x' = some a' ∧ R a a' := by
  cases x <;> cases x' <;> simp_all [BothOrNone]

theorem TimeAlike.graphPolicy {β : Type} {F : β → β → Prop} (q : String) {k k' : PolicyRecord → Prog β} (hk : ∀ r r', SamePolicyRecord r r' → TimeAlike F (k r) (k' r')) :
    TimeAlike F (GraphService.getPolicy q >>= k) (GraphService.getPolicy q >>= k') := by
  refine .same trivial (.done rfl) (fun x x' hx => ?_)
  rcases both_none hx with ⟨rfl, rfl⟩ | ⟨a, a', rfl, rfl, h⟩
  · exact .done rfl
  · exact hk a a' h

theorem alike_lift {β α : Type} {F : β → β → Prop} (r : Res α) {k k' : α → Prog β} (hk : ∀ a, TimeAlike F (k a) (k' a)) : TimeAlike F (Prog.lift r >>= k) (Prog.lift r >>= k') :=
  TimeAlike.bind (E := Eq) (.done (resAlike_refl (fun _ => rfl) r)) (fun a _ h => h ▸ hk a)

theorem alike_op {β : Type} {F : β → β → Prop} {o : Op} (ho : clockless o) {k k' : o.Resp → Prog β} (hk : ∀ a, TimeAlike F (k a) (k' a)) : TimeAlike F (Prog.op o >>= k) (Prog.op o >>= k') :=
  TimeAlike.bind (E := Eq) (.of_ops (fun _ => rfl) (AllOps.op ho)) (fun a _ h => h ▸ hk a)

theorem alike_setPolicy {r r' : PolicyRecord} (h : SamePolicyRecord r r') : TimeAlike Eq (Repo.setPolicy r) (Repo.setPolicy r') := by
  have : r.policy.id = r'.policy.id := congrArg _ h.1
  unfold Repo.setPolicy
  rw [this]
  refine alike_op (o := .polHas _) trivial (fun has => ?_)
  refine .pol h (fun x => ?_)
  cases x <;> exact .done rfl

theorem alike_getRelationship (H : String → Nat) (q : String) (r : Option Relationship) :
    TimeAlike (BothOrNone SameRelationshipRecord) (Repo.getRelationship H q r) (Repo.getRelationship H q r) := by
  refine alike_lift _ (fun r => alike_lift _ (fun i => ?_))
  refine .same trivial (.done rfl) (fun x x' hx => ?_)
  rcases both_none hx with ⟨rfl, rfl⟩ | ⟨a, a', rfl, rfl, h⟩
  · exact .done trivial
  · exact .done ⟨rfl, rfl, h.2⟩

theorem alike_mapSlice {α β : Type} {E : β → β → Prop} {f : α → Prog β} (hf : ∀ a, TimeAlike E (f a) (f a)) (l : List α) : TimeAlike (PlaceByPlace E) (Prog.mapSlice f l) (Prog.mapSlice f l) := by
  induction l with
  | nil => exact .done trivial
  | cons a l ih => exact TimeAlike.bind (hf a) (fun b b' hb => TimeAlike.bind ih (fun bs bs' hbs => .done ⟨hb, hbs⟩))

theorem repo_clockless (H : String → Nat) (q : String) : (∀ r, (Repo.deleteRelationship H q r).AllOps clockless) ∧ (∀ sel, (Repo.findRelationships q sel).AllOps clockless) ∧
    ∀ sel, (Repo.deleteRelationships H q sel).AllOps clockless := by
  have h1 : ∀ r, (Repo.deleteRelationship H q r).AllOps clockless := fun r =>
    AllOps.bind (AllOps.lift _) (fun _ => AllOps.bind (AllOps.lift _) (fun _ => AllOps.bind (AllOps.op trivial) (fun _ =>
      AllOps.bind (AllOps.op trivial) (fun _ => AllOps.bind (AllOps.op trivial) (fun _ => .done _)))))
  have h2 : ∀ sel, (Repo.findRelationships q sel).AllOps clockless := fun sel =>
    AllOps.bind (AllOps.op trivial) (fun _ => AllOps.bind (AllOps.lift _) (fun _ => AllOps.lift _))
  exact ⟨h1, h2, fun sel => AllOps.bind (h2 sel) (fun _ => AllOps.bind (AllOps.mapSlice (fun r _ => h1 _)) (fun _ => .done _))⟩

theorem SameAnswer.refl' (a : Answer) : SameAnswer a a := by
  have h1 : ∀ x : Option RelationshipRecord, BothOrNone SameRelationshipRecord x x := fun x => by cases x <;> simp [BothOrNone, SameRelationshipRecord]
  cases a with
  | created => exact ⟨rfl, rfl⟩
  | policy x => cases x <;> simp [SameAnswer, BothOrNone, SamePolicyRecord]
  | relationship x => exact h1 x
  | records l =>
    show PlaceByPlace _ l l
    induction l with
    | nil => trivial
    | cons x l ih => exact ⟨h1 x, ih⟩
  | _ => rfl

/-- A request served at two times. -/
theorem Call.prog_alike (env : Env) {c c' : Call} (h : SameRequest c c') : TimeAlike SameAnswer (c.prog env) (c'.prog env) := by
  obtain ⟨now', rfl⟩ := h
  have e := fun q => repo_clockless env.H q
  have of : ∀ {p : Prog Answer}, p.AllOps clockless → TimeAlike SameAnswer p p := fun hp => .of_ops SameAnswer.refl' hp
  have nogr : ∀ (q : String) (n : Nat) (pol : Policy) (o g : Option RelationNode), (searchGoal env n pol o g).AllOps clockless := fun q n pol o g => searchGoal_ops (fun _ => trivial) _ _ _
  cases c with
  | getPolicy q => exact TimeAlike.getPolicy q (fun x x' hx => .done hx)
  | listPolicyIds => exact of (AllOps.bind (AllOps.op trivial) (fun _ => .done _))
  | deletePolicy q =>
    refine of (AllOps.bind (AllOps.bind (AllOps.bind (AllOps.op trivial) (fun x => ?_)) (fun x => ?_)) (fun _ => .done _))
    · cases x
      · exact .done _
      · exact AllOps.bind (AllOps.op trivial) (fun _ => .done _)
    · cases x
      · exact .done _
      · exact AllOps.bind ((e _).2.2 _) (fun _ => .done _)
  | deleteRelationship q r => exact of (AllOps.bind ((e q).1 r) (fun _ => .done _))
  | getRelationship q r => exact TimeAlike.bind (alike_getRelationship _ _ _) (fun x x' hx => .done hx)
  | deleteRelationships q sel => exact of (AllOps.bind ((e q).2.2 sel) (fun _ => .done _))
  | createPolicy now d a =>
    refine TimeAlike.bind (E := SamePolicyRecord) (alike_lift _ (fun p => TimeAlike.getPolicy _ (fun x x' hx => ?_))) (fun _ _ h => .done h)
    rcases both_none hx with ⟨rfl, rfl⟩ | ⟨_, _, rfl, rfl, h⟩
    · exact alike_lift _ (fun _ => TimeAlike.bind (alike_setPolicy ⟨rfl, rfl⟩) (fun _ _ _ => .done ⟨rfl, rfl⟩))
    · exact .done rfl
  | updatePolicy d a =>
    refine TimeAlike.bind (E := Eq) (alike_lift _ (fun p => TimeAlike.getPolicy _ (fun x x' hx => ?_))) (fun _ _ h => .done rfl)
    rcases both_none hx with ⟨rfl, rfl⟩ | ⟨_, _, rfl, rfl, h⟩
    · exact .done rfl
    · exact alike_lift _ (fun _ => TimeAlike.bind (alike_setPolicy ⟨rfl, rfl⟩) (fun _ _ _ => .done rfl))
  | setRelationship now q r a =>
    refine TimeAlike.bind (E := Eq) (TimeAlike.getPolicy _ (fun x x' hx => ?_)) (fun _ _ h => .done (by cases h; rfl))
    rcases both_none hx with ⟨rfl, rfl⟩ | ⟨_, _, rfl, rfl, h⟩
    · exact .done rfl
    · dsimp only
      rw [h.1]
      refine alike_lift _ (fun _ => alike_lift _ (fun r => alike_lift _ (fun i => alike_op (o := .edgeGet _ _) trivial (fun opt => alike_op (o := .edgeSet _ _ _) trivial (fun _ => ?_)))))
      exact .dat ⟨rfl, rfl⟩ (fun x => by cases x <;> exact .done rfl)
  | findRelationshipRecords q sel =>
    refine TimeAlike.bind (E := PlaceByPlace (BothOrNone SameRelationshipRecord)) (TimeAlike.getPolicy _ (fun x x' hx => ?_)) (fun _ _ h => .done h)
    rcases both_none hx with ⟨rfl, rfl⟩ | ⟨_, _, rfl, rfl, h⟩
    · exact .done rfl
    · dsimp only
      rw [h.1]
      refine alike_lift _ (fun _ => TimeAlike.bind (E := Eq) (.of_ops (fun _ => rfl) ((e q).2.1 sel)) (fun l _ h => ?_))
      cases h
      exact alike_mapSlice (fun r => alike_getRelationship _ _ _) l
  | check fuel q req =>
    refine TimeAlike.bind (E := Eq) (TimeAlike.graphPolicy _ (fun r r' hx => ?_)) (fun _ _ h => .done (by cases h; rfl))
    rw [hx.1]
    exact .of_ops (fun _ => rfl) (AllOps.bind (AllOps.bind (AllOps.lift _) (fun _ => nogr q _ _ _ _)) (fun _ => .done _))
  | explainCheck fuel q req f =>
    refine TimeAlike.bind (E := Eq) (alike_lift _ (fun _ => TimeAlike.graphPolicy _ (fun r r' hx => ?_))) (fun _ _ h => .done (by cases h; rfl))
    rw [hx.1]
    exact .of_ops (fun _ => rfl) (AllOps.bind (AllOps.bind (AllOps.lift _) (fun _ => nogr q _ _ _ _)) (fun _ => AllOps.bind (AllOps.lift _) (fun _ => .done _)))
  | expand fuel q root f =>
    refine TimeAlike.bind (E := Eq) (alike_lift _ (fun _ => TimeAlike.graphPolicy _ (fun r r' hx => ?_))) (fun _ _ h => .done (by cases h; rfl))
    rw [hx.1]
    exact .of_ops (fun _ => rfl) (AllOps.bind (nogr q _ _ _ _) (fun _ => AllOps.bind (AllOps.lift _) (fun _ => .done _)))
  | dumpRelationships fuel order q f =>
    refine TimeAlike.bind (E := Eq) (TimeAlike.graphPolicy _ (fun r r' hx => ?_)) (fun _ _ h => .done (by cases h; rfl))
    rw [hx.1]
    refine .of_ops (fun _ => rfl) (AllOps.bind (AllOps.bind (AllOps.op trivial) (fun _ => .done _)) (fun _ => AllOps.bind (AllOps.lift _) (fun _ => ?_)))
    cases f <;> exact .done _

/-! ### Stores -/

theorem SameButTimes.refl (s : Store) : SameButTimes s s := by
  refine ⟨rfl, fun id => ?_, rfl, fun k => ?_⟩
  · cases kvGet s.policies id
    · trivial
    · exact ⟨rfl, rfl⟩
  · cases kvGet s.data k
    · trivial
    · exact ⟨rfl, rfl⟩

theorem both_isSome {α : Type} {R : α → α → Prop} {x y : Option α} (h : BothOrNone R x y) : x.isSome = y.isSome := by
  rcases both_none h with ⟨rfl, rfl⟩ | ⟨_, _, rfl, rfl, _⟩ <;> rfl

theorem SameButTimes.symm {s s' : Store} (h : SameButTimes s s') : SameButTimes s' s := by
  refine ⟨h.ids.symm, fun id => ?_, h.edges.symm, fun k => ?_⟩
  · rcases both_none (h.policies id) with ⟨h1, h2⟩ | ⟨_, _, h1, h2, h3⟩ <;> rw [h1, h2]
    · trivial
    · exact ⟨h3.1.symm, h3.2.symm⟩
  · rcases both_none (h.data k) with ⟨h1, h2⟩ | ⟨_, _, h1, h2, h3⟩ <;> rw [h1, h2]
    · trivial
    · exact ⟨h3.1.symm, h3.2.symm⟩

theorem SameButTimes.exec {s s' : Store} (h : SameButTimes s s') {o : Op} (ho : timeless o) : RespAlike o (o.exec s).1 (o.exec s').1 ∧ SameButTimes (o.exec s).2 (o.exec s').2 := by
  cases o with
  | polHas q => exact ⟨both_isSome (h.policies q), h⟩
  | polGet q => exact ⟨h.policies q, h⟩
  | polSet r => exact ho.elim
  | polDel q =>
    refine ⟨rfl, ?_, fun id => ?_, h.edges, h.data⟩
    · have hf : ∀ m : List (String × PolicyRecord), (kvDel m q).map (·.1) = (m.map (·.1)).filter (fun x => decide (x ≠ q)) := by
        intro m
        unfold kvDel
        rw [List.filter_map]
        rfl
      show (kvDel s.policies q).map (·.1) = (kvDel s'.policies q).map (·.1)
      rw [hf, hf, h.ids]
    · show BothOrNone _ (kvGet (kvDel s.policies q) id) (kvGet (kvDel s'.policies q) id)
      rw [kvGet_del, kvGet_del]
      split
      · trivial
      · exact h.policies id
  | polList => exact ⟨h.ids, h⟩
  | edgeGet q e => exact ⟨by show kvGet (s.edges q) e = _; rw [h.edges]; rfl, h⟩
  | edgeList q => exact ⟨by show (s.edges q).map _ = _; rw [h.edges]; rfl, h⟩
  | edgeSucc q e => exact ⟨by show ((s.edges q).filter _).map _ = _; rw [h.edges]; rfl, h⟩
  | dataGet q => exact ⟨h.data q, h⟩
  | edgeSet q e r => exact ⟨rfl, { h with edges := by simp only [Op.exec, Store.setEdges, h.edges] }⟩
  | edgeDel q e => exact ⟨rfl, { h with edges := by simp only [Op.exec, Store.setEdges, h.edges] }⟩
  | dataSet d => exact ho.elim
  | dataDel q =>
    refine ⟨rfl, { h with data := fun k => ?_ }⟩
    show BothOrNone _ (kvGet (kvDel s.data q) k) (kvGet (kvDel s'.data q) k)
    rw [kvGet_del, kvGet_del]
    split
    · trivial
    · exact h.data k

theorem TimeAlike.step {α : Type} {E : α → α → Prop} {p p' : Prog α} (hp : TimeAlike E p p') {s s' : Store} (hs : SameButTimes s s') {o : Op} {k : Option o.Resp → Prog α} (he : p = .call o k) :
    ∃ o' k', p' = .call o' k' ∧ TimeAlike E (k none) (k' none) ∧ TimeAlike E (k (some (o.exec s).1)) (k' (some (o'.exec s').1)) ∧ SameButTimes (o.exec s).2 (o'.exec s').2 := by
  cases hp with
  | done => cases he
  | same h0 h1 h2 =>
    cases he
    exact ⟨_, _, rfl, h1, h2 _ _ (SameButTimes.exec hs h0).1, (SameButTimes.exec hs h0).2⟩
  | @pol r r' k1 k2 h1 h2 =>
    cases he
    have hid : r.policy.id = r'.policy.id := congrArg _ h1.1
    refine ⟨_, _, rfl, h2 _, h2 _, ?_, fun id => ?_, hs.edges, hs.data⟩
    · show (kvPut strLt s.policies r.policy.id r).map (·.1) = (kvPut strLt s'.policies r'.policy.id r').map (·.1)
      rw [hid]
      exact kvPut_keys hs.ids (both_isSome (hs.policies _))
    · show BothOrNone _ (kvGet (kvPut strLt s.policies r.policy.id r) id) (kvGet (kvPut strLt s'.policies r'.policy.id r') id)
      rw [hid, kvGet_put, kvGet_put]
      split
      · exact h1
      · exact hs.policies id
  | @dat d d' k1 k2 h1 h2 =>
    cases he
    refine ⟨_, _, rfl, h2 _, h2 _, hs.ids, hs.policies, hs.edges, fun k => ?_⟩
    show BothOrNone _ (kvGet (kvPut edgeLt s.data d.relationshipId d) k) (kvGet (kvPut edgeLt s'.data d'.relationshipId d') k)
    rw [h1.1, kvGet_put, kvGet_put]
    split
    · exact h1
    · exact hs.data k

theorem TimeAlike.run {α : Type} {E : α → α → Prop} (p : Prog α) : ∀ {p' : Prog α}, TimeAlike E p p' → ∀ {s s' : Store}, SameButTimes s s' →
    ResAlike E (p.run s).1 (p'.run s').1 ∧ SameButTimes (p.run s).2 (p'.run s').2 := by
  induction p with
  | done r => intro p' h s s' hs; cases h with | done h => exact ⟨h, hs⟩
  | call o k ih =>
    intro p' h s s' hs
    obtain ⟨o', k', rfl, _, h2, h3⟩ := h.step hs rfl
    exact ih _ h2 h3

theorem sameOutcome_iff {r r' : Res Answer} : ResAlike SameAnswer r r' ↔ SameOutcome r r' := by
  cases r <;> cases r' <;> simp [ResAlike, SameOutcome]

theorem runCalls_alike {env : Env} (cs : List Call) : ∀ {cs' : List Call}, PlaceByPlace SameRequest cs cs' → ∀ {s s' : Store}, SameButTimes s s' →
    PlaceByPlace SameOutcome (runCalls env cs s).1 (runCalls env cs' s').1 ∧ SameButTimes (runCalls env cs s).2 (runCalls env cs' s').2 := by
  induction cs with
  | nil =>
    intro cs' h s s' hs
    cases cs' with
    | nil => exact ⟨trivial, hs⟩
    | cons => exact h.elim
  | cons c cs ih =>
    intro cs' h s s' hs
    cases cs' with
    | nil => exact h.elim
    | cons c' cs' =>
      obtain ⟨h1, h2⟩ := (Call.prog_alike env h.1).run _ hs
      obtain ⟨h3, h4⟩ := ih h.2 h2
      rw [runCalls_cons, runCalls_cons]
      exact ⟨⟨sameOutcome_iff.1 h1, h3⟩, h4⟩

/-! ### Schedules -/

/-- Requests in flight on two servers, one by one alike. -/
inductive ThreadsAlike : List (Prog Answer) → List (Prog Answer) → Prop
  | nil : ThreadsAlike [] []
  | cons {p p' : Prog Answer} {ts ts' : List (Prog Answer)} : TimeAlike SameAnswer p p' → ThreadsAlike ts ts' → ThreadsAlike (p :: ts) (p' :: ts')

theorem ThreadsAlike.append {ts ts' us us' : List (Prog Answer)} (h : ThreadsAlike ts ts') (g : ThreadsAlike us us') : ThreadsAlike (ts ++ us) (ts' ++ us') := by
  induction h with
  | nil => exact g
  | cons h _ ih => exact .cons h ih

theorem ThreadsAlike.split {ts₁ ts₂ us : List (Prog Answer)} {p : Prog Answer} (h : ThreadsAlike (ts₁ ++ p :: ts₂) us) :
    ∃ us₁ p' us₂, us = us₁ ++ p' :: us₂ ∧ ThreadsAlike ts₁ us₁ ∧ TimeAlike SameAnswer p p' ∧ ThreadsAlike ts₂ us₂ := by
  induction ts₁ generalizing us with
  | nil =>
    cases h with
    | cons h1 h2 => exact ⟨[], _, _, rfl, .nil, h1, h2⟩
  | cons t ts ih =>
    cases h with
    | cons h1 h2 =>
      obtain ⟨a, p', b, rfl, h3, h4, h5⟩ := ih h2
      exact ⟨_ :: a, p', b, rfl, .cons h1 h3, h4, h5⟩

theorem TimeAlike.opStep {o : Op} {k : Option o.Resp → Prog Answer} {p' : Prog Answer} (hp : TimeAlike SameAnswer (.call o k) p') {s s' t : Store} (hs : SameButTimes s s') {resp : Option o.Resp} {b : Bool}
    (h : OpStep o s resp b t) : ∃ (o' : Op) (k' : Option o'.Resp → Prog Answer) (resp' : Option o'.Resp) (t' : Store), p' = .call o' k' ∧ OpStep o' s' resp' b t' ∧
      TimeAlike SameAnswer (k resp) (k' resp') ∧ SameButTimes t t' := by
  obtain ⟨o', k', rfl, h1, h2, h3⟩ := hp.step hs rfl
  cases h with
  | ok => exact ⟨o', k', _, _, rfl, .ok o' s', h2, h3⟩
  | failBefore => exact ⟨o', k', _, _, rfl, .failBefore o' s', h1, hs⟩
  | failAfter => exact ⟨o', k', _, _, rfl, .failAfter o' s', h1, h3⟩

/-- Two servers, one by one alike. -/
def SysAlike (x x' : Sys) : Prop := ThreadsAlike x.threads x'.threads ∧ SameButTimes x.store x'.store

theorem Sys.Path.alike {env : Env} {A A' : Call → Prop} (hA : ∀ c, A c → ∃ c', A' c' ∧ SameRequest c c') {x x' y : Sys} (h : Sys.Path env A x y) (hx : SysAlike x x') :
    ∃ y', Sys.Path env A' x' y' ∧ SysAlike y y' := by
  induction h with
  | refl => exact ⟨x', .refl, hx⟩
  | @arrive ts s c hc _ ih =>
    obtain ⟨⟨us, t⟩, h1, h2, h3⟩ := ih
    obtain ⟨c', hc', hs⟩ := hA c hc
    exact ⟨_, .arrive c' hc' h1, h2.append (.cons (Call.prog_alike env hs) .nil), h3⟩
  | @op o k ts₁ ts₂ s s' resp b _ ho ih =>
    obtain ⟨⟨us, t⟩, h1, h2, h3⟩ := ih
    obtain ⟨us₁, p', us₂, rfl, h4, h5, h6⟩ := ThreadsAlike.split h2
    obtain ⟨o', k', resp', t', rfl, h7, h8, h9⟩ := h5.opStep h3 ho
    exact ⟨_, .op h1 h7, h4.append (.cons h8 h6), h9⟩
  | @leave r ts₁ ts₂ s _ ih =>
    obtain ⟨⟨us, t⟩, h1, h2, h3⟩ := ih
    obtain ⟨us₁, p', us₂, rfl, h4, h5, h6⟩ := ThreadsAlike.split h2
    cases h5
    exact ⟨_, .leave h1, h4.append h6, h3⟩
  | @crash ts s _ ih =>
    obtain ⟨⟨us, t⟩, h1, h2, h3⟩ := ih
    exact ⟨_, .crash h1, .nil, h3⟩

theorem Sys.Flight.alike {env : Env} {A A' : Call → Prop} (hA : ∀ c, A c → ∃ c', A' c' ∧ SameRequest c c') {x x' y : Sys} {c c' : Call} {hist : List Store} {t : Prog Answer}
    (hc : SameRequest c c') (h : Sys.Flight env A x c hist y t) (hx : SysAlike x x') : ∃ hist' y' t', Sys.Flight env A' x' c' hist' y' t' ∧ TimeAlike SameAnswer t t' ∧ SysAlike y y' := by
  induction h with
  | start hp =>
    obtain ⟨y', h1, h2⟩ := hp.alike hA hx
    exact ⟨_, y', _, .start h1, Call.prog_alike env hc, h2⟩
  | @own o k h ts s s' resp b _ ho ih =>
    obtain ⟨l, ⟨us, t⟩, p', h1, h2, h3, h4⟩ := ih
    obtain ⟨o', k', resp', t', rfl, h7, h8, h9⟩ := h2.opStep h4 ho
    exact ⟨_, _, _, .own h1 h7, h8, h3, h9⟩
  | @arrive h ts s t d hd _ ih =>
    obtain ⟨l, ⟨us, t⟩, p', h1, h2, h3, h4⟩ := ih
    obtain ⟨d', hd', hs⟩ := hA d hd
    exact ⟨_, _, _, .arrive d' hd' h1, h2, h3.append (.cons (Call.prog_alike env hs) .nil), h4⟩
  | @op o k h ts₁ ts₂ s s' t resp b _ ho ih =>
    obtain ⟨l, ⟨us, t⟩, p', h1, h2, h3, h4⟩ := ih
    obtain ⟨us₁, q', us₂, rfl, h5, h6, h10⟩ := ThreadsAlike.split h3
    obtain ⟨o', k', resp', t', rfl, h7, h8, h9⟩ := h6.opStep h4 ho
    exact ⟨_, _, _, .op h1 h7, h2, h5.append (.cons h8 h10), h9⟩
  | @leave r h ts₁ ts₂ s t _ ih =>
    obtain ⟨l, ⟨us, t⟩, p', h1, h2, h3, h4⟩ := ih
    obtain ⟨us₁, q', us₂, rfl, h5, h6, h10⟩ := ThreadsAlike.split h3
    cases h6
    exact ⟨_, _, _, .leave h1, h2, h5.append h10, h4⟩

end Zanzi
