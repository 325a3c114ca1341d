import Verif.Lemmas.Frame
import Verif.Lemmas.CheckRun
import Verif.Spec.Rewording

/-
Policies that say the same are interchangeable.
-/

namespace Zanzi

open Spec Prog

/-! ### Policies -/

theorem SaysSame.relation {U : Unicode} {p p' : Policy} (h : SaysSame U p p') (a b : String) : HasRelation p a b ↔ HasRelation p' a b := by
  constructor
  · rintro ⟨d, hd⟩
    obtain ⟨d', h1, _⟩ := h.kept a b d hd
    exact ⟨d', h1⟩
  · rintro ⟨d, hd⟩
    obtain ⟨d', h1, _⟩ := h.nothingNew a b d hd
    exact ⟨d', h1⟩

theorem SaysSame.valid {U : Unicode} {p p' : Policy} (h : SaysSame U p p') (hu : NamesUnique p') (hv : ValidPolicy U p) : ValidPolicy U p' := by
  have hrel := SaysSame.relation h
  have hok : ∀ x, RestrictionOK p x → RestrictionOK p' x := by
    intro x hx
    cases x with
    | unset => exact hx
    | entity n => exact (h.resources n).1 hx
    | entitySet n r => exact (hrel n r).1 hx
  refine ⟨hu, ?_, ?_⟩
  · intro r hr d hd sr hsr
    obtain ⟨d0, ⟨r0, hr0, hn0, hd0, _⟩, _, hsub⟩ := h.nothingNew r.name d.name d ⟨r, hr, rfl, hd, rfl⟩
    have h2 := hv.2.1 r0 hr0 d0 hd0
    rw [hsr] at hsub
    cases hsr0 : d0.subjectRestriction with
    | none => rw [hsr0] at hsub; cases sr <;> exact absurd hsub (by simp [SameSubjects])
    | some sr0 =>
      rw [hsr0] at hsub
      have h3 := h2 sr0 hsr0
      cases sr0 <;> cases sr <;> simp only [SameSubjects, Option.some.injEq, reduceCtorEq] at hsub
      · exact h3
      · exact fun x hx => hok x (h3 x ((hsub x).2 hx))
      · trivial
  · intro r hr d hd
    obtain ⟨d0, ⟨r0, hr0, hn0, hd0, _⟩, hden, _⟩ := h.nothingNew r.name d.name d ⟨r, hr, rfl, hd, rfl⟩
    obtain ⟨t, h1, h2, h3⟩ := hv.2.2 r0 hr0 d0 hd0
    refine ⟨t, (hden t).1 h1, h2, fun x hx => ?_⟩
    have h4 := h3 x hx
    rw [hn0] at h4
    cases x with
    | unset => exact h4
    | this => trivial
    | cu b => exact (hrel _ _).1 h4
    | ttu b c => exact (hrel _ _).1 h4

/-- What the code reads of two relations is the same. -/
def RelSim (U : Unicode) : Option Relation → Option Relation → Prop
  | none, none => True
  | some d, some d' => getExpressionTree U d = getExpressionTree U d' ∧ SameSubjects d.subjectRestriction d'.subjectRestriction
  | _, _ => False

/-- What the code reads of two policies is the same. -/
structure PolSim (U : Unicode) (p p' : Policy) : Prop where
  id : p'.id = p.id
  resource : ∀ a, ((newLut p).getResource a).isNone = ((newLut p').getResource a).isNone
  relation : ∀ a b, RelSim U ((newLut p).getRelation a b) ((newLut p').getRelation a b)
  byName : ∀ a, (p.getResourceByName a).isNone = (p'.getResourceByName a).isNone
  relByName : ∀ a b, HasResource p a → ∃ x x', getRelationByName (p.getResourceByName a) b = .ok x ∧ getRelationByName (p'.getResourceByName a) b = .ok x' ∧
    x.isNone = x'.isNone

theorem SameSubjects.refl (x : Option SubjectRestriction) : SameSubjects x x := by
  unfold SameSubjects
  split
  · exact fun _ => Iff.rfl
  · rfl

theorem RelSim.refl (U : Unicode) (x : Option Relation) : RelSim U x x := by
  cases x with
  | none => trivial
  | some d => exact ⟨rfl, SameSubjects.refl _⟩

theorem PolSim.refl (U : Unicode) (p : Policy) : PolSim U p p := by
  refine ⟨rfl, fun _ => rfl, fun _ _ => RelSim.refl _ _, fun _ => rfl, fun a b h => ?_⟩
  cases hr : p.getResourceByName a with
  | none => exact absurd h (getResourceByName_none.1 hr)
  | some r => exact ⟨_, _, rfl, rfl, rfl⟩

theorem isNone_eq {α β : Type} {x : Option α} {y : Option β} {P Q : Prop} (hx : x.isNone = true ↔ ¬ P) (hy : y.isNone = true ↔ ¬ Q) (h : P ↔ Q) :
    x.isNone = y.isNone := by
  rw [Bool.eq_iff_iff, hx, hy, h]

theorem SaysSame.sim {U : Unicode} {p p' : Policy} (h : SaysSame U p p') (hu : NamesUnique p') (hv : ValidPolicy U p) : PolSim U p p' := by
  have hrel := SaysSame.relation h
  refine ⟨h.id, fun a => isNone_eq newLut_resource_isNone newLut_resource_isNone (h.resources a), fun a b => ?_, fun a => ?_, fun a b ha => ?_⟩
  · cases hd : (newLut p).getRelation a b with
    | none =>
      have h1 := newLut_relation_none.1 hd
      rw [newLut_relation_none.2 (fun h2 => h1 ((hrel a b).2 h2))]
      trivial
    | some d =>
      have hd1 := newLut_relation hd
      obtain ⟨d', h1, h2⟩ := h.kept a b d hd1
      rw [(newLut_relation_iff hu).2 h1]
      refine ⟨?_, h2.2⟩
      obtain ⟨r, hr, _, hdr, _⟩ := hd1
      obtain ⟨t, ht, _⟩ := hv.2.2 r hr d hdr
      rw [(getExpressionTree_ok_iff U d t).2 ht, (getExpressionTree_ok_iff U d' t).2 ((h2.1 t).1 ht)]
  · exact isNone_eq (by rw [Option.isNone_iff_eq_none]; exact getResourceByName_none) (by rw [Option.isNone_iff_eq_none]; exact getResourceByName_none) (h.resources a)
  · obtain ⟨x, hx, hx'⟩ := getRelationByName_isNone hv.1 (rel := b) ha
    obtain ⟨y, hy, hy'⟩ := getRelationByName_isNone hu (rel := b) ((h.resources a).1 ha)
    exact ⟨x, y, hx, hy, isNone_eq hx' hy' (hrel a b)⟩

/-! ### Code that reads a policy -/

section

variable {U : Unicode} {p p' : Policy}

theorem PolSim.relNone (h : PolSim U p p') (a b : String) : ((newLut p).getRelation a b).isNone = ((newLut p').getRelation a b).isNone := by
  have := h.relation a b
  revert this
  cases (newLut p).getRelation a b <;> cases (newLut p').getRelation a b <;> simp [RelSim]

theorem SameSubjects.set {s : Subject} {rs rs' : List Restriction} (h : ∀ x, x ∈ rs ↔ x ∈ rs') : satisfiesRestrictionSet s rs = satisfiesRestrictionSet s rs' := by
  have hany : ∀ f : Restriction → Bool, rs.any f = rs'.any f := by
    intro f
    rw [Bool.eq_iff_iff, List.any_eq_true, List.any_eq_true]
    exact ⟨fun ⟨x, h1, h2⟩ => ⟨x, (h x).1 h1, h2⟩, fun ⟨x, h1, h2⟩ => ⟨x, (h x).2 h1, h2⟩⟩
  unfold satisfiesRestrictionSet
  simp only [hany]

theorem PolSim.allowed (h : PolSim U p p') (r : Option Relationship) : allowedRelationship r (newLut p) = allowedRelationship r (newLut p') := by
  have h1 : checkSymbols r (newLut p) = checkSymbols r (newLut p') := by
    unfold checkSymbols
    simp only [h.resource, h.relNone]
  have h2 : ∀ r, subjectRestrictionSatisfies r (newLut p) = subjectRestrictionSatisfies r (newLut p') := by
    intro r
    unfold subjectRestrictionSatisfies
    cases r.object with
    | none => rfl
    | some o =>
      simp only [Res.deref_some, Res.bind_ok]
      have := h.relation o.resource r.relation
      cases hd : (newLut p).getRelation o.resource r.relation <;> cases hd' : (newLut p').getRelation o.resource r.relation <;>
        rw [hd, hd'] at this <;> simp only [RelSim] at this
      rename_i d d'
      obtain ⟨_, hs⟩ := this
      dsimp only
      cases hx : d.subjectRestriction with
      | none =>
        rw [hx] at hs
        have : none = d'.subjectRestriction := by simpa [SameSubjects] using hs
        rw [← this]
      | some x =>
        cases hy : d'.subjectRestriction with
        | none => rw [hx, hy] at hs; cases x <;> simp [SameSubjects] at hs
        | some y =>
          rw [hx, hy] at hs
          cases x <;> cases y <;> simp [SameSubjects] at hs <;> simp only [Res.deref_some, Res.bind_ok]
          cases r.subject with
          | none => rfl
          | some s => simp only [Res.deref_some, Res.bind_ok]; rw [SameSubjects.set hs]
  unfold allowedRelationship
  simp only [h1, h2]

theorem PolSim.selector (h : PolSim U p p') (sel : Option Selector) : validSelector sel p = validSelector sel p' := by
  have h1 : ∀ o, validObjectSelector o p = validObjectSelector o p' := by
    intro o
    unfold validObjectSelector
    simp only [h.byName]
  have h2 : ∀ s, validSubjectSelector s p = validSubjectSelector s p' := by
    intro o
    unfold validSubjectSelector
    simp only [h.byName]
  have h3 : ∀ o r, validRelationSelector o r p = validRelationSelector o r p' := by
    intro o r
    have key : ∀ n (o : Option ObjectSelector), (do
        let o ← Res.deref o
        let resource := p.getResourceByName (objectSelectorResourceName o)
        let relation ← getRelationByName resource n
        if relation.isNone then (.err .relationNotFound : Res Unit) else .ok ()) = (do
        let o ← Res.deref o
        let resource := p'.getResourceByName (objectSelectorResourceName o)
        let relation ← getRelationByName resource n
        if relation.isNone then .err .relationNotFound else .ok ()) := by
      intro n o
      cases o with
      | none => rfl
      | some o =>
        simp only [Res.deref_some, Res.bind_ok]
        by_cases ha : HasResource p (objectSelectorResourceName o)
        · obtain ⟨x, x', hx, hx', hn⟩ := h.relByName _ n ha
          rw [hx, hx']
          simp only [Res.bind_ok, hn]
        · have e1 := getResourceByName_none.2 ha
          have e2 : p'.getResourceByName (objectSelectorResourceName o) = none := by
            have := h.byName (objectSelectorResourceName o)
            rw [e1] at this
            exact Option.isNone_iff_eq_none.1 this.symm
          rw [e1, e2]
    unfold validRelationSelector
    cases r with
    | none => exact key _ _
    | some r => cases r with
      | wildcard => rfl
      | relationName n => exact key _ _
      | unset => exact key _ _
  unfold validSelector
  simp only [h1, h2, h3]

theorem PolSim.tree {env : Env} (h : PolSim env.U p p') : buildTree env p = buildTree env p' := by
  funext n
  cases n with
  | unset => rfl
  | entity => rfl
  | wildcard => rfl
  | entitySet o rel =>
    unfold buildTree
    dsimp only
    congr 1
    funext o'
    have := h.relation o'.resource rel
    cases hd : (newLut p).getRelation o'.resource rel <;> cases hd' : (newLut p').getRelation o'.resource rel <;>
      rw [hd, hd'] at this <;> simp only [RelSim] at this
    dsimp only
    rw [this.1, h.id]

theorem PolSim.searchPath {env : Env} (h : PolSim env.U p p') (goal : Option RelationNode) (n : Nat) : searchPath env p goal n = searchPath env p' goal n := by
  induction n with
  | zero => rfl
  | succ n ih =>
    funext node reason seen
    unfold Zanzi.searchPath
    rw [ih, h.tree]

theorem PolSim.searchGoal {env : Env} (h : PolSim env.U p p') (n : Nat) (origin goal : Option RelationNode) :
    searchGoal env n p origin goal = searchGoal env n p' origin goal := by
  unfold Zanzi.searchGoal
  rw [h.searchPath]

end

/-! ### Programs and stores -/

/-- Two answers to a read of a policy that say the same. -/
def RecSim (U : Unicode) : Option PolicyRecord → Option PolicyRecord → Prop
  | none, none => True
  | some r, some r' => PolSim U r.policy r'.policy
  | _, _ => False

theorem RecSim.refl (U : Unicode) (x : Option PolicyRecord) : RecSim U x x := by
  cases x with
  | none => trivial
  | some r => exact PolSim.refl U _

theorem RecSim.symm' {U : Unicode} {x y : Option PolicyRecord} (h : RecSim U x y) : x.isSome = y.isSome := by
  cases x <;> cases y <;> simp_all [RecSim]

/-- The two programs make the same storage calls and end alike, whatever two same-saying policies they read at `pid`. -/
inductive ProgSim (U : Unicode) (pid : String) {α : Type} : Prog α → Prog α → Prop
  | done (r : Res α) : ProgSim U pid (.done r) (.done r)
  | get {k k' : Option (Option PolicyRecord) → Prog α} : ProgSim U pid (k none) (k' none) →
      (∀ x x', RecSim U x x' → ProgSim U pid (k (some x)) (k' (some x'))) → ProgSim U pid (.call (.polGet pid) k) (.call (.polGet pid) k')
  | put {r r' : PolicyRecord} {k k' : Option Unit → Prog α} : r'.policy.id = r.policy.id → (r.policy.id ≠ pid → r' = r) → RecSim U (some r) (some r') →
      (∀ x, ProgSim U pid (k x) (k' x)) → ProgSim U pid (.call (.polSet r) k) (.call (.polSet r') k')
  | other {o : Op} {k k' : Option o.Resp → Prog α} : o ≠ .polGet pid → (∀ r, o ≠ .polSet r) → (∀ x, ProgSim U pid (k x) (k' x)) →
      ProgSim U pid (.call o k) (.call o k')

theorem ProgSim.bind {U : Unicode} {pid : String} {α β : Type} {p p' : Prog α} {k k' : α → Prog β} (h : ProgSim U pid p p')
    (hk : ∀ a, ProgSim U pid (k a) (k' a)) : ProgSim U pid (p >>= k) (p' >>= k') := by
  show ProgSim U pid (p.bind k) (p'.bind k')
  induction h with
  | done r => cases r <;> first | exact hk _ | exact .done _
  | get _ _ ih1 ih2 => exact .get ih1 ih2
  | put h1 h2 h3 _ ih => exact .put h1 h2 h3 ih
  | other h1 h2 _ ih => exact .other h1 h2 ih

theorem ProgSim.of_ops {U : Unicode} {pid : String} {α : Type} {p : Prog α} (h : p.AllOps (fun o => o ≠ .polGet pid)) : ProgSim U pid p p := by
  induction h with
  | done r => exact .done r
  | @call o k ho _ ih =>
    cases o with
    | polSet r => exact .put rfl (fun _ => rfl) (RecSim.refl U _) ih
    | polGet q => exact .other ho nofun ih
    | _ => exact .other nofun nofun ih

theorem ProgSim.getPolicy {U : Unicode} {pid q : String} {α : Type} {k k' : Option PolicyRecord → Prog α}
    (h : ∀ x x', RecSim U x x' → (q ≠ pid → x' = x) → ProgSim U pid (k x) (k' x')) : ProgSim U pid (Repo.getPolicy q >>= k) (Repo.getPolicy q >>= k') := by
  by_cases hq : q = pid
  · subst hq
    exact .get (.done _) (fun x x' hx => h x x' hx (fun h => absurd rfl h))
  · refine .other (o := .polGet q) (by simpa using hq) nofun (fun x => ?_)
    cases x with
    | none => exact .done _
    | some x => exact h x x (RecSim.refl U x) (fun _ => rfl)

theorem ProgSim.graphPolicy {U : Unicode} {pid q : String} {α : Type} {k k' : PolicyRecord → Prog α}
    (h : ∀ r r', PolSim U r.policy r'.policy → ProgSim U pid (k r) (k' r')) :
    ProgSim U pid (GraphService.getPolicy q >>= k) (GraphService.getPolicy q >>= k') := by
  have hb : ∀ k : PolicyRecord → Prog α, (GraphService.getPolicy q >>= k) = (Repo.getPolicy q >>= fun x => (match x with
      | none => Prog.lift (.err .policyNotFound)
      | some r => (pure r : Prog PolicyRecord)) >>= k) := by
    intro k
    show Prog.call _ _ = Prog.call _ _
    congr 1
    funext x
    cases x <;> rfl
  rw [hb, hb]
  refine ProgSim.getPolicy (fun x x' hx _ => ?_)
  cases x <;> cases x' <;> simp only [RecSim] at hx
  · exact .done _
  · exact h _ _ hx

/-- Storage calls other than reads of policies. -/
def noPolGet : Op → Prop
  | .polGet _ => False
  | _ => True

theorem noPolGet.ne {pid : String} {o : Op} (h : noPolGet o) : o ≠ .polGet pid := by
  rintro rfl
  exact h

theorem edgeOps (H : String → Nat) (q : String) :
    (∀ r, (Repo.deleteRelationship H q r).AllOps noPolGet) ∧ (∀ sel, (Repo.findRelationships q sel).AllOps noPolGet) ∧
    (∀ r, (Repo.getRelationship H q r).AllOps noPolGet) := by
  refine ⟨fun r => ?_, fun sel => ?_, fun r => ?_⟩
  · exact AllOps.bind (AllOps.lift _) (fun _ => AllOps.bind (AllOps.lift _) (fun _ => AllOps.bind (AllOps.op trivial) (fun _ =>
      AllOps.bind (AllOps.op trivial) (fun _ => AllOps.bind (AllOps.op trivial) (fun _ => .done _)))))
  · exact AllOps.bind (AllOps.op trivial) (fun _ => AllOps.bind (AllOps.lift _) (fun _ => AllOps.lift _))
  · refine AllOps.bind (AllOps.lift _) (fun _ => AllOps.bind (AllOps.lift _) (fun _ => AllOps.bind (AllOps.op trivial) (fun x => ?_)))
    cases x <;> exact .done _

/-- A request other than GetPolicy of `pid` behaves alike whichever of two same-saying policies it reads. -/
theorem Call.prog_sim (env : Env) (pid : String) {c : Call} (h : c ≠ .getPolicy pid) : ProgSim env.U pid (c.prog env) (c.prog env) := by
  have e := fun q => edgeOps env.H q
  have hbulk : ∀ q sel, (Repo.deleteRelationships env.H q sel).AllOps noPolGet := fun q sel =>
    AllOps.bind ((e q).2.1 sel) (fun _ => AllOps.bind (AllOps.mapSlice (fun r _ => (e q).1 _)) (fun _ => .done _))
  have of : ∀ {α : Type} {p : Prog α}, p.AllOps noPolGet → ProgSim env.U pid p p := fun hp => .of_ops (hp.mono (fun _ => noPolGet.ne))
  cases c with
  | getPolicy q =>
    refine ProgSim.bind (.of_ops (AllOps.op ?_)) (fun _ => .done _)
    intro hq
    cases hq
    exact h rfl
  | listPolicyIds => exact of (AllOps.bind (AllOps.op trivial) (fun _ => .done _))
  | deletePolicy q =>
    refine of (AllOps.bind (AllOps.bind (AllOps.bind (AllOps.op trivial) (fun x => ?_)) (fun x => ?_)) (fun _ => .done _))
    · cases x
      · exact .done _
      · exact AllOps.bind (AllOps.op trivial) (fun _ => .done _)
    · cases x
      · exact .done _
      · exact AllOps.bind (hbulk _ _) (fun _ => .done _)
  | deleteRelationship q r => exact of (AllOps.bind ((e q).1 r) (fun _ => .done _))
  | getRelationship q r => exact of (AllOps.bind ((e q).2.2 r) (fun _ => .done _))
  | deleteRelationships q sel => exact of (AllOps.bind (hbulk q sel) (fun _ => .done _))
  | createPolicy now d a =>
    refine ProgSim.bind (ProgSim.bind (.done _) (fun p => ProgSim.getPolicy (fun x x' hx _ => ?_))) (fun _ => .done _)
    cases x <;> cases x' <;> simp only [RecSim] at hx
    · refine ProgSim.bind (.done _) (fun _ => ProgSim.bind (of ?_) (fun _ => .done _))
      exact AllOps.bind (AllOps.op trivial) (fun _ => AllOps.bind (AllOps.op trivial) (fun _ => .done _))
    · exact .done _
  | updatePolicy d a =>
    refine ProgSim.bind (ProgSim.bind (.done _) (fun p => ProgSim.getPolicy (fun x x' hx hq => ?_))) (fun _ => .done _)
    cases x <;> cases x' <;> simp only [RecSim] at hx
    · exact .done _
    · rename_i r r'
      refine ProgSim.bind (.done _) (fun _ => ProgSim.bind (ProgSim.bind (of (AllOps.op trivial)) (fun _ => ProgSim.bind ?_ (fun _ => .done _))) (fun _ => .done _))
      refine .put rfl (fun hne => ?_) (PolSim.refl _ _) (fun x => by cases x <;> exact .done _)
      have := hq hne
      cases this
      rfl
  | setRelationship now q r a =>
    refine ProgSim.bind (ProgSim.getPolicy (fun x x' hx _ => ?_)) (fun _ => .done _)
    cases x <;> cases x' <;> simp only [RecSim] at hx
    · exact .done _
    · dsimp only
      rw [hx.allowed]
      refine ProgSim.bind (.done _) (fun _ => ProgSim.bind (.done _) (fun _ => of ?_))
      exact AllOps.bind (AllOps.lift _) (fun _ => AllOps.bind (AllOps.op trivial) (fun _ => AllOps.bind (AllOps.op trivial) (fun _ =>
        AllOps.bind (AllOps.op trivial) (fun _ => .done _))))
  | findRelationshipRecords q sel =>
    refine ProgSim.bind (ProgSim.getPolicy (fun x x' hx _ => ?_)) (fun _ => .done _)
    cases x <;> cases x' <;> simp only [RecSim] at hx
    · exact .done _
    · dsimp only
      rw [hx.selector]
      exact ProgSim.bind (.done _) (fun _ => of (AllOps.bind ((e q).2.1 sel) (fun _ => AllOps.mapSlice (fun r _ => (e q).2.2 _))))
  | check fuel q req =>
    refine ProgSim.bind (ProgSim.graphPolicy (fun r r' hx => ?_)) (fun _ => .done _)
    unfold GraphService.checkTree
    simp only [hx.searchGoal]
    exact of (AllOps.bind (AllOps.bind (AllOps.lift _) (fun _ => searchGoal_ops (fun _ => trivial) _ _ _)) (fun _ => .done _))
  | explainCheck fuel q req f =>
    refine ProgSim.bind (ProgSim.bind (.done _) (fun _ => ProgSim.graphPolicy (fun r r' hx => ?_))) (fun _ => .done _)
    unfold GraphService.checkTree
    simp only [hx.searchGoal]
    exact of (AllOps.bind (AllOps.bind (AllOps.lift _) (fun _ => searchGoal_ops (fun _ => trivial) _ _ _))
      (fun _ => AllOps.bind (AllOps.lift _) (fun _ => .done _)))
  | expand fuel q root f =>
    refine ProgSim.bind (ProgSim.bind (.done _) (fun _ => ProgSim.graphPolicy (fun r r' hx => ?_))) (fun _ => .done _)
    simp only [hx.searchGoal]
    exact of (AllOps.bind (searchGoal_ops (fun _ => trivial) _ _ _) (fun _ => AllOps.bind (AllOps.lift _) (fun _ => .done _)))
  | dumpRelationships fuel order q f =>
    refine ProgSim.bind (ProgSim.graphPolicy (fun r r' hx => ?_)) (fun _ => .done _)
    simp only [hx.id]
    refine of (AllOps.bind (AllOps.bind (AllOps.op trivial) (fun _ => .done _)) (fun _ => AllOps.bind (AllOps.lift _) (fun _ => ?_)))
    cases f <;> exact .done _

/-- Two stores that differ only in how policy `pid` is written. -/
structure StoreSim (U : Unicode) (pid : String) (s s' : Store) : Prop where
  edges : s'.edges = s.edges
  data : s'.data = s.data
  ids : s'.policies.map (·.1) = s.policies.map (·.1)
  others : ∀ q, q ≠ pid → kvGet s'.policies q = kvGet s.policies q
  this : RecSim U (kvGet s.policies pid) (kvGet s'.policies pid)

theorem kvPut_keys {K V : Type} [DecidableEq K] {lt : K → K → Bool} {m m' : List (K × V)} (h : m'.map (·.1) = m.map (·.1)) {k : K} {v v' : V}
    (hs : (kvGet m' k).isSome = (kvGet m k).isSome) : (kvPut lt m' k v').map (·.1) = (kvPut lt m k v).map (·.1) := by
  have hmap : ∀ (m : List (K × V)) v, (m.map (fun p => if p.1 = k then (k, v) else p)).map (·.1) = m.map (·.1) := by
    intro m v
    rw [List.map_map]
    apply List.map_congr_left
    intro p _
    by_cases hp : p.1 = k <;> simp [hp]
  have hins : ∀ (m m' : List (K × V)), m'.map (·.1) = m.map (·.1) → (kvInsert lt m' k v').map (·.1) = (kvInsert lt m k v).map (·.1) := by
    intro m
    induction m with
    | nil => intro m' h; cases m' with
      | nil => rfl
      | cons => simp at h
    | cons a m ih =>
      intro m' h
      cases m' with
      | nil => simp at h
      | cons a' m' =>
        obtain ⟨k0, w0⟩ := a
        obtain ⟨k1, w1⟩ := a'
        simp only [List.map_cons, List.cons.injEq] at h
        obtain ⟨rfl, h⟩ := h
        unfold kvInsert
        by_cases hl : lt k k1 = true
        · simp [hl, h]
        · simp [hl, ih m' h]
  unfold kvPut
  rw [hs]
  split
  · rw [hmap, hmap, h]
  · exact hins m m' h

theorem StoreSim.has {U : Unicode} {pid : String} {s s' : Store} (h : StoreSim U pid s s') (q : String) :
    (kvGet s'.policies q).isSome = (kvGet s.policies q).isSome := by
  by_cases hq : q = pid
  · subst hq; exact h.this.symm'.symm
  · rw [h.others q hq]

/-- The calls the two programs of a pair make next. -/
theorem ProgSim.step {U : Unicode} {pid : String} {α : Type} {p p' : Prog α} (hp : ProgSim U pid p p') {s s' : Store} (hs : StoreSim U pid s s') {o : Op}
    {k : Option o.Resp → Prog α} (he : p = .call o k) : ∃ o' k', p' = .call o' k' ∧ ProgSim U pid (k none) (k' none) ∧
      ProgSim U pid (k (some (o.exec s).1)) (k' (some (o'.exec s').1)) ∧ StoreSim U pid (o.exec s).2 (o'.exec s').2 := by
  cases hp with
  | done r => cases he
  | get h1 h2 =>
    cases he
    exact ⟨_, _, rfl, h1, h2 _ _ hs.this, hs⟩
  | @put r r' k1 k2 h1 h2 h3 h4 =>
    cases he
    refine ⟨_, _, rfl, h4 _, h4 _, hs.edges, hs.data, ?_, fun q hq => ?_, ?_⟩
    · show (kvPut strLt s'.policies r'.policy.id r').map (·.1) = (kvPut strLt s.policies r.policy.id r).map (·.1)
      rw [h1]
      exact kvPut_keys hs.ids (hs.has _)
    · show kvGet (kvPut strLt s'.policies r'.policy.id r') q = kvGet (kvPut strLt s.policies r.policy.id r) q
      rw [h1, kvGet_put, kvGet_put]
      by_cases hqr : q = r.policy.id
      · rw [if_pos hqr, if_pos hqr, h2 (hqr ▸ hq)]
      · rw [if_neg hqr, if_neg hqr, hs.others q hq]
    · show RecSim U (kvGet (kvPut strLt s.policies r.policy.id r) pid) (kvGet (kvPut strLt s'.policies r'.policy.id r') pid)
      rw [h1, kvGet_put, kvGet_put]
      split
      · exact h3
      · exact hs.this
  | @other o k1 k2 h1 h2 h3 =>
    cases he
    refine ⟨_, _, rfl, h3 _, ?_⟩
    suffices h : (o.exec s).1 = (o.exec s').1 ∧ StoreSim U pid (o.exec s).2 (o.exec s').2 by
      rw [← h.1]
      exact ⟨h3 _, h.2⟩
    cases o with
    | polHas q => exact ⟨(hs.has q).symm, hs⟩
    | polGet q => exact ⟨(hs.others q (fun h => h1 (h ▸ rfl))).symm, hs⟩
    | polSet r => exact absurd rfl (h2 r)
    | polDel q =>
      refine ⟨rfl, hs.edges, hs.data, ?_, fun a ha => ?_, ?_⟩
      · have hf : ∀ m : List (String × PolicyRecord), (kvDel m q).map (·.1) = (m.map (·.1)).filter (fun x => decide (x ≠ q)) := by
          intro m
          unfold kvDel
          rw [List.filter_map]
          rfl
        show (kvDel s'.policies q).map (·.1) = (kvDel s.policies q).map (·.1)
        rw [hf, hf, hs.ids]
      · show kvGet (kvDel s'.policies q) a = kvGet (kvDel s.policies q) a
        rw [kvGet_del, kvGet_del, hs.others a ha]
      · show RecSim U (kvGet (kvDel s.policies q) pid) (kvGet (kvDel s'.policies q) pid)
        rw [kvGet_del, kvGet_del]
        split
        · trivial
        · exact hs.this
    | polList => exact ⟨hs.ids.symm, hs⟩
    | edgeGet q e => exact ⟨by simp only [Op.exec, hs.edges]; rfl, hs⟩
    | edgeList q => exact ⟨by simp only [Op.exec, hs.edges]; rfl, hs⟩
    | edgeSucc q e => exact ⟨by simp only [Op.exec, hs.edges]; rfl, hs⟩
    | dataGet q => exact ⟨by simp only [Op.exec, hs.data]; rfl, hs⟩
    | edgeSet q e r => exact ⟨rfl, { hs with edges := by simp only [Op.exec, Store.setEdges, hs.edges] }⟩
    | edgeDel q e => exact ⟨rfl, { hs with edges := by simp only [Op.exec, Store.setEdges, hs.edges] }⟩
    | dataSet d => exact ⟨rfl, { hs with data := by simp only [Op.exec, hs.data] }⟩
    | dataDel d => exact ⟨rfl, { hs with data := by simp only [Op.exec, hs.data] }⟩

theorem ProgSim.run {U : Unicode} {pid : String} {α : Type} (p : Prog α) : ∀ {p' : Prog α}, ProgSim U pid p p' → ∀ {s s' : Store}, StoreSim U pid s s' →
    (p'.run s').1 = (p.run s).1 ∧ StoreSim U pid (p.run s).2 (p'.run s').2 := by
  induction p with
  | done r => intro p' h s s' hs; cases h; exact ⟨rfl, hs⟩
  | call o k ih =>
    intro p' h s s' hs
    obtain ⟨o', k', rfl, _, h2, h3⟩ := h.step hs rfl
    exact ih _ h2 h3

theorem runCalls_sim {env : Env} {pid : String} (cs : List Call) (h : Call.getPolicy pid ∉ cs) : ∀ {s s' : Store}, StoreSim env.U pid s s' →
    (runCalls env cs s').1 = (runCalls env cs s).1 := by
  induction cs with
  | nil => intro s s' _; rfl
  | cons c cs ih =>
    intro s s' hs
    simp only [List.mem_cons, not_or] at h
    obtain ⟨h1, h2⟩ := (Call.prog_sim env pid (Ne.symm h.1)).run _ hs
    rw [runCalls_cons, runCalls_cons]
    show _ :: _ = _ :: _
    rw [show (serve env c s').1 = (serve env c s).1 from h1, ih h.2 h2]

/-! ### Schedules -/

/-- Requests in flight on two servers, one by one alike. -/
inductive ThreadsSim (U : Unicode) (pid : String) : List (Prog Answer) → List (Prog Answer) → Prop
  | nil : ThreadsSim U pid [] []
  | cons {p p' : Prog Answer} {ts ts' : List (Prog Answer)} : ProgSim U pid p p' → ThreadsSim U pid ts ts' → ThreadsSim U pid (p :: ts) (p' :: ts')

theorem ThreadsSim.append {U : Unicode} {pid : String} {ts ts' us us' : List (Prog Answer)} (h : ThreadsSim U pid ts ts') (g : ThreadsSim U pid us us') :
    ThreadsSim U pid (ts ++ us) (ts' ++ us') := by
  induction h with
  | nil => exact g
  | cons h _ ih => exact .cons h ih

theorem ThreadsSim.split {U : Unicode} {pid : String} {ts₁ ts₂ us : List (Prog Answer)} {p : Prog Answer} (h : ThreadsSim U pid (ts₁ ++ p :: ts₂) us) :
    ∃ us₁ p' us₂, us = us₁ ++ p' :: us₂ ∧ ThreadsSim U pid ts₁ us₁ ∧ ProgSim U pid p p' ∧ ThreadsSim U pid ts₂ us₂ := by
  induction ts₁ generalizing us with
  | nil =>
    cases h with
    | cons h1 h2 => exact ⟨[], _, _, rfl, .nil, h1, h2⟩
  | cons t ts ih =>
    cases h with
    | cons h1 h2 =>
      obtain ⟨a, p', b, rfl, h3, h4, h5⟩ := ih h2
      exact ⟨_ :: a, p', b, rfl, .cons h1 h3, h4, h5⟩

/-- The second server can follow the first through a storage call. -/
theorem ProgSim.opStep {U : Unicode} {pid : String} {o : Op} {k : Option o.Resp → Prog Answer} {p' : Prog Answer} (hp : ProgSim U pid (.call o k) p')
    {s s' t : Store} (hs : StoreSim U pid s s') {resp : Option o.Resp} {b : Bool} (h : OpStep o s resp b t) :
    ∃ (o' : Op) (k' : Option o'.Resp → Prog Answer) (resp' : Option o'.Resp) (t' : Store), p' = .call o' k' ∧ OpStep o' s' resp' b t' ∧
      ProgSim U pid (k resp) (k' resp') ∧ StoreSim U pid t t' := by
  obtain ⟨o', k', rfl, h1, h2, h3⟩ := hp.step hs rfl
  cases h with
  | ok => exact ⟨o', k', _, _, rfl, .ok o' s', h2, h3⟩
  | failBefore => exact ⟨o', k', _, _, rfl, .failBefore o' s', h1, hs⟩
  | failAfter => exact ⟨o', k', _, _, rfl, .failAfter o' s', h1, h3⟩

/-- Two servers, one by one alike. -/
def SysSim (U : Unicode) (pid : String) (x x' : Sys) : Prop := ThreadsSim U pid x.threads x'.threads ∧ StoreSim U pid x.store x'.store

theorem Sys.Path.sim {env : Env} {pid : String} {A : Call → Prop} (hA : ¬ A (.getPolicy pid)) {x x' y : Sys} (h : Sys.Path env A x y)
    (hx : SysSim env.U pid x x') : ∃ y', Sys.Path env A x' y' ∧ SysSim env.U pid y y' := by
  have hne : ∀ c, A c → c ≠ .getPolicy pid := fun c hc he => hA (he ▸ hc)
  induction h with
  | refl => exact ⟨x', .refl, hx⟩
  | @arrive ts s c hc _ ih =>
    obtain ⟨⟨us, t⟩, h1, h2, h3⟩ := ih
    exact ⟨_, .arrive c hc h1, h2.append (.cons (Call.prog_sim env pid (hne c hc)) .nil), h3⟩
  | @op o k ts₁ ts₂ s s' resp b _ ho ih =>
    obtain ⟨⟨us, t⟩, h1, h2, h3⟩ := ih
    obtain ⟨us₁, p', us₂, rfl, h4, h5, h6⟩ := h2.split
    obtain ⟨o', k', resp', t', rfl, h7, h8, h9⟩ := h5.opStep h3 ho
    exact ⟨_, .op h1 h7, h4.append (.cons h8 h6), h9⟩
  | @leave r ts₁ ts₂ s _ ih =>
    obtain ⟨⟨us, t⟩, h1, h2, h3⟩ := ih
    obtain ⟨us₁, p', us₂, rfl, h4, h5, h6⟩ := h2.split
    cases h5
    exact ⟨_, .leave h1, h4.append h6, h3⟩
  | @crash ts s _ ih =>
    obtain ⟨⟨us, t⟩, h1, h2, h3⟩ := ih
    exact ⟨_, .crash h1, .nil, h3⟩

theorem Sys.Flight.sim {env : Env} {pid : String} {A : Call → Prop} (hA : ¬ A (.getPolicy pid)) {x x' y : Sys} {c : Call} {hist : List Store} {t : Prog Answer}
    (hc : c ≠ .getPolicy pid) (h : Sys.Flight env A x c hist y t) (hx : SysSim env.U pid x x') :
    ∃ hist' y' t', Sys.Flight env A x' c hist' y' t' ∧ ProgSim env.U pid t t' ∧ SysSim env.U pid y y' := by
  have hne : ∀ c, A c → c ≠ .getPolicy pid := fun c hc he => hA (he ▸ hc)
  induction h with
  | start hp =>
    obtain ⟨y', h1, h2⟩ := hp.sim hA hx
    exact ⟨_, y', _, .start h1, Call.prog_sim env pid hc, h2⟩
  | @own o k h ts s s' resp b _ ho ih =>
    obtain ⟨l, ⟨us, t⟩, p', h1, h2, h3, h4⟩ := ih
    obtain ⟨o', k', resp', t', rfl, h7, h8, h9⟩ := h2.opStep h4 ho
    exact ⟨_, _, _, .own h1 h7, h8, h3, h9⟩
  | @arrive h ts s t c hc _ ih =>
    obtain ⟨l, ⟨us, t⟩, p', h1, h2, h3, h4⟩ := ih
    exact ⟨_, _, _, .arrive c hc h1, h2, h3.append (.cons (Call.prog_sim env pid (hne c hc)) .nil), h4⟩
  | @op o k h ts₁ ts₂ s s' t resp b _ ho ih =>
    obtain ⟨l, ⟨us, t⟩, p', h1, h2, h3, h4⟩ := ih
    obtain ⟨us₁, q', us₂, rfl, h5, h6, h10⟩ := ThreadsSim.split h3
    obtain ⟨o', k', resp', t', rfl, h7, h8, h9⟩ := h6.opStep h4 ho
    exact ⟨_, _, _, .op h1 h7, h2, h5.append (.cons h8 h10), h9⟩
  | @leave r h ts₁ ts₂ s t _ ih =>
    obtain ⟨l, ⟨us, t⟩, p', h1, h2, h3, h4⟩ := ih
    obtain ⟨us₁, q', us₂, rfl, h5, h6, h10⟩ := ThreadsSim.split h3
    cases h6
    exact ⟨_, _, _, .leave h1, h2, h5.append h10, h4⟩

theorem PolSim.symm {U : Unicode} {p p' : Policy} (h : PolSim U p p') : PolSim U p' p := by
  have hs : ∀ {x y : Option SubjectRestriction}, SameSubjects x y → SameSubjects y x := by
    intro x y h
    unfold SameSubjects at h
    split at h
    · exact fun a => (h a).symm
    · subst h; exact SameSubjects.refl _
  refine ⟨h.id.symm, fun a => (h.resource a).symm, fun a b => ?_, fun a => (h.byName a).symm, fun a b ha => ?_⟩
  · have := h.relation a b
    revert this
    cases (newLut p).getRelation a b <;> cases (newLut p').getRelation a b <;> simp only [RelSim, imp_self]
    exact fun ⟨h1, h2⟩ => ⟨h1.symm, hs h2⟩
  · have : HasResource p a := by
      by_cases hp : HasResource p a
      · exact hp
      · have e1 := h.byName a
        rw [getResourceByName_none.2 hp] at e1
        exact absurd ha (getResourceByName_none.1 (Option.isNone_iff_eq_none.1 e1.symm))
    obtain ⟨x, x', h1, h2, h3⟩ := h.relByName a b this
    exact ⟨x', x, h2, h1, h3.symm⟩

theorem StoreSim.symm {U : Unicode} {pid : String} {s s' : Store} (h : StoreSim U pid s s') : StoreSim U pid s' s := by
  refine ⟨h.edges.symm, h.data.symm, h.ids.symm, fun q hq => (h.others q hq).symm, ?_⟩
  have := h.this
  revert this
  cases kvGet s.policies pid <;> cases kvGet s'.policies pid <;> simp only [RecSim, imp_self]
  exact PolSim.symm

end Zanzi
