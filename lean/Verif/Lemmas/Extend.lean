import Verif.Spec.Extend
import Verif.Lemmas.Rewording
import Verif.Props.Policy
import Verif.Props.Concurrency

/-
A policy that says more answers what was answered.
-/

namespace Zanzi

open Spec Prog

/-- The second result is that of the first if that is a success. -/
def Res.Le {α : Type} (a b : Res α) : Prop := ∀ x, a = .ok x → b = .ok x

theorem Res.Le.refl {α : Type} (a : Res α) : Res.Le a a := fun _ h => h

theorem Res.Le.bind {α β : Type} {a b : Res α} {f g : α → Res β} (h : Res.Le a b) (hf : ∀ x, Res.Le (f x) (g x)) : Res.Le (a >>= f) (b >>= g) := by
  intro y hy
  obtain ⟨x, hx, hfx⟩ := Res.bind_eq_ok.1 hy
  rw [h x hx]
  exact hf x y hfx

theorem Res.Le.ite {b b' : Bool} {e : Err} (h : b' = true → b = true) : Res.Le (if b = true then (.err e : Res Unit) else .ok ()) (if b' = true then .err e else .ok ()) := by
  intro x hx
  cases b with
  | true => cases hx
  | false =>
    cases b' with
    | true => exact absurd (h rfl) (by simp)
    | false => exact hx

/-- What the code reads of the first relation it reads of the second. -/
def RelLe (U : Unicode) : Option Relation → Option Relation → Prop
  | none, _ => True
  | some d, some d' => Res.Le (getExpressionTree U d) (getExpressionTree U d')
  | some _, none => False

/-- What the code reads of the first policy it reads of the second. -/
structure PolLe (U : Unicode) (p p' : Policy) : Prop where
  id : p'.id = p.id
  byName : ∀ a, (p'.getResourceByName a).isNone = true → (p.getResourceByName a).isNone = true
  relation : ∀ a b, RelLe U ((newLut p).getRelation a b) ((newLut p').getRelation a b)
  relByName : ∀ a b, HasResource p a → ∃ x x', getRelationByName (p.getResourceByName a) b = .ok x ∧ getRelationByName (p'.getResourceByName a) b = .ok x' ∧
    (x'.isNone = true → x.isNone = true)
  allowed : ∀ r, Res.Le (allowedRelationship r (newLut p)) (allowedRelationship r (newLut p'))

theorem PolLe.refl (U : Unicode) (p : Policy) : PolLe U p p := by
  refine ⟨rfl, fun _ h => h, fun a b => ?_, fun a b h => ?_, fun r => Res.Le.refl _⟩
  · cases (newLut p).getRelation a b with
    | none => trivial
    | some d => exact Res.Le.refl _
  · cases hr : p.getResourceByName a with
    | none => exact absurd h (getResourceByName_none.1 hr)
    | some r => exact ⟨_, _, rfl, rfl, fun h => h⟩

theorem Extends.relation {U : Unicode} {p p' : Policy} (h : Extends U p p') {a b : String} (hr : HasRelation p a b) : HasRelation p' a b := by
  obtain ⟨d, hd⟩ := hr
  obtain ⟨d', h1, _⟩ := h.kept a b d hd
  exact ⟨d', h1⟩

theorem Extends.admissible {U : Unicode} {p p' : Policy} (h : Extends U p p') {r : Relationship} (ha : Admissible p r) : Admissible p' r := by
  obtain ⟨⟨o, s, ho, hs, h1, h2, h3⟩, o', s', d, sr, ho', hs', h4, h5, h6⟩ := ha
  rw [ho] at ho'
  cases ho'
  rw [hs] at hs'
  cases hs'
  obtain ⟨d', h7, _, h8⟩ := h.kept _ _ _ h4
  obtain ⟨sr', h9, h10⟩ := h8 sr h5
  refine ⟨⟨o, s, ho, hs, h.resources _ h1, Extends.relation h h2, ?_⟩, o, s, d', sr', ho, hs, h7, h9, h10 s h6⟩
  cases s with
  | entity e => exact h.resources _ h3
  | resourceSet n => exact h.resources _ h3
  | entitySet e rel =>
    cases e with
    | none => exact h3
    | some e => exact Extends.relation h h3
  | unset => exact h3

theorem Extends.le {U : Unicode} {p p' : Policy} (h : Extends U p p') (hu : NamesUnique p') (hv : NamesUnique p) : PolLe U p p' := by
  refine ⟨h.id, fun a ha => ?_, fun a b => ?_, fun a b ha => ?_, fun r => ?_⟩
  · rw [Option.isNone_iff_eq_none, getResourceByName_none] at ha ⊢
    exact fun hr => ha (h.resources a hr)
  · cases hd : (newLut p).getRelation a b with
    | none => trivial
    | some d =>
      obtain ⟨d', h1, h2, _⟩ := h.kept a b d (newLut_relation hd)
      rw [(newLut_relation_iff hu).2 h1]
      intro t ht
      exact (getExpressionTree_ok_iff U d' t).2 (h2 t ((getExpressionTree_ok_iff U d t).1 ht))
  · obtain ⟨x, hx, hx'⟩ := getRelationByName_isNone hv (rel := b) ha
    obtain ⟨y, hy, hy'⟩ := getRelationByName_isNone hu (rel := b) (h.resources a ha)
    exact ⟨x, y, hx, hy, fun hn => hx'.2 (fun hr => hy'.1 hn (Extends.relation h hr))⟩
  · intro x hx
    cases r with
    | none => cases hx
    | some r => exact (C12_admission_exact p' hu r).2 (Extends.admissible h ((C12_admission_exact p hv r).1 hx))

section
variable {U : Unicode} {p p' : Policy}

theorem PolLe.selector (h : PolLe U p p') (sel : Option Selector) : Res.Le (validSelector sel p) (validSelector sel p') := by
  have h1 : ∀ o, Res.Le (validObjectSelector o p) (validObjectSelector o p') := by
    intro o
    unfold validObjectSelector
    refine Res.Le.bind (Res.Le.refl _) (fun o => ?_)
    cases o with
    | unset => exact Res.Le.refl _
    | objectSpec => exact Res.Le.ite (h.byName _)
    | resourceSpec => exact Res.Le.ite (h.byName _)
    | wildcard => exact Res.Le.refl _
  have h2 : ∀ s, Res.Le (validSubjectSelector s p) (validSubjectSelector s p') := by
    intro o
    unfold validSubjectSelector
    refine Res.Le.bind (Res.Le.refl _) (fun o => ?_)
    cases o with
    | unset => exact Res.Le.refl _
    | subjectSpec => exact Res.Le.ite (h.byName _)
    | resourceSpec => exact Res.Le.ite (h.byName _)
    | wildcard => exact Res.Le.refl _
  have h3 : ∀ o r, Res.Le (validRelationSelector o r p) (validRelationSelector o r p') := by
    intro o r
    have key : ∀ n (o : Option ObjectSelector), Res.Le (do
        let o ← Res.deref o
        let resource := p.getResourceByName (objectSelectorResourceName o)
        let relation ← getRelationByName resource n
        if relation.isNone then (.err .relationNotFound : Res Unit) else .ok ()) (do
        let o ← Res.deref o
        let resource := p'.getResourceByName (objectSelectorResourceName o)
        let relation ← getRelationByName resource n
        if relation.isNone then .err .relationNotFound else .ok ()) := by
      intro n o
      refine Res.Le.bind (Res.Le.refl _) (fun o => ?_)
      dsimp only
      by_cases ha : HasResource p (objectSelectorResourceName o)
      · obtain ⟨x, x', hx, hx', hn⟩ := h.relByName _ n ha
        rw [hx, hx']
        simp only [Res.bind_ok]
        exact Res.Le.ite hn
      · rw [getResourceByName_none.2 ha]
        intro x hx
        cases hx
    unfold validRelationSelector
    cases r with
    | none => exact key _ _
    | some r => cases r with
      | wildcard => exact Res.Le.refl _
      | relationName n => exact key _ _
      | unset => exact key _ _
  unfold validSelector
  exact Res.Le.bind (Res.Le.refl _) (fun sel => Res.Le.bind (h1 _) (fun _ => Res.Le.bind (h3 _ _) (fun _ => h2 _)))

end

/-! ### Programs and stores -/

/-- Two answers to a read of a policy of which the second says more. -/
def RecLe (U : Unicode) : Option PolicyRecord → Option PolicyRecord → Prop
  | none, none => True
  | some r, some r' => PolLe U r.policy r'.policy
  | _, _ => False

theorem RecLe.refl (U : Unicode) (x : Option PolicyRecord) : RecLe U x x := by
  cases x with
  | none => trivial
  | some r => exact PolLe.refl U _

theorem RecLe.some_eq {U : Unicode} {x y : Option PolicyRecord} (h : RecLe U x y) : x.isSome = y.isSome := by
  cases x <;> cases y <;> simp_all [RecLe]

/-- The second program makes the storage calls of the first and ends alike unless the first ends without success, the policies they read at `pid` being one and one that says more. -/
inductive ProgLe (U : Unicode) (pid : String) {α : Type} : Prog α → Prog α → Prop
  | done (r : Res α) : ProgLe U pid (.done r) (.done r)
  | fail {r : Res α} (p : Prog α) : (∀ a, r ≠ .ok a) → ProgLe U pid (.done r) p
  | get {k k' : Option (Option PolicyRecord) → Prog α} : ProgLe U pid (k none) (k' none) →
      (∀ x x', RecLe U x x' → ProgLe U pid (k (some x)) (k' (some x'))) → ProgLe U pid (.call (.polGet pid) k) (.call (.polGet pid) k')
  | put {r r' : PolicyRecord} {k k' : Option Unit → Prog α} : r'.policy.id = r.policy.id → (r.policy.id ≠ pid → r' = r) → RecLe U (some r) (some r') →
      (∀ x, ProgLe U pid (k x) (k' x)) → ProgLe U pid (.call (.polSet r) k) (.call (.polSet r') k')
  | other {o : Op} {k k' : Option o.Resp → Prog α} : o ≠ .polGet pid → (∀ r, o ≠ .polSet r) → (∀ x, ProgLe U pid (k x) (k' x)) →
      ProgLe U pid (.call o k) (.call o k')

section
variable {U : Unicode} {pid : String}

theorem ProgLe.bind {α β : Type} {p p' : Prog α} {k k' : α → Prog β} (h : ProgLe U pid p p')
    (hk : ∀ a, ProgLe U pid (k a) (k' a)) : ProgLe U pid (p >>= k) (p' >>= k') := by
  show ProgLe U pid (p.bind k) (p'.bind k')
  induction h with
  | done r => cases r <;> first | exact hk _ | exact .done _
  | @fail r p hr => cases r <;> first | exact absurd rfl (hr _) | exact .fail _ nofun
  | get _ _ ih1 ih2 => exact .get ih1 ih2
  | put h1 h2 h3 _ ih => exact .put h1 h2 h3 ih
  | other h1 h2 _ ih => exact .other h1 h2 ih

theorem ProgLe.lift {α : Type} {a b : Res α} (h : Res.Le a b) : ProgLe U pid (Prog.lift a) (Prog.lift b) := by
  cases a with
  | ok x => rw [h x rfl]; exact .done _
  | err => exact .fail _ nofun
  | panic => exact .fail _ nofun
  | fuel => exact .fail _ nofun

theorem ProgLe.of_ops {α : Type} {p : Prog α} (h : p.AllOps (fun o => o ≠ .polGet pid)) : ProgLe U pid p p := by
  induction h with
  | done r => exact .done r
  | @call o k ho _ ih =>
    cases o with
    | polSet r => exact .put rfl (fun _ => rfl) (RecLe.refl U _) ih
    | polGet q => exact .other ho nofun ih
    | _ => exact .other nofun nofun ih

theorem ProgLe.of_noGet {α : Type} {p : Prog α} (h : p.AllOps noPolGet) : ProgLe U pid p p := .of_ops (h.mono (fun _ => noPolGet.ne))

theorem ProgLe.getPolicy {q : String} {α : Type} {k k' : Option PolicyRecord → Prog α}
    (h : ∀ x x', RecLe U x x' → (q ≠ pid → x' = x) → ProgLe U pid (k x) (k' x')) : ProgLe U pid (Repo.getPolicy q >>= k) (Repo.getPolicy q >>= k') := by
  by_cases hq : q = pid
  · subst hq
    exact .get (.done _) (fun x x' hx => h x x' hx (fun h => absurd rfl h))
  · refine .other (o := .polGet q) (by simpa using hq) nofun (fun x => ?_)
    cases x with
    | none => exact .done _
    | some x => exact h x x (RecLe.refl U x) (fun _ => rfl)

theorem ProgLe.graphPolicy {q : String} {α : Type} {k k' : PolicyRecord → Prog α}
    (h : ∀ r r', PolLe U r.policy r'.policy → ProgLe U pid (k r) (k' r')) :
    ProgLe U pid (GraphService.getPolicy q >>= k) (GraphService.getPolicy q >>= k') := by
  have hb : ∀ k : PolicyRecord → Prog α, (GraphService.getPolicy q >>= k) = (Repo.getPolicy q >>= fun x => (match x with
      | none => Prog.lift (.err .policyNotFound)
      | some r => (pure r : Prog PolicyRecord)) >>= k) := by
    intro k
    show Prog.call _ _ = Prog.call _ _
    congr 1
    funext x
    cases x <;> rfl
  rw [hb, hb]
  refine ProgLe.getPolicy (fun x x' hx _ => ?_)
  cases x <;> cases x' <;> simp only [RecLe] at hx
  · exact .done _
  · exact h _ _ hx

end

/-! ### The search -/

section
variable {env : Env} {p p' : Policy} {pid : String}

theorem PolLe.tree (h : PolLe env.U p p') (n : RelationNode) : ProgLe env.U pid (buildTree env p n) (buildTree env p' n) := by
  cases n with
  | unset => exact .done _
  | entity => exact .done _
  | wildcard => exact .done _
  | entitySet o rel =>
    unfold buildTree
    dsimp only
    refine ProgLe.bind (.done _) (fun o' => ?_)
    have := h.relation o'.resource rel
    cases hd : (newLut p).getRelation o'.resource rel with
    | none => exact .fail _ nofun
    | some d =>
      cases hd' : (newLut p').getRelation o'.resource rel with
      | none => rw [hd, hd'] at this; exact this.elim
      | some d' =>
        rw [hd, hd'] at this
        dsimp only
        rw [h.id]
        exact ProgLe.bind (ProgLe.lift this) (fun t => .of_noGet (buildGoalTree_ops (fun _ => trivial) _ _ _))

mutual
theorem searchTree_le {f g : RelationNode → String → List Nat → Prog (GoalTree × List Nat)} (h : ∀ a b c, ProgLe env.U pid (f a b c) (g a b c)) :
    ∀ (t : GoalTree) (seen : List Nat), ProgLe env.U pid (searchTree f t seen) (searchTree g t seen)
  | .or _ ps, seen => by
    unfold searchTree
    exact ProgLe.bind (searchOr_le h ps seen) (fun _ => .done _)
  | .and _ ps, seen => by
    unfold searchTree
    exact ProgLe.bind (searchAnd_le h ps seen) (fun _ => .done _)
  | .diff _ l r, seen => by
    unfold searchTree
    exact ProgLe.bind (searchTree_le h l seen) (fun x => ProgLe.bind (searchTree_le h r x.2) (fun _ => .done _))
  | .leaf _ n r, seen => by
    unfold searchTree
    exact h _ _ _
  | .path _ n r _, seen => by
    unfold searchTree
    exact h _ _ _
theorem searchOr_le {f g : RelationNode → String → List Nat → Prog (GoalTree × List Nat)} (h : ∀ a b c, ProgLe env.U pid (f a b c) (g a b c)) :
    ∀ (ts : List GoalTree) (seen : List Nat), ProgLe env.U pid (searchOr f ts seen) (searchOr g ts seen)
  | [], seen => by unfold searchOr; exact .done _
  | t :: ts, seen => by
    unfold searchOr
    refine ProgLe.bind (searchTree_le h t seen) (fun x => ?_)
    dsimp only
    split
    · exact .done _
    · exact ProgLe.bind (searchOr_le h ts _) (fun _ => .done _)
theorem searchAnd_le {f g : RelationNode → String → List Nat → Prog (GoalTree × List Nat)} (h : ∀ a b c, ProgLe env.U pid (f a b c) (g a b c)) :
    ∀ (ts : List GoalTree) (seen : List Nat), ProgLe env.U pid (searchAnd f ts seen) (searchAnd g ts seen)
  | [], seen => by unfold searchAnd; exact .done _
  | t :: ts, seen => by
    unfold searchAnd
    refine ProgLe.bind (searchTree_le h t seen) (fun x => ?_)
    dsimp only
    split
    · exact .done _
    · exact ProgLe.bind (searchAnd_le h ts _) (fun _ => .done _)
end

theorem PolLe.searchPath (h : PolLe env.U p p') (goal : Option RelationNode) (n : Nat) : ∀ node reason seen,
    ProgLe env.U pid (searchPath env p goal n node reason seen) (searchPath env p' goal n node reason seen) := by
  induction n with
  | zero => intro _ _ _; exact .done _
  | succ n ih =>
    intro node reason seen
    unfold Zanzi.searchPath
    refine ProgLe.bind (.done _) (fun id => ?_)
    split
    · exact .done _
    · refine ProgLe.bind (.done _) (fun found => ?_)
      split
      · exact .done _
      · exact ProgLe.bind (h.tree node) (fun t => ProgLe.bind (searchTree_le ih t _) (fun _ => .done _))

theorem PolLe.searchGoal (h : PolLe env.U p p') (n : Nat) (origin goal : Option RelationNode) :
    ProgLe env.U pid (searchGoal env n p origin goal) (searchGoal env n p' origin goal) := by
  unfold Zanzi.searchGoal
  split
  · exact .done _
  · exact ProgLe.bind (.done _) (fun _ => ProgLe.bind (h.searchPath _ _ _ _ _) (fun _ => .done _))

end

/-- A request other than GetPolicy of `pid` gets from the policy that says more what it gets from the other, if it gets something. -/
theorem Call.prog_le (env : Env) (pid : String) {c : Call} (h : c ≠ .getPolicy pid) : ProgLe env.U pid (c.prog env) (c.prog env) := by
  have e := fun q => edgeOps env.H q
  have hbulk : ∀ q sel, (Repo.deleteRelationships env.H q sel).AllOps noPolGet := fun q sel =>
    AllOps.bind ((e q).2.1 sel) (fun _ => AllOps.bind (AllOps.mapSlice (fun r _ => (e q).1 _)) (fun _ => .done _))
  have of : ∀ {α : Type} {p : Prog α}, p.AllOps noPolGet → ProgLe env.U pid p p := fun hp => .of_noGet hp
  cases c with
  | getPolicy q =>
    refine ProgLe.bind (.of_ops (AllOps.op ?_)) (fun _ => .done _)
    intro hq
    cases hq
    exact h rfl
  | listPolicyIds => exact of (AllOps.bind (AllOps.op trivial) (fun _ => .done _))
  | deletePolicy q =>
    refine of (AllOps.bind (AllOps.bind (AllOps.bind (AllOps.op trivial) (fun x => ?_)) (fun x => ?_)) (fun _ => .done _))
    · cases x
      · exact .done _
      · exact AllOps.bind (AllOps.op trivial) (fun _ => .done _)
    · cases x
      · exact .done _
      · exact AllOps.bind (hbulk _ _) (fun _ => .done _)
  | deleteRelationship q r => exact of (AllOps.bind ((e q).1 r) (fun _ => .done _))
  | getRelationship q r => exact of (AllOps.bind ((e q).2.2 r) (fun _ => .done _))
  | deleteRelationships q sel => exact of (AllOps.bind (hbulk q sel) (fun _ => .done _))
  | createPolicy now d a =>
    refine ProgLe.bind (ProgLe.bind (.done _) (fun p => ProgLe.getPolicy (fun x x' hx _ => ?_))) (fun _ => .done _)
    cases x <;> cases x' <;> simp only [RecLe] at hx
    · refine ProgLe.bind (.done _) (fun _ => ProgLe.bind (of ?_) (fun _ => .done _))
      exact AllOps.bind (AllOps.op trivial) (fun _ => AllOps.bind (AllOps.op trivial) (fun _ => .done _))
    · exact .done _
  | updatePolicy d a =>
    refine ProgLe.bind (ProgLe.bind (.done _) (fun p => ProgLe.getPolicy (fun x x' hx hq => ?_))) (fun _ => .done _)
    cases x <;> cases x' <;> simp only [RecLe] at hx
    · exact .done _
    · rename_i r r'
      refine ProgLe.bind (.done _) (fun _ => ProgLe.bind (ProgLe.bind (of (AllOps.op trivial)) (fun _ => ProgLe.bind ?_ (fun _ => .done _))) (fun _ => .done _))
      refine .put rfl (fun hne => ?_) (PolLe.refl _ _) (fun x => by cases x <;> exact .done _)
      have := hq hne
      cases this
      rfl
  | setRelationship now q r a =>
    refine ProgLe.bind (ProgLe.getPolicy (fun x x' hx _ => ?_)) (fun _ => .done _)
    cases x <;> cases x' <;> simp only [RecLe] at hx
    · exact .done _
    · dsimp only
      refine ProgLe.bind (ProgLe.lift (hx.allowed _)) (fun _ => ProgLe.bind (.done _) (fun _ => of ?_))
      exact AllOps.bind (AllOps.lift _) (fun _ => AllOps.bind (AllOps.op trivial) (fun _ => AllOps.bind (AllOps.op trivial) (fun _ =>
        AllOps.bind (AllOps.op trivial) (fun _ => .done _))))
  | findRelationshipRecords q sel =>
    refine ProgLe.bind (ProgLe.getPolicy (fun x x' hx _ => ?_)) (fun _ => .done _)
    cases x <;> cases x' <;> simp only [RecLe] at hx
    · exact .done _
    · dsimp only
      exact ProgLe.bind (ProgLe.lift (hx.selector _)) (fun _ => of (AllOps.bind ((e q).2.1 sel) (fun _ => AllOps.mapSlice (fun r _ => (e q).2.2 _))))
  | check fuel q req =>
    refine ProgLe.bind (ProgLe.graphPolicy (fun r r' hx => ?_)) (fun _ => .done _)
    unfold GraphService.checkTree
    exact ProgLe.bind (ProgLe.bind (.done _) (fun _ => hx.searchGoal _ _ _)) (fun _ => .done _)
  | explainCheck fuel q req f =>
    refine ProgLe.bind (ProgLe.bind (.done _) (fun _ => ProgLe.graphPolicy (fun r r' hx => ?_))) (fun _ => .done _)
    unfold GraphService.checkTree
    exact ProgLe.bind (ProgLe.bind (.done _) (fun _ => hx.searchGoal _ _ _)) (fun _ => ProgLe.bind (.done _) (fun _ => .done _))
  | expand fuel q root f =>
    refine ProgLe.bind (ProgLe.bind (.done _) (fun _ => ProgLe.graphPolicy (fun r r' hx => ?_))) (fun _ => .done _)
    exact ProgLe.bind (hx.searchGoal _ _ _) (fun _ => ProgLe.bind (.done _) (fun _ => .done _))
  | dumpRelationships fuel order q f =>
    refine ProgLe.bind (ProgLe.graphPolicy (fun r r' hx => ?_)) (fun _ => .done _)
    simp only [hx.id]
    refine of (AllOps.bind (AllOps.bind (AllOps.op trivial) (fun _ => .done _)) (fun _ => AllOps.bind (AllOps.lift _) (fun _ => ?_)))
    cases f <;> exact .done _

/-- Two stores that differ only in policy `pid`, of which the second says more. -/
structure StoreLe (U : Unicode) (pid : String) (s s' : Store) : Prop where
  edges : s'.edges = s.edges
  data : s'.data = s.data
  ids : s'.policies.map (·.1) = s.policies.map (·.1)
  others : ∀ q, q ≠ pid → kvGet s'.policies q = kvGet s.policies q
  this : RecLe U (kvGet s.policies pid) (kvGet s'.policies pid)

section
variable {U : Unicode} {pid : String}

theorem StoreLe.has {s s' : Store} (h : StoreLe U pid s s') (q : String) : (kvGet s'.policies q).isSome = (kvGet s.policies q).isSome := by
  by_cases hq : q = pid
  · subst hq; exact h.this.some_eq.symm
  · rw [h.others q hq]

/-- The calls the two programs of a pair make next. -/
theorem ProgLe.step {α : Type} {p p' : Prog α} (hp : ProgLe U pid p p') {s s' : Store} (hs : StoreLe U pid s s') {o : Op}
    {k : Option o.Resp → Prog α} (he : p = .call o k) : ∃ o' k', p' = .call o' k' ∧ ProgLe U pid (k none) (k' none) ∧
      ProgLe U pid (k (some (o.exec s).1)) (k' (some (o'.exec s').1)) ∧ StoreLe U pid (o.exec s).2 (o'.exec s').2 := by
  cases hp with
  | done r => cases he
  | fail => cases he
  | get h1 h2 =>
    cases he
    exact ⟨_, _, rfl, h1, h2 _ _ hs.this, hs⟩
  | @put r r' k1 k2 h1 h2 h3 h4 =>
    cases he
    refine ⟨_, _, rfl, h4 _, h4 _, hs.edges, hs.data, ?_, fun q hq => ?_, ?_⟩
    · show (kvPut strLt s'.policies r'.policy.id r').map (·.1) = (kvPut strLt s.policies r.policy.id r).map (·.1)
      rw [h1]
      exact kvPut_keys hs.ids (hs.has _)
    · show kvGet (kvPut strLt s'.policies r'.policy.id r') q = kvGet (kvPut strLt s.policies r.policy.id r) q
      rw [h1, kvGet_put, kvGet_put]
      by_cases hqr : q = r.policy.id
      · rw [if_pos hqr, if_pos hqr, h2 (hqr ▸ hq)]
      · rw [if_neg hqr, if_neg hqr, hs.others q hq]
    · show RecLe U (kvGet (kvPut strLt s.policies r.policy.id r) pid) (kvGet (kvPut strLt s'.policies r'.policy.id r') pid)
      rw [h1, kvGet_put, kvGet_put]
      split
      · exact h3
      · exact hs.this
  | @other o k1 k2 h1 h2 h3 =>
    cases he
    refine ⟨_, _, rfl, h3 _, ?_⟩
    suffices h : (o.exec s).1 = (o.exec s').1 ∧ StoreLe U pid (o.exec s).2 (o.exec s').2 by
      rw [← h.1]
      exact ⟨h3 _, h.2⟩
    cases o with
    | polHas q => exact ⟨(hs.has q).symm, hs⟩
    | polGet q => exact ⟨(hs.others q (fun h => h1 (h ▸ rfl))).symm, hs⟩
    | polSet r => exact absurd rfl (h2 r)
    | polDel q =>
      refine ⟨rfl, hs.edges, hs.data, ?_, fun a ha => ?_, ?_⟩
      · have hf : ∀ m : List (String × PolicyRecord), (kvDel m q).map (·.1) = (m.map (·.1)).filter (fun x => decide (x ≠ q)) := by
          intro m
          unfold kvDel
          rw [List.filter_map]
          rfl
        show (kvDel s'.policies q).map (·.1) = (kvDel s.policies q).map (·.1)
        rw [hf, hf, hs.ids]
      · show kvGet (kvDel s'.policies q) a = kvGet (kvDel s.policies q) a
        rw [kvGet_del, kvGet_del, hs.others a ha]
      · show RecLe U (kvGet (kvDel s.policies q) pid) (kvGet (kvDel s'.policies q) pid)
        rw [kvGet_del, kvGet_del]
        split
        · trivial
        · exact hs.this
    | polList => exact ⟨hs.ids.symm, hs⟩
    | edgeGet q e => exact ⟨by simp only [Op.exec, hs.edges]; rfl, hs⟩
    | edgeList q => exact ⟨by simp only [Op.exec, hs.edges]; rfl, hs⟩
    | edgeSucc q e => exact ⟨by simp only [Op.exec, hs.edges]; rfl, hs⟩
    | dataGet q => exact ⟨by simp only [Op.exec, hs.data]; rfl, hs⟩
    | edgeSet q e r => exact ⟨rfl, { hs with edges := by simp only [Op.exec, Store.setEdges, hs.edges] }⟩
    | edgeDel q e => exact ⟨rfl, { hs with edges := by simp only [Op.exec, Store.setEdges, hs.edges] }⟩
    | dataSet d => exact ⟨rfl, { hs with data := by simp only [Op.exec, hs.data] }⟩
    | dataDel d => exact ⟨rfl, { hs with data := by simp only [Op.exec, hs.data] }⟩

theorem ProgLe.run {α : Type} (p : Prog α) : ∀ {p' : Prog α}, ProgLe U pid p p' → ∀ {s s' : Store}, StoreLe U pid s s' → ∀ {a : α}, (p.run s).1 = .ok a →
    (p'.run s').1 = .ok a ∧ StoreLe U pid (p.run s).2 (p'.run s').2 := by
  induction p with
  | done r =>
    intro p' h s s' hs a ha
    cases h with
    | done => exact ⟨ha, hs⟩
    | fail _ hr => exact absurd ha (hr a)
  | call o k ih =>
    intro p' h s s' hs a ha
    obtain ⟨o', k', rfl, _, h2, h3⟩ := h.step hs rfl
    exact ih _ h2 h3 ha

end

theorem LooksOnly.same {env : Env} {c : Call} (h : LooksOnly c) (s : Store) : (serve env c s).2 = s := by
  refine (C34_reads_never_write env c ?_).1 s
  cases c <;> exact h

theorem runCalls_le {env : Env} {pid : String} (cs : List Call) (h : Call.getPolicy pid ∉ cs) : ∀ {s s' : Store}, StoreLe env.U pid s s' → WritesDone cs (runCalls env cs s).1 →
    PlaceByPlace Kept (runCalls env cs s).1 (runCalls env cs s').1 := by
  induction cs with
  | nil => intro s s' _ _; trivial
  | cons c cs ih =>
    intro s s' hs hw
    simp only [List.mem_cons, not_or] at h
    rw [runCalls_cons] at hw ⊢
    rw [runCalls_cons]
    have hle := Call.prog_le env pid (Ne.symm h.1)
    refine ⟨fun a ha => (hle.run _ hs ha).1, ih h.2 ?_ (fun c' r hm => hw c' r (List.mem_cons_of_mem _ hm))⟩
    rcases hw c _ (List.mem_cons_self ..) with hl | ⟨a, ha⟩
    · rw [LooksOnly.same hl, LooksOnly.same hl]
      exact hs
    · exact (hle.run _ hs ha).2

/-! ### Schedules -/

/-- Requests in flight on two servers: those of the first and, possibly, others between them that the first has already turned down. -/
inductive ThreadsLe (U : Unicode) (pid : String) : List (Prog Answer) → List (Prog Answer) → Prop
  | nil : ThreadsLe U pid [] []
  | cons {p p' : Prog Answer} {ts ts' : List (Prog Answer)} : ProgLe U pid p p' → ThreadsLe U pid ts ts' → ThreadsLe U pid (p :: ts) (p' :: ts')
  | extra {p' : Prog Answer} {ts ts' : List (Prog Answer)} : ThreadsLe U pid ts ts' → ThreadsLe U pid ts (p' :: ts')

section
variable {U : Unicode} {pid : String}

theorem ThreadsLe.append {ts ts' us us' : List (Prog Answer)} (h : ThreadsLe U pid ts ts') (g : ThreadsLe U pid us us') : ThreadsLe U pid (ts ++ us) (ts' ++ us') := by
  induction h with
  | nil => exact g
  | cons h _ ih => exact .cons h ih
  | extra _ ih => exact .extra ih

theorem ThreadsLe.split {ts us : List (Prog Answer)} (h : ThreadsLe U pid ts us) : ∀ {ts₁ ts₂ : List (Prog Answer)} {p : Prog Answer}, ts = ts₁ ++ p :: ts₂ →
    ∃ us₁ p' us₂, us = us₁ ++ p' :: us₂ ∧ ThreadsLe U pid ts₁ us₁ ∧ ProgLe U pid p p' ∧ ThreadsLe U pid ts₂ us₂ := by
  induction h with
  | nil => intro ts₁ ts₂ p he; cases ts₁ <;> cases he
  | cons h1 h2 ih =>
    intro ts₁ ts₂ p he
    cases ts₁ with
    | nil => cases he; exact ⟨[], _, _, rfl, .nil, h1, h2⟩
    | cons t ts₁ =>
      cases he
      obtain ⟨a, p', b, rfl, h3, h4, h5⟩ := ih rfl
      exact ⟨_ :: a, p', b, rfl, .cons h1 h3, h4, h5⟩
  | extra _ ih =>
    intro ts₁ ts₂ p he
    obtain ⟨a, p', b, rfl, h3, h4, h5⟩ := ih he
    exact ⟨_ :: a, p', b, rfl, .extra h3, h4, h5⟩

/-- The second server can follow the first through a storage call. -/
theorem ProgLe.opStep {o : Op} {k : Option o.Resp → Prog Answer} {p' : Prog Answer} (hp : ProgLe U pid (.call o k) p')
    {s s' t : Store} (hs : StoreLe U pid s s') {resp : Option o.Resp} {b : Bool} (h : OpStep o s resp b t) :
    ∃ (o' : Op) (k' : Option o'.Resp → Prog Answer) (resp' : Option o'.Resp) (t' : Store), p' = .call o' k' ∧ OpStep o' s' resp' b t' ∧
      ProgLe U pid (k resp) (k' resp') ∧ StoreLe U pid t t' := by
  obtain ⟨o', k', rfl, h1, h2, h3⟩ := hp.step hs rfl
  cases h with
  | ok => exact ⟨o', k', _, _, rfl, .ok o' s', h2, h3⟩
  | failBefore => exact ⟨o', k', _, _, rfl, .failBefore o' s', h1, hs⟩
  | failAfter => exact ⟨o', k', _, _, rfl, .failAfter o' s', h1, h3⟩

end

/-- Two servers of which the second has the policy that says more. -/
def SysLe (U : Unicode) (pid : String) (x x' : Sys) : Prop := ThreadsLe U pid x.threads x'.threads ∧ StoreLe U pid x.store x'.store

theorem Sys.Path.le {env : Env} {pid : String} {A : Call → Prop} (hA : ¬ A (.getPolicy pid)) {x x' y : Sys} (h : Sys.Path env A x y)
    (hx : SysLe env.U pid x x') : ∃ y', Sys.Path env A x' y' ∧ SysLe env.U pid y y' := by
  have hne : ∀ c, A c → c ≠ .getPolicy pid := fun c hc he => hA (he ▸ hc)
  induction h with
  | refl => exact ⟨x', .refl, hx⟩
  | @arrive ts s c hc _ ih =>
    obtain ⟨⟨us, t⟩, h1, h2, h3⟩ := ih
    exact ⟨_, .arrive c hc h1, h2.append (.cons (Call.prog_le env pid (hne c hc)) .nil), h3⟩
  | @op o k ts₁ ts₂ s s' resp b _ ho ih =>
    obtain ⟨⟨us, t⟩, h1, h2, h3⟩ := ih
    obtain ⟨us₁, p', us₂, rfl, h4, h5, h6⟩ := h2.split rfl
    obtain ⟨o', k', resp', t', rfl, h7, h8, h9⟩ := h5.opStep h3 ho
    exact ⟨_, .op h1 h7, h4.append (.cons h8 h6), h9⟩
  | @leave r ts₁ ts₂ s _ ih =>
    obtain ⟨⟨us, t⟩, h1, h2, h3⟩ := ih
    obtain ⟨us₁, p', us₂, rfl, h4, h5, h6⟩ := h2.split rfl
    cases h5 with
    | done => exact ⟨_, .leave h1, h4.append h6, h3⟩
    | fail => exact ⟨_, h1, h4.append (.extra h6), h3⟩
  | @crash ts s _ ih =>
    obtain ⟨⟨us, t⟩, h1, h2, h3⟩ := ih
    exact ⟨_, .crash h1, .nil, h3⟩

theorem Sys.Flight.le {env : Env} {pid : String} {A : Call → Prop} (hA : ¬ A (.getPolicy pid)) {x x' y : Sys} {c : Call} {hist : List Store} {t : Prog Answer}
    (hc : c ≠ .getPolicy pid) (h : Sys.Flight env A x c hist y t) (hx : SysLe env.U pid x x') :
    ∃ hist' y' t', Sys.Flight env A x' c hist' y' t' ∧ ProgLe env.U pid t t' ∧ SysLe env.U pid y y' := by
  have hne : ∀ c, A c → c ≠ .getPolicy pid := fun c hc he => hA (he ▸ hc)
  induction h with
  | start hp =>
    obtain ⟨y', h1, h2⟩ := hp.le hA hx
    exact ⟨_, y', _, .start h1, Call.prog_le env pid hc, h2⟩
  | @own o k h ts s s' resp b _ ho ih =>
    obtain ⟨l, ⟨us, t⟩, p', h1, h2, h3, h4⟩ := ih
    obtain ⟨o', k', resp', t', rfl, h7, h8, h9⟩ := h2.opStep h4 ho
    exact ⟨_, _, _, .own h1 h7, h8, h3, h9⟩
  | @arrive h ts s t c hc _ ih =>
    obtain ⟨l, ⟨us, t⟩, p', h1, h2, h3, h4⟩ := ih
    exact ⟨_, _, _, .arrive c hc h1, h2, h3.append (.cons (Call.prog_le env pid (hne c hc)) .nil), h4⟩
  | @op o k h ts₁ ts₂ s s' t resp b _ ho ih =>
    obtain ⟨l, ⟨us, t⟩, p', h1, h2, h3, h4⟩ := ih
    obtain ⟨us₁, q', us₂, rfl, h5, h6, h10⟩ := ThreadsLe.split h3 rfl
    obtain ⟨o', k', resp', t', rfl, h7, h8, h9⟩ := h6.opStep h4 ho
    exact ⟨_, _, _, .op h1 h7, h2, h5.append (.cons h8 h10), h9⟩
  | @leave r h ts₁ ts₂ s t _ ih =>
    obtain ⟨l, ⟨us, t⟩, p', h1, h2, h3, h4⟩ := ih
    obtain ⟨us₁, q', us₂, rfl, h5, h6, h10⟩ := ThreadsLe.split h3 rfl
    cases h6 with
    | done => exact ⟨_, _, _, .leave h1, h2, h5.append h10, h4⟩
    | fail => exact ⟨_, _, _, h1, h2, h5.append (.extra h10), h4⟩

end Zanzi
