import Verif.Spec.Flatten
import Verif.Props.Expansion
import Verif.Props.Unions
import Verif.Lemmas.Involved
import Verif.Props.Types

/-
Property C111: a group can be replaced by its members.
Specification: Spec/Flatten.lean, Spec/Graph.lean.
-/

namespace Zanzi

open Spec

section
variable {U : Unicode} {p : Policy} {R R' : Relationship → Prop} {u : Entity} {x y z : USet} {M : Subject → Prop}

theorem exprIn_map {V V' : USet → Prop} {w : USet} {e : ExprTree} (hd : DiffFree e) (h : ∀ r ∈ leaves e, RuleIn R u V w r → RuleIn R' u V' w r) (he : ExprIn R u V w e) :
    ExprIn R' u V' w e := by
  induction e with
  | nil => exact he
  | unset => exact he
  | rule r => exact h r (by simp [leaves]) he
  | op l o r ihl ihr =>
    have h1 := fun q hq => h q (List.mem_append_left (leaves r) hq)
    have h2 := fun q hq => h q (List.mem_append_right (leaves l) hq)
    cases o with
    | union => exact he.imp (ihl hd.1 h1) (ihr hd.2 h2)
    | intersection => exact he.imp (ihl hd.1 h1) (ihr hd.2 h2)
    | difference => exact hd.elim
    | unknown => exact he

theorem immediate_in {m : Subject} (h : Immediate m) {V V' : USet → Prop} (hs : SubjectIn V u m) : SubjectIn V' u m := by
  cases m <;> first | exact hs | exact h.elim

/-- Rules carry over to other relationships, for usersets within reach. -/
theorem ruleIn_reach (z : USet) {V V' : USet → Prop} {w : USet} {t : ExprTree} (hz : Reaches U p R z w.node) (hd : DefinedBy U p w t)
    (hV : ∀ v, Reaches U p R z v.node → V v → V' v) (hthis : ∀ sub, R ⟨some w.object, w.relation, some sub⟩ → R' ⟨some w.object, w.relation, some sub⟩ ∨
      (SubjectIn V' u sub → ∃ m, R' ⟨some w.object, w.relation, some m⟩ ∧ SubjectIn V' u m))
    (harr : ∀ a b sub, .ttu a b ∈ leaves t → R ⟨some w.object, a, some sub⟩ → R' ⟨some w.object, a, some sub⟩) :
    ∀ r ∈ leaves t, RuleIn R u V w r → RuleIn R' u V' w r := by
  intro r hr h
  cases r with
  | unset => exact h
  | cu c => exact hV ⟨w.object, c⟩ (.step hz (.cu hd hr)) h
  | ttu a b =>
    obtain ⟨sub, e, h1, h2, h3⟩ := h
    exact ⟨sub, e, harr a b sub hr h1, h2, hV ⟨e, b⟩ (.step hz (.arrow hd hr h1 h2)) h3⟩
  | this =>
    obtain ⟨sub, h1, h2⟩ := h
    have h3 : SubjectIn V' u sub := by
      match sub, h1, h2 with
      | .entity e, _, h2 => exact h2
      | .resourceSet n, _, h2 => exact h2
      | .entitySet (some e) rel, h1, h2 => exact hV ⟨e, rel⟩ (.step hz (.this hd hr h1)) h2
    rcases hthis sub h1 with h | h
    · exact ⟨sub, h, h3⟩
    · obtain ⟨m, h4, h5⟩ := h h3
      exact ⟨m, h4, h5⟩

/-- Closure of what is granted, without differences. -/
theorem granted_of {t : ExprTree} {w : USet} (hd : DefinedBy U p w t) (hdf : DiffFree t) (h : ExprIn R u (Granted U p R u) w t) : Granted U p R u w :=
  fun V hV => hV w ⟨t, hd, ExprIn.monoV (fun _ hv => hv V hV) hdf h⟩

/-- What the rules give does not change when a userset is replaced by subjects that list it. -/
theorem granted_replaced (hr : Replaces x y M R R') (hm : Lists U p R y M u) (hn : NoTupleset U p x.object.resource x.relation) (hd : ExprsFrom U p R z DiffFree)
    (hd' : ExprsFrom U p R' z DiffFree) : Granted U p R u z ↔ Granted U p R' u z := by
  constructor
  · intro h
    refine (h (fun w => Reaches U p R z w.node → Granted U p R u w ∧ Granted U p R' u w) ?_ .start).2
    rintro w ⟨t, hw, he⟩ hz
    have hdf := hd w t hz hw
    have h1 : Granted U p R u w := granted_of hw hdf (exprIn_map hdf (ruleIn_reach z hz hw (fun v hv h => (h hv).1) (fun _ h => .inl h) (fun _ _ _ _ h => h)) he)
    have h2 : ExprIn R' u (fun v => Granted U p R u v ∧ Granted U p R' u v) w t := by
      refine exprIn_map hdf (ruleIn_reach z hz hw (fun v hv h => h hv) (fun sub h => ?_) (fun a b sub hl h => (hr.2 _).2 (.inl ⟨h, ?_⟩))) he
      · by_cases hsub : (⟨some w.object, w.relation, some sub⟩ : Relationship) = givenTo x y
        · refine .inr (fun hin => ?_)
          simp only [givenTo, Relationship.mk.injEq, Option.some.injEq] at hsub
          obtain ⟨ho, hrel, rfl⟩ := hsub
          obtain ⟨m, h3, h4⟩ := hm.2.2 (show Granted U p R u ⟨y.object, y.relation⟩ from (show Granted U p R u ⟨y.object, y.relation⟩ ∧ _ from hin).1)
          exact ⟨m, (hr.2 _).2 (.inr ⟨m, h3, by rw [ho, hrel]⟩), immediate_in (hm.1 m h3) h4⟩
        · exact .inl ((hr.2 _).2 (.inl ⟨h, hsub⟩))
      · intro he
        simp only [givenTo, Relationship.mk.injEq, Option.some.injEq] at he
        obtain ⟨ho, rfl, _⟩ := he
        exact hn w t b (by rw [ho]) hw hl
    exact ⟨h1, granted_of hw hdf (ExprIn.monoV (fun _ h => h.2) hdf h2)⟩
  · intro h
    refine h (fun w => Reaches U p R' z w.node → Granted U p R u w) ?_ .start
    rintro w ⟨t, hw, he⟩ hz
    have hdf := hd' w t hz hw
    refine granted_of hw hdf (exprIn_map hdf (ruleIn_reach z hz hw (fun v hv h => h hv) (fun sub h => ?_) (fun a b sub hl h => ?_)) he)
    · rcases (hr.2 _).1 h with ⟨h, _⟩ | ⟨m, h3, he⟩
      · exact .inl h
      · simp only [Relationship.mk.injEq, Option.some.injEq] at he
        obtain ⟨ho, hrel, rfl⟩ := he
        refine .inr (fun hin => ⟨.entitySet (some y.object) y.relation, ?_, hm.2.1 ⟨sub, h3, immediate_in (hm.1 _ h3) hin⟩⟩)
        rw [ho, hrel]
        exact hr.1
    · rcases (hr.2 _).1 h with ⟨h, _⟩ | ⟨m, h3, he⟩
      · exact h
      · simp only [Relationship.mk.injEq, Option.some.injEq] at he
        obtain ⟨ho, rfl, _⟩ := he
        exact (hn w t b (by rw [ho]) hw hl).elim

end

section
variable {env : Env} {s s' : Store} {pid : String} {rec rec' : PolicyRecord} {u : Entity} {x y z : USet} {M : Subject → Prop}

/-- Full claim: whether a relation is given to the members of a group, or to each of them, makes no difference to any access check.  Proved for requests that meet only unions, when no arrow looks at the
relation for objects and keys do not collide.  Missing: arrows (`C111_arrow_violated`), intersections (`C111_intersection_violated`). -/
theorem C111_replaced_partial (hs : WF env s) (hs' : WF env s') (hp : policyAt s pid = some rec) (hp' : policyAt s' pid = some rec') (heq : rec'.policy = rec.policy)
    (hr : Replaces x y M (Present s pid) (Present s' pid)) (hm : Lists env.U rec.policy (Present s pid) y M u) (hn : NoTupleset env.U rec.policy x.object.resource x.relation)
    (hk : KeysClear env.U env.H rec.policy (Present s pid) z) (hi : IdsClear env.U env.H rec.policy (Present s pid) z)
    (hk' : KeysClear env.U env.H rec.policy (Present s' pid) z) (hi' : IdsClear env.U env.H rec.policy (Present s' pid) z)
    (hu : ExprsFrom env.U rec.policy (Present s pid) z UnionOnly) (hu' : ExprsFrom env.U rec.policy (Present s' pid) z UnionOnly)
    {fuel fuel' : Nat} {b b' : Bool} (h : Checks env s fuel pid z u b) (h' : Checks env s' fuel' pid z u b') : b = b' := by
  rw [← heq] at hk' hi' hu'
  have h1 := C37_union_exact_partial hs hp hk hi hu h
  have h2 := C37_union_exact_partial hs' hp' hk' hi' hu' h'
  rw [heq] at h2 hu'
  have h3 := granted_replaced (z := z) hr hm hn (fun w t hw hd => unionOnly_diffFree (hu w t hw hd)) (fun w t hw hd => unionOnly_diffFree (hu' w t hw hd))
  rw [Bool.eq_iff_iff]
  exact h1.trans (h3.trans h2.symm)

/-- In unions, the objects and wildcards within reach list the users. -/
theorem reached_lists {U : Unicode} {p : Policy} {R : Relationship → Prop} (hu : ExprsFrom U p R y UnionOnly) :
    Lists U p R y (fun m => Immediate m ∧ Reaches U p R y (subjectNode m)) u := by
  refine ⟨fun m h => h.1, ?_, fun h => ?_⟩
  · rintro ⟨m, ⟨h1, h2⟩, h3⟩
    refine reached_granted hu h2 ?_
    cases m with
    | entity e => cases h3; exact .inl rfl
    | resourceSet n => cases h3; exact .inr rfl
    | entitySet e r => exact h1.elim
    | unset => exact h1.elim
  · refine (h (fun w => ∃ m, (Immediate m ∧ Reaches U p R w (subjectNode m)) ∧ SubjectIn (fun _ => False) u m) ?_)
    rintro w ⟨t, hd, he⟩
    obtain ⟨r, hr, hin⟩ := exprIn_leaf he
    have step : ∀ v : USet, Rewrites U p R w v.node → (∃ m, (Immediate m ∧ Reaches U p R v (subjectNode m)) ∧ SubjectIn (fun _ => False) u m) →
        ∃ m, (Immediate m ∧ Reaches U p R w (subjectNode m)) ∧ SubjectIn (fun _ => False) u m :=
      fun v hv ⟨m, h1, h2⟩ => ⟨m, ⟨h1.1, reaches_trans (.step .start hv) h1.2⟩, h2⟩
    cases r with
    | unset => exact hin.elim
    | cu c => exact step ⟨w.object, c⟩ (.cu hd hr) hin
    | ttu a b =>
      obtain ⟨sub, e, h1, h2, h3⟩ := hin
      exact step ⟨e, b⟩ (.arrow hd hr h1 h2) h3
    | this =>
      obtain ⟨sub, h1, h2⟩ := hin
      match sub, h1, h2 with
      | .entity e, h1, h2 => exact ⟨.entity e, ⟨trivial, .step .start (.this hd hr h1)⟩, h2⟩
      | .resourceSet n, h1, h2 => exact ⟨.resourceSet n, ⟨trivial, .step .start (.this hd hr h1)⟩, h2⟩
      | .entitySet (some e) rel, h1, h2 => exact step ⟨e, rel⟩ (.this hd hr h1) h2

/-- The objects and wildcards in a tree of Expand list the members of the group it was asked for. -/
theorem C111_expand_lists (hs : WF env s) (hp : policyAt s pid = some rec) (hk : KeysClear env.U env.H rec.policy (Present s pid) y)
    (hi : IdsClear env.U env.H rec.policy (Present s pid) y) (hu : ExprsFrom env.U rec.policy (Present s pid) y UnionOnly) {fuel : Nat} {t : GoalTree}
    (h : Expands env s fuel pid y.node t) : Lists env.U rec.policy (Present s pid) y (fun m => Immediate m ∧ subjectNode m ∈ settled t) u := by
  have hl := reached_lists (u := u) hu
  have : (fun m => Immediate m ∧ subjectNode m ∈ settled t) = fun m => Immediate m ∧ Reaches env.U rec.policy (Present s pid) y (subjectNode m) := by
    funext m
    rw [C47_expand_partial hs hp hk hi (fun w t hw hd => unionOnly_andFree (hu w t hw hd)) h]
  rw [this]
  exact hl

end

/-- A group given by its relationships alone is listed by their subjects, when none is a userset. -/
theorem direct_lists {U : Unicode} {p : Policy} {R : Relationship → Prop} {u : Entity} {y : USet} {L : List Subject} (hn : NamesUnique p) (hd : DefinedBy U p y (.rule .this))
    (hi : ∀ m ∈ L, Immediate m) (hL : ∀ sub, R ⟨some y.object, y.relation, some sub⟩ ↔ sub ∈ L) : Lists U p R y (· ∈ L) u := by
  refine ⟨hi, ?_, fun h => ?_⟩
  · rintro ⟨m, h1, h2⟩
    exact fun V hV => hV y ⟨_, hd, m, (hL m).2 h1, immediate_in (hi m h1) h2⟩
  · refine h (fun w => w = y → ∃ m, m ∈ L ∧ SubjectIn (fun _ => False) u m) ?_ rfl
    rintro w ⟨t, h1, h2⟩ rfl
    obtain rfl := DefinedBy.unique hn h1 hd
    obtain ⟨sub, h3, h4⟩ := h2
    exact ⟨sub, (hL sub).1 h3, immediate_in (hi sub ((hL sub).1 h3)) h4⟩

/-- Replacement, by comparing lists. -/
theorem replaces_of {s s' : Store} {pid : String} {x y : USet} {L : List Subject} (h1 : givenTo x y ∈ relationships s pid)
    (h2 : ∀ r ∈ relationships s' pid, (r ∈ relationships s pid ∧ r ≠ givenTo x y) ∨ r ∈ L.map (fun m => (⟨some x.object, x.relation, some m⟩ : Relationship)))
    (h3 : ∀ r ∈ relationships s pid, r = givenTo x y ∨ r ∈ relationships s' pid)
    (h4 : ∀ r ∈ L.map (fun m => (⟨some x.object, x.relation, some m⟩ : Relationship)), r ∈ relationships s' pid) :
    Replaces x y (· ∈ L) (Present s pid) (Present s' pid) := by
  refine ⟨h1, fun r => ⟨fun h => (h2 r h).imp_right fun h => ?_, ?_⟩⟩
  · obtain ⟨m, h5, h6⟩ := List.mem_map.1 h
    exact ⟨m, h5, h6.symm⟩
  · rintro (⟨h, hne⟩ | ⟨m, hm, rfl⟩)
    · exact (h3 r h).resolve_left hne
    · exact h4 _ (List.mem_map_of_mem hm)

/-- The members of group:g. -/
def crew : USet := ⟨grp, "member"⟩

theorem crew_defined {rels : List Relation} (h : NamesUnique (gPolicy rels)) : DefinedBy U0 (gPolicy rels) crew (.rule .this) := by
  refine (definedBy_iff h).2 ?_
  have h1 : (newLut (gPolicy rels)).getRelation "group" "member" = some (rel "member" "_this") :=
    ((C11_lookup_exact (gPolicy rels) h "group" "member").1 _).2 ⟨{ name := "group", relations := [rel "member" "_this"] }, by simp [gPolicy], rfl, by simp, rfl⟩
  have h2 : getExpressionTree U0 (rel "member" "_this") = .ok (.rule .this) := by decide +kernel
  unfold defOf
  simp only [crew, grp, h1, h2]

/-- Two members of the group: user:u and every user. -/
def crewSubs : List Subject := [.entity usr, .resourceSet "user"]

/-- Relation `a` given to the group, which also has `b`. -/
def groupedStore : Store := gStore gEnv opRels [givenTo ⟨doc1, "a"⟩ crew, givenTo ⟨doc1, "b"⟩ crew,
  ⟨some grp, "member", some (.entity usr)⟩, ⟨some grp, "member", some (.resourceSet "user")⟩]

/-- The same, with `a` given to the members. -/
def spreadStore : Store := gStore gEnv opRels [givenTo ⟨doc1, "b"⟩ crew,
  ⟨some grp, "member", some (.entity usr)⟩, ⟨some grp, "member", some (.resourceSet "user")⟩,
  ⟨some doc1, "a", some (.entity usr)⟩, ⟨some doc1, "a", some (.resourceSet "user")⟩]

theorem grouped_pol : policyAt groupedStore "p" = some ⟨gPolicy opRels, [], 0⟩ := by decide +kernel
theorem spread_pol : policyAt spreadStore "p" = some ⟨gPolicy opRels, [], 0⟩ := by decide +kernel

theorem crew_replaced : Replaces ⟨doc1, "a"⟩ crew (· ∈ crewSubs) (Present groupedStore "p") (Present spreadStore "p") :=
  replaces_of (by decide +kernel) (by decide +kernel) (by decide +kernel) (by decide +kernel)

theorem crew_lists (u : Entity) : Lists U0 (gPolicy opRels) (Present groupedStore "p") crew (· ∈ crewSubs) u := by
  refine direct_lists op_unique (crew_defined op_unique) (fun m h => ?_) (fun sub => ?_)
  · simp only [crewSubs, List.mem_cons, List.not_mem_nil, or_false] at h
    rcases h with rfl | rfl <;> trivial
  · have h1 : ∀ r ∈ relationships groupedStore "p", r.object = some grp → r.subject ∈ crewSubs.map some := by decide +kernel
    have h2 : ∀ m ∈ crewSubs, (⟨some grp, "member", some m⟩ : Relationship) ∈ relationships groupedStore "p" := by decide +kernel
    refine ⟨fun h => ?_, fun h => h2 sub h⟩
    obtain ⟨m, h3, h4⟩ := List.mem_map.1 (h1 _ h rfl)
    cases h4
    exact h3

def crewNodes (r : String) : List RelationNode :=
  .entitySet (some grp) "member" :: .wildcard "user" :: abNodes r

/-- The code violates the claim for intersections: the group is looked up once for both sides, and `both` is granted only after the replacement. -/
theorem C111_intersection_violated :
    Replaces ⟨doc1, "a"⟩ crew (· ∈ crewSubs) (Present groupedStore "p") (Present spreadStore "p") ∧
    Lists U0 (gPolicy opRels) (Present groupedStore "p") crew (· ∈ crewSubs) usr ∧
    Checks gEnv groupedStore 10 "p" ⟨doc1, "both"⟩ usr false ∧ Checks gEnv spreadStore 10 "p" ⟨doc1, "both"⟩ usr true :=
  ⟨crew_replaced, crew_lists usr, checks_of (by decide +kernel), checks_of (by decide +kernel)⟩

/-- `C111_replaced_partial` applies to `any = a + b` in the same stores, and the answer is true. -/
example : ∃ b, b = true ∧ Checks gEnv groupedStore 10 "p" ⟨doc1, "any"⟩ usr b ∧ Checks gEnv spreadStore 10 "p" ⟨doc1, "any"⟩ usr b := by
  have h1 : Checks gEnv groupedStore 10 "p" ⟨doc1, "any"⟩ usr true := checks_of (by decide +kernel)
  obtain ⟨b', h2⟩ : ∃ b', Checks gEnv spreadStore 10 "p" ⟨doc1, "any"⟩ usr b' := ⟨true, checks_of (by decide +kernel)⟩
  have hc := clear_of (env := gEnv) (x := ⟨doc1, "any"⟩) (L := crewNodes "any") (gStore_wf _ _ _) grouped_pol (by simp [crewNodes, abNodes, USet.node]) (by decide +kernel)
  have hc' := clear_of (env := gEnv) (x := ⟨doc1, "any"⟩) (L := crewNodes "any") (gStore_wf _ _ _) spread_pol (by simp [crewNodes, abNodes, USet.node]) (by decide +kernel)
  have := C111_replaced_partial (env := gEnv) (x := ⟨doc1, "a"⟩) (y := crew) (gStore_wf _ _ _) (gStore_wf _ _ _) grouped_pol spread_pol rfl crew_replaced (crew_lists usr)
    (fun w t b _ hd hl => by
      rcases op_defined hd with ⟨_, _, rfl⟩ | ⟨_, ⟨_, rfl⟩ | ⟨_, rfl⟩ | ⟨_, rfl⟩ | ⟨_, rfl⟩ | ⟨_, rfl⟩⟩ <;> simp [leaves] at hl)
    hc.1 hc.2 hc'.1 hc'.2
    (exprs_of (env := gEnv) (x := ⟨doc1, "any"⟩) (f := unionOnlyB) (fun _ => unionOnly_of) (gStore_wf _ _ _) grouped_pol (L := crewNodes "any")
      (by simp [crewNodes, abNodes, USet.node]) (by decide +kernel) (by decide +kernel))
    (exprs_of (env := gEnv) (x := ⟨doc1, "any"⟩) (f := unionOnlyB) (fun _ => unionOnly_of) (gStore_wf _ _ _) spread_pol (L := crewNodes "any")
      (by simp [crewNodes, abNodes, USet.node]) (by decide +kernel) (by decide +kernel)) h1 h2
  exact ⟨true, rfl, h1, this ▸ h2⟩

/-- And `C111_expand_lists` applies to the group. -/
example : ∃ t, Expands gEnv groupedStore 10 "p" crew.node t ∧ Lists U0 (gPolicy opRels) (Present groupedStore "p") crew (fun m => Immediate m ∧ subjectNode m ∈ settled t) usr := by
  obtain ⟨t, h1, _⟩ := expands_of (env := gEnv) (s := groupedStore) (pid := "p") (root := crew.node) (fuel := 10) (f := fun _ => true) (by decide +kernel)
  have hc := clear_of (env := gEnv) (x := crew) (L := crewNodes "any") (gStore_wf _ _ _) grouped_pol (by simp [crewNodes, abNodes, crew, USet.node]) (by decide +kernel)
  exact ⟨t, h1, C111_expand_lists (env := gEnv) (gStore_wf _ _ _) grouped_pol hc.1 hc.2
    (exprs_of (env := gEnv) (x := crew) (f := unionOnlyB) (fun _ => unionOnly_of) (gStore_wf _ _ _) grouped_pol (L := crewNodes "any")
      (by simp [crewNodes, abNodes, crew, USet.node]) (by decide +kernel) (by decide +kernel)) h1⟩

/-- doc relations: an owner, and `see`, which the owner's members have. -/
def seeRels : List Relation := [rel "owner" "_this", rel "see" "owner->member"]

/-- group:h, the only member of group:g -/
def grpH : Entity := ⟨"group", "h"⟩

def ownedStore : Store := gStore gEnv seeRels [givenTo ⟨doc1, "owner"⟩ crew, ⟨some grp, "member", some (.entity grpH)⟩]

def disownedStore : Store := gStore gEnv seeRels [⟨some grp, "member", some (.entity grpH)⟩, ⟨some doc1, "owner", some (.entity grpH)⟩]

/-- The code violates the claim for arrows: an arrow follows a userset to its object, not to its members. -/
theorem C111_arrow_violated :
    Replaces ⟨doc1, "owner"⟩ crew (· ∈ [Subject.entity grpH]) (Present ownedStore "p") (Present disownedStore "p") ∧
    Lists U0 (gPolicy seeRels) (Present ownedStore "p") crew (· ∈ [Subject.entity grpH]) grpH ∧
    (∀ x t, DefinedBy U0 (gPolicy seeRels) x t → UnionOnly t) ∧
    Checks gEnv ownedStore 10 "p" ⟨doc1, "see"⟩ grpH true ∧ Checks gEnv disownedStore 10 "p" ⟨doc1, "see"⟩ grpH false := by
  have hv : verifyPolicy U0 (gPolicy seeRels) = .ok () := by decide +kernel
  have hn := ((C09_validation_exact U0 _).1 hv).1
  refine ⟨replaces_of (by decide +kernel) (by decide +kernel) (by decide +kernel) (by decide +kernel), ?_, ?_, checks_of (by decide +kernel), checks_of (by decide +kernel)⟩
  · refine direct_lists hn (crew_defined hn) (fun m h => ?_) (fun sub => ?_)
    · cases List.mem_singleton.1 h; trivial
    · have h1 : ∀ r ∈ relationships ownedStore "p", r.object = some grp → r.subject = some (.entity grpH) := by decide +kernel
      have h2 : (⟨some grp, "member", some (.entity grpH)⟩ : Relationship) ∈ relationships ownedStore "p" := by decide +kernel
      refine ⟨fun h => ?_, fun h => ?_⟩
      · have := h1 _ h rfl
        simp only [Option.some.injEq] at this
        exact List.mem_singleton.2 this
      · cases List.mem_singleton.1 h; exact h2
  · rintro x t ⟨d, ⟨r, hr, h1, h2, h3⟩, h4⟩
    rw [← getExpressionTree_ok_iff] at h4
    have h := List.all_eq_true.1 (show ((gPolicy seeRels).resources.flatMap (·.relations)).all (fun d => match getExpressionTree U0 d with
      | .ok t => unionOnlyB t
      | _ => false) = true by decide +kernel) d (List.mem_flatMap.2 ⟨r, hr, h2⟩)
    rw [h4] at h
    exact unionOnly_of h

end Zanzi
