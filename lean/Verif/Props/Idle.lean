import Verif.Spec.Idle
import Verif.Props.Flatten
import Verif.Props.Involved
import Verif.Props.Widen

/-
Property C114: storing what follows anyway changes nothing.
Specification: Spec/Idle.lean, Spec/Flatten.lean, Spec/Graph.lean.
-/

namespace Zanzi

open Spec

theorem reaches_mono {U : Unicode} {p : Policy} {R R' : Relationship → Prop} {z : USet} (h : ∀ r, R r → R' r) {n : RelationNode} (hr : Reaches U p R z n) : Reaches U p R' z n := by
  induction hr with
  | start => exact .start
  | step _ h2 ih =>
    refine .step ih ?_
    rcases h2 with ⟨a, b, c⟩ | ⟨a, b⟩ | ⟨a, b, c, d⟩
    · exact .this a b (h _ c)
    · exact .cu a b
    · exact .arrow a b (h _ c) d

theorem unconcerned_fewer {U : Unicode} {p : Policy} {R R' : Relationship → Prop} {z : USet} {u : Entity} (h : ∀ r, R r → R' r) (hc : Unconcerned U p R' z u) : Unconcerned U p R z u := by
  intro y t r n hy hd hr hl hi
  refine hc y t r n (reaches_mono h hy) hd hr ?_ ?_
  · rcases hl with h1 | _ | ⟨h1, h2⟩
    · exact .this (h _ h1)
    · exact .cu
    · exact .arrow (h _ h1) h2
  · rcases hi with h1 | ⟨z, m, h1, h2, h3⟩
    · exact .inl h1
    · exact .inr ⟨z, m, h1, reaches_mono h h2, h3⟩

/-- What the rules give does not change with a relationship that adds nothing. -/
theorem granted_idle {U : Unicode} {p : Policy} {R R' : Relationship → Prop} {u : Entity} {x z : USet} {sub : Subject} (ha : Adds x sub R R') (hf : Idle U p R x sub u)
    (hn : NoTupleset U p x.object.resource x.relation) (hd : ExprsFrom U p R' z DiffFree) : Granted U p R u z ↔ Granted U p R' u z := by
  have hm : ∀ r, R r → R' r := fun r h => (ha r).2 (.inl h)
  constructor
  · intro h
    refine h (fun w => Reaches U p R z w.node → Granted U p R' u w) ?_ .start
    rintro w ⟨t, hw, he⟩ hz
    have hdf := hd w t (reaches_mono hm hz) hw
    exact granted_of hw hdf (exprIn_map hdf (ruleIn_reach z hz hw (fun v hv h => h hv) (fun _ h => .inl (hm _ h)) (fun _ _ _ _ h => hm _ h)) he)
  · intro h
    refine h (fun w => Reaches U p R' z w.node → Granted U p R u w) ?_ .start
    rintro w ⟨t, hw, he⟩ hz
    have hdf := hd w t hz hw
    by_cases hx : w = x ∧ SubjectIn (Granted U p R u) u sub
    · rw [hx.1]; exact hf hx.2
    · refine granted_of hw hdf (exprIn_map hdf (ruleIn_reach z hz hw (fun v hv h => h hv) (fun q h => ?_) (fun a b q hl h => ?_)) he)
      · rcases (ha _).1 h with h | he
        · exact .inl h
        · simp only [Relationship.mk.injEq, Option.some.injEq] at he
          obtain ⟨ho, hrel, rfl⟩ := he
          refine .inr (fun hin => (hx ⟨?_, hin⟩).elim)
          cases w; cases x; cases ho; cases hrel; rfl
      · rcases (ha _).1 h with h | he
        · exact h
        · simp only [Relationship.mk.injEq, Option.some.injEq] at he
          obtain ⟨ho, rfl, _⟩ := he
          exact (hn w t b (by rw [ho]) hw hl).elim

section
variable {env : Env} {s s' : Store} {pid : String} {rec rec' : PolicyRecord} {u : Entity} {x y z : USet} {sub : Subject}

/-- Full claim: storing or deleting a relationship whose users have the relation anyway changes no answer to Check.  Proved for requests that meet only unions, when no arrow looks at the relation for
objects and keys do not collide.  Missing: arrows (`C114_arrow_violated`), intersections (`C114_intersection_violated`). -/
theorem C114_idle_partial (hs : WF env s) (hs' : WF env s') (hp : policyAt s pid = some rec) (hp' : policyAt s' pid = some rec') (heq : rec'.policy = rec.policy)
    (ha : Adds x sub (Present s pid) (Present s' pid)) (hf : Idle env.U rec.policy (Present s pid) x sub u) (hn : NoTupleset env.U rec.policy x.object.resource x.relation)
    (hk : KeysClear env.U env.H rec.policy (Present s' pid) z) (hi : IdsClear env.U env.H rec.policy (Present s' pid) z)
    (hu : ExprsFrom env.U rec.policy (Present s' pid) z UnionOnly)
    {fuel fuel' : Nat} {b b' : Bool} (h : Checks env s fuel pid z u b) (h' : Checks env s' fuel' pid z u b') : b = b' := by
  have hm : ∀ r, Present s pid r → Present s' pid r := fun r h => (ha r).2 (.inl h)
  have h1 := C37_union_exact_partial hs hp (fun y z hy hz r o hr => hk y z (reaches_mono hm hy) hz r o (hm r hr))
    (fun m n id h1 h2 => hi m n id (reaches_mono hm h1) (reaches_mono hm h2)) (fun w t hw => hu w t (reaches_mono hm hw)) h
  have h3 := granted_idle (z := z) ha hf hn (fun w t hw hd => unionOnly_diffFree (hu w t hw hd))
  rw [← heq] at hk hi hu
  have h2 := C37_union_exact_partial hs' hp' hk hi hu h'
  rw [heq] at h2
  rw [Bool.eq_iff_iff]
  exact h1.trans (h3.trans h2.symm)

/-- C114 for all operators but differences, when neither explanation shows a branch cut off as already visited. -/
theorem C114_clean_partial (hs : WF env s) (hs' : WF env s') (hp : policyAt s pid = some rec) (hp' : policyAt s' pid = some rec') (heq : rec'.policy = rec.policy)
    (ha : Adds x sub (Present s pid) (Present s' pid)) (hf : Idle env.U rec.policy (Present s pid) x sub u) (hn : NoTupleset env.U rec.policy x.object.resource x.relation)
    (hk : KeysClear env.U env.H rec.policy (Present s' pid) z) (hd : ∀ y t, DefinedBy env.U rec.policy y t → DiffFree t)
    {fuel fuel' : Nat} {t t' : GoalTree} {b b' : Bool} (h : Explains env s fuel pid z u t b) (h' : Explains env s' fuel' pid z u t' b') (hc : Clean t) (hc' : Clean t') : b = b' := by
  have hm : ∀ r, Present s pid r → Present s' pid r := fun r h => (ha r).2 (.inl h)
  have h1 := C37_clean_exact_partial hs hp (fun y z hy hz r o hr => hk y z (reaches_mono hm hy) hz r o (hm r hr)) hd h hc
  have h3 := granted_idle (z := z) ha hf hn (fun w t _ => hd w t)
  rw [← heq] at hk hd
  have h2 := C37_clean_exact_partial hs' hp' hk hd h' hc'
  rw [heq] at h2
  rw [Bool.eq_iff_iff]
  exact h1.trans (h3.trans h2.symm)

/-- C114 for all operators but differences, for users whom no intersection met concerns. -/
theorem C114_unconcerned_partial (hs : WF env s) (hs' : WF env s') (hp : policyAt s pid = some rec) (hp' : policyAt s' pid = some rec') (heq : rec'.policy = rec.policy)
    (ha : Adds x sub (Present s pid) (Present s' pid)) (hf : Idle env.U rec.policy (Present s pid) x sub u) (hn : NoTupleset env.U rec.policy x.object.resource x.relation)
    (hk : KeysClear env.U env.H rec.policy (Present s' pid) z) (hi : IdsClear env.U env.H rec.policy (Present s' pid) z)
    (hd : ExprsFrom env.U rec.policy (Present s' pid) z DiffFree) (hc' : Unconcerned env.U rec.policy (Present s' pid) z u)
    {fuel fuel' : Nat} {b b' : Bool} (h : Checks env s fuel pid z u b) (h' : Checks env s' fuel' pid z u b') : b = b' := by
  have hm : ∀ r, Present s pid r → Present s' pid r := fun r h => (ha r).2 (.inl h)
  have h1 := C90_granted_exact hs hp (fun y z hy hz r o hr => hk y z (reaches_mono hm hy) hz r o (hm r hr))
    (fun m n id h1 h2 => hi m n id (reaches_mono hm h1) (reaches_mono hm h2)) (unconcerned_fewer hm hc') (fun w t hw => hd w t (reaches_mono hm hw)) h
  have h3 := granted_idle (z := z) ha hf hn hd
  rw [← heq] at hk hi hd hc'
  have h2 := C90_granted_exact hs' hp' hk hi hc' hd h'
  rw [heq] at h2
  rw [Bool.eq_iff_iff]
  exact h1.trans (h3.trans h2.symm)

/-- When Check grants the user the relation, giving it to anyone adds nothing for that user. -/
theorem C114_granted_idle (hs : WF env s) (hp : policyAt s pid = some rec) (hk : KeysClear env.U env.H rec.policy (Present s pid) x)
    (hd : ExprsFrom env.U rec.policy (Present s pid) x DiffFree) {fuel : Nat} (h : Checks env s fuel pid x u true) : Idle env.U rec.policy (Present s pid) x sub u :=
  fun _ => C36_sound_no_difference_partial hs hp hk hd h

/-- When Check denies that the user is in a userset that meets only unions, giving a relation to the userset adds nothing for that user. -/
theorem C114_denied_idle (hs : WF env s) (hp : policyAt s pid = some rec) (hk : KeysClear env.U env.H rec.policy (Present s pid) y)
    (hi : IdsClear env.U env.H rec.policy (Present s pid) y) (hu : ExprsFrom env.U rec.policy (Present s pid) y UnionOnly) {fuel : Nat} (h : Checks env s fuel pid y u false) :
    Idle env.U rec.policy (Present s pid) x (.entitySet (some y.object) y.relation) u :=
  fun hin => absurd ((C37_union_exact_partial hs hp hk hi hu h).2 hin) (by simp)

end

/-- The members of group:team, which are user:u. -/
def team : USet := ⟨⟨"group", "team"⟩, "member"⟩

/-- group:team has `a`; group:g, whose members are all users, has `b`. -/
def stillRels : List Relationship := [givenTo ⟨doc1, "a"⟩ team, ⟨some team.object, "member", some (.entity usr)⟩, givenTo ⟨doc1, "b"⟩ crew, ⟨some grp, "member", some (.resourceSet "user")⟩]

def stillStore : Store := gStore gEnv opRels stillRels

/-- The same, and group:g has `a` too. -/
def extraStore : Store := gStore gEnv opRels (stillRels ++ [givenTo ⟨doc1, "a"⟩ crew])

theorem still_pol : policyAt stillStore "p" = some ⟨gPolicy opRels, [], 0⟩ := by decide +kernel
theorem extra_pol : policyAt extraStore "p" = some ⟨gPolicy opRels, [], 0⟩ := by decide +kernel

/-- Addition, by comparing lists. -/
theorem adds_of {s s' : Store} {pid : String} {x : USet} {sub : Subject} (h1 : ∀ r ∈ relationships s' pid, r ∈ relationships s pid ∨ r = ⟨some x.object, x.relation, some sub⟩)
    (h2 : ∀ r ∈ (⟨some x.object, x.relation, some sub⟩ : Relationship) :: relationships s pid, r ∈ relationships s' pid) : Adds x sub (Present s pid) (Present s' pid) :=
  fun r => ⟨h1 r, fun h => h2 r (h.elim (List.mem_cons_of_mem _) (fun h => h ▸ List.mem_cons_self))⟩

theorem crew_added : Adds ⟨doc1, "a"⟩ (.entitySet (some grp) "member") (Present stillStore "p") (Present extraStore "p") :=
  adds_of (by decide +kernel) (by decide +kernel)

def stillNodes (r : String) : List RelationNode := team.node :: crewNodes r

/-- user:u has `a` through group:team, so giving `a` to group:g adds nothing for them. -/
theorem crew_idle : Idle U0 (gPolicy opRels) (Present stillStore "p") ⟨doc1, "a"⟩ (.entitySet (some grp) "member") usr := by
  have hc := clear_of (env := gEnv) (s := stillStore) (x := ⟨doc1, "a"⟩) (L := stillNodes "any") (gStore_wf _ _ _) still_pol (by simp [stillNodes, crewNodes, abNodes, USet.node]) (by decide +kernel)
  exact C114_granted_idle (env := gEnv) (s := stillStore) (fuel := 10) (gStore_wf _ _ _) still_pol hc.1
    (fun w t hw hd => unionOnly_diffFree (exprs_of (env := gEnv) (x := ⟨doc1, "a"⟩) (f := unionOnlyB) (fun _ => unionOnly_of) (gStore_wf _ _ _) still_pol (L := stillNodes "any")
      (by simp [stillNodes, crewNodes, abNodes, USet.node]) (by decide +kernel) (by decide +kernel) w t hw hd)) (checks_of (by decide +kernel))

theorem op_noTupleset (r : String) : NoTupleset U0 (gPolicy opRels) "doc" r := by
  intro w t b _ hd hl
  rcases op_defined hd with ⟨_, _, rfl⟩ | ⟨_, ⟨_, rfl⟩ | ⟨_, rfl⟩ | ⟨_, rfl⟩ | ⟨_, rfl⟩ | ⟨_, rfl⟩⟩ <;> simp [leaves] at hl

/-- The code violates the claim for intersections: user:u has `both`, and loses it when a relation they have anyway is given to a group. -/
theorem C114_intersection_violated :
    Adds ⟨doc1, "a"⟩ (.entitySet (some grp) "member") (Present stillStore "p") (Present extraStore "p") ∧
    Idle U0 (gPolicy opRels) (Present stillStore "p") ⟨doc1, "a"⟩ (.entitySet (some grp) "member") usr ∧ NoTupleset U0 (gPolicy opRels) "doc" "a" ∧
    Checks gEnv stillStore 10 "p" ⟨doc1, "both"⟩ usr true ∧ Checks gEnv extraStore 10 "p" ⟨doc1, "both"⟩ usr false :=
  ⟨crew_added, crew_idle, op_noTupleset "a", checks_of (by decide +kernel), checks_of (by decide +kernel)⟩

/-- `C114_idle_partial` applies to `any = a + b` in the same stores, and the answer is true. -/
example : ∃ b, b = true ∧ Checks gEnv stillStore 10 "p" ⟨doc1, "any"⟩ usr b ∧ Checks gEnv extraStore 10 "p" ⟨doc1, "any"⟩ usr b := by
  have h1 : Checks gEnv stillStore 10 "p" ⟨doc1, "any"⟩ usr true := checks_of (by decide +kernel)
  obtain ⟨b', h2⟩ : ∃ b', Checks gEnv extraStore 10 "p" ⟨doc1, "any"⟩ usr b' := ⟨true, checks_of (by decide +kernel)⟩
  have hc := clear_of (env := gEnv) (s := extraStore) (x := ⟨doc1, "any"⟩) (L := stillNodes "any") (gStore_wf _ _ _) extra_pol (by simp [stillNodes, crewNodes, abNodes, USet.node]) (by decide +kernel)
  have := C114_idle_partial (env := gEnv) (s := stillStore) (s' := extraStore) (x := ⟨doc1, "a"⟩) (gStore_wf _ _ _) (gStore_wf _ _ _) still_pol extra_pol rfl crew_added crew_idle (op_noTupleset "a") hc.1 hc.2
    (exprs_of (env := gEnv) (x := ⟨doc1, "any"⟩) (f := unionOnlyB) (fun _ => unionOnly_of) (gStore_wf _ _ _) extra_pol (L := stillNodes "any")
      (by simp [stillNodes, crewNodes, abNodes, USet.node]) (by decide +kernel) (by decide +kernel)) h1 h2
  exact ⟨true, rfl, h1, this ▸ h2⟩

/-- `C114_denied_idle` applies to user:v, who is not in group:team. -/
example : Idle U0 (gPolicy opRels) (Present stillStore "p") ⟨doc1, "b"⟩ (.entitySet (some team.object) "member") ⟨"user", "v"⟩ := by
  have hc := clear_of (env := gEnv) (s := stillStore) (x := team) (L := stillNodes "any") (gStore_wf _ _ _) still_pol (by simp [stillNodes]) (by decide +kernel)
  exact C114_denied_idle (env := gEnv) (s := stillStore) (y := team) (fuel := 10) (gStore_wf _ _ _) still_pol hc.1 hc.2
    (exprs_of (env := gEnv) (x := team) (f := unionOnlyB) (fun _ => unionOnly_of) (gStore_wf _ _ _) still_pol (L := stillNodes "any")
      (by simp [stillNodes]) (by decide +kernel) (by decide +kernel)) (checks_of (by decide +kernel))

/-- user:u has c; in the second store group:team, of which user:u is the only member, has c too. -/
def holdStore : Store := gStore gEnv altRels [hold "c" "u", hold "a" "v", ⟨some team.object, "member", some (.entity usr)⟩]
def heldStore : Store := gStore gEnv altRels [hold "c" "u", hold "a" "v", ⟨some team.object, "member", some (.entity usr)⟩, givenTo ⟨doc1, "c"⟩ team]

/-- The hypotheses of `C114_clean_partial` and `C114_unconcerned_partial` for `alt = (a & b) + c`, and the answer is true. -/
example : Adds ⟨doc1, "c"⟩ (.entitySet (some team.object) "member") (Present holdStore "p") (Present heldStore "p") ∧
    Idle U0 (gPolicy altRels) (Present holdStore "p") ⟨doc1, "c"⟩ (.entitySet (some team.object) "member") usr ∧ NoTupleset U0 (gPolicy altRels) "doc" "c" ∧
    KeysClear U0 Hx (gPolicy altRels) (Present heldStore "p") ⟨doc1, "alt"⟩ ∧ IdsClear U0 Hx (gPolicy altRels) (Present heldStore "p") ⟨doc1, "alt"⟩ ∧
    (∀ y t, DefinedBy U0 (gPolicy altRels) y t → DiffFree t) ∧ Unconcerned U0 (gPolicy altRels) (Present heldStore "p") ⟨doc1, "alt"⟩ usr ∧
    (∃ t, Explains gEnv holdStore 10 "p" ⟨doc1, "alt"⟩ usr t true ∧ Clean t) ∧ ∃ t, Explains gEnv heldStore 10 "p" ⟨doc1, "alt"⟩ usr t true ∧ Clean t := by
  have hx : (⟨doc1, "alt"⟩ : USet).node ∈ team.node :: altNodes := by simp [USet.node, altNodes]
  have hp : policyAt holdStore "p" = some ⟨gPolicy altRels, [], 0⟩ := by decide +kernel
  have hp' : policyAt heldStore "p" = some ⟨gPolicy altRels, [], 0⟩ := by decide +kernel
  have k := clear_of (env := gEnv) (s := holdStore) (x := ⟨doc1, "c"⟩) (L := team.node :: altNodes) (gStore_wf _ _ _) hp (by simp [USet.node, altNodes]) (by decide +kernel)
  have k' := clear_of (env := gEnv) (s := heldStore) (L := team.node :: altNodes) (gStore_wf _ _ _) hp' hx (by decide +kernel)
  refine ⟨adds_of (by decide +kernel) (by decide +kernel), C114_granted_idle (env := gEnv) (s := holdStore) (fuel := 10) (gStore_wf _ _ _) hp k.1 (fun _ _ _ => alt_diffFree) (checks_of (by decide +kernel)),
    ?_, k'.1, k'.2, fun _ _ => alt_diffFree, ?_, ?_, ?_⟩
  · rintro w t b _ ⟨d, ⟨r, hr, h1, h2, h3⟩, h4⟩ hl
    rw [← getExpressionTree_ok_iff] at h4
    have h := List.all_eq_true.1 (show ((gPolicy altRels).resources.flatMap (·.relations)).all (fun d => match getExpressionTree U0 d with
      | .ok t => (leaves t).all (fun | .ttu _ _ => false | _ => true)
      | _ => false) = true by decide +kernel) d (List.mem_flatMap.2 ⟨r, hr, h2⟩)
    rw [h4] at h
    exact absurd (List.all_eq_true.1 h _ hl) (by simp)
  · exact unconcerned_of (env := gEnv) (s := heldStore) (L := team.node :: altNodes) (K := [.entitySet (some doc1) "a", .entitySet (some doc1) "b", .entity (some ⟨"user", "v"⟩)])
      (gStore_wf _ _ _) hp' hx (by decide +kernel)
  · obtain ⟨t, b, h1, h2⟩ := explains_of (env := gEnv) (s := holdStore) (pid := "p") (x := ⟨doc1, "alt"⟩) (u := usr) (fuel := 10) (f := fun t b => cleanB t && b) (by decide +kernel)
    simp only [Bool.and_eq_true] at h2
    obtain ⟨h2, rfl⟩ := h2
    exact ⟨t, h1, clean_of h2⟩
  · obtain ⟨t, b, h1, h2⟩ := explains_of (env := gEnv) (s := heldStore) (pid := "p") (x := ⟨doc1, "alt"⟩) (u := usr) (fuel := 10) (f := fun t b => cleanB t && b) (by decide +kernel)
    simp only [Bool.and_eq_true] at h2
    obtain ⟨h2, rfl⟩ := h2
    exact ⟨t, h1, clean_of h2⟩

def unownedStore : Store := gStore gEnv seeRels [⟨some grpH, "member", some (.entity usr)⟩]
def ownedByStore : Store := gStore gEnv seeRels [⟨some grpH, "member", some (.entity usr)⟩, ⟨some doc1, "owner", some (.entity grpH)⟩]

/-- The claim fails for arrows: making group:h the owner gives user:u no relation `owner`, but the arrow leads to the members of group:h. -/
theorem C114_arrow_violated :
    Adds ⟨doc1, "owner"⟩ (.entity grpH) (Present unownedStore "p") (Present ownedByStore "p") ∧
    Idle U0 (gPolicy seeRels) (Present unownedStore "p") ⟨doc1, "owner"⟩ (.entity grpH) usr ∧
    Checks gEnv unownedStore 10 "p" ⟨doc1, "see"⟩ usr false ∧ Checks gEnv ownedByStore 10 "p" ⟨doc1, "see"⟩ usr true :=
  ⟨adds_of (by decide +kernel) (by decide +kernel), fun h => absurd (show grpH = usr from h) (by decide), checks_of (by decide +kernel), checks_of (by decide +kernel)⟩

end Zanzi
