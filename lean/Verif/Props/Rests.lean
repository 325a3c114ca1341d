import Verif.Lemmas.Rests

/-
Property C116: an explanation stays good while what it rests on is there.
Specification: Spec/Rests.lean, Spec/Graph.lean.
-/

namespace Zanzi

open Spec

section
variable {env : Env} {s s' : Store} {pid : String} {rec rec' : PolicyRecord} {u : Entity} {x : USet}

theorem rests_closed (hs : WF env s) (hp : policyAt s pid = some rec) (hk : KeysClear env.U env.H rec.policy (Present s pid) x)
    (hw : TuplesetsConcrete env.U rec.policy (Present s pid) x) {fuel : Nat} {t : GoalTree} (h : Explains env s fuel pid x u t true) {E : Relationship → Prop}
    (hE : ∀ r, Present s pid r → RestsOn none t r → E r) {V : USet → Prop}
    (hV : ∀ y e, Reaches env.U rec.policy E x y.node → DefinedBy env.U rec.policy y e → ExprIn E u V y (positive e) → V y) : V x := by
  obtain ⟨_, h1, h2, _⟩ := C44_results_justified hs hp h
  exact (rests_says hV t (C44_expansions_partial hs hp hk hw h).1 (h1.1 rfl) none hE).1 _ h2 .start

/-- C116, the explanation: the relationships it says the grant rests on are enough for the rules to give the relation, exclusions apart. -/
theorem C116_enough (hs : WF env s) (hp : policyAt s pid = some rec) (hk : KeysClear env.U env.H rec.policy (Present s pid) x)
    (hw : TuplesetsConcrete env.U rec.policy (Present s pid) x) {fuel : Nat} {t : GoalTree} (h : Explains env s fuel pid x u t true) :
    GrantedAtMost env.U rec.policy (fun r => Present s pid r ∧ RestsOn none t r) u x :=
  fun _ hV => rests_closed hs hp hk hw h (fun _ h1 h2 => ⟨h1, h2⟩) (fun y e _ => hV y e)

/-- The rules give the relation in every store that holds what the explanation rests on, when no difference is met there. -/
theorem C116_granted (hs : WF env s) (hp : policyAt s pid = some rec) (hk : KeysClear env.U env.H rec.policy (Present s pid) x)
    (hw : TuplesetsConcrete env.U rec.policy (Present s pid) x) {fuel : Nat} {t : GoalTree} (h : Explains env s fuel pid x u t true)
    (hE : ∀ r, Present s pid r → RestsOn none t r → Present s' pid r) (hd : ExprsFrom env.U rec.policy (Present s' pid) x DiffFree) :
    Granted env.U rec.policy (Present s' pid) u x := by
  refine rests_closed hs hp hk hw h hE (V := Granted env.U rec.policy (Present s' pid) u) (fun y e hr hy he => ?_)
  have hdf := hd y e hr hy
  rw [positive_of_diffFree hdf] at he
  exact granted_of hy hdf he

/-- Full claim: when Check is explained as granted, it grants in every store with the same policy that holds the relationships the explanation rests on.  Proved for requests that meet only unions in the
other store.  Missing: intersections, where even deleting other relationships can take the grant away (`C116_removal_violated`). -/
theorem C116_union_partial (hs : WF env s) (hs' : WF env s') (hp : policyAt s pid = some rec) (hp' : policyAt s' pid = some rec') (heq : rec'.policy = rec.policy)
    (hk : KeysClear env.U env.H rec.policy (Present s pid) x) (hw : TuplesetsConcrete env.U rec.policy (Present s pid) x)
    (hk' : KeysClear env.U env.H rec.policy (Present s' pid) x) (hi' : IdsClear env.U env.H rec.policy (Present s' pid) x)
    (hu : ExprsFrom env.U rec.policy (Present s' pid) x UnionOnly) {fuel fuel' : Nat} {t : GoalTree} {b : Bool} (h : Explains env s fuel pid x u t true)
    (hE : ∀ r, Present s pid r → RestsOn none t r → Present s' pid r) (h' : Checks env s' fuel' pid x u b) : b = true := by
  have hg := C116_granted hs hp hk hw h hE (fun w t hw hd => unionOnly_diffFree (hu w t hw hd))
  rw [← heq] at hk' hi' hu hg
  exact (C37_union_exact_partial hs' hp' hk' hi' hu h').2 hg

/-- C116 for all operators but differences, when the explanation in the other store shows no branch cut off as already visited. -/
theorem C116_clean_partial (hs : WF env s) (hs' : WF env s') (hp : policyAt s pid = some rec) (hp' : policyAt s' pid = some rec') (heq : rec'.policy = rec.policy)
    (hk : KeysClear env.U env.H rec.policy (Present s pid) x) (hw : TuplesetsConcrete env.U rec.policy (Present s pid) x)
    (hk' : KeysClear env.U env.H rec.policy (Present s' pid) x) (hd : ∀ y t, DefinedBy env.U rec.policy y t → DiffFree t)
    {fuel fuel' : Nat} {t t' : GoalTree} {b : Bool} (h : Explains env s fuel pid x u t true)
    (hE : ∀ r, Present s pid r → RestsOn none t r → Present s' pid r) (h' : Explains env s' fuel' pid x u t' b) (hc : Clean t') : b = true := by
  have hg := C116_granted hs hp hk hw h hE (fun w t _ => hd w t)
  rw [← heq] at hk' hd hg
  exact (C37_clean_exact_partial hs' hp' hk' hd h' hc).2 hg

/-- C116 for all operators but differences, for users whom no intersection met in the other store concerns. -/
theorem C116_unconcerned_partial (hs : WF env s) (hs' : WF env s') (hp : policyAt s pid = some rec) (hp' : policyAt s' pid = some rec') (heq : rec'.policy = rec.policy)
    (hk : KeysClear env.U env.H rec.policy (Present s pid) x) (hw : TuplesetsConcrete env.U rec.policy (Present s pid) x)
    (hk' : KeysClear env.U env.H rec.policy (Present s' pid) x) (hi' : IdsClear env.U env.H rec.policy (Present s' pid) x)
    (hd : ExprsFrom env.U rec.policy (Present s' pid) x DiffFree) (hc : Unconcerned env.U rec.policy (Present s' pid) x u)
    {fuel fuel' : Nat} {t : GoalTree} {b : Bool} (h : Explains env s fuel pid x u t true)
    (hE : ∀ r, Present s pid r → RestsOn none t r → Present s' pid r) (h' : Checks env s' fuel' pid x u b) : b = true := by
  have hg := C116_granted hs hp hk hw h hE hd
  rw [← heq] at hk' hi' hd hc hg
  exact (C90_granted_exact hs' hp' hk' hi' hc hd h').2 hg

end

/-- Whether `r` could lead from `y` to `n`, by any rule. -/
def leadsB (y : USet) (n : RelationNode) (r : Relationship) : Bool :=
  decide (r.object = some y.object) && match r.subject with
    | none => false
    | some sub => (decide (r.relation = y.relation) && decide (n = subjectNode sub)) || match pointsTo sub, n with
      | some e, .entitySet o _ => decide (o = some e)
      | _, _ => false

mutual
def restsB (y : Option USet) (r : Relationship) : GoalTree → Bool
  | .or a ps => decide (a = .success) && restsListB y r ps
  | .and a ps => decide (a = .success) && restsListB y r ps
  | .diff a b _ => decide (a = .success) && restsB y r b
  | .leaf _ n _ => match y with
    | some y => leadsB y n r
    | none => false
  | .path a n _ c => (match y with
    | some y => leadsB y n r
    | none => false) || (decide (a = .success) && match n with
    | .entitySet (some o) rl => restsB (some ⟨o, rl⟩) r c
    | _ => false)
def restsListB (y : Option USet) (r : Relationship) : List GoalTree → Bool
  | [] => false
  | t :: ts => restsB y r t || restsListB y r ts
end

theorem restsListB_mem {y : Option USet} {r : Relationship} {p : GoalTree} {ps : List GoalTree} (h : p ∈ ps) (hp : restsB y r p = true) : restsListB y r ps = true := by
  induction ps with
  | nil => cases h
  | cons a ps ih =>
    rw [restsListB, Bool.or_eq_true]
    rcases List.mem_cons.1 h with rfl | h
    · exact .inl hp
    · exact .inr (ih h)

theorem leadsB_of {y : USet} {n : RelationNode} {r : Relationship} {rule : Rule} (h : RuleRests y n r rule) : leadsB y n r = true := by
  cases rule with
  | this => obtain ⟨sub, rfl, rfl⟩ := h; simp [leadsB]
  | ttu a b => obtain ⟨sub, e, rfl, h1, rfl⟩ := h; simp [leadsB, h1]
  | cu => exact h.elim
  | unset => exact h.elim

theorem restsB_of {y : Option USet} {t : GoalTree} {r : Relationship} (h : RestsOn y t r) : restsB y r t = true := by
  induction h with
  | or h _ ih => simp [restsB, restsListB_mem h ih]
  | and h _ ih => simp [restsB, restsListB_mem h ih]
  | diff _ ih => simp [restsB, ih]
  | path hn _ ih => subst hn; simp [restsB, USet.node, ih]
  | found h => simp [restsB, leadsB_of h]
  | passed h => simp [restsB, leadsB_of h]

/-- Who has `v` has `d`, or `c` and one of `a` and `b`. -/
def shyRels : List Relation := [rel "a" "_this", rel "b" "_this", rel "c" "_this", rel "d" "_this", rel "v" "((a + b) & c) + d"]

/-- All users have `a`. -/
def shyFirst : Relationship := ⟨some doc1, "a", some (.resourceSet "user")⟩

/-- group:g, of which user:u is the only member, has `b` and `d`. -/
def shyRest : List Relationship := [givenTo ⟨doc1, "b"⟩ crew, givenTo ⟨doc1, "d"⟩ crew, ⟨some grp, "member", some (.entity usr)⟩]

def shyStore : Store := gStore gEnv shyRels (shyFirst :: shyRest)
def shyLess : Store := gStore gEnv shyRels shyRest

/-- The code violates the claim: user:u has `v`, the explanation does not rest on all users having `a`, and when that relationship is deleted user:u loses `v`. -/
theorem C116_removal_violated :
    (∃ t, Explains gEnv shyStore 20 "p" ⟨doc1, "v"⟩ usr t true ∧ ∀ r, Present shyStore "p" r → RestsOn none t r → Present shyLess "p" r) ∧
    (∀ r, Present shyLess "p" r → Present shyStore "p" r) ∧ Checks gEnv shyLess 20 "p" ⟨doc1, "v"⟩ usr false := by
  refine ⟨?_, ?_, checks_of (by decide +kernel)⟩
  · obtain ⟨t, b, h1, h2⟩ := explains_of (env := gEnv) (s := shyStore) (pid := "p") (x := ⟨doc1, "v"⟩) (u := usr) (fuel := 20)
      (f := fun t b => !restsB none shyFirst t && b) (by decide +kernel)
    simp only [Bool.and_eq_true, Bool.not_eq_true'] at h2
    obtain ⟨h2, rfl⟩ := h2
    refine ⟨t, h1, fun r hr hb => ?_⟩
    rcases (show ∀ r ∈ relationships shyStore "p", r = shyFirst ∨ r ∈ relationships shyLess "p" by decide +kernel) r hr with rfl | h
    · exact absurd (restsB_of hb) (by simp [h2])
    · exact h
  · show ∀ r ∈ relationships shyLess "p", r ∈ relationships shyStore "p"
    decide +kernel

/-- Only what the explanation in `stillStore` rests on: group:team has `a` and user:u is a member. -/
def leanStore : Store := gStore gEnv opRels [givenTo ⟨doc1, "a"⟩ team, ⟨some team.object, "member", some (.entity usr)⟩]

theorem op_concrete {R : Relationship → Prop} {x : USet} : TuplesetsConcrete U0 (gPolicy opRels) R x := by
  intro w t a b n _ hd hl
  rcases op_defined hd with ⟨_, _, rfl⟩ | ⟨_, ⟨_, rfl⟩ | ⟨_, rfl⟩ | ⟨_, rfl⟩ | ⟨_, rfl⟩ | ⟨_, rfl⟩⟩ <;> simp [leaves] at hl

/-- What a tree rests on, by going through the stored relationships. -/
theorem rests_of {s s' : Store} {pid : String} {t : GoalTree} (h : (relationships s pid).all (fun r => decide (r ∈ relationships s' pid) || !restsB none r t) = true) :
    ∀ r, Present s pid r → RestsOn none t r → Present s' pid r := by
  intro r hr hb
  have := List.all_eq_true.1 h r hr
  rw [restsB_of hb] at this
  show r ∈ relationships s' pid
  simpa using this

/-- `C116_union_partial` applies to `any = a + b`: two of the four relationships are not needed. -/
example : ∃ b, b = true ∧ Checks gEnv leanStore 10 "p" ⟨doc1, "any"⟩ usr b := by
  have hp : policyAt leanStore "p" = some ⟨gPolicy opRels, [], 0⟩ := by decide +kernel
  obtain ⟨t, b, h1, h2⟩ := explains_of (env := gEnv) (s := stillStore) (pid := "p") (x := ⟨doc1, "any"⟩) (u := usr) (fuel := 10)
    (f := fun t b => ((relationships stillStore "p").all (fun r => decide (r ∈ relationships leanStore "p") || !restsB none r t)) && b) (by decide +kernel)
  rw [Bool.and_eq_true] at h2
  obtain ⟨h2, rfl⟩ := h2
  obtain ⟨b', h3⟩ : ∃ b', Checks gEnv leanStore 10 "p" ⟨doc1, "any"⟩ usr b' := ⟨true, checks_of (by decide +kernel)⟩
  have hc := clear_of (env := gEnv) (s := stillStore) (x := ⟨doc1, "any"⟩) (L := stillNodes "any") (gStore_wf _ _ _) still_pol (by simp [stillNodes, crewNodes, abNodes, USet.node]) (by decide +kernel)
  have hc' := clear_of (env := gEnv) (s := leanStore) (x := ⟨doc1, "any"⟩) (L := stillNodes "any") (gStore_wf _ _ _) hp (by simp [stillNodes, crewNodes, abNodes, USet.node]) (by decide +kernel)
  have := C116_union_partial (env := gEnv) (s := stillStore) (s' := leanStore) (gStore_wf _ _ _) (gStore_wf _ _ _) still_pol hp rfl hc.1 op_concrete hc'.1 hc'.2
    (exprs_of (env := gEnv) (x := ⟨doc1, "any"⟩) (f := unionOnlyB) (fun _ => unionOnly_of) (gStore_wf _ _ _) hp (L := stillNodes "any")
      (by simp [stillNodes, crewNodes, abNodes, USet.node]) (by decide +kernel) (by decide +kernel)) h1 (rests_of h2) h3
  exact ⟨b', this, h3⟩

/-- user:u has c, and nothing else is stored but that user:w has a. -/
def onlyStore : Store := gStore gEnv altRels [hold "c" "u", hold "a" "w"]

theorem alt_concrete {R : Relationship → Prop} {x : USet} : TuplesetsConcrete U0 (gPolicy altRels) R x := by
  rintro w t a b n _ ⟨d, ⟨r, hr, h1, h2, h3⟩, h4⟩ hl
  rw [← getExpressionTree_ok_iff] at h4
  have h := List.all_eq_true.1 (show ((gPolicy altRels).resources.flatMap (·.relations)).all (fun d => match getExpressionTree U0 d with
    | .ok t => (leaves t).all (fun | .ttu _ _ => false | _ => true)
    | _ => false) = true by decide +kernel) d (List.mem_flatMap.2 ⟨r, hr, h2⟩)
  rw [h4] at h
  exact absurd (List.all_eq_true.1 h _ hl) (by simp)

/-- The hypotheses of `C116_clean_partial` and `C116_unconcerned_partial` for `alt = (a & b) + c`; one store holds a relationship that the other does not, and conversely. -/
example : KeysClear U0 Hx (gPolicy altRels) (Present holdStore "p") ⟨doc1, "alt"⟩ ∧ TuplesetsConcrete U0 (gPolicy altRels) (Present holdStore "p") ⟨doc1, "alt"⟩ ∧
    KeysClear U0 Hx (gPolicy altRels) (Present onlyStore "p") ⟨doc1, "alt"⟩ ∧ IdsClear U0 Hx (gPolicy altRels) (Present onlyStore "p") ⟨doc1, "alt"⟩ ∧
    (∀ y t, DefinedBy U0 (gPolicy altRels) y t → DiffFree t) ∧ Unconcerned U0 (gPolicy altRels) (Present onlyStore "p") ⟨doc1, "alt"⟩ usr ∧
    (∃ t, Explains gEnv holdStore 10 "p" ⟨doc1, "alt"⟩ usr t true ∧ ∀ r, Present holdStore "p" r → RestsOn none t r → Present onlyStore "p" r) ∧
    (∃ t, Explains gEnv onlyStore 10 "p" ⟨doc1, "alt"⟩ usr t true ∧ Clean t) ∧ Present holdStore "p" (hold "a" "v") ∧ ¬ Present onlyStore "p" (hold "a" "v") ∧
    Present onlyStore "p" (hold "a" "w") ∧ ¬ Present holdStore "p" (hold "a" "w") := by
  have hx : (⟨doc1, "alt"⟩ : USet).node ∈ RelationNode.entity (some ⟨"user", "w"⟩) :: altNodes := by simp [USet.node, altNodes]
  have hp : policyAt holdStore "p" = some ⟨gPolicy altRels, [], 0⟩ := by decide +kernel
  have hp' : policyAt onlyStore "p" = some ⟨gPolicy altRels, [], 0⟩ := by decide +kernel
  have k := clear_of (env := gEnv) (s := holdStore) (L := RelationNode.entity (some ⟨"user", "w"⟩) :: altNodes) (gStore_wf _ _ _) hp hx (by decide +kernel)
  have k' := clear_of (env := gEnv) (s := onlyStore) (L := RelationNode.entity (some ⟨"user", "w"⟩) :: altNodes) (gStore_wf _ _ _) hp' hx (by decide +kernel)
  refine ⟨k.1, alt_concrete, k'.1, k'.2, fun _ _ => alt_diffFree, ?_, ?_, ?_, ?_, ?_, ?_, ?_⟩
  · exact unconcerned_of (env := gEnv) (s := onlyStore) (L := RelationNode.entity (some ⟨"user", "w"⟩) :: altNodes)
      (K := [.entitySet (some doc1) "a", .entitySet (some doc1) "b", .entity (some ⟨"user", "w"⟩)]) (gStore_wf _ _ _) hp' hx (by decide +kernel)
  · obtain ⟨t, b, h1, h2⟩ := explains_of (env := gEnv) (s := holdStore) (pid := "p") (x := ⟨doc1, "alt"⟩) (u := usr) (fuel := 10)
      (f := fun t b => ((relationships holdStore "p").all (fun r => decide (r ∈ relationships onlyStore "p") || !restsB none r t)) && b) (by decide +kernel)
    rw [Bool.and_eq_true] at h2
    obtain ⟨h2, rfl⟩ := h2
    exact ⟨t, h1, rests_of h2⟩
  · obtain ⟨t, b, h1, h2⟩ := explains_of (env := gEnv) (s := onlyStore) (pid := "p") (x := ⟨doc1, "alt"⟩) (u := usr) (fuel := 10) (f := fun t b => cleanB t && b) (by decide +kernel)
    simp only [Bool.and_eq_true] at h2
    obtain ⟨h2, rfl⟩ := h2
    exact ⟨t, h1, clean_of h2⟩
  · show _ ∈ relationships holdStore "p"; decide +kernel
  · show _ ∉ relationships onlyStore "p"; decide +kernel
  · show _ ∈ relationships onlyStore "p"; decide +kernel
  · show _ ∉ relationships holdStore "p"; decide +kernel

end Zanzi
