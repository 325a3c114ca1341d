import Verif.Spec.Twins
import Verif.Props.Idle
import Verif.Props.Rename
import Verif.Props.Unconcerned

/-
Properties C117 (users with the same relationships are treated alike) and C118 (so are objects).
Specification: Spec/Twins.lean, Spec/Graph.lean, Spec/Rename.lean.
-/

namespace Zanzi

open Spec

/-! ### C117: users -/

section
variable {U : Unicode} {p : Policy} {R : Relationship → Prop} {u v : Entity} {x : USet}

theorem Spec.TwinUsers.symm (h : TwinUsers R u v) : TwinUsers R v u := ⟨h.1.symm, fun o rel => (h.2 o rel).symm⟩

theorem ruleIn_twin (h : TwinUsers R u v) {V : USet → Prop} {r : Rule} (hr : RuleIn R u V x r) : RuleIn R v V x r := by
  cases r with
  | unset => exact hr
  | cu c => exact hr
  | ttu a b => exact hr
  | this =>
    obtain ⟨sub, h1, h2⟩ := hr
    match sub, h1, h2 with
    | .entity e, h1, h2 => cases (show e = u from h2); exact ⟨.entity v, (h.2 _ _).1 h1, rfl⟩
    | .resourceSet n, h1, h2 => exact ⟨.resourceSet n, h1, h.1.symm.trans h2⟩
    | .entitySet (some e) rel, h1, h2 => exact ⟨.entitySet (some e) rel, h1, h2⟩

theorem exprIn_twin (h : TwinUsers R u v) {V : USet → Prop} : ∀ {e : ExprTree}, ExprIn R u V x e ↔ ExprIn R v V x e
  | .nil => Iff.rfl
  | .unset => Iff.rfl
  | .rule _ => ⟨ruleIn_twin h, ruleIn_twin h.symm⟩
  | .op _ .union _ => or_congr (exprIn_twin h) (exprIn_twin h)
  | .op _ .intersection _ => and_congr (exprIn_twin h) (exprIn_twin h)
  | .op _ .difference _ => and_congr (exprIn_twin h) (not_congr (exprIn_twin h))
  | .op _ .unknown _ => Iff.rfl

theorem derived_twin (h : TwinUsers R u v) {V : USet → Prop} : Derived U p R u V x ↔ Derived U p R v V x :=
  exists_congr fun _ => and_congr_right fun _ => exprIn_twin h

/-- What the rules say is the same for both: they have the same usersets in every solution, and what is granted to one is granted to the other. -/
theorem C117_rules (h : TwinUsers R u v) : (Granted U p R u x ↔ Granted U p R v x) ∧ ∀ V, Solution U p R u V ↔ Solution U p R v V :=
  ⟨forall_congr' fun _ => ⟨fun hg hV => hg (fun y hy => hV y ((derived_twin h).1 hy)), fun hg hV => hg (fun y hy => hV y ((derived_twin h).2 hy))⟩,
    fun _ => forall_congr' fun _ => iff_congr Iff.rfl (derived_twin h)⟩

theorem subjectNode_entity {sub : Subject} {e : Option Entity} (h : subjectNode sub = .entity e) : ∃ a, e = some a ∧ sub = .entity a := by
  cases sub with
  | entity a => cases h; exact ⟨a, rfl, rfl⟩
  | entitySet o r => cases h
  | resourceSet n => cases h
  | unset => cases h

theorem reaches_twin (h : TwinUsers R u v) (hr : Reaches U p R x (.entity (some u))) : Reaches U p R x (.entity (some v)) := by
  generalize hn : RelationNode.entity (some u) = n at hr
  cases hr with
  | start => cases hn
  | step h1 h2 =>
    generalize hm : n = m at h2
    cases h2 with
    | this a b c =>
      obtain ⟨_, he, rfl⟩ := subjectNode_entity (hm.symm.trans hn.symm)
      cases he
      exact .step h1 (.this a b ((h.2 _ _).1 c))
    | cu => cases hn.trans hm
    | arrow => cases hn.trans hm

theorem unconcerned_twin (h : TwinUsers R u v) (hc : Unconcerned U p R x u) : Unconcerned U p R x v := by
  intro y t r n h1 h2 h3 h4 h5
  have h' := h.symm
  rcases h5 with h5 | ⟨z, m, rfl, h6, h7⟩
  · rcases h5 with h5 | h5
    · generalize hm : n = m at h4
      cases h4 with
      | this a =>
        obtain ⟨_, he, rfl⟩ := subjectNode_entity (hm.symm.trans h5)
        cases he
        exact hc y t _ _ h1 h2 h3 (.this ((h'.2 _ _).1 a)) (.inl (.inl rfl))
      | cu => cases h5.symm.trans hm
      | arrow => cases h5.symm.trans hm
    · exact hc y t r n h1 h2 h3 h4 (.inl (.inr (by rw [h5, h.1])))
  · rcases h7 with rfl | rfl
    · exact hc y t r _ h1 h2 h3 h4 (.inr ⟨z, _, rfl, reaches_twin h' h6, .inl rfl⟩)
    · exact hc y t r _ h1 h2 h3 h4 (.inr ⟨z, _, rfl, h6, .inr (by rw [h.1])⟩)

theorem involves_twin (h : TwinUsers R u v) (hi : Involves U p R u x.node) : Involves U p R v x.node := by
  rcases hi with (h1 | h1) | ⟨z, m, hz, hr, rfl | rfl⟩
  · cases h1
  · cases h1
  · exact .inr ⟨z, _, hz, reaches_twin h hr, .inl rfl⟩
  · exact .inr ⟨z, _, hz, hr, .inr (by rw [h.1])⟩

end

section
variable {env : Env} {s : Store} {pid : String} {rec : PolicyRecord} {u v : Entity} {x : USet} {o o' : Entity}

/-- Full claim: users of the same kind to whom the same is given get the same answers to Check.  Proved for requests that meet only unions, absent collisions.  Missing: intersections and differences, where
the order of names decides (`C117_order_violated`). -/
theorem C117_union_partial (hs : WF env s) (hp : policyAt s pid = some rec) (ht : TwinUsers (Present s pid) u v) (hk : KeysClear env.U env.H rec.policy (Present s pid) x)
    (hi : IdsClear env.U env.H rec.policy (Present s pid) x) (hu : ExprsFrom env.U rec.policy (Present s pid) x UnionOnly) {fuel fuel' : Nat} {b b' : Bool}
    (h : Checks env s fuel pid x u b) (h' : Checks env s fuel' pid x v b') : b = b' := by
  rw [Bool.eq_iff_iff]
  exact (C37_union_exact_partial hs hp hk hi hu h).trans ((C117_rules ht).1.trans (C37_union_exact_partial hs hp hk hi hu h').symm)

/-- C117 for all operators, when neither explanation shows a branch cut off as already visited. -/
theorem C117_clean_partial (hs : WF env s) (hp : policyAt s pid = some rec) (ht : TwinUsers (Present s pid) u v) (hk : KeysClear env.U env.H rec.policy (Present s pid) x)
    {V : USet → Prop} (hV : Solution env.U rec.policy (Present s pid) u V) {fuel fuel' : Nat} {t t' : GoalTree} {b b' : Bool}
    (h : Explains env s fuel pid x u t b) (hc : Clean t) (h' : Explains env s fuel' pid x v t' b') (hc' : Clean t') : b = b' := by
  rw [Bool.eq_iff_iff]
  exact (C36_exact_partial hs hp hk h hc hV).trans (C36_exact_partial hs hp hk h' hc' (((C117_rules (x := x) ht).2 V).1 hV)).symm

/-- C117 for all operators, when no intersection and no subtraction met concerns one of the users: then none concerns the other either, Check answers both alike, and the tree of Expand has both or neither. -/
theorem C117_unconcerned_partial (hs : WF env s) (hp : policyAt s pid = some rec) (ht : TwinUsers (Present s pid) u v) (hk : KeysClear env.U env.H rec.policy (Present s pid) x)
    (hi : IdsClear env.U env.H rec.policy (Present s pid) x) (hc : Unconcerned env.U rec.policy (Present s pid) x u) {fuel fuel' : Nat} :
    (∀ b b', Checks env s fuel pid x u b → Checks env s fuel' pid x v b' → b = b') ∧ ∀ t, Expands env s fuel pid x.node t → inSet u t = inSet v t := by
  have hc' := unconcerned_twin ht hc
  have hinv : Involves env.U rec.policy (Present s pid) u x.node ↔ Involves env.U rec.policy (Present s pid) v x.node := ⟨involves_twin ht, involves_twin ht.symm⟩
  constructor
  · intro b b' h h'
    rw [Bool.eq_iff_iff, checks_involved hs hp hk hi hc h, checks_involved hs hp hk hi hc' h', hinv]
  · intro t h
    obtain ⟨_, e⟩ := expands_ev hp h
    rw [Bool.eq_iff_iff, expand_involved hs hp hk hi hc e, expand_involved hs hp hk hi hc' e, hinv]

end

def doc2 : Entity := ⟨"doc", "2"⟩

/-- A user whose name is sorted after those of usersets. -/
def late : Entity := ⟨"user", "vvvvvv"⟩

def byName (o : Entity) (r : String) (u : Entity) : Relationship := ⟨some o, r, some (.entity u)⟩

/-- user:u and user:vvvvvv have `a` on both documents; whoever has `both` on doc:2 also has `a` on doc:1. -/
def twinRels : List Relationship :=
  [byName doc1 "a" usr, byName doc1 "a" late, byName doc2 "a" usr, byName doc2 "a" late, givenTo ⟨doc1, "a"⟩ ⟨doc2, "both"⟩]

def twinStore : Store := gStore gEnv opRels twinRels

theorem twin_pol : policyAt twinStore "p" = some ⟨gPolicy opRels, [], 0⟩ := by decide +kernel

/-- Twin users, by comparing lists. -/
theorem twinUsers_of {s : Store} {pid : String} {u v : Entity} (h0 : u.resource = v.resource)
    (h1 : ∀ r ∈ relationships s pid, r.subject = some (.entity u) → (⟨r.object, r.relation, some (.entity v)⟩ : Relationship) ∈ relationships s pid)
    (h2 : ∀ r ∈ relationships s pid, r.subject = some (.entity v) → (⟨r.object, r.relation, some (.entity u)⟩ : Relationship) ∈ relationships s pid) :
    TwinUsers (Present s pid) u v :=
  ⟨h0, fun _ _ => ⟨fun h => h1 _ h rfl, fun h => h2 _ h rfl⟩⟩

/-- The code violates the claim: both users are given `a` on doc:1, by name, and whatever else is given to one is given to the other; Check grants `a` to one and denies it to the other.  The userset
stored between them is searched before the second one, uses up their visit in an intersection that fails, and the relationship that names them is then ignored. -/
theorem C117_order_violated :
    TwinUsers (Present twinStore "p") usr late ∧ Present twinStore "p" (byName doc1 "a" usr) ∧ Present twinStore "p" (byName doc1 "a" late) ∧
    Checks gEnv twinStore 20 "p" ⟨doc1, "a"⟩ usr true ∧ Checks gEnv twinStore 20 "p" ⟨doc1, "a"⟩ late false := by
  refine ⟨twinUsers_of rfl (by decide +kernel) (by decide +kernel), ?_, ?_, checks_of (by decide +kernel), checks_of (by decide +kernel)⟩
  · show _ ∈ relationships twinStore "p"; decide +kernel
  · show _ ∈ relationships twinStore "p"; decide +kernel

/-- `C117_union_partial` applies to `any = a + b` on doc:2, and both users are granted it. -/
example : ∃ b, b = true ∧ Checks gEnv twinStore 10 "p" ⟨doc2, "any"⟩ late b := by
  obtain ⟨b, h⟩ : ∃ b, Checks gEnv twinStore 10 "p" ⟨doc2, "any"⟩ late b := ⟨true, checks_of (by decide +kernel)⟩
  have hx : (⟨doc2, "any"⟩ : USet).node ∈ [RelationNode.entitySet (some doc2) "any", .entitySet (some doc2) "a", .entitySet (some doc2) "b", .entity (some usr), .entity (some late)] := by simp [USet.node]
  have hc := clear_of (env := gEnv) (s := twinStore) (gStore_wf _ _ _) twin_pol hx (by decide +kernel)
  exact ⟨b, (C117_union_partial (env := gEnv) (s := twinStore) (fuel := 10) (gStore_wf _ _ _) twin_pol C117_order_violated.1 hc.1 hc.2
    (exprs_of (env := gEnv) (f := unionOnlyB) (fun _ => unionOnly_of) (gStore_wf _ _ _) twin_pol hx (by decide +kernel) (by decide +kernel)) (checks_of (by decide +kernel)) h).symm, h⟩

/-- user:u and user:vvvvvv have c, and user:v has a and b. -/
def peerStore : Store := gStore gEnv altRels [byName doc1 "c" usr, byName doc1 "c" late, hold "a" "v", hold "b" "v"]

/-- The hypotheses of `C117_clean_partial` and `C117_unconcerned_partial` for `alt = (a & b) + c`. -/
example : TwinUsers (Present peerStore "p") usr late ∧ KeysClear U0 Hx (gPolicy altRels) (Present peerStore "p") ⟨doc1, "alt"⟩ ∧
    IdsClear U0 Hx (gPolicy altRels) (Present peerStore "p") ⟨doc1, "alt"⟩ ∧ Unconcerned U0 (gPolicy altRels) (Present peerStore "p") ⟨doc1, "alt"⟩ usr ∧
    (∃ V, Solution U0 (gPolicy altRels) (Present peerStore "p") usr V) := by
  have hx : (⟨doc1, "alt"⟩ : USet).node ∈ RelationNode.entity (some late) :: altNodes := by simp [USet.node, altNodes]
  have hp : policyAt peerStore "p" = some ⟨gPolicy altRels, [], 0⟩ := by decide +kernel
  have k := clear_of (env := gEnv) (s := peerStore) (L := RelationNode.entity (some late) :: altNodes) (gStore_wf _ _ _) hp hx (by decide +kernel)
  refine ⟨twinUsers_of rfl (by decide +kernel) (by decide +kernel), k.1, k.2, ?_, ⟨_, granted_solution (fun _ _ => alt_diffFree)⟩⟩
  exact unconcerned_of (env := gEnv) (s := peerStore) (L := RelationNode.entity (some late) :: altNodes) (K := [.entitySet (some doc1) "a", .entitySet (some doc1) "b", .entity (some ⟨"user", "v"⟩)])
    (gStore_wf _ _ _) hp hx (by decide +kernel)

/-- Explanations that `C117_clean_partial` compares. -/
example : (∃ t, Explains gEnv peerStore 10 "p" ⟨doc1, "c"⟩ usr t true ∧ Clean t) ∧ ∃ t, Explains gEnv peerStore 10 "p" ⟨doc1, "c"⟩ late t true ∧ Clean t := by
  constructor
  · obtain ⟨t, b, h1, h2⟩ := explains_of (env := gEnv) (s := peerStore) (pid := "p") (x := ⟨doc1, "c"⟩) (u := usr) (fuel := 10) (f := fun t b => cleanB t && b) (by decide +kernel)
    simp only [Bool.and_eq_true] at h2
    obtain ⟨h2, rfl⟩ := h2
    exact ⟨t, h1, clean_of h2⟩
  · obtain ⟨t, b, h1, h2⟩ := explains_of (env := gEnv) (s := peerStore) (pid := "p") (x := ⟨doc1, "c"⟩) (u := late) (fuel := 10) (f := fun t b => cleanB t && b) (by decide +kernel)
    simp only [Bool.and_eq_true] at h2
    obtain ⟨h2, rfl⟩ := h2
    exact ⟨t, h1, clean_of h2⟩

end Zanzi
