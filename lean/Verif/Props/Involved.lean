import Verif.Lemmas.Involved
import Verif.Props.Unions

/-
Property C90: intersections and exclusions that do not concern a user do not disturb their requests.
-/

namespace Zanzi

open Spec

section
variable {env : Env} {s : Store} {pid : String} {rec : PolicyRecord} {x : USet} {u : Entity}

/-- C90, in terms of reachability and for all operators: a user whom no intersection and no subtraction met by the request concerns is authorized exactly when
they, or a wildcard covering them, are reached. -/
theorem C90_reached_exact (hs : WF env s) (hp : policyAt s pid = some rec) (hk : KeysClear env.U env.H rec.policy (Present s pid) x)
    (hi : IdsClear env.U env.H rec.policy (Present s pid) x) (hc : Unconcerned env.U rec.policy (Present s pid) x u) {fuel : Nat} {b : Bool}
    (h : Checks env s fuel pid x u b) : b = true ↔ ∃ n, Reaches env.U rec.policy (Present s pid) x n ∧ Names u n := by
  obtain ⟨t, seen, _, hev, rfl⟩ := check_ev hp h
  rw [decide_eq_true_eq, check_involved hs hp hk hi hc hev]
  constructor
  · rintro ((h | h) | ⟨z, m, hz, hr, hm⟩)
    · cases h
    · cases h
    · obtain ⟨x1, x2⟩ := x
      obtain ⟨z1, z2⟩ := z
      cases hz
      exact ⟨m, hr, hm⟩
  · rintro ⟨n, hr, hn⟩
    exact .inr ⟨x, n, rfl, hr, hn⟩

theorem checks_involved (hs : WF env s) (hp : policyAt s pid = some rec) (hk : KeysClear env.U env.H rec.policy (Present s pid) x)
    (hi : IdsClear env.U env.H rec.policy (Present s pid) x) (hc : Unconcerned env.U rec.policy (Present s pid) x u) {fuel : Nat} {b : Bool}
    (h : Checks env s fuel pid x u b) : b = true ↔ Involves env.U rec.policy (Present s pid) u x.node := by
  obtain ⟨t, seen, _, hev, rfl⟩ := check_ev hp h
  rw [decide_eq_true_eq, check_involved hs hp hk hi hc hev]

/-- C90 for requests that meet no difference: exactly those the rules grant are authorized. -/
theorem C90_granted_exact (hs : WF env s) (hp : policyAt s pid = some rec) (hk : KeysClear env.U env.H rec.policy (Present s pid) x)
    (hi : IdsClear env.U env.H rec.policy (Present s pid) x) (hc : Unconcerned env.U rec.policy (Present s pid) x u)
    (hd : ExprsFrom env.U rec.policy (Present s pid) x DiffFree) {fuel : Nat} {b : Bool}
    (h : Checks env s fuel pid x u b) : b = true ↔ Granted env.U rec.policy (Present s pid) u x :=
  (checks_involved hs hp hk hi hc h).trans (involved_granted hc hd)

/-- C90 for all operators: the answer is that of every solution of the rules in which nobody is in a userset by virtue of that userset alone. -/
theorem C90_solution_exact (hs : WF env s) (hp : policyAt s pid = some rec) (hk : KeysClear env.U env.H rec.policy (Present s pid) x)
    (hi : IdsClear env.U env.H rec.policy (Present s pid) x) (hc : Unconcerned env.U rec.policy (Present s pid) x u) {V : USet → Prop}
    (hV : Solution env.U rec.policy (Present s pid) u V) (hsup : Supported env.U rec.policy (Present s pid) u V) {fuel : Nat} {b : Bool}
    (h : Checks env s fuel pid x u b) : b = true ↔ V x :=
  (checks_involved hs hp hk hi hc h).trans (involved_solution hc hV hsup)

/-- C41 for such users: a wildcard reached by the request grants to every entity of its resource. -/
theorem C41_wildcard_unconcerned_partial (hs : WF env s) (hp : policyAt s pid = some rec) (hk : KeysClear env.U env.H rec.policy (Present s pid) x)
    (hi : IdsClear env.U env.H rec.policy (Present s pid) x) (hc : Unconcerned env.U rec.policy (Present s pid) x u)
    (hw : Reaches env.U rec.policy (Present s pid) x (.wildcard u.resource)) {fuel : Nat} {b : Bool} (h : Checks env s fuel pid x u b) : b = true :=
  (C90_reached_exact hs hp hk hi hc h).2 ⟨_, hw, .inr rfl⟩

/-- C74 for such users: whoever is authorized for relation c is authorized for every expression with c among its alternatives, wherever it stands. -/
theorem C74_union_unconcerned_partial (hs : WF env s) (hp : policyAt s pid = some rec) (hk : KeysClear env.U env.H rec.policy (Present s pid) x)
    (hi : IdsClear env.U env.H rec.policy (Present s pid) x) (hc : Unconcerned env.U rec.policy (Present s pid) x u) {e : ExprTree} {c : String}
    (hd : DefinedBy env.U rec.policy x e) (hl : .cu c ∈ leaves e) {fuel fuel' : Nat} {b : Bool} (ha : Checks env s fuel pid ⟨x.object, c⟩ u true)
    (h : Checks env s fuel' pid x u b) : b = true := by
  have hw : Rewrites env.U rec.policy (Present s pid) x (USet.node ⟨x.object, c⟩) := .cu hd hl
  have hr : Reaches env.U rec.policy (Present s pid) x (USet.node ⟨x.object, c⟩) := .step .start hw
  refine (checks_involved hs hp hk hi hc h).2 (involves_step hw ?_)
  exact (checks_involved hs hp (fun y z hy => hk y z (reaches_trans hr hy)) (fun m n id hm hn => hi m n id (reaches_trans hr hm) (reaches_trans hr hn))
    (fun y t r n hy => hc y t r n (reaches_trans hr hy)) ha).1 rfl

theorem unconcerned_mono {U : Unicode} {p : Policy} {R R' : Relationship → Prop} (hR : ∀ r, R r → R' r) (h : Unconcerned U p R' x u) :
    Unconcerned U p R x u := by
  intro y t r n hy hd hr hl hi
  refine h y t r n (hy.mono hR) hd hr (leads_mono hR hl) ?_
  rcases hi with hi | ⟨z, m, hz, hm, hn⟩
  · exact .inl hi
  · exact .inr ⟨z, m, hz, hm.mono hR, hn⟩

/-- C42 and C75 for such users: relationships added, of whatever kind, take nothing away from a user whom no intersection and no subtraction concerns
afterwards. -/
theorem C75_monotone_unconcerned_partial {s' : Store} {rec' : PolicyRecord} (hs : WF env s) (hs' : WF env s') (hp : policyAt s pid = some rec)
    (hp' : policyAt s' pid = some rec') (hrec : rec'.policy = rec.policy) (hR : ∀ r, Present s pid r → Present s' pid r)
    (hk : KeysClear env.U env.H rec.policy (Present s' pid) x) (hi : IdsClear env.U env.H rec.policy (Present s' pid) x)
    (hc : Unconcerned env.U rec.policy (Present s' pid) x u) {fuel fuel' : Nat} {b : Bool}
    (h : Checks env s fuel pid x u true) (h' : Checks env s' fuel' pid x u b) : b = true := by
  have hkS : KeysClear env.U env.H rec.policy (Present s pid) x := fun y z hy hz r o hr => hk y z (hy.mono hR) hz r o (hR r hr)
  obtain ⟨n, hr, hn⟩ := (C90_reached_exact hs hp hkS (fun m n id hm hn => hi m n id (hm.mono hR) (hn.mono hR)) (unconcerned_mono hR hc) h).1 rfl
  exact (C90_reached_exact hs' hp' (hrec ▸ hk) (hrec ▸ hi) (hrec ▸ hc) h').2 ⟨n, hrec ▸ hr.mono hR, hn⟩

/-- C43 for such users: stores holding the same relationships, under whatever key hash and so iteration order, give the same answer. -/
theorem C43_order_unconcerned_partial {env' : Env} {s' : Store} {rec' : PolicyRecord} (hU : env'.U = env.U) (hs : WF env s) (hs' : WF env' s')
    (hp : policyAt s pid = some rec) (hp' : policyAt s' pid = some rec') (hrec : rec'.policy = rec.policy)
    (hR : ∀ r, Present s pid r ↔ Present s' pid r)
    (hk : KeysClear env.U env.H rec.policy (Present s pid) x) (hi : IdsClear env.U env.H rec.policy (Present s pid) x)
    (hk' : KeysClear env.U env'.H rec.policy (Present s pid) x) (hi' : IdsClear env.U env'.H rec.policy (Present s pid) x)
    (hc : Unconcerned env.U rec.policy (Present s pid) x u) {fuel fuel' : Nat} {b b' : Bool}
    (h : Checks env s fuel pid x u b) (h' : Checks env' s' fuel' pid x u b') : b = b' := by
  have hRe : Present s pid = Present s' pid := funext (fun r => propext (hR r))
  have e1 := C90_reached_exact hs hp hk hi hc h
  rw [← hrec, ← hU, hRe] at hk' hi' hc
  have e2 := C90_reached_exact hs' hp' hk' hi' hc h'
  rw [hrec, hU, ← hRe] at e2
  have : b = true ↔ b' = true := e1.trans e2.symm
  cases b <;> cases b' <;> simp_all

end

/-! ### Examples -/

/-- user:u holds c, user:v holds a and b, and members of group:1, among them user:w, hold b. -/
def asideStore : Store := gStore gEnv mixRels [hold "c" "u", hold "a" "v", hold "b" "v", ⟨some doc1, "b", some (.entitySet (some ⟨"group", "1"⟩) "member")⟩,
  ⟨some ⟨"group", "1"⟩, "member", some (.entity ⟨"user", "w"⟩)⟩]

/-- Nodes of the request for `mixed = (a - b) + c`. -/
def asideNodes : List RelationNode :=
  [.entitySet (some doc1) "mixed", .entitySet (some doc1) "a", .entitySet (some doc1) "b", .entitySet (some doc1) "c", .entity (some usr),
    .entity (some ⟨"user", "v"⟩), .entitySet (some ⟨"group", "1"⟩) "member", .entity (some ⟨"user", "w"⟩)]

/-- The hypotheses of the C90 theorems hold for user:u and the difference in `mixed`, who is authorized, and for user:x, who is denied. -/
example : WF gEnv asideStore ∧ policyAt asideStore "p" = some ⟨gPolicy mixRels, [], 0⟩ ∧
    KeysClear U0 Hx (gPolicy mixRels) (Present asideStore "p") ⟨doc1, "mixed"⟩ ∧ IdsClear U0 Hx (gPolicy mixRels) (Present asideStore "p") ⟨doc1, "mixed"⟩ ∧
    Unconcerned U0 (gPolicy mixRels) (Present asideStore "p") ⟨doc1, "mixed"⟩ usr ∧
    Unconcerned U0 (gPolicy mixRels) (Present asideStore "p") ⟨doc1, "mixed"⟩ ⟨"user", "x"⟩ ∧
    Checks gEnv asideStore 10 "p" ⟨doc1, "c"⟩ usr true ∧ Checks gEnv asideStore 10 "p" ⟨doc1, "mixed"⟩ usr true ∧
    Checks gEnv asideStore 10 "p" ⟨doc1, "mixed"⟩ ⟨"user", "x"⟩ false := by
  have hpol : policyAt asideStore "p" = some ⟨gPolicy mixRels, [], 0⟩ := by decide +kernel
  have hcl := clear_of (env := gEnv) (rec := ⟨gPolicy mixRels, [], 0⟩) (x := ⟨doc1, "mixed"⟩) (L := asideNodes) (gStore_wf _ _ _) hpol
    (by simp [asideNodes, USet.node]) (by decide +kernel)
  refine ⟨gStore_wf _ _ _, hpol, hcl.1, hcl.2, ?_, ?_, checks_of (by decide +kernel), checks_of (by decide +kernel), checks_of (by decide +kernel)⟩
  · exact unconcerned_of (env := gEnv) (rec := ⟨gPolicy mixRels, [], 0⟩) (L := asideNodes)
      (K := [.entitySet (some doc1) "b", .entity (some ⟨"user", "v"⟩), .entitySet (some ⟨"group", "1"⟩) "member", .entity (some ⟨"user", "w"⟩)])
      (gStore_wf _ _ _) hpol (by simp [asideNodes, USet.node]) (by decide +kernel)
  · exact unconcerned_of (env := gEnv) (rec := ⟨gPolicy mixRels, [], 0⟩) (L := asideNodes)
      (K := [.entitySet (some doc1) "b", .entity (some ⟨"user", "v"⟩), .entitySet (some ⟨"group", "1"⟩) "member", .entity (some ⟨"user", "w"⟩)])
      (gStore_wf _ _ _) hpol (by simp [asideNodes, USet.node]) (by decide +kernel)

/-- user:u holds a, user:v holds b. -/
def apartStore : Store := gStore gEnv opRels [hold "a" "u", hold "b" "v"]

theorem apart_present {r : Relationship} : Present apartStore "p" r ↔ r = hold "a" "u" ∨ r = hold "b" "v" := by
  have h : relationships apartStore "p" = [hold "a" "u", hold "b" "v"] ∨ relationships apartStore "p" = [hold "b" "v", hold "a" "u"] := by decide +kernel
  unfold Present
  rcases h with h | h <;> rw [h] <;> simp [or_comm]

/-- The usersets of user:u in `apartStore`: a, only and any on doc:1. -/
def apartSolution (x : USet) : Prop := x.object = doc1 ∧ (x.relation = "a" ∨ x.relation = "only" ∨ x.relation = "any")

theorem apartSolution_is : Solution U0 (gPolicy opRels) (Present apartStore "p") usr apartSolution := by
  rintro ⟨o, rl⟩
  constructor
  · rintro ⟨h1, h2⟩
    dsimp only at h1 h2
    subst h1
    obtain ⟨d1, d2, d3, d4, d5⟩ := op_defs "1"
    rcases h2 with rfl | rfl | rfl
    · exact ⟨_, d1, .entity usr, apart_present.2 (.inl rfl), rfl⟩
    · refine ⟨_, d4, ⟨rfl, .inl rfl⟩, fun h => ?_⟩
      rcases h.2 with h | h | h <;> simp at h
    · exact ⟨_, d5, .inl ⟨rfl, .inl rfl⟩⟩
  · rintro ⟨t, hd, he⟩
    rcases op_defined hd with ⟨_, h, rfl⟩ | ⟨_, ⟨h, rfl⟩ | ⟨h, rfl⟩ | ⟨h, rfl⟩ | ⟨h, rfl⟩ | ⟨h, rfl⟩⟩ <;> dsimp only at h <;> subst h
    · obtain ⟨sub, hr, _⟩ := he
      rcases apart_present.1 hr with hr | hr <;> simp [hold] at hr
    · obtain ⟨sub, hr, _⟩ := he
      rcases apart_present.1 hr with hr | hr <;> simp [hold] at hr
      exact ⟨hr.1, .inl rfl⟩
    · obtain ⟨sub, hr, hi⟩ := he
      rcases apart_present.1 hr with hr | hr <;> simp [hold] at hr
      rw [hr.2] at hi
      simp [SubjectIn, usr] at hi
    · rcases he.2.2 with h | h | h <;> simp at h
    · exact ⟨he.1.1, .inr (.inl rfl)⟩
    · rcases he with he | he
      · exact ⟨he.1, .inr (.inr rfl)⟩
      · rcases he.2 with h | h | h <;> simp at h

/-- The hypotheses of `C90_solution_exact` hold for `only = a - b` and user:u, whom b does not concern. -/
example : Solution U0 (gPolicy opRels) (Present apartStore "p") usr apartSolution ∧
    Supported U0 (gPolicy opRels) (Present apartStore "p") usr apartSolution ∧ apartSolution ⟨doc1, "only"⟩ ∧
    Unconcerned U0 (gPolicy opRels) (Present apartStore "p") ⟨doc1, "only"⟩ usr ∧
    KeysClear U0 Hx (gPolicy opRels) (Present apartStore "p") ⟨doc1, "only"⟩ ∧ IdsClear U0 Hx (gPolicy opRels) (Present apartStore "p") ⟨doc1, "only"⟩ ∧
    Checks gEnv apartStore 10 "p" ⟨doc1, "only"⟩ usr true := by
  have hpol : policyAt apartStore "p" = some ⟨gPolicy opRels, [], 0⟩ := by decide +kernel
  have hcl := clear_of (env := gEnv) (rec := ⟨gPolicy opRels, [], 0⟩) (x := ⟨doc1, "only"⟩)
    (L := [.entitySet (some doc1) "only", .entitySet (some doc1) "a", .entitySet (some doc1) "b", .entity (some usr), .entity (some ⟨"user", "v"⟩)])
    (gStore_wf _ _ _) hpol (by simp [USet.node]) (by decide +kernel)
  refine ⟨apartSolution_is, ?_, ⟨rfl, .inr (.inl rfl)⟩, ?_, hcl.1, hcl.2, checks_of (by decide +kernel)⟩
  · rintro ⟨o, rl⟩ ⟨h1, h2⟩
    dsimp only at h1 h2
    subst h1
    obtain ⟨d1, d2, d3, d4, d5⟩ := op_defs "1"
    have ha : Involves U0 (gPolicy opRels) (Present apartStore "p") usr (USet.node ⟨doc1, "a"⟩) :=
      involves_step (.this d1 (by simp [leaves]) (apart_present.2 (.inl rfl))) (.inl (.inl rfl))
    rcases h2 with rfl | rfl | rfl
    · exact ha
    · exact involves_step (.cu d4 (by simp [leaves])) ha
    · exact involves_step (.cu d5 (by simp [leaves])) ha
  · exact unconcerned_of (env := gEnv) (rec := ⟨gPolicy opRels, [], 0⟩)
      (L := [.entitySet (some doc1) "only", .entitySet (some doc1) "a", .entitySet (some doc1) "b", .entity (some usr), .entity (some ⟨"user", "v"⟩)])
      (K := [.entitySet (some doc1) "b", .entity (some ⟨"user", "v"⟩)]) (gStore_wf _ _ _) hpol (by simp [USet.node]) (by decide +kernel)

/-- The hypothesis is needed: user:u, who holds a and b, is concerned by what `only = a - b` subtracts, and authorized though the rules exclude them
(`C36_overgrant_violated`). -/
example : ¬ Unconcerned U0 (gPolicy opRels) (Present abStore "p") ⟨doc1, "only"⟩ usr := by
  intro h
  obtain ⟨d1, d2, d3, d4, d5⟩ := op_defs "1"
  exact h ⟨doc1, "only"⟩ _ (.cu "b") _ .start d4 (by simp [guarded, leaves]) .cu
    (involves_step (y := ⟨doc1, "b"⟩) (.this d2 (by simp [leaves]) (ab_present.2 (.inr rfl))) (.inl (.inl rfl)))

/-- The hypotheses of `C43_order_unconcerned_partial` hold for `mixed` and the two hash functions, of which one iterates in a different order; those of
`C75_monotone_unconcerned_partial` when all but the relationship of user:u are added. -/
example : Unconcerned U0 (gPolicy mixRels) (Present (gStore (wEnv Hy) mixRels [hold "c" "u", hold "a" "v", hold "b" "v"]) "p") ⟨doc1, "mixed"⟩ usr ∧
    (∀ r, Present (gStore (wEnv Hx) mixRels [hold "c" "u", hold "a" "v", hold "b" "v"]) "p" r ↔
      Present (gStore (wEnv Hy) mixRels [hold "c" "u", hold "a" "v", hold "b" "v"]) "p" r) ∧
    Checks (wEnv Hx) (gStore (wEnv Hx) mixRels [hold "c" "u", hold "a" "v", hold "b" "v"]) 10 "p" ⟨doc1, "mixed"⟩ usr true ∧
    Checks (wEnv Hy) (gStore (wEnv Hy) mixRels [hold "c" "u", hold "a" "v", hold "b" "v"]) 10 "p" ⟨doc1, "mixed"⟩ usr true ∧
    (∀ r, Present (gStore gEnv mixRels [hold "c" "u"]) "p" r → Present asideStore "p" r) ∧ Checks gEnv (gStore gEnv mixRels [hold "c" "u"]) 10 "p" ⟨doc1, "mixed"⟩ usr true := by
  refine ⟨?_, fun r => ?_, checks_of (by decide +kernel), checks_of (by decide +kernel), ?_, checks_of (by decide +kernel)⟩
  · exact unconcerned_of (env := wEnv Hy) (rec := ⟨gPolicy mixRels, [], 0⟩)
      (L := [.entitySet (some doc1) "mixed", .entitySet (some doc1) "a", .entitySet (some doc1) "b", .entitySet (some doc1) "c", .entity (some usr),
        .entity (some ⟨"user", "v"⟩)]) (K := [.entitySet (some doc1) "b", .entity (some ⟨"user", "v"⟩)]) (gStore_wf _ _ _) (by decide +kernel)
      (by simp [USet.node]) (by decide +kernel)
  · have h1 : ∀ r ∈ relationships (gStore (wEnv Hx) mixRels [hold "c" "u", hold "a" "v", hold "b" "v"]) "p",
        r ∈ relationships (gStore (wEnv Hy) mixRels [hold "c" "u", hold "a" "v", hold "b" "v"]) "p" := by decide +kernel
    have h2 : ∀ r ∈ relationships (gStore (wEnv Hy) mixRels [hold "c" "u", hold "a" "v", hold "b" "v"]) "p",
        r ∈ relationships (gStore (wEnv Hx) mixRels [hold "c" "u", hold "a" "v", hold "b" "v"]) "p" := by decide +kernel
    exact ⟨h1 r, h2 r⟩
  · show ∀ r ∈ relationships _ _, r ∈ relationships _ _
    decide +kernel

end Zanzi
