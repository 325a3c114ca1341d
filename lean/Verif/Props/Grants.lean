import Verif.Props.Check
import Verif.Props.Policies

/-
Properties C41–C43, C48, C58 and C59: wildcards, monotonicity, storage order, node identity, isolation of
checks and orphaned relationships.
-/

namespace Zanzi

open Spec

section
variable {env : Env} {s : Store} {pid : String} {rec : PolicyRecord} {x : USet} {u : Entity}

/-! ### C41: wildcards -/

theorem unionOnly_leaf {R : Relationship → Prop} {V : USet → Prop} {e : ExprTree} {r : Rule} (hu : UnionOnly e) (hr : r ∈ leaves e)
    (h : RuleIn R u V x r) : ExprIn R u V x e := by
  induction e with
  | nil => cases hr
  | unset => cases hr
  | rule r' =>
    simp only [leaves, List.mem_singleton] at hr
    subst hr
    exact h
  | op l o r' ihl ihr =>
    cases o
    · simp only [leaves, List.mem_append] at hr
      rcases hr with hr | hr
      · exact .inl (ihl hu.1 hr)
      · exact .inr (ihr hu.2 hr)
    all_goals exact hu.elim

/-- C41, first half, for requests that meet only unions: a stored wildcard grants to every entity of its resource. -/
theorem C41_wildcard_grants_partial (hs : WF env s) (hp : policyAt s pid = some rec)
    (hk : KeysClear env.U env.H rec.policy (Present s pid) x) (hi : IdsClear env.U env.H rec.policy (Present s pid) x)
    (hu : ExprsFrom env.U rec.policy (Present s pid) x UnionOnly) {e : ExprTree} (hd : DefinedBy env.U rec.policy x e) (hl : .this ∈ leaves e)
    (hw : Present s pid ⟨some x.object, x.relation, some (.resourceSet u.resource)⟩) {fuel : Nat} {b : Bool}
    (h : Checks env s fuel pid x u b) : b = true :=
  C37_complete_partial hs hp hk hi hu h (fun _ hV => hV x ⟨e, hd, unionOnly_leaf (hu x e .start hd) hl ⟨_, hw, rfl⟩⟩)

/-- C41, both halves, for a relation defined as `_this` with entities and wildcards as stored subjects: the authorized users are
those stored and those whose resource has a stored wildcard. -/
theorem C41_wildcard_exact_partial (hs : WF env s) (hp : policyAt s pid = some rec)
    (hk : KeysClear env.U env.H rec.policy (Present s pid) x) (hi : IdsClear env.U env.H rec.policy (Present s pid) x)
    (hd : DefinedBy env.U rec.policy x (.rule .this))
    (hsub : ∀ sub, Present s pid ⟨some x.object, x.relation, some sub⟩ → ∀ e rel, sub ≠ .entitySet e rel) {fuel : Nat} {b : Bool}
    (h : Checks env s fuel pid x u b) :
    b = true ↔ Present s pid ⟨some x.object, x.relation, some (.entity u)⟩ ∨
      Present s pid ⟨some x.object, x.relation, some (.resourceSet u.resource)⟩ := by
  have huniq := (hs.policy_valid hp).1
  have hreach : ∀ y : USet, Reaches env.U rec.policy (Present s pid) x y.node → y = x := by
    have : ∀ n, Reaches env.U rec.policy (Present s pid) x n → ∀ y : USet, n = y.node → y = x := by
      intro n hn
      induction hn with
      | start => intro y hy; cases x; cases y; cases hy; rfl
      | @step y n hy hw ih =>
        intro z hz
        obtain rfl := ih y rfl
        cases hw with
        | @this _ sub hd' hl hr =>
          cases sub with
          | entitySet e rel => exact absurd rfl (hsub _ hr e rel)
          | _ => cases hz
        | cu hd' hl =>
          obtain rfl := DefinedBy.unique huniq hd hd'
          simp [leaves] at hl
        | arrow hd' hl =>
          obtain rfl := DefinedBy.unique huniq hd hd'
          simp [leaves] at hl
    exact fun y hy => this _ hy y rfl
  rw [C37_union_exact_partial hs hp hk hi (fun y t hy hdy => by
    obtain rfl := hreach y hy
    obtain rfl := DefinedBy.unique huniq hd hdy
    trivial) h]
  constructor
  · intro hg
    refine hg (fun y => y = x → Present s pid ⟨some x.object, x.relation, some (.entity u)⟩ ∨
      Present s pid ⟨some x.object, x.relation, some (.resourceSet u.resource)⟩) ?_ rfl
    rintro y ⟨e, hde, he⟩ rfl
    obtain rfl := DefinedBy.unique huniq hd hde
    obtain ⟨sub, hr, hin⟩ := he
    cases sub with
    | unset => exact hin.elim
    | entity e => cases hin; exact .inl hr
    | resourceSet n => cases hin; exact .inr hr
    | entitySet e rel => exact absurd rfl (hsub _ hr e rel)
  · rintro (hr | hr) V hV
    · exact hV x ⟨_, hd, _, hr, rfl⟩
    · exact hV x ⟨_, hd, _, hr, rfl⟩

/-- All users hold a on doc:1 through a wildcard; groups do not. -/
example : Checks gEnv wbStore 10 "p" ⟨doc1, "a"⟩ ⟨"user", "anyone"⟩ true ∧ Checks gEnv wbStore 10 "p" ⟨doc1, "a"⟩ ⟨"group", "g"⟩ false ∧
    KeysClear U0 Hx (gPolicy opRels) (Present wbStore "p") ⟨doc1, "a"⟩ ∧ IdsClear U0 Hx (gPolicy opRels) (Present wbStore "p") ⟨doc1, "a"⟩ ∧
    DefinedBy U0 (gPolicy opRels) ⟨doc1, "a"⟩ (.rule .this) := by
  have := clear_of (env := gEnv) (rec := ⟨gPolicy opRels, [], 0⟩) (x := ⟨doc1, "a"⟩) (gStore_wf gEnv opRels wbRels) wbStore_pol
    (L := [.entitySet (some doc1) "a", .wildcard "user"]) (by simp [USet.node]) (by decide +kernel)
  exact ⟨checks_of (by decide +kernel), checks_of (by decide +kernel), this.1, this.2, (op_defs "1").1⟩

/-- doc relations b, c and `a = (b & c) + _this`. -/
def lastRels : List Relation := [rel "b" "_this", rel "c" "_this", rel "a" "(b & c) + _this"]

/-- C41 is false.  All users hold a on doc:1 through a stored wildcard, and a has `_this` as a last alternative; Check says so.  Once all users hold b as
well, the alternative `b & c` tried first uses up the visit of the wildcard, and every user is denied a. -/
theorem C41_wildcard_violated :
    Checks gEnv (gStore gEnv lastRels [⟨some doc1, "a", some (.resourceSet "user")⟩]) 10 "p" ⟨doc1, "a"⟩ usr true ∧
    ∃ s, s = gStore gEnv lastRels [⟨some doc1, "a", some (.resourceSet "user")⟩, ⟨some doc1, "b", some (.resourceSet "user")⟩] ∧
      Present s "p" ⟨some doc1, "a", some (.resourceSet "user")⟩ ∧
      (∃ e, DefinedBy U0 (gPolicy lastRels) ⟨doc1, "a"⟩ (.op e .union (.rule .this))) ∧
      KeysClear U0 Hx (gPolicy lastRels) (Present s "p") ⟨doc1, "a"⟩ ∧ IdsClear U0 Hx (gPolicy lastRels) (Present s "p") ⟨doc1, "a"⟩ ∧
      Checks gEnv s 10 "p" ⟨doc1, "a"⟩ usr false := by
  refine ⟨checks_of (by decide +kernel), _, rfl, ?_, ?_, ?_⟩
  · have : (⟨some doc1, "a", some (.resourceSet "user")⟩ : Relationship) ∈ relationships
        (gStore gEnv lastRels [⟨some doc1, "a", some (.resourceSet "user")⟩, ⟨some doc1, "b", some (.resourceSet "user")⟩]) "p" := by
      decide +kernel
    exact this
  · have h : getExpressionTree U0 (rel "a" "(b & c) + _this") =
        .ok (.op (.op (.rule (.cu "b")) .intersection (.rule (.cu "c"))) .union (.rule .this)) := by decide +kernel
    exact ⟨_, rel "a" "(b & c) + _this", ⟨_, List.mem_cons_of_mem _ (List.mem_cons_of_mem _ List.mem_cons_self), rfl, by simp [lastRels], rfl⟩,
      (getExpressionTree_ok_iff _ _ _).1 h⟩
  · have := clear_of (env := gEnv) (pid := "p") (rec := ⟨gPolicy lastRels, [], 0⟩) (x := ⟨doc1, "a"⟩) (gStore_wf gEnv lastRels
      [⟨some doc1, "a", some (.resourceSet "user")⟩, ⟨some doc1, "b", some (.resourceSet "user")⟩]) (by decide +kernel)
      (L := [.entitySet (some doc1) "a", .entitySet (some doc1) "b", .entitySet (some doc1) "c", .wildcard "user"]) (by simp [USet.node])
      (by decide +kernel)
    exact ⟨this.1, this.2, checks_of (by decide +kernel)⟩

/-! ### C42: monotonicity -/

theorem _root_.Zanzi.Spec.Reaches.mono {U : Unicode} {p : Policy} {R R' : Relationship → Prop} (hR : ∀ r, R r → R' r) {n : RelationNode}
    (h : Reaches U p R x n) : Reaches U p R' x n := by
  induction h with
  | start => exact .start
  | step _ hw ih =>
    refine .step ih ?_
    cases hw with
    | this a b c => exact .this a b (hR _ c)
    | cu a b => exact .cu a b
    | arrow a b c d => exact .arrow a b (hR _ c) d

theorem _root_.Zanzi.Spec.ExprIn.mono {R R' : Relationship → Prop} (hR : ∀ r, R r → R' r) {V : USet → Prop} {e : ExprTree} (hd : DiffFree e)
    (h : ExprIn R u V x e) : ExprIn R' u V x e := by
  induction e with
  | nil => exact h
  | unset => exact h
  | rule r =>
    cases r with
    | this =>
      obtain ⟨sub, hr, hi⟩ := h
      exact ⟨sub, hR _ hr, hi⟩
    | ttu a b =>
      obtain ⟨sub, e, hr, hi⟩ := h
      exact ⟨sub, e, hR _ hr, hi⟩
    | cu _ => exact h
    | unset => exact h
  | op l o r ihl ihr =>
    cases o
    · exact h.imp (ihl hd.1) (ihr hd.2)
    · exact ⟨ihl hd.1 h.1, ihr hd.2 h.2⟩
    · exact hd.elim
    · exact h

/-- C42: when requests meet only unions, adding relationships never turns an authorized answer into a denial.  (An error is still
possible, see C49; partial because of the collision hypotheses on the larger store.) -/
theorem C42_monotone_partial {s' : Store} {rec' : PolicyRecord} (hs : WF env s) (hs' : WF env s') (hp : policyAt s pid = some rec)
    (hp' : policyAt s' pid = some rec') (hrec : rec'.policy = rec.policy) (hR : ∀ r, Present s pid r → Present s' pid r)
    (hk : KeysClear env.U env.H rec.policy (Present s' pid) x) (hi : IdsClear env.U env.H rec.policy (Present s' pid) x)
    (hu : ExprsFrom env.U rec.policy (Present s' pid) x UnionOnly) {fuel fuel' : Nat} {b : Bool}
    (h : Checks env s fuel pid x u true) (h' : Checks env s' fuel' pid x u b) : b = true := by
  have hkS : KeysClear env.U env.H rec.policy (Present s pid) x :=
    fun y z hy hz r o hr => hk y z (hy.mono hR) hz r o (hR r hr)
  rw [← hrec] at hk hi hu
  refine C37_complete_partial hs' hp' hk hi hu h' ?_
  rw [hrec] at hu
  rw [hrec]
  intro V hV
  obtain ⟨t, seen, _, hev, hb⟩ := check_ev hp h
  refine check_sound hs hp hkS (fun y t hr hd' he => hV y ⟨t, hd', ?_⟩) hev (by simpa using hb.symm)
  have hun := unionOnly_diffFree (hu y t (hr.mono hR) hd')
  rw [positive_of_diffFree hun] at he
  exact he.mono hR hun

/-- Without the restriction to unions adding a relationship takes an answer back, as it should for a difference: user:v holds `only = a - b` through
a wildcard on a and loses it with b. -/
theorem C42_needs_union :
    Checks gEnv wbStore 10 "p" ⟨doc1, "only"⟩ ⟨"user", "v"⟩ true ∧
    Checks gEnv (gStore gEnv opRels (wbRels ++ [⟨some doc1, "b", some (.entity ⟨"user", "v"⟩)⟩])) 10 "p" ⟨doc1, "only"⟩ ⟨"user", "v"⟩ false :=
  ⟨checks_of (by decide +kernel), checks_of (by decide +kernel)⟩

/-- C42 is false: with only `_this` in the policy, user:u is in doc:1#a/b, which is in doc:1#v; storing that doc:1/a#b is in doc:1#v as well, which grants
nothing, takes v away from them, since the two usersets have the same visit identifier. -/
theorem C42_monotone_violated :
    ∃ s r s', s = gStore gEnv [rel "a/b" "_this", rel "b" "_this", rel "v" "_this"]
        [⟨some doc1, "v", some (.entitySet (some doc1) "a/b")⟩, ⟨some doc1, "a/b", some (.entity usr)⟩] ∧
      serve gEnv (.setRelationship 0 "p" (some r) []) s = (.ok (.overwritten false), s') ∧ (∀ q, Present s "p" q → Present s' "p" q) ∧
      Checks gEnv s 10 "p" ⟨doc1, "v"⟩ usr true ∧ Checks gEnv s' 10 "p" ⟨doc1, "v"⟩ usr false := by
  let s : Store := gStore gEnv [rel "a/b" "_this", rel "b" "_this", rel "v" "_this"]
    [⟨some doc1, "v", some (.entitySet (some doc1) "a/b")⟩, ⟨some doc1, "a/b", some (.entity usr)⟩]
  let r : Relationship := ⟨some doc1, "v", some (.entitySet (some ⟨"doc", "1/a"⟩) "b")⟩
  have hset := serve_set_ok (env := gEnv) (s := s) (now := 0) (pid := "p") (r := r) (a := [])
    (rec := ⟨gPolicy [rel "a/b" "_this", rel "b" "_this", rel "v" "_this"], [], 0⟩) (by decide +kernel) (by decide +kernel) rfl
  rw [show (kvGet (s.edges "p") _).isSome = false by decide +kernel] at hset
  refine ⟨s, r, _, rfl, hset, ?_, checks_of (by decide +kernel), checks_of (by decide +kernel)⟩
  have : ∀ q ∈ relationships s "p", q ∈ relationships (serve gEnv (.setRelationship 0 "p" (some r) []) s).2 "p" := by decide +kernel
  rw [hset] at this
  exact this

/-- A store and a larger one meeting the hypotheses of `C42_monotone_partial`. -/
example : (∀ r, Present abStore "p" r → Present (gStore gEnv opRels (abRels ++ wbRels)) "p" r) ∧
    Checks gEnv abStore 10 "p" ⟨doc1, "any"⟩ usr true ∧ Checks gEnv (gStore gEnv opRels (abRels ++ wbRels)) 10 "p" ⟨doc1, "any"⟩ usr true ∧
    policyAt (gStore gEnv opRels (abRels ++ wbRels)) "p" = some ⟨gPolicy opRels, [], 0⟩ := by
  refine ⟨fun r hr => ?_, checks_of (by decide +kernel), checks_of (by decide +kernel), by decide +kernel⟩
  rcases ab_present.1 hr with rfl | rfl
  · have : (⟨some doc1, "a", some (.entity usr)⟩ : Relationship) ∈ relationships (gStore gEnv opRels (abRels ++ wbRels)) "p" := by decide +kernel
    exact this
  · have : (⟨some doc1, "b", some (.entity usr)⟩ : Relationship) ∈ relationships (gStore gEnv opRels (abRels ++ wbRels)) "p" := by decide +kernel
    exact this

/-! ### C43: storage order -/

/-- `Hx` with the values of two texts exchanged: again injective. -/
def Hy (t : String) : Nat := if t = "user" then Hx "useru" else if t = "useru" then Hx "user" else Hx t

theorem Hy_inj {a b : String} (h : Hy a = Hy b) : a = b := by
  unfold Hy at h
  repeat' split at h
  all_goals first
    | (subst_vars; rfl)
    | (have := Hx_inj h; simp_all)

/-- user:u and all users have a, user:u has b. -/
def orderRels : List Relationship :=
  [⟨some doc1, "a", some (.resourceSet "user")⟩, ⟨some doc1, "a", some (.entity usr)⟩, ⟨some doc1, "b", some (.entity usr)⟩]

/-- C43 is false: with the same requests, and so the same stored relationships, the answer for `both = a & b` depends on the order in which
the two relationships on a are iterated.  (The order is that of the hashed keys; both hash functions are injective.) -/
theorem C43_order_violated :
    (∀ r, Present (gStore (wEnv Hx) opRels orderRels) "p" r ↔ Present (gStore (wEnv Hy) opRels orderRels) "p" r) ∧
    Checks (wEnv Hx) (gStore (wEnv Hx) opRels orderRels) 10 "p" ⟨doc1, "both"⟩ usr true ∧
    Checks (wEnv Hy) (gStore (wEnv Hy) opRels orderRels) 10 "p" ⟨doc1, "both"⟩ usr false ∧
    Function.Injective Hx ∧ Function.Injective Hy := by
  refine ⟨fun r => ?_, checks_of (by decide +kernel), checks_of (by decide +kernel), fun _ _ => Hx_inj, fun _ _ => Hy_inj⟩
  have h1 : ∀ r ∈ relationships (gStore (wEnv Hx) opRels orderRels) "p", r ∈ relationships (gStore (wEnv Hy) opRels orderRels) "p" := by decide +kernel
  have h2 : ∀ r ∈ relationships (gStore (wEnv Hy) opRels orderRels) "p", r ∈ relationships (gStore (wEnv Hx) opRels orderRels) "p" := by decide +kernel
  exact ⟨h1 r, h2 r⟩

/-- C43 for requests that meet only unions: stores holding the same relationships, under whatever key hash and so iteration order, give the
same answer. -/
theorem C43_order_partial {env' : Env} {s' : Store} {pid' : String} {rec' : PolicyRecord} (hU : env'.U = env.U) (hs : WF env s) (hs' : WF env' s')
    (hp : policyAt s pid = some rec) (hp' : policyAt s' pid' = some rec') (hrec : rec'.policy.resources = rec.policy.resources)
    (hR : ∀ r, Present s pid r ↔ Present s' pid' r)
    (hk : KeysClear env.U env.H rec.policy (Present s pid) x) (hi : IdsClear env.U env.H rec.policy (Present s pid) x)
    (hk' : KeysClear env.U env'.H rec.policy (Present s pid) x) (hi' : IdsClear env.U env'.H rec.policy (Present s pid) x)
    (hu : ExprsFrom env.U rec.policy (Present s pid) x UnionOnly) {fuel fuel' : Nat} {b b' : Bool}
    (h : Checks env s fuel pid x u b) (h' : Checks env' s' fuel' pid' x u b') : b = b' := by
  have hdec : ∀ y t, DefinedBy env'.U rec'.policy y t ↔ DefinedBy env.U rec.policy y t := by
    intro y t
    unfold DefinedBy Declares
    rw [hU, hrec]
  have hRe : Present s pid = Present s' pid' := funext (fun r => propext (hR r))
  have hrw : ∀ y n, Rewrites env'.U rec'.policy (Present s' pid') y n → Rewrites env.U rec.policy (Present s pid) y n := by
    rw [hRe]
    rintro y n (⟨a, b, c⟩ | ⟨a, b⟩ | ⟨a, b, c, d⟩)
    · exact .this ((hdec _ _).1 a) b c
    · exact .cu ((hdec _ _).1 a) b
    · exact .arrow ((hdec _ _).1 a) b c d
  have hre : ∀ n, Reaches env'.U rec'.policy (Present s' pid') x n → Reaches env.U rec.policy (Present s pid) x n := by
    intro n hn
    induction hn with
    | start => exact .start
    | step _ hw ih => exact .step ih (hrw _ _ hw)
  have e1 := C37_union_exact_partial hs hp hk hi hu h
  have e2 := C37_union_exact_partial hs' hp' (x := x) (u := u)
    (fun y z hy hz => by
      rw [← hRe]
      refine hk' y z (hre _ hy) ?_
      rcases hz with rfl | ⟨t, a, c, h1, h2⟩
      · exact .inl rfl
      · exact .inr ⟨t, a, c, (hdec _ _).1 h1, h2⟩)
    (fun m n id hm hn => hi' m n id (hre _ hm) (hre _ hn))
    (fun y t hy hd => hu y t (hre _ hy) ((hdec _ _).1 hd)) h'
  have hg : Granted env'.U rec'.policy (Present s' pid') u x ↔ Granted env.U rec.policy (Present s pid) u x := by
    unfold Granted Derived
    simp only [hdec, hRe]
  have : b = true ↔ b' = true := e1.trans (hg.symm.trans e2.symm)
  cases b <;> cases b' <;> simp_all

/-! ### C48: node identity -/

/-- C48 is false whatever the hash: an entity with empty id and the wildcard of its resource, and nodes whose names or ids contain
slashes, share the visit identifier. -/
theorem C48_identity_violated (H : String → Nat) :
    RelationNode.nodeId H (.entity (some ⟨"user", ""⟩)) = RelationNode.nodeId H (.wildcard "user") ∧
    RelationNode.nodeId H (.entitySet (some ⟨"doc", "1/a"⟩) "b") = RelationNode.nodeId H (.entitySet (some ⟨"doc", "1"⟩) "a/b") ∧
    RelationNode.nodeId H (.entity (some ⟨"doc", "1"⟩)) = RelationNode.nodeId H (.entitySet (some ⟨"doc", "1"⟩) "") ∧
    RelationNode.nodeId H (.entity (some ⟨"a/b", "c"⟩)) = RelationNode.nodeId H (.entity (some ⟨"a", "b/c"⟩)) := by
  refine ⟨?_, ?_, ?_, ?_⟩ <;> exact congrArg (fun t => Res.ok (H t)) (by decide +kernel)

/-- A collision changes an answer: user:u is in doc:1#a/b, which is in doc:1#v, yet denied v because doc:1/a#b was visited first.  With the
relation named `a_b` they are authorized. -/
theorem C48_collision_denies :
    Checks gEnv (gStore gEnv [rel "a_b" "_this", rel "b" "_this", rel "v" "_this"]
      [⟨some doc1, "v", some (.entitySet (some doc1) "a_b")⟩, ⟨some doc1, "v", some (.entitySet (some ⟨"doc", "1/a"⟩) "b")⟩,
       ⟨some doc1, "a_b", some (.entity usr)⟩]) 10 "p" ⟨doc1, "v"⟩ usr true ∧
    Checks gEnv (gStore gEnv [rel "a/b" "_this", rel "b" "_this", rel "v" "_this"]
      [⟨some doc1, "v", some (.entitySet (some doc1) "a/b")⟩, ⟨some doc1, "v", some (.entitySet (some ⟨"doc", "1/a"⟩) "b")⟩,
       ⟨some doc1, "a/b", some (.entity usr)⟩]) 10 "p" ⟨doc1, "v"⟩ usr false :=
  ⟨checks_of (by decide +kernel), checks_of (by decide +kernel)⟩

theorem split_slash {a b x y : List Char} (ha : '/' ∉ a) (hb : '/' ∉ b) (h : a ++ '/' :: x = b ++ '/' :: y) : a = b ∧ x = y := by
  induction a generalizing b with
  | nil =>
    cases b with
    | nil => simpa using h
    | cons c b =>
      simp only [List.nil_append, List.cons_append, List.cons.injEq] at h
      simp [← h.1] at hb
  | cons c a ih =>
    cases b with
    | nil =>
      simp only [List.nil_append, List.cons_append, List.cons.injEq] at h
      simp [h.1] at ha
    | cons d b =>
      simp only [List.cons_append, List.cons.injEq] at h
      obtain ⟨rfl, h⟩ := h
      obtain ⟨h1, h2⟩ := ih (fun h => ha (List.mem_cons_of_mem _ h)) (fun h => hb (List.mem_cons_of_mem _ h)) h
      exact ⟨by rw [h1], h2⟩

/-- Nodes whose resource and id have no slash, whose id is not empty and whose relation (of a userset) is not empty. -/
def PlainNode : RelationNode → Prop
  | .entitySet (some o) rel => '/' ∉ o.resource.toList ∧ '/' ∉ o.id.toList ∧ o.id ≠ "" ∧ rel ≠ ""
  | .entity (some o) => '/' ∉ o.resource.toList ∧ '/' ∉ o.id.toList ∧ o.id ≠ ""
  | .wildcard r => '/' ∉ r.toList
  | _ => False

/-- C48 for such nodes, when the texts hashed for the two have no collision.  Missing: the colliding names of `C48_identity_violated`. -/
theorem C48_identity_partial (H : String → Nat) (m n : RelationNode) (hH : CollisionFree H (fun t => m.idPreimage = .ok t ∨ n.idPreimage = .ok t))
    (hm : PlainNode m) (hn : PlainNode n) (id : Nat)
    (h : m.nodeId H = .ok id) (h' : n.nodeId H = .ok id) : m = n := by
  have key : ∀ {m : RelationNode}, PlainNode m → ∀ {id}, m.nodeId H = .ok id → ∃ r i l, H (r ++ "/" ++ i ++ "/" ++ l) = id ∧ m.idPreimage = .ok (r ++ "/" ++ i ++ "/" ++ l) ∧
      '/' ∉ r.toList ∧ '/' ∉ i.toList ∧
      ((m = .entitySet (some ⟨r, i⟩) l ∧ i ≠ "" ∧ l ≠ "") ∨ (m = .entity (some ⟨r, i⟩) ∧ i ≠ "" ∧ l = "") ∨ (m = .wildcard r ∧ i = "" ∧ l = "")) := by
    intro m hm id h
    cases m with
    | unset => exact hm.elim
    | entitySet o rel =>
      cases o with
      | none => exact hm.elim
      | some o =>
        cases h
        exact ⟨o.resource, o.id, rel, rfl, rfl, hm.1, hm.2.1, .inl ⟨rfl, hm.2.2⟩⟩
    | entity o =>
      cases o with
      | none => exact hm.elim
      | some o =>
        cases h
        exact ⟨o.resource, o.id, "", by rw [String.append_empty], by rw [String.append_empty]; rfl, hm.1, hm.2.1, .inr (.inl ⟨rfl, hm.2.2, rfl⟩)⟩
    | wildcard r =>
      cases h
      exact ⟨r, "", "", by rw [String.append_empty, String.append_empty], by rw [String.append_empty, String.append_empty]; rfl, hm, by simp, .inr (.inr ⟨rfl, rfl, rfl⟩)⟩
  obtain ⟨r, i, l, e, h0, h1, h2, h3⟩ := key hm h
  obtain ⟨r', i', l', e', h0', h1', h2', h3'⟩ := key hn h'
  have := congrArg String.toList (hH _ _ (.inl h0) (.inr h0') (e.trans e'.symm))
  simp only [String.toList_append, List.append_assoc] at this
  have hsl : ("/" : String).toList = ['/'] := by decide
  rw [hsl] at this
  simp only [List.cons_append, List.nil_append] at this
  obtain ⟨e1, e2⟩ := split_slash h1 h1' this
  obtain ⟨e3, e4⟩ := split_slash h2 h2' e2
  have e1 := String.toList_inj.1 e1
  have e3 := String.toList_inj.1 e3
  have e4 := String.toList_inj.1 e4
  subst e1 e3 e4
  rcases h3 with ⟨rfl, a, b⟩ | ⟨rfl, a, b⟩ | ⟨rfl, a, b⟩ <;> rcases h3' with ⟨rfl, c, d⟩ | ⟨rfl, c, d⟩ | ⟨rfl, c, d⟩ <;>
    first | rfl | exact absurd d b | exact absurd b d | exact absurd c a | exact absurd a c

example : PlainNode (.entitySet (some ⟨"doc", "1"⟩) "owner") ∧ PlainNode (.wildcard "user") ∧ PlainNode (.entity (some usr)) := by
  simp only [PlainNode]
  decide

/-! ### The naming discipline -/

theorem _root_.Zanzi.Spec.NameStyle.no_slash {P : Char → Bool} {n : String} (h : NameStyle P n) : '/' ∉ n.toList := fun hc => (h.2 _ hc).2 rfl

theorem _root_.Zanzi.Spec.IdentStyle.ne {P : Char → Bool} {i : String} (h : IdentStyle P i) : i ≠ "" := by
  rintro rfl
  obtain ⟨⟨c, h, _⟩, _⟩ := h
  simp at h

/-- A node in the style. -/
def NodeStyle (P : Char → Bool) : RelationNode → Prop
  | .entitySet (some o) rel => EntityStyle P o ∧ NameStyle P rel
  | .entity (some o) => EntityStyle P o
  | .wildcard r => NameStyle P r
  | _ => False

theorem NodeStyle.plain {P : Char → Bool} {n : RelationNode} (h : NodeStyle P n) : PlainNode n := by
  cases n with
  | unset => exact h
  | entitySet o rel =>
    cases o with
    | none => exact h
    | some o => exact ⟨h.1.1.no_slash, h.1.2.2.2, h.1.2.ne, h.2.1⟩
  | entity o =>
    cases o with
    | none => exact h
    | some o => exact ⟨h.1.no_slash, h.2.2.2, h.2.ne⟩
  | wildcard r => exact NameStyle.no_slash h

/-- When names and ids follow the style (names have no character of some class `P` and no slash, ids begin and end with characters of `P` and have no
slash), and the hash has no collision on the texts in play, the hypotheses `KeysClear` and `IdsClear` of the theorems above hold. -/
theorem style_suffices (P : Char → Bool) {p : Policy} {R : Relationship → Prop} (hH : CollisionFree env.H (Hashed env.U p R x)) (hpol : PolicyStyle P env.U p)
    (hR : ∀ r, R r → RelationshipStyle P r) (hx : EntityStyle P x.object ∧ NameStyle P x.relation) :
    KeysClear env.U env.H p R x ∧ IdsClear env.U env.H p R x := by
  have hst : ∀ n, Reaches env.U p R x n → NodeStyle P n := by
    intro n hn
    induction hn with
    | start => exact hx
    | @step y n _ hw ih =>
      cases hw with
      | @this _ sub hd hl hr =>
        obtain ⟨o, sub', h1, h2, h3, h4, h5⟩ := hR _ hr
        cases h2
        cases sub with
        | entitySet e rel => cases e <;> exact h5
        | _ => exact h5
      | cu hd hl => exact ⟨ih.1, hpol _ _ hd _ hl⟩
      | @arrow _ a c sub e hd hl hr hpt =>
        obtain ⟨o, sub', h1, h2, h3, h4, h5⟩ := hR _ hr
        cases h2
        have hc := hpol _ _ hd _ hl
        refine ⟨?_, hc.2⟩
        cases sub with
        | entity e' => cases hpt; exact h5
        | entitySet e' rel => cases hpt; exact h5.1
        | resourceSet n => cases hpt
        | unset => cases hpt
  refine ⟨fun y z hy hz => ?_, fun m n id hm hn e e' => C48_identity_partial env.H m n
    (fun a b ha hb => hH a b (ha.elim (fun h => .inl ⟨m, hm, h⟩) (fun h => .inl ⟨n, hn, h⟩)) (hb.elim (fun h => .inl ⟨m, hm, h⟩) (fun h => .inl ⟨n, hn, h⟩))) (hst m hm).plain (hst n hn).plain id e e'⟩
  have hy' := hst _ hy
  have hz' : EntityStyle P z.object ∧ NameStyle P z.relation := by
    rcases hz with rfl | ⟨t, a, c, hd, hl, rfl⟩
    · exact hy'
    · exact ⟨hy'.1, (hpol _ _ hd _ hl).1⟩
  intro r o hr ho hh
  obtain ⟨o', sub, h1, h2, h3, h4, h5⟩ := hR r hr
  rw [h1] at ho
  cases ho
  have mk : ∀ {e : Entity} {n : String}, EntityStyle P e → NameStyle P n → IdStyle P ⟨e.resource, e.id, n, .objectSet⟩ := by
    intro e n he hn
    refine ⟨List.all_eq_true.2 (fun c hc => by simp [(he.1.2 c hc).1]), List.all_eq_true.2 (fun c hc => by simp [(hn.2 c hc).1]), hn.1, he.2.1, he.2.2.1⟩
  have := nodeText_inj (mk h3 h4) (mk hz'.1 hz'.2) (hH _ _ (.inr (.inr ⟨r, _, hr, h1, rfl⟩)) (.inr (.inl ⟨y, z, hy, hz, rfl⟩)) hh)
  simp only [INode.mk.injEq, and_true] at this
  obtain ⟨a, b, c⟩ := this
  refine ⟨?_, c⟩
  cases o
  cases hzo : z.object
  rw [hzo] at a b
  simp_all

/-- The hypotheses of `style_suffices` hold of the policy with a, b, both, only and any when user:5 has a on doc:1: ids are numbers, names have no digit. -/
example : CollisionFree gEnv.H (Hashed gEnv.U (gPolicy opRels) (fun r => r = ⟨some doc1, "a", some (.entity ⟨"user", "5"⟩)⟩) ⟨doc1, "both"⟩) ∧
    PolicyStyle Char.isDigit gEnv.U (gPolicy opRels) ∧ RelationshipStyle Char.isDigit ⟨some doc1, "a", some (.entity ⟨"user", "5"⟩)⟩ ∧
    EntityStyle Char.isDigit doc1 ∧ NameStyle Char.isDigit "both" := by
  have na : ∀ n ∈ ["a", "b", "both", "user", "doc"], NameStyle Char.isDigit n := by
    intro n hn
    simp only [List.mem_cons, List.not_mem_nil, or_false] at hn
    rcases hn with rfl | rfl | rfl | rfl | rfl <;> exact ⟨by decide, by decide⟩
  have hd : EntityStyle Char.isDigit doc1 := ⟨na "doc" (by simp), ⟨'1', by decide, by decide⟩, ⟨'1', by decide, by decide⟩, by decide⟩
  refine ⟨fun _ _ _ _ => Hx_inj, fun y t ht r hr => ?_, ⟨doc1, _, rfl, rfl, hd, na "a" (by simp), na "user" (by simp), ⟨'5', by decide, by decide⟩, ⟨'5', by decide, by decide⟩, by decide⟩,
    hd, na "both" (by simp)⟩
  have hc : ∀ {a b : String} {op}, NameStyle Char.isDigit a → NameStyle Char.isDigit b → t = .op (.rule (.cu a)) op (.rule (.cu b)) → RuleStyle Char.isDigit r := by
    rintro a b op ha hb rfl
    simp only [leaves, List.cons_append, List.nil_append, List.mem_cons, List.not_mem_nil, or_false] at hr
    rcases hr with rfl | rfl
    · exact ha
    · exact hb
  have ht' : t = .rule .this → RuleStyle Char.isDigit r := by
    rintro rfl
    simp only [leaves, List.mem_cons, List.not_mem_nil, or_false] at hr
    subst hr
    trivial
  rcases op_defined ht with ⟨_, _, h⟩ | ⟨_, ⟨_, h⟩ | ⟨_, h⟩ | ⟨_, h⟩ | ⟨_, h⟩ | ⟨_, h⟩⟩
  · exact ht' h
  · exact ht' h
  · exact ht' h
  · exact hc (na "a" (by simp)) (na "b" (by simp)) h
  · exact hc (na "a" (by simp)) (na "b" (by simp)) h
  · exact hc (na "a" (by simp)) (na "b" (by simp)) h

/-! ### C58: checks and other policies -/

theorem edges_ext {H : String → Nat} : ∀ (l l' : List (EdgeKey × IRel)), (∀ p ∈ l, p.1 = p.2.key H ∧ NormRel p.2) →
    (∀ p ∈ l', p.1 = p.2.key H ∧ NormRel p.2) → l.map (fun p => fromInternal p.2) = l'.map (fun p => fromInternal p.2) → l = l' := by
  intro l
  induction l with
  | nil => intro l' _ _ h; cases l' <;> simp_all
  | cons p l ih =>
    intro l' h1 h2 h
    cases l' with
    | nil => simp at h
    | cons q l' =>
      simp only [List.map_cons, List.cons.injEq] at h
      have hp := h1 p List.mem_cons_self
      have hq := h2 q List.mem_cons_self
      have he := fromInternal_inj hp.2 hq.2 h.1
      have : p = q := by
        obtain ⟨k, e⟩ := p
        obtain ⟨k', e'⟩ := q
        simp only at hp hq he
        rw [hp.1, hq.1, he]
      rw [this, ih l' (fun p hp => h1 p (List.mem_cons_of_mem _ hp)) (fun p hp => h2 p (List.mem_cons_of_mem _ hp)) h.2]

theorem WF.edges_of_relationships {s' : Store} (hs : WF env s) (hs' : WF env s') (h : relationships s pid = relationships s' pid) :
    s.edges pid = s'.edges pid :=
  edges_ext _ _ (fun p hp => ⟨hs.edgeKey _ _ _ hp, hs.edgeNorm _ _ _ hp⟩) (fun p hp => ⟨hs'.edgeKey _ _ _ hp, hs'.edgeNorm _ _ _ hp⟩) h

/-- C58: the answers of Check, ExplainCheck, Expand and DumpRelationships on a policy are determined by that policy and its own
relationships. -/
theorem C58_local {s' : Store} (hs : WF env s) (hs' : WF env s') (hp : policyAt s pid = policyAt s' pid)
    (hr : relationships s pid = relationships s' pid) (c : Call) (hc : c.graphQuery pid) : (serve env c s).1 = (serve env c s').1 := by
  rw [policyAt_eq, policyAt_eq] at hp
  exact graphQuery_agree (fun rec h => hs.polKey _ _ (kvGet_mem h)) hp (hs.edges_of_relationships hs' hr) hc

/-- C58 over time: requests addressed to other policies never change the answer of a Check. -/
theorem C58_check_undisturbed (hs : WF env s) (cs : List Call) (hcs : ∀ c ∈ cs, c.target env ≠ some pid) (c : Call) (hc : c.graphQuery pid) :
    (serve env c (runCalls env cs s).2).1 = (serve env c s).1 := by
  have key : policyAt (runCalls env cs s).2 pid = policyAt s pid ∧ relationships (runCalls env cs s).2 pid = relationships s pid := by
    clear hc
    induction cs generalizing s with
    | nil => exact ⟨rfl, rfl⟩
    | cons c cs ih =>
      rw [runCalls_cons]
      obtain ⟨a, b, _⟩ := C20_isolation_partial env s c pid hs (hcs c List.mem_cons_self)
      obtain ⟨a', b'⟩ := ih (hs.run c) (fun c h => hcs c (List.mem_cons_of_mem _ h))
      exact ⟨a'.trans a, b'.trans b⟩
  exact C58_local (hs.runCalls cs) hs key.1 key.2 c hc

example : Call.graphQuery "p" (.check 10 "p" (ask ⟨doc1, "any"⟩ usr)) ∧
    (Call.setRelationship 0 "q" (some rA) []).target gEnv ≠ some "p" := by
  refine ⟨rfl, ?_⟩
  simp [Call.target]

/-! ### C59: orphaned relationships -/

/-- The policy declares the relationship's relation. -/
def Declared (p : Policy) (r : Relationship) : Prop := ∃ o, r.object = some o ∧ HasRelation p o.resource r.relation

/-- C59: UpdatePolicy keeps every relationship stored, also those of relations it removes. -/
theorem C59_update_keeps (d : Option PolicyDefinition) (a : Bytes) (q : String) :
    relationships (serve env (.updatePolicy d a) s).2 q = relationships s q := by
  have : (serve env (.updatePolicy d a) s).2.edges = s.edges := by
    rw [serve_update]
    repeat' split
    all_goals rfl
  unfold relationships
  rw [this]

theorem pBuild_congr {H : String → Nat} {s s' : Store} {y : USet} {e : ExprTree} (h : succs H s pid y = succs H s' pid y)
    (h' : ∀ a b, .ttu a b ∈ leaves e → succs H s pid ⟨y.object, a⟩ = succs H s' pid ⟨y.object, a⟩) : pBuild H s pid y e = pBuild H s' pid y e := by
  induction e with
  | nil => rfl
  | unset => rfl
  | rule r =>
    unfold pBuild
    have : ruleNodes H s pid y r = ruleNodes H s' pid y r := by
      cases r with
      | this => simp only [ruleNodes, h]
      | ttu a b => simp only [ruleNodes, h' a b (by simp [leaves])]
      | cu _ => rfl
      | unset => rfl
    rw [this]
  | op l o r ihl ihr =>
    unfold pBuild
    rw [ihl (fun a b h => h' a b (List.mem_append_left _ h)), ihr (fun a b h => h' a b (List.mem_append_right _ h))]

theorem bld_congr {s' : Store} {p : Policy} (hv : ValidPolicy env.U p) {y : USet}
    (h : ∀ z : USet, HasRelation p z.object.resource z.relation → Consulted env.U p y z → succs env.H s p.id z = succs env.H s' p.id z) :
    bld env p s y.node = bld env p s' y.node := by
  rw [bld_set, bld_set]
  split
  · rfl
  · next d hd =>
    have hdec := ((C11_lookup_exact p hv.1 _ _).1 d).1 hd
    have hh : ∀ e, getExpressionTree env.U d = .ok e → pBuild env.H s p.id y e = pBuild env.H s' p.id y e := by
      intro e he
      have hde : DefinedBy env.U p y e := ⟨d, hdec, (getExpressionTree_ok_iff env.U d e).1 he⟩
      refine pBuild_congr (h _ ⟨d, hdec⟩ (.inl rfl)) (fun a b hl => h _ ?_ (.inr ⟨e, a, b, hde, hl, rfl⟩))
      obtain ⟨r, hr, h1, h2, h3⟩ := hdec
      obtain ⟨t, ht, _, hok⟩ := hv.2.2 r hr d h2
      have := (getExpressionTree_ok_iff env.U d t).2 ht
      rw [this] at he
      cases he
      have := hok _ hl
      rw [h1] at this
      exact this
    cases he : getExpressionTree env.U d with
    | ok e => exact hh e he
    | _ => rfl

mutual
theorem pTree_congr {d d' : Descend} {P : RelationNode → Prop} (h : ∀ n r seen, P n → d n r seen = d' n r seen) (t : GoalTree) (seen : List Nat)
    (ht : ∀ n ∈ t.tops, P n) : pTree d t seen = pTree d' t seen := by
  match t with
  | .or _ ps => rw [pTree, pTree, pOr_congr h ps seen (by simpa [GoalTree.tops] using ht)]
  | .and _ ps => rw [pTree, pTree, pAnd_congr h ps seen (by simpa [GoalTree.tops] using ht)]
  | .diff _ l r =>
    have hl : ∀ n ∈ l.tops, P n := fun n hn => ht n (by simp [GoalTree.tops, hn])
    have hr : ∀ n ∈ r.tops, P n := fun n hn => ht n (by simp [GoalTree.tops, hn])
    rw [pTree, pTree, pTree_congr h l seen hl]
    simp only [fun seen => pTree_congr h r seen hr]
  | .leaf _ n r => rw [pTree, pTree]; exact h n r seen (ht n (by simp [GoalTree.tops]))
  | .path _ n r _ => rw [pTree, pTree]; exact h n r seen (ht n (by simp [GoalTree.tops]))

theorem pOr_congr {d d' : Descend} {P : RelationNode → Prop} (h : ∀ n r seen, P n → d n r seen = d' n r seen) (ts : List GoalTree) (seen : List Nat)
    (ht : ∀ n ∈ topsList ts, P n) : pOr d ts seen = pOr d' ts seen := by
  match ts with
  | [] => rw [pOr, pOr]
  | t :: ts =>
    have hl : ∀ n ∈ t.tops, P n := fun n hn => ht n (by simp [topsList, hn])
    have hr : ∀ n ∈ topsList ts, P n := fun n hn => ht n (by simp [topsList, hn])
    rw [pOr, pOr, pTree_congr h t seen hl]
    simp only [fun seen => pOr_congr h ts seen hr]

theorem pAnd_congr {d d' : Descend} {P : RelationNode → Prop} (h : ∀ n r seen, P n → d n r seen = d' n r seen) (ts : List GoalTree) (seen : List Nat)
    (ht : ∀ n ∈ topsList ts, P n) : pAnd d ts seen = pAnd d' ts seen := by
  match ts with
  | [] => rw [pAnd, pAnd]
  | t :: ts =>
    have hl : ∀ n ∈ t.tops, P n := fun n hn => ht n (by simp [topsList, hn])
    have hr : ∀ n ∈ topsList ts, P n := fun n hn => ht n (by simp [topsList, hn])
    rw [pAnd, pAnd, pTree_congr h t seen hl]
    simp only [fun seen => pAnd_congr h ts seen hr]
end

theorem pPath_congr {H : String → Nat} {build build' : RelationNode → Res GoalTree} {goal : Option RelationNode} {P : RelationNode → Prop}
    (hb : ∀ n, P n → n.isTerminal = false → build n = build' n ∧ ∀ t, build n = .ok t → ∀ m ∈ t.tops, Ok H P m) (fuel : Nat) :
    ∀ n r seen, Ok H P n → pPath H build goal fuel n r seen = pPath H build' goal fuel n r seen := by
  induction fuel with
  | zero => intro n r seen _; rfl
  | succ k ih =>
    intro n r seen hn
    unfold pPath
    cases hid : n.nodeId H with
    | ok id =>
      simp only [Res.bind_ok]
      split
      · rfl
      · cases hg : goalFound n goal with
        | ok b =>
          simp only [Res.bind_ok]
          split
          · rfl
          · next hterm =>
            obtain ⟨h1, h2⟩ := hb n (hn id hid) (by simp at hterm; exact hterm.2)
            cases hbn : build n with
            | ok t =>
              rw [← h1, hbn]
              simp only [Res.bind_ok]
              rw [pTree_congr ih t _ (h2 t hbn)]
            | _ => rw [← h1, hbn]; rfl
        | _ => rfl
    | _ => rfl

/-- C59: the answers of Check and ExplainCheck are those of a store without the orphaned relationships.  Partial: no stored relationship may
share its storage key with a userset the request consults, see `C59_orphan_violated`. -/
theorem C59_orphans_inert_partial {s' : Store} (hs : WF env s) (hs' : WF env s') (hp : policyAt s pid = some rec)
    (hp' : policyAt s' pid = some rec) (keep : Relationship → Bool) (hkeep : ∀ r, keep r = true ↔ Declared rec.policy r)
    (hr : relationships s' pid = (relationships s pid).filter keep)
    (hk : KeysClear env.U env.H rec.policy (Present s pid) x) (fuel : Nat) :
    (∀ u, (serve env (.check fuel pid (ask x u)) s).1 = (serve env (.check fuel pid (ask x u)) s').1) ∧
    (∀ u f, (serve env (.explainCheck fuel pid (ask x u) f) s).1 = (serve env (.explainCheck fuel pid (ask x u) f) s').1) ∧
    (∀ f, (serve env (.expand fuel pid (some x.node) f) s).1 = (serve env (.expand fuel pid (some x.node) f) s').1) := by
  have hid := hs.policy_id hp
  have he : s'.edges pid = (s.edges pid).filter (fun p => keep (fromInternal p.2)) := by
    refine edges_ext (H := env.H) _ _ (fun p hp => ⟨hs'.edgeKey _ _ _ hp, hs'.edgeNorm _ _ _ hp⟩) (fun p hp => ?_) ?_
    · have hp := (List.mem_filter.1 hp).1
      exact ⟨hs.edgeKey _ _ _ hp, hs.edgeNorm _ _ _ hp⟩
    · refine Eq.trans hr ?_
      unfold relationships
      rw [List.filter_map]
      rfl
  have hb : ∀ y : USet, Reaches env.U rec.policy (Present s pid) x y.node → bld env rec.policy s y.node = bld env rec.policy s' y.node := by
    intro y hy
    refine bld_congr (hs.policy_valid hp) (fun z hz hc => ?_)
    unfold succs
    rw [hid, he, List.filter_filter]
    congr 2
    refine List.filter_congr (fun p hp => ?_)
    obtain ⟨k, e⟩ := p
    by_cases hkey : k.1 = env.H (z.object.resource ++ z.object.id ++ z.relation)
    · have hpres : Present s pid (fromInternal e) := List.mem_map.2 ⟨_, hp, rfl⟩
      have hkey' := hkey
      rw [hs.edgeKey _ _ _ hp] at hkey'
      obtain ⟨h1, h2⟩ := hk y z hy hc (fromInternal e) ⟨e.source.resource, e.source.id⟩ hpres rfl hkey'
      have : keep (fromInternal e) = true := (hkeep _).2 ⟨_, rfl, by rw [← h1, ← h2] at hz; exact hz⟩
      simp [this]
    · simp [hkey]
  have hq : ∀ g, pSearch env rec.policy s fuel (some x.node) g = pSearch env rec.policy s' fuel (some x.node) g := by
    intro g
    unfold pSearch
    rw [Res.deref_some]
    simp only [Res.bind_ok]
    rw [pPath_congr (build' := bld env rec.policy s') (P := Reaches env.U rec.policy (Present s pid) x) (fun n hn ht => ?_) fuel _ _ _ (fun _ _ => .start)]
    obtain ⟨o, rel, rfl⟩ := isTerminal_false ht
    cases o with
    | none => exact ⟨rfl, fun t h => by cases h⟩
    | some o =>
      refine ⟨hb ⟨o, rel⟩ hn, fun t hbt => ?_⟩
      obtain ⟨_, _, _, _, _, _, _, _, h⟩ := expand_facts hs hp hk hn ht hbt
      exact h
  refine ⟨fun u => ?_, fun u f => ?_, fun f => ?_⟩
  · rw [serve_check hp, serve_check hp', hq]
  · rw [serve_explainCheck hp, serve_explainCheck hp', hq]
  · rw [serve_expand hp, serve_expand hp', hq]

/-- C59: a request naming a removed relation is an error. -/
theorem C59_named_orphan (hp : policyAt s pid = some rec) (hx : ¬ HasRelation rec.policy x.object.resource x.relation) (hs : WF env s) (fuel : Nat) :
    (serve env (.check (fuel + 1) pid (ask x u)) s).1 = .err .relationNotFound := by
  have hlut : (newLut rec.policy).getRelation x.object.resource x.relation = none := by
    cases h : (newLut rec.policy).getRelation x.object.resource x.relation with
    | none => rfl
    | some d => exact absurd ⟨d, ((C11_lookup_exact _ (hs.policy_valid hp).1 _ _).1 d).1 h⟩ hx
  have hb : bld env rec.policy s x.node = .err .relationNotFound := by rw [bld_set, hlut]
  have : pSearch env rec.policy s (fuel + 1) (some x.node) (userGoal u) = .err .relationNotFound := by
    have hpp : pPath env.H (bld env rec.policy s) (userGoal u) (fuel + 1) x.node "Request" [] = .err .relationNotFound := by
      unfold pPath
      have hg : goalFound x.node (userGoal u) = .ok false := rfl
      have hn : ∃ id, x.node.nodeId env.H = .ok id := ⟨_, rfl⟩
      obtain ⟨id, hn⟩ := hn
      simp only [hn, hg, hb, Res.bind_ok, List.not_mem_nil, if_false]
      rfl
    unfold pSearch userGoal
    simp only [Res.deref_some, Res.bind_ok]
    unfold userGoal at hpp
    rw [hpp]
    rfl
  rw [serve_check hp, this]
  rfl

/-- C59: when a userset of a removed relation is reachable (through a stored subject or an arrow), a request that meets only unions is not denied: it is
an error, or granted, and then rightly so without that userset. -/
theorem C59_reached_orphan_partial (hs : WF env s) (hp : policyAt s pid = some rec)
    (hk : KeysClear env.U env.H rec.policy (Present s pid) x) (hi : IdsClear env.U env.H rec.policy (Present s pid) x)
    (hu : ExprsFrom env.U rec.policy (Present s pid) x UnionOnly) {y : USet} (hy : Reaches env.U rec.policy (Present s pid) x y.node)
    (hun : ¬ HasRelation rec.policy y.object.resource y.relation) {fuel : Nat} {b : Bool} (h : Checks env s fuel pid x u b) :
    b = true ∧ ∀ V : USet → Prop, (∀ z, HasRelation rec.policy z.object.resource z.relation → Derived env.U rec.policy (Present s pid) u V z → V z) → V x := by
  have hb : b = true := by
    refine Classical.byContradiction (fun hb => ?_)
    obtain ⟨t, seen, _, hev, rfl⟩ := check_ev hp h
    have hne : t.result ≠ .success := by simpa using hb
    have hc := hev.closed (P := Reaches env.U rec.policy (Present s pid) x) (d := false) nofun
      (fun n t hr hterm hb => by
        obtain ⟨y, e, rfl, h1, h2, k1, k2, hfm, htops⟩ := expand_facts hs hp hk hr hterm hb
        exact ⟨pBuild_unionOnly (hu y e hr h1) h2, htops⟩)
    obtain ⟨hv, hnew⟩ := hc (fun _ _ => .start) hne
    have hall : ∀ n, Reaches env.U rec.policy (Present s pid) x n → ∀ o rel, n = .entitySet (some o) rel → Visited env.H seen n := by
      intro n hn
      induction hn with
      | start => intro _ _ _; exact hv
      | @step z n hz hw ih =>
        intro o rel hor
        obtain ⟨id, hid, hzid⟩ := ih _ _ rfl
        obtain ⟨m, hm, hmr, hcl⟩ := hnew id hid (by simp)
        obtain rfl := hi _ _ _ hz hmr hzid hm
        obtain ⟨t', hb', htv⟩ := hcl.2 rfl
        exact htv n (rewrites_tops hs hp hb' hw)
    obtain ⟨id, hid, hyid⟩ := hall _ hy _ _ rfl
    obtain ⟨m, hm, hmr, hcl⟩ := hnew id hid (by simp)
    obtain rfl := hi _ _ _ hy hmr hyid hm
    obtain ⟨t', hb', _⟩ := hcl.2 rfl
    obtain ⟨e, ⟨d, hd, _⟩, _⟩ := bld_ok (hs.policy_valid hp).1 hb'
    exact hun ⟨d, hd⟩
  refine ⟨hb, fun V hV => (C37_union_exact_partial hs hp hk hi hu h).1 hb V (fun z hz => hV z ?_ hz)⟩
  obtain ⟨e, ⟨d, hd, _⟩, _⟩ := hz
  exact ⟨d, hd⟩

/-- C59 is false with key collisions: after an update removed relation `ya`, the orphan doc:x#ya@user:u grants `a` on doc:xy. -/
theorem C59_orphan_violated : ∃ s, s = (runCalls gEnv
      [.createPolicy 0 (some (.policy (gPolicy [rel "a" "_this", rel "ya" "_this"]))) [],
       .setRelationship 0 "p" (some ⟨some ⟨"doc", "x"⟩, "ya", some (.entity usr)⟩) [],
       .updatePolicy (some (.policy (gPolicy [rel "a" "_this"]))) []] Store.empty).2 ∧
    policyAt s "p" = some ⟨gPolicy [rel "a" "_this"], [], 0⟩ ∧
    relationships s "p" = [⟨some ⟨"doc", "x"⟩, "ya", some (.entity usr)⟩] ∧
    Checks gEnv s 10 "p" ⟨⟨"doc", "xy"⟩, "a"⟩ usr true :=
  ⟨_, rfl, by decide +kernel, by decide +kernel, checks_of (by decide +kernel)⟩

/-- The error of an answer. -/
def errOf {α : Type} : Res α → Option Err
  | .err e => some e
  | _ => none

theorem errOf_some {α : Type} {r : Res α} {e : Err} (h : errOf r = some e) : r = .err e := by
  cases r <;> simp [errOf] at h
  rw [h]

/-- Relation b removed by an update: doc:1#b@user:u is an orphan. -/
def orphanStore : Store := (runCalls gEnv [.createPolicy 0 (some (.policy (gPolicy opRels))) [],
  .setRelationship 0 "p" (some ⟨some doc1, "a", some (.entitySet (some doc1) "b")⟩) [],
  .setRelationship 0 "p" (some ⟨some doc1, "b", some (.entity usr)⟩) [],
  .updatePolicy (some (.policy (gPolicy [rel "a" "_this", rel "c" "_this"]))) []] Store.empty).2

/-- The hypotheses of the theorems above hold: c is untouched by the orphan, a passes through a removed userset and errors. -/
example : WF gEnv orphanStore ∧ policyAt orphanStore "p" = some ⟨gPolicy [rel "a" "_this", rel "c" "_this"], [], 0⟩ ∧
    KeysClear U0 Hx (gPolicy [rel "a" "_this", rel "c" "_this"]) (Present orphanStore "p") ⟨doc1, "c"⟩ ∧
    relationships orphanStore "p" = [⟨some doc1, "a", some (.entitySet (some doc1) "b")⟩, ⟨some doc1, "b", some (.entity usr)⟩] ∧
    (serve gEnv (.check 10 "p" (ask ⟨doc1, "a"⟩ usr)) orphanStore).1 = .err .relationNotFound := by
  have hp : policyAt orphanStore "p" = some ⟨gPolicy [rel "a" "_this", rel "c" "_this"], [], 0⟩ := by decide +kernel
  refine ⟨(WF.empty _).runCalls _, hp, (clear_of (env := gEnv) (x := ⟨doc1, "c"⟩) ((WF.empty _).runCalls _) hp
    (L := [.entitySet (some doc1) "c"]) (by simp [USet.node]) (by decide +kernel)).1, by decide +kernel, errOf_some (by decide +kernel)⟩

end

end Zanzi
