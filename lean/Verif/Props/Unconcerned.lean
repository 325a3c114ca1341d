import Verif.Lemmas.InvolvedSet
import Verif.Props.Involved
import Verif.Props.Expansion
import Verif.Props.Rename
import Verif.Props.Rewrite

/-
Properties C81, C86 and C89 for users whom no intersection and no subtraction met by the request concerns.
-/

namespace Zanzi

open Spec

section
variable {env : Env} {s s' : Store} {pid : String} {rec rec' : PolicyRecord} {x : USet} {u : Entity}

/-- C81 with wildcards and all operators, for a user whom no intersection and no subtraction concerns: Check authorizes them exactly when they are in the set
that Expand's tree stands for. -/
theorem C81_unconcerned_partial (hs : WF env s) (hp : policyAt s pid = some rec) (hk : KeysClear env.U env.H rec.policy (Present s pid) x)
    (hi : IdsClear env.U env.H rec.policy (Present s pid) x) (hc : Unconcerned env.U rec.policy (Present s pid) x u)
    {fuel fuel' : Nat} {b : Bool} {t : GoalTree} (h : Checks env s fuel pid x u b) (h' : Expands env s fuel' pid x.node t) : b = inSet u t := by
  obtain ⟨seen, hev⟩ := expands_ev hp h'
  rw [Bool.eq_iff_iff, checks_involved hs hp hk hi hc h, expand_involved hs hp hk hi hc hev]

/-- C86 for a user whom no intersection concerns, under either policy, where no difference is met: policies whose expressions mean the same sets of users give
them the same answer to Check. -/
theorem C86_unconcerned_partial (hs : WF env s) (hs' : WF env s') (hp : policyAt s pid = some rec) (hp' : policyAt s' pid = some rec')
    (hR : ∀ r, Present s pid r ↔ Present s' pid r) (hk : KeysClear env.U env.H rec.policy (Present s pid) x)
    (hk' : KeysClear env.U env.H rec'.policy (Present s' pid) x) (hi : IdsClear env.U env.H rec.policy (Present s pid) x)
    (hi' : IdsClear env.U env.H rec'.policy (Present s' pid) x) (hd : ExprsFrom env.U rec.policy (Present s pid) x DiffFree)
    (hd' : ExprsFrom env.U rec'.policy (Present s' pid) x DiffFree) (hc : Unconcerned env.U rec.policy (Present s pid) x u)
    (hc' : Unconcerned env.U rec'.policy (Present s' pid) x u)
    (hm : ∀ y, ((∃ e, DefinedBy env.U rec.policy y e) ↔ ∃ e, DefinedBy env.U rec'.policy y e) ∧
      ∀ e e', DefinedBy env.U rec.policy y e → DefinedBy env.U rec'.policy y e' → SameSet (Present s pid) y e e')
    {fuel fuel' : Nat} {b b' : Bool} (h : Checks env s fuel pid x u b) (h' : Checks env s' fuel' pid x u b') : b = b' := by
  have hRe : Present s' pid = Present s pid := funext (fun r => propext (hR r).symm)
  have h1 := C90_granted_exact hs hp hk hi hc hd h
  have h2 := C90_granted_exact hs' hp' hk' hi' hc' hd' h'
  rw [hRe] at h2
  rw [Bool.eq_iff_iff, h1, h2, granted_sameSet hm]

/-- C86 for all operators, for a user whom no intersection and no subtraction concerns under either policy, given a solution of the rules in which nobody is in a
userset by virtue of that userset alone. -/
theorem C86_solution_partial (hs : WF env s) (hs' : WF env s') (hp : policyAt s pid = some rec) (hp' : policyAt s' pid = some rec')
    (hR : ∀ r, Present s pid r ↔ Present s' pid r) (hk : KeysClear env.U env.H rec.policy (Present s pid) x)
    (hk' : KeysClear env.U env.H rec'.policy (Present s' pid) x) (hi : IdsClear env.U env.H rec.policy (Present s pid) x)
    (hi' : IdsClear env.U env.H rec'.policy (Present s' pid) x) (hc : Unconcerned env.U rec.policy (Present s pid) x u)
    (hc' : Unconcerned env.U rec'.policy (Present s' pid) x u) {V : USet → Prop} (hV : Solution env.U rec.policy (Present s pid) u V)
    (hsup : Supported env.U rec.policy (Present s pid) u V) (hsup' : Supported env.U rec'.policy (Present s' pid) u V)
    (hm : ∀ y, ((∃ e, DefinedBy env.U rec.policy y e) ↔ ∃ e, DefinedBy env.U rec'.policy y e) ∧
      ∀ e e', DefinedBy env.U rec.policy y e → DefinedBy env.U rec'.policy y e' → SameSet (Present s pid) y e e')
    {fuel fuel' : Nat} {b b' : Bool} (h : Checks env s fuel pid x u b) (h' : Checks env s' fuel' pid x u b') : b = b' := by
  have hRe : Present s' pid = Present s pid := funext (fun r => propext (hR r).symm)
  have hV' : Solution env.U rec'.policy (Present s' pid) u V := fun y => by
    rw [hRe, ← derived_sameSet hm V y]
    exact hV y
  have h1 := C90_solution_exact hs hp hk hi hc hV hsup h
  have h2 := C90_solution_exact hs' hp' hk' hi' hc' hV' hsup' h'
  rw [Bool.eq_iff_iff, h1, h2]

end

/-! ### Names -/

section
variable {ρ : Entity → Entity} {U : Unicode} {p : Policy} {R R' : Relationship → Prop} {x : USet} {u : Entity}

theorem renamed_rewrites (hρ : Renaming ρ) (hR : Renamed ρ R R') {y : USet} {n : RelationNode} (hn : Rewrites U p R y n) :
    Rewrites U p R' (renameUSet ρ y) (renameNode ρ n) := by
  cases hn with
  | @this t sub a b c =>
    rw [← subjectNode_rename]
    exact .this ((definedBy_rename hρ).2 a) b ((renamed_at hρ hR _ _ _).2 ⟨sub, c, rfl⟩)
  | cu a b => exact .cu ((definedBy_rename hρ).2 a) b
  | @arrow t tupleset computed sub e a b c d =>
    refine .arrow (e := ρ e) ((definedBy_rename hρ).2 a) b ((renamed_at hρ hR _ _ _).2 ⟨sub, c, rfl⟩) ?_
    rw [pointsTo_rename, d]
    rfl

theorem reaches_renamed (hρ : Renaming ρ) (hR : Renamed ρ R R') {n : RelationNode} (hn : Reaches U p R x n) :
    Reaches U p R' (renameUSet ρ x) (renameNode ρ n) := by
  induction hn with
  | start => exact .start
  | @step y n _ h2 ih => exact .step (y := renameUSet ρ y) ih (renamed_rewrites hρ hR h2)

theorem names_rename (hρ : Renaming ρ) (n : RelationNode) : Names (ρ u) (renameNode ρ n) ↔ Names u n := by
  cases n with
  | entity o =>
    cases o with
    | none => simp [Names, renameNode]
    | some o =>
      simp only [Names, renameNode, Option.map_some, RelationNode.entity.injEq, Option.some.injEq, reduceCtorEq, or_false]
      exact ⟨fun h => hρ.inj _ _ h, fun h => by rw [h]⟩
  | wildcard n => simp [Names, renameNode, hρ.resource]
  | entitySet o rel => simp [Names, renameNode]
  | unset => simp [Names, renameNode]

theorem renameNode_uset {n : RelationNode} {z' : USet} (h : renameNode ρ n = z'.node) : ∃ z : USet, n = z.node ∧ z' = renameUSet ρ z := by
  obtain ⟨o', r'⟩ := z'
  cases n with
  | entitySet o r =>
    cases o with
    | none => cases h
    | some o => exact ⟨⟨o, r⟩, rfl, by cases h; rfl⟩
  | entity => cases h
  | wildcard => cases h
  | unset => cases h

theorem involves_renamed (hρ : Renaming ρ) (hR : Renamed ρ R R') {n : RelationNode} (h : Involves U p R' (ρ u) (renameNode ρ n)) : Involves U p R u n := by
  rcases h with h | ⟨z', m', hz, hr, hm⟩
  · exact .inl ((names_rename hρ n).1 h)
  · obtain ⟨z, rfl, rfl⟩ := renameNode_uset hz
    obtain ⟨m, rfl, hr'⟩ := renamed_reaches hρ hR hr
    exact .inr ⟨z, m, rfl, hr', (names_rename hρ m).1 hm⟩

theorem ruleLeads_renamed (hρ : Renaming ρ) (hR : Renamed ρ R R') {y : USet} {r : Rule} {n' : RelationNode} (h : RuleLeads R' (renameUSet ρ y) r n') :
    ∃ n, renameNode ρ n = n' ∧ RuleLeads R y r n := by
  cases h with
  | this h =>
    obtain ⟨sub, h1, rfl⟩ := (renamed_at hρ hR _ _ _).1 h
    exact ⟨_, (subjectNode_rename sub).symm, .this h1⟩
  | cu => exact ⟨_, rfl, .cu⟩
  | arrow h h2 =>
    obtain ⟨sub, h1, rfl⟩ := (renamed_at hρ hR _ _ _).1 h
    rw [pointsTo_rename, Option.map_eq_some_iff] at h2
    obtain ⟨e, h3, rfl⟩ := h2
    exact ⟨_, rfl, .arrow h1 h3⟩

theorem unconcerned_renamed (hρ : Renaming ρ) (hR : Renamed ρ R R') (h : Unconcerned U p R x u) : Unconcerned U p R' (renameUSet ρ x) (ρ u) := by
  intro y' t r n' hy hd hr hl hin
  obtain ⟨n, hn, hy'⟩ := renamed_reaches hρ hR hy
  obtain ⟨y, rfl, rfl⟩ := renameNode_uset hn
  obtain ⟨n, rfl, hl'⟩ := ruleLeads_renamed hρ hR hl
  exact h y t r n hy' ((definedBy_rename hρ).1 hd) hr hl' (involves_renamed hρ hR hin)

end

section
variable {env : Env} {s s' : Store} {pid : String} {rec rec' : PolicyRecord} {x : USet} {u : Entity} {ρ : Entity → Entity}

/-- C89 for all operators, for a user whom no intersection and no subtraction concerns: other names of objects and users, whatever order of relationships they
bring, give the same answer to Check, and trees of Expand that have the user or both not. -/
theorem C89_unconcerned_partial (hρ : Renaming ρ) (hs : WF env s) (hs' : WF env s') (hp : policyAt s pid = some rec) (hp' : policyAt s' pid = some rec')
    (hpol : rec'.policy = rec.policy) (hR : Renamed ρ (Present s pid) (Present s' pid))
    (hk : KeysClear env.U env.H rec.policy (Present s pid) x) (hk' : KeysClear env.U env.H rec.policy (Present s' pid) (renameUSet ρ x))
    (hi : IdsClear env.U env.H rec.policy (Present s pid) x) (hi' : IdsClear env.U env.H rec.policy (Present s' pid) (renameUSet ρ x))
    (hc : Unconcerned env.U rec.policy (Present s pid) x u) {fuel fuel' : Nat} :
    (∀ b b', Checks env s fuel pid x u b → Checks env s' fuel' pid (renameUSet ρ x) (ρ u) b' → b = b') ∧
    (∀ t t', Expands env s fuel pid x.node t → Expands env s' fuel' pid (renameUSet ρ x).node t' → inSet u t = inSet (ρ u) t') := by
  have hc' := unconcerned_renamed hρ hR hc
  have hinv : Involves env.U rec.policy (Present s pid) u x.node ↔ Involves env.U rec.policy (Present s' pid) (ρ u) (renameUSet ρ x).node := by
    refine ⟨?_, fun h => involves_renamed hρ hR (n := x.node) h⟩
    rintro ((h | h) | ⟨z, m, hz, hr, hm⟩)
    · cases h
    · cases h
    · obtain ⟨x1, x2⟩ := x
      obtain ⟨z1, z2⟩ := z
      cases hz
      exact .inr ⟨_, _, rfl, reaches_renamed hρ hR hr, (names_rename hρ m).2 hm⟩
  rw [← hpol] at hk' hi' hc'
  constructor
  · intro b b' h h'
    rw [Bool.eq_iff_iff, checks_involved hs hp hk hi hc h, checks_involved hs' hp' hk' hi' hc' h', hinv, hpol]
  · intro t t' h h'
    obtain ⟨_, e⟩ := expands_ev hp h
    obtain ⟨_, e'⟩ := expands_ev hp' h'
    rw [Bool.eq_iff_iff, expand_involved hs hp hk hi hc e, expand_involved hs' hp' hk' hi' hc' e', hinv, hpol]

end

/-! ### Cases -/

/-- Everybody holds c, and user:v holds a and b. -/
def wideStore : Store := gStore gEnv mixRels [⟨some doc1, "c", some (.resourceSet "user")⟩, hold "a" "v", hold "b" "v"]

/-- The hypotheses of `C81_unconcerned_partial` hold for `mixed = (a - b) + c` and user:u, whom a wildcard covers and the difference does not concern. -/
example : ∃ t, Expands gEnv wideStore 10 "p" (USet.node ⟨doc1, "mixed"⟩) t ∧ Checks gEnv wideStore 10 "p" ⟨doc1, "mixed"⟩ usr (inSet usr t) ∧ inSet usr t = true := by
  obtain ⟨t, h1, h2⟩ := expands_of (env := gEnv) (s := wideStore) (pid := "p") (root := USet.node ⟨doc1, "mixed"⟩) (fuel := 10)
    (f := fun t => inSet usr t) (by decide +kernel)
  have hc : Checks gEnv wideStore 10 "p" ⟨doc1, "mixed"⟩ usr true := checks_of (by decide +kernel)
  have hpol : policyAt wideStore "p" = some ⟨gPolicy mixRels, [], 0⟩ := by decide +kernel
  have hcl := clear_of (env := gEnv) (rec := ⟨gPolicy mixRels, [], 0⟩) (x := ⟨doc1, "mixed"⟩)
    (L := [.entitySet (some doc1) "mixed", .entitySet (some doc1) "a", .entitySet (some doc1) "b", .entitySet (some doc1) "c", .wildcard "user", .entity (some ⟨"user", "v"⟩)])
    (gStore_wf _ _ _) hpol (by simp [USet.node]) (by decide +kernel)
  have := C81_unconcerned_partial (env := gEnv) (gStore_wf _ _ _) hpol hcl.1 hcl.2 (unconcerned_of (env := gEnv) (rec := ⟨gPolicy mixRels, [], 0⟩)
    (L := [.entitySet (some doc1) "mixed", .entitySet (some doc1) "a", .entitySet (some doc1) "b", .entitySet (some doc1) "c", .wildcard "user", .entity (some ⟨"user", "v"⟩)])
    (K := [.entitySet (some doc1) "b", .entity (some ⟨"user", "v"⟩)]) (gStore_wf _ _ _) hpol (by simp [USet.node]) (by decide +kernel)) hc h1
  exact ⟨t, h1, this ▸ hc, h2⟩

/-- user:v holds a, user:u holds b: `apartStore` under other names. -/
def apartStoreV : Store := gStore gEnv opRels [hold "a" "v", hold "b" "u"]

def apartNodes : List RelationNode :=
  [.entitySet (some doc1) "only", .entitySet (some doc1) "a", .entitySet (some doc1) "b", .entity (some usr), .entity (some ⟨"user", "v"⟩)]

/-- The hypotheses of `C89_unconcerned_partial` hold for `only = a - b` and user:u. -/
example : Renaming swapUV ∧ Renamed swapUV (Present apartStore "p") (Present apartStoreV "p") ∧
    (KeysClear U0 Hx (gPolicy opRels) (Present apartStore "p") ⟨doc1, "only"⟩ ∧ IdsClear U0 Hx (gPolicy opRels) (Present apartStore "p") ⟨doc1, "only"⟩) ∧
    (KeysClear U0 Hx (gPolicy opRels) (Present apartStoreV "p") (renameUSet swapUV ⟨doc1, "only"⟩) ∧
      IdsClear U0 Hx (gPolicy opRels) (Present apartStoreV "p") (renameUSet swapUV ⟨doc1, "only"⟩)) ∧
    Unconcerned U0 (gPolicy opRels) (Present apartStore "p") ⟨doc1, "only"⟩ usr ∧
    Checks gEnv apartStore 10 "p" ⟨doc1, "only"⟩ usr true ∧ Checks gEnv apartStoreV 10 "p" (renameUSet swapUV ⟨doc1, "only"⟩) (swapUV usr) true ∧
    Checks gEnv apartStoreV 10 "p" (renameUSet swapUV ⟨doc1, "only"⟩) usr false := by
  have hpol : policyAt apartStore "p" = some ⟨gPolicy opRels, [], 0⟩ := by decide +kernel
  have hpol' : policyAt apartStoreV "p" = some ⟨gPolicy opRels, [], 0⟩ := by decide +kernel
  exact ⟨swapUV_renaming, renamed_of (by decide +kernel) (by decide +kernel),
    clear_of (env := gEnv) (rec := ⟨gPolicy opRels, [], 0⟩) (L := apartNodes) (gStore_wf _ _ _) hpol (by simp [apartNodes, USet.node]) (by decide +kernel),
    clear_of (env := gEnv) (rec := ⟨gPolicy opRels, [], 0⟩) (L := apartNodes) (gStore_wf _ _ _) hpol' (by decide +kernel) (by decide +kernel),
    unconcerned_of (env := gEnv) (rec := ⟨gPolicy opRels, [], 0⟩) (L := apartNodes) (K := [.entitySet (some doc1) "b", .entity (some ⟨"user", "v"⟩)])
      (gStore_wf _ _ _) hpol (by simp [apartNodes, USet.node]) (by decide +kernel),
    checks_of (by decide +kernel), checks_of (by decide +kernel), checks_of (by decide +kernel)⟩

/-- user:u holds a and b; user:v, and whoever has w, which is c, hold c. -/
def partRelations : List Relationship := [hold "a" "u", hold "b" "u", ⟨some doc1, "c", some (.entitySet (some doc1) "w")⟩, hold "c" "v"]

def partStore (e : String) : Store := gStore gEnv (formRels e) partRelations

/-- What user:u has and what they need not, from user:v's point of view. -/
def partCold : List RelationNode := [.entitySet (some doc1) "a", .entitySet (some doc1) "b", .entity (some usr)]

/-- The hypotheses of `C86_unconcerned_partial` hold for `v = (a & b) + c` and `v = c + (b & a)`, and user:v. -/
example {fuel fuel' : Nat} {b b' : Bool} (h : Checks gEnv (partStore "(a & b) + c") fuel "p" ⟨doc1, "v"⟩ ⟨"user", "v"⟩ b)
    (h' : Checks gEnv (partStore "c + (b & a)") fuel' "p" ⟨doc1, "v"⟩ ⟨"user", "v"⟩ b') : b = b' := by
  have h1 : policyAt (partStore "(a & b) + c") "p" = some ⟨gPolicy (formRels "(a & b) + c"), [], 0⟩ := by decide +kernel
  have h2 : policyAt (partStore "c + (b & a)") "p" = some ⟨gPolicy (formRels "c + (b & a)"), [], 0⟩ := by decide +kernel
  have c1 := clear_of (env := gEnv) (pid := "p") (x := ⟨doc1, "v"⟩) (L := formNodes) (gStore_wf _ _ _) h1 (by simp [formNodes, USet.node]) (by decide +kernel)
  have c2 := clear_of (env := gEnv) (pid := "p") (x := ⟨doc1, "v"⟩) (L := formNodes) (gStore_wf _ _ _) h2 (by simp [formNodes, USet.node]) (by decide +kernel)
  refine C86_unconcerned_partial (env := gEnv) (gStore_wf _ _ _) (gStore_wf _ _ _) h1 h2 ?_ c1.1 c2.1 c1.2 c2.2
    (exprs_of (env := gEnv) (f := diffFreeB) (fun _ => diffFree_of) (gStore_wf _ _ _) h1 (L := formNodes) (by simp [formNodes, USet.node]) (by decide +kernel)
      (by decide +kernel))
    (exprs_of (env := gEnv) (f := diffFreeB) (fun _ => diffFree_of) (gStore_wf _ _ _) h2 (L := formNodes) (by simp [formNodes, USet.node]) (by decide +kernel)
      (by decide +kernel))
    (unconcerned_of (env := gEnv) (L := formNodes) (K := partCold) (gStore_wf _ _ _) h1 (by simp [formNodes, USet.node]) (by decide +kernel))
    (unconcerned_of (env := gEnv) (L := formNodes) (K := partCold) (gStore_wf _ _ _) h2 (by simp [formNodes, USet.node]) (by decide +kernel)) ?_ h h'
  · have : relationships (partStore "(a & b) + c") "p" = relationships (partStore "c + (b & a)") "p" := by decide +kernel
    intro r
    show r ∈ relationships (partStore "(a & b) + c") "p" ↔ r ∈ relationships (partStore "c + (b & a)") "p"
    rw [this]
  · refine form_same (E := .op (.op (.rule (.cu "a")) .intersection (.rule (.cu "b"))) .union (.rule (.cu "c")))
      (E' := .op (.rule (.cu "c")) .union (.op (.rule (.cu "b")) .intersection (.rule (.cu "a")))) (by decide +kernel) (by decide +kernel) (by decide +kernel)
      _ (fun _ _ _ _ => Iff.rfl) (fun y _ u V => ?_)
    simp only [ExprIn]
    constructor <;> grind

/-- `v = (a - b) + c` -/
abbrev firstPolicy : Policy := gPolicy (formRels "(a - b) + c")
/-- `v = c + (a - b)` -/
abbrev lastPolicy : Policy := gPolicy (formRels "c + (a - b)")

theorem first_tree : getExpressionTree U0 (rel "v" "(a - b) + c") = .ok diffFirst := by decide +kernel
theorem last_tree : getExpressionTree U0 (rel "v" "c + (a - b)") = .ok diffLast := by decide +kernel

theorem part_present {r : Relationship} : Present (partStore "(a - b) + c") "p" r ↔ r ∈ partRelations := by
  have h : ∀ r ∈ relationships (partStore "(a - b) + c") "p", r ∈ partRelations := by decide +kernel
  have h' : ∀ r ∈ partRelations, r ∈ relationships (partStore "(a - b) + c") "p" := by decide +kernel
  exact ⟨h r, h' r⟩

/-- The usersets of user:v in `partStore`: c, w and v on doc:1. -/
def partSolution (x : USet) : Prop :=
  x.object = doc1 ∧ (x.relation = "c" ∨ DefinedBy U0 firstPolicy x (.rule (.cu "c")) ∨ DefinedBy U0 firstPolicy x diffFirst)

theorem first_unique : NamesUnique firstPolicy := form_unique (by decide +kernel)

theorem first_this (n : String) (h : n = "a" ∨ n = "b" ∨ n = "c") : DefinedBy U0 firstPolicy ⟨doc1, n⟩ (.rule .this) := by
  rcases h with rfl | rfl | rfl
  · exact doc_def (rel "a" "_this") (by simp [formRels]) (by decide +kernel) "1"
  · exact doc_def (rel "b" "_this") (by simp [formRels]) (by decide +kernel) "1"
  · exact doc_def (rel "c" "_this") (by simp [formRels]) (by decide +kernel) "1"

theorem partSolution_not (n : String) (h : n = "a" ∨ n = "b") : ¬ partSolution ⟨doc1, n⟩ := by
  have ht := first_this n (by rcases h with h | h <;> simp [h])
  rintro ⟨_, h1 | h1 | h1⟩
  · rcases h with rfl | rfl <;> simp at h1
  · cases DefinedBy.unique first_unique ht h1
  · cases DefinedBy.unique first_unique ht h1

theorem partSolution_is : Solution U0 firstPolicy (Present (partStore "(a - b) + c") "p") ⟨"user", "v"⟩ partSolution := by
  have hc : partSolution ⟨doc1, "c"⟩ := ⟨rfl, .inl rfl⟩
  rintro ⟨o, rl⟩
  constructor
  · rintro ⟨h1, h2⟩
    dsimp only at h1
    subst h1
    rcases h2 with h2 | h2 | h2
    · dsimp only at h2
      subst h2
      exact ⟨_, first_this "c" (by simp), .entity ⟨"user", "v"⟩, part_present.2 (by simp [partRelations, hold]), rfl⟩
    · exact ⟨_, h2, hc⟩
    · exact ⟨_, h2, .inr hc⟩
  · rintro ⟨t, hd, he⟩
    rcases form_def first_tree hd with ⟨rfl, _⟩ | ⟨rfl, _⟩ | ⟨rfl, _⟩
    · obtain ⟨sub, h1, h2⟩ := he
      have h1 := part_present.1 h1
      simp only [partRelations, hold, List.mem_cons, Relationship.mk.injEq, Option.some.injEq, List.not_mem_nil, or_false] at h1
      rcases h1 with ⟨rfl, rfl, rfl⟩ | ⟨rfl, rfl, rfl⟩ | ⟨rfl, rfl, rfl⟩ | ⟨rfl, rfl, rfl⟩
      · simp [SubjectIn] at h2
      · simp [SubjectIn] at h2
      · exact hc
      · exact hc
    · have h1 : o = doc1 := he.1
      subst h1
      exact ⟨rfl, .inr (.inl hd)⟩
    · refine ⟨?_, .inr (.inr hd)⟩
      rcases he with he | he
      · exact he.1.1
      · exact he.1

theorem part_supported {p : Policy} (hc : DefinedBy U0 p ⟨doc1, "c"⟩ (.rule .this))
    (hw : ∀ y, DefinedBy U0 firstPolicy y (.rule (.cu "c")) → DefinedBy U0 p y (.rule (.cu "c")))
    (hv : ∀ y, DefinedBy U0 firstPolicy y diffFirst → ∃ e, DefinedBy U0 p y e ∧ .cu "c" ∈ leaves e) :
    Supported U0 p (Present (partStore "(a - b) + c") "p") ⟨"user", "v"⟩ partSolution := by
  have h0 : Involves U0 p (Present (partStore "(a - b) + c") "p") ⟨"user", "v"⟩ (USet.node ⟨doc1, "c"⟩) :=
    involves_step (.this (sub := .entity ⟨"user", "v"⟩) hc (by simp [leaves]) (part_present.2 (by simp [partRelations, hold]))) (.inl (.inl rfl))
  rintro ⟨o, rl⟩ ⟨h1, h2⟩
  dsimp only at h1
  subst h1
  rcases h2 with h2 | h2 | h2
  · dsimp only at h2
    subst h2
    exact h0
  · exact involves_step (.cu (hw _ h2) (by simp [leaves])) h0
  · obtain ⟨e, h3, h4⟩ := hv _ h2
    exact involves_step (.cu h3 h4) h0

/-- The hypotheses of `C86_solution_partial` hold for `v = (a - b) + c` and `v = c + (a - b)`, and user:v. -/
example {fuel fuel' : Nat} {b b' : Bool} (h : Checks gEnv (partStore "(a - b) + c") fuel "p" ⟨doc1, "v"⟩ ⟨"user", "v"⟩ b)
    (h' : Checks gEnv (partStore "c + (a - b)") fuel' "p" ⟨doc1, "v"⟩ ⟨"user", "v"⟩ b') : b = b' := by
  have h1 : policyAt (partStore "(a - b) + c") "p" = some ⟨firstPolicy, [], 0⟩ := by decide +kernel
  have h2 : policyAt (partStore "c + (a - b)") "p" = some ⟨lastPolicy, [], 0⟩ := by decide +kernel
  have c1 := clear_of (env := gEnv) (pid := "p") (x := ⟨doc1, "v"⟩) (L := formNodes) (gStore_wf _ _ _) h1 (by simp [formNodes, USet.node]) (by decide +kernel)
  have c2 := clear_of (env := gEnv) (pid := "p") (x := ⟨doc1, "v"⟩) (L := formNodes) (gStore_wf _ _ _) h2 (by simp [formNodes, USet.node]) (by decide +kernel)
  have hrel : relationships (partStore "(a - b) + c") "p" = relationships (partStore "c + (a - b)") "p" := by decide +kernel
  have hR : Present (partStore "c + (a - b)") "p" = Present (partStore "(a - b) + c") "p" := by
    funext r
    show (r ∈ relationships (partStore "c + (a - b)") "p") = (r ∈ relationships (partStore "(a - b) + c") "p")
    rw [hrel]
  have s2 : Supported U0 lastPolicy (Present (partStore "(a - b) + c") "p") ⟨"user", "v"⟩ partSolution := by
    refine part_supported (doc_def (rel "c" "_this") (by simp [formRels]) (by decide +kernel) "1") (fun y hy => ?_) (fun y hy => ?_)
    · rcases form_def first_tree hy with ⟨he, _⟩ | ⟨_, hh⟩ | ⟨he, _⟩
      · cases he
      · exact hh _ _ last_tree
      · cases he
    · rcases form_def first_tree hy with ⟨he, _⟩ | ⟨he, _⟩ | ⟨_, hh, _⟩
      · cases he
      · cases he
      · exact ⟨_, hh _ _ last_tree, by simp [diffLast, leaves]⟩
  have s3 : Supported U0 lastPolicy (Present (partStore "c + (a - b)") "p") ⟨"user", "v"⟩ partSolution := by
    rw [hR]
    exact s2
  refine C86_solution_partial (env := gEnv) (gStore_wf _ _ _) (gStore_wf _ _ _) h1 h2 (fun r => Iff.of_eq (congrFun hR r).symm) c1.1 c2.1 c1.2 c2.2
    (unconcerned_of (env := gEnv) (L := formNodes) (K := partCold) (gStore_wf _ _ _) h1 (by simp [formNodes, USet.node]) (by decide +kernel))
    (unconcerned_of (env := gEnv) (L := formNodes) (K := partCold) (gStore_wf _ _ _) h2 (by simp [formNodes, USet.node]) (by decide +kernel))
    partSolution_is (part_supported (first_this "c" (by simp)) (fun _ h => h) (fun _ h => ⟨_, h, by simp [diffFirst, leaves]⟩)) s3 ?_ h h'
  refine form_same first_tree last_tree (by decide +kernel) _ (fun _ _ _ _ => Iff.rfl) (fun y _ u V => ?_)
  simp only [ExprIn, diffFirst, diffLast]
  constructor <;> grind

/-- All answer, and user:v is authorized. -/
example : Checks gEnv (partStore "(a & b) + c") 10 "p" ⟨doc1, "v"⟩ ⟨"user", "v"⟩ true ∧ Checks gEnv (partStore "c + (b & a)") 10 "p" ⟨doc1, "v"⟩ ⟨"user", "v"⟩ true ∧
    Checks gEnv (partStore "(a - b) + c") 10 "p" ⟨doc1, "v"⟩ ⟨"user", "v"⟩ true ∧ Checks gEnv (partStore "c + (a - b)") 10 "p" ⟨doc1, "v"⟩ ⟨"user", "v"⟩ true :=
  ⟨checks_of (by decide +kernel), checks_of (by decide +kernel), checks_of (by decide +kernel), checks_of (by decide +kernel)⟩

end Zanzi
