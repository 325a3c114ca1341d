import Verif.Lemmas.Agree
import Verif.Props.Grants

/-
Properties C74 and C75: unions with other operators beside them, and adding relationships to policies with intersections.
-/

namespace Zanzi

open Spec

/-! ### A concrete policy -/

/-- doc relations a, b, c, `mixed = (a - b) + c`, `led = c + (a - b)`. -/
def mixRels : List Relation :=
  [rel "a" "_this", rel "b" "_this", rel "c" "_this", rel "mixed" "(a - b) + c", rel "led" "c + (a - b)"]

/-- doc relations a, b, c, `alt = (a & b) + c`. -/
def altRels : List Relation := [rel "a" "_this", rel "b" "_this", rel "c" "_this", rel "alt" "(a & b) + c"]

/-- user:`i` has relation `n` on doc:1. -/
def hold (n i : String) : Relationship := ⟨some doc1, n, some (.entity ⟨"user", i⟩)⟩

/-- user:u has b and c. -/
def mixStore : Store := gStore gEnv mixRels [hold "b" "u", hold "c" "u"]

/-- The expression of `alt`. -/
def altTree : ExprTree := .op (.op (.rule (.cu "a")) .intersection (.rule (.cu "b"))) .union (.rule (.cu "c"))

theorem doc_def {rels : List Relation} (d : Relation) (hd : d ∈ rels) {t : ExprTree} (ht : getExpressionTree U0 d = .ok t) (i : String) :
    DefinedBy U0 (gPolicy rels) ⟨⟨"doc", i⟩, d.name⟩ t :=
  ⟨d, ⟨_, List.mem_cons_of_mem _ (List.mem_cons_of_mem _ List.mem_cons_self), rfl, hd, rfl⟩, (getExpressionTree_ok_iff _ _ _).1 ht⟩

theorem alt_diffFree {x : USet} {t : ExprTree} (h : DefinedBy U0 (gPolicy altRels) x t) : DiffFree t := by
  obtain ⟨d, ⟨r, hr, _, h2, _⟩, h4⟩ := h
  rw [← getExpressionTree_ok_iff] at h4
  have hall : ∀ r ∈ (gPolicy altRels).resources, ∀ d ∈ r.relations, d ∈ altRels ∨ d = rel "member" "_this" := by
    simpa [gPolicy] using fun d hd => Or.inl hd
  have key : ∀ d ∈ rel "member" "_this" :: altRels, getExpressionTree U0 d = .ok (.rule .this) ∨ getExpressionTree U0 d = .ok altTree := by
    decide +kernel
  have hd : d ∈ rel "member" "_this" :: altRels := by
    rcases hall r hr d h2 with h | h
    · exact List.mem_cons_of_mem _ h
    · exact h ▸ List.mem_cons_self
  rcases key d hd with h | h
  · rw [h4] at h; cases h; trivial
  · rw [h4] at h; cases h; simp [altTree, DiffFree]

section
variable {env : Env} {s : Store} {pid : String} {rec : PolicyRecord} {x : USet} {u : Entity}

/-! ### C74: unions -/

/-- C74 is false: a user authorized for c is denied `mixed = (a - b) + c` because they also hold b, and `alt = (a & b) + c` because they also hold a:
the branch tried first uses up the visit of the user. -/
theorem C74_union_violated :
    (Checks gEnv mixStore 10 "p" ⟨doc1, "c"⟩ usr true ∧ Checks gEnv mixStore 10 "p" ⟨doc1, "mixed"⟩ usr false ∧
      DefinedBy U0 (gPolicy mixRels) ⟨doc1, "mixed"⟩ (.op (.op (.rule (.cu "a")) .difference (.rule (.cu "b"))) .union (.rule (.cu "c")))) ∧
    (Checks gEnv (gStore gEnv altRels [hold "a" "u", hold "c" "u"]) 10 "p" ⟨doc1, "c"⟩ usr true ∧
      Checks gEnv (gStore gEnv altRels [hold "a" "u", hold "c" "u"]) 10 "p" ⟨doc1, "alt"⟩ usr false ∧ DefinedBy U0 (gPolicy altRels) ⟨doc1, "alt"⟩ altTree) :=
  ⟨⟨checks_of (by decide +kernel), checks_of (by decide +kernel), doc_def (rel "mixed" "(a - b) + c") (by simp [mixRels]) (by decide +kernel) "1"⟩,
    checks_of (by decide +kernel), checks_of (by decide +kernel), doc_def (rel "alt" "(a & b) + c") (by simp [altRels]) (by decide +kernel) "1"⟩

theorem first_leaf {r : Rule} {e : ExprTree} (h : First r e) : r ∈ leaves e := by
  induction e with
  | nil => cases h
  | unset => cases h
  | rule r' => cases h; simp [leaves]
  | op l o r' ihl _ =>
    cases o
    · simp [leaves, ihl h]
    all_goals exact h.elim

theorem first_result {H : String → Nat} {build : RelationNode → GoalTree → Prop} {goal : Option RelationNode} {pid c : String} {e : ExprTree}
    (hf : First (.cu c) e) : ∀ {t t' : GoalTree} {S S' : List Nat}, pBuild H s pid x e = .ok t → Ev H build goal (.tree t) S (.tree t') S' →
    ∃ r t1 S1, Ev H build goal (.path (USet.node ⟨x.object, c⟩) r) S (.tree t1) S1 ∧ (t1.result = .success → t'.result = .success) := by
  induction e with
  | nil => cases hf
  | unset => cases hf
  | rule r' =>
    intro t t' S S' hb h
    cases hf
    cases hb
    cases h with
    | or h =>
      cases h with
      | orStop h1 hr =>
        cases h1 with
        | leaf h1 => exact ⟨_, _, _, h1, fun _ => rfl⟩
      | orGo h1 hr h2 =>
        cases h1 with
        | leaf h1 => exact ⟨_, _, _, h1, fun hs => absurd hs hr⟩
  | op l o r' ihl _ =>
    intro t t' S S' hb h
    cases o
    · unfold pBuild at hb
      obtain ⟨a, ha, hb⟩ := Res.bind_eq_ok.1 hb
      obtain ⟨b, _, hb⟩ := Res.bind_eq_ok.1 hb
      cases hb
      cases h with
      | or h =>
        cases h with
        | orStop h1 hr =>
          obtain ⟨r, t1, S1, h3, h4⟩ := ihl hf ha h1
          exact ⟨r, t1, S1, h3, fun _ => rfl⟩
        | orGo h1 hr h2 =>
          obtain ⟨r, t1, S1, h3, h4⟩ := ihl hf ha h1
          exact ⟨r, t1, S1, h3, fun hs => absurd (h4 hs) hr⟩
    all_goals exact hf.elim

/-- C74 for the first alternative, whatever the other alternatives and whatever operators are met: whoever is authorized for relation c is authorized for a union
beginning with c, unless c leads back to the union.  Missing: later alternatives when operators other than union are met
before. -/
theorem C74_first_partial (hs : WF env s) (hp : policyAt s pid = some rec)
    (hk : KeysClear env.U env.H rec.policy (Present s pid) x) (hi : IdsClear env.U env.H rec.policy (Present s pid) x)
    {e : ExprTree} {c : String} (hd : DefinedBy env.U rec.policy x e) (hf : First (.cu c) e)
    (hn : ¬ Reaches env.U rec.policy (Present s pid) ⟨x.object, c⟩ x.node) {fuel fuel' : Nat} {b : Bool}
    (hc : Checks env s fuel pid ⟨x.object, c⟩ u true) (h : Checks env s fuel' pid x u b) : b = true := by
  have hr : Reaches env.U rec.policy (Present s pid) x (USet.node ⟨x.object, c⟩) := .step .start (.cu hd (first_leaf hf))
  obtain ⟨t, seen, _, hev, rfl⟩ := check_ev hp h
  obtain ⟨tc, seenc, _, hevc, hb⟩ := check_ev hp hc
  rw [decide_eq_true_eq]
  have hb : tc.result = .success := by simpa using hb.symm
  cases hev with
  | repeated _ hin => cases hin
  | ended _ _ h1 h2 => cases h1; cases h2
  | expanded hid _ _ _ hbd hev =>
    obtain ⟨e', hd', hbe⟩ := bld_ok (hs.policy_valid hp).1 hbd
    obtain rfl := DefinedBy.unique (hs.policy_valid hp).1 hd hd'
    obtain ⟨r, t1, S1, h1, h2⟩ := first_result hf hbe hev
    refine h2 (hb ▸ search_agree hs hp (fun y z hy => hk y z (reaches_trans hr hy)) (fun n id hrn hnid hin => ?_) hevc h1)
    rw [List.mem_singleton] at hin
    subst hin
    obtain rfl := hi _ _ _ (reaches_trans hr hrn) .start hnid hid
    exact hn hrn

/-- C74 for every alternative of requests that meet only unions. -/
theorem C74_union_partial (hs : WF env s) (hp : policyAt s pid = some rec)
    (hk : KeysClear env.U env.H rec.policy (Present s pid) x) (hi : IdsClear env.U env.H rec.policy (Present s pid) x)
    (hu : ExprsFrom env.U rec.policy (Present s pid) x UnionOnly) {e : ExprTree} {c : String} (hd : DefinedBy env.U rec.policy x e)
    (hl : .cu c ∈ leaves e) {fuel fuel' : Nat} {b : Bool} (hc : Checks env s fuel pid ⟨x.object, c⟩ u true) (h : Checks env s fuel' pid x u b) :
    b = true := by
  have hr : Reaches env.U rec.policy (Present s pid) x (USet.node ⟨x.object, c⟩) := .step .start (.cu hd hl)
  refine C37_complete_partial hs hp hk hi hu h (fun V hV => hV x ⟨e, hd, unionOnly_leaf (hu x e .start hd) hl ?_⟩)
  exact C36_sound_no_difference_partial hs hp (fun y z hy => hk y z (reaches_trans hr hy))
    (fun y t hy hd => unionOnly_diffFree (hu y t (reaches_trans hr hy) hd)) hc V hV

/-- The hypotheses of `C74_first_partial` hold for `led = c + (a - b)` and a user holding b and c; `mixed`, with the alternatives exchanged, is denied. -/
example : WF gEnv mixStore ∧ policyAt mixStore "p" = some ⟨gPolicy mixRels, [], 0⟩ ∧
    KeysClear U0 Hx (gPolicy mixRels) (Present mixStore "p") ⟨doc1, "led"⟩ ∧ IdsClear U0 Hx (gPolicy mixRels) (Present mixStore "p") ⟨doc1, "led"⟩ ∧
    (∃ e, DefinedBy U0 (gPolicy mixRels) ⟨doc1, "led"⟩ e ∧ First (.cu "c") e) ∧
    ¬ Reaches U0 (gPolicy mixRels) (Present mixStore "p") ⟨doc1, "c"⟩ (USet.node ⟨doc1, "led"⟩) ∧
    Checks gEnv mixStore 10 "p" ⟨doc1, "c"⟩ usr true ∧ Checks gEnv mixStore 10 "p" ⟨doc1, "led"⟩ usr true := by
  have hpol : policyAt mixStore "p" = some ⟨gPolicy mixRels, [], 0⟩ := by decide +kernel
  have hcl := clear_of (env := gEnv) (rec := ⟨gPolicy mixRels, [], 0⟩) (x := ⟨doc1, "led"⟩)
    (L := [.entitySet (some doc1) "led", .entitySet (some doc1) "a", .entitySet (some doc1) "b", .entitySet (some doc1) "c", .entity (some usr)])
    (gStore_wf _ _ _) hpol (by simp [USet.node]) (by decide +kernel)
  refine ⟨gStore_wf _ _ _, hpol, hcl.1, hcl.2, ⟨_, doc_def (rel "led" "c + (a - b)") (by simp [mixRels])
    (t := .op (.rule (.cu "c")) .union (.op (.rule (.cu "a")) .difference (.rule (.cu "b")))) (by decide +kernel) "1", rfl⟩, fun h => ?_,
    checks_of (by decide +kernel), checks_of (by decide +kernel)⟩
  have := reaches_list (env := gEnv) (gStore_wf _ _ _) hpol (L := [.entitySet (some doc1) "c", .entity (some usr)]) (by simp [USet.node]) (by decide +kernel) h
  simp [USet.node] at this

/-! ### C75: adding relationships without differences -/

theorem _root_.Zanzi.Spec.ExprIn.monoV {R : Relationship → Prop} {V V' : USet → Prop} (hV : ∀ y, V y → V' y) {e : ExprTree} (hd : DiffFree e)
    (h : ExprIn R u V x e) : ExprIn R u V' x e := by
  induction e with
  | nil => exact h
  | unset => exact h
  | rule r =>
    cases r with
    | this =>
      obtain ⟨sub, hr, hi⟩ := h
      refine ⟨sub, hr, ?_⟩
      cases sub with
      | entitySet e rel => cases e with
        | none => exact hi
        | some e => exact hV _ hi
      | _ => exact hi
    | ttu a b =>
      obtain ⟨sub, e, hr, hi, hv⟩ := h
      exact ⟨sub, e, hr, hi, hV _ hv⟩
    | cu _ => exact hV _ h
    | unset => exact h
  | op l o r ihl ihr =>
    cases o
    · exact h.imp (ihl hd.1) (ihr hd.2)
    · exact ⟨ihl hd.1 h.1, ihr hd.2 h.2⟩
    · exact hd.elim
    · exact h

/-- Without differences the least set closed under the rules solves them. -/
theorem granted_solution {U : Unicode} {p : Policy} {R : Relationship → Prop} (hd : ∀ y t, DefinedBy U p y t → DiffFree t) :
    Solution U p R u (Granted U p R u) := by
  have closed : ∀ y, Derived U p R u (Granted U p R u) y → Granted U p R u y := by
    rintro y ⟨t, h1, h2⟩ V hV
    exact hV y ⟨t, h1, ExprIn.monoV (fun z hz => hz V hV) (hd y t h1) h2⟩
  refine fun y => ⟨fun h => ?_, closed y⟩
  exact h (Derived U p R u (Granted U p R u)) (fun z ⟨t, h1, h2⟩ => ⟨t, h1, ExprIn.monoV closed (hd z t h1) h2⟩)

/-- C36 and C37 together for policies without difference, when the explanation shows no branch cut off. -/
theorem C37_clean_exact_partial (hs : WF env s) (hp : policyAt s pid = some rec) (hk : KeysClear env.U env.H rec.policy (Present s pid) x)
    (hd : ∀ y t, DefinedBy env.U rec.policy y t → DiffFree t) {fuel : Nat} {t : GoalTree} {b : Bool} (h : Explains env s fuel pid x u t b) (hc : Clean t) :
    b = true ↔ Granted env.U rec.policy (Present s pid) u x :=
  C36_exact_partial hs hp hk h hc (granted_solution hd)

/-- C75 is false: with `alt = (a & b) + c`, and no difference in the policy, a user holding c is authorized for alt and no longer is when they are given a as well. -/
theorem C75_monotone_violated :
    (∀ x t, DefinedBy U0 (gPolicy altRels) x t → DiffFree t) ∧
    (∀ r, Present (gStore gEnv altRels [hold "c" "u"]) "p" r → Present (gStore gEnv altRels [hold "c" "u", hold "a" "u"]) "p" r) ∧
    Checks gEnv (gStore gEnv altRels [hold "c" "u"]) 10 "p" ⟨doc1, "alt"⟩ usr true ∧
    Checks gEnv (gStore gEnv altRels [hold "c" "u", hold "a" "u"]) 10 "p" ⟨doc1, "alt"⟩ usr false := by
  refine ⟨fun _ _ => alt_diffFree, ?_, checks_of (by decide +kernel), checks_of (by decide +kernel)⟩
  show ∀ r ∈ relationships _ _, r ∈ relationships _ _
  decide +kernel

/-- C75 when the explanation in the larger store shows no branch cut off. -/
theorem C75_monotone_partial {s' : Store} {rec' : PolicyRecord} (hs : WF env s) (hs' : WF env s') (hp : policyAt s pid = some rec)
    (hp' : policyAt s' pid = some rec') (hrec : rec'.policy = rec.policy) (hR : ∀ r, Present s pid r → Present s' pid r)
    (hk : KeysClear env.U env.H rec.policy (Present s' pid) x) (hd : ∀ y t, DefinedBy env.U rec.policy y t → DiffFree t)
    {fuel fuel' : Nat} {t : GoalTree} {b : Bool} (h : Checks env s fuel pid x u true) (h' : Explains env s' fuel' pid x u t b) (hc : Clean t) : b = true := by
  have hkS : KeysClear env.U env.H rec.policy (Present s pid) x := fun y z hy hz r o hr => hk y z (hy.mono hR) hz r o (hR r hr)
  have hg := C36_sound_no_difference_partial hs hp hkS (fun y t _ h => hd y t h) h
  refine (C37_clean_exact_partial hs' hp' (hrec ▸ hk) (hrec ▸ hd) h' hc).2 ?_
  rw [hrec]
  exact fun V hV => hg V (fun y ⟨t, h1, h2⟩ => hV y ⟨t, h1, h2.mono hR (hd y t h1)⟩)

/-- The hypotheses hold when user:v is given a: user:u keeps alt. -/
example : (∃ t, Explains gEnv (gStore gEnv altRels [hold "c" "u", hold "a" "v"]) 10 "p" ⟨doc1, "alt"⟩ usr t true ∧ Clean t) ∧
    Checks gEnv (gStore gEnv altRels [hold "c" "u"]) 10 "p" ⟨doc1, "alt"⟩ usr true ∧
    KeysClear U0 Hx (gPolicy altRels) (Present (gStore gEnv altRels [hold "c" "u", hold "a" "v"]) "p") ⟨doc1, "alt"⟩ := by
  refine ⟨?_, checks_of (by decide +kernel), ?_⟩
  · obtain ⟨t, b, h1, h2⟩ := explains_of (env := gEnv) (s := gStore gEnv altRels [hold "c" "u", hold "a" "v"]) (pid := "p") (x := ⟨doc1, "alt"⟩) (u := usr)
      (fuel := 10) (f := fun t b => cleanB t && b) (by decide +kernel)
    simp only [Bool.and_eq_true] at h2
    obtain ⟨h2, rfl⟩ := h2
    exact ⟨t, h1, clean_of h2⟩
  · exact (clear_of (env := gEnv) (rec := ⟨gPolicy altRels, [], 0⟩) (x := ⟨doc1, "alt"⟩)
      (L := [.entitySet (some doc1) "alt", .entitySet (some doc1) "a", .entitySet (some doc1) "b", .entitySet (some doc1) "c", .entity (some usr),
        .entity (some ⟨"user", "v"⟩)]) (gStore_wf _ _ _) (by decide +kernel) (by simp [USet.node]) (by decide +kernel)).1

end

end Zanzi
