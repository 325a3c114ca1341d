import Verif.Lemmas.Quote
import Verif.Lemmas.Base64
import Verif.Props.Containers
import Verif.Props.Interference

/-
Properties C66 (response formats) and C67 (quoting in DOT texts).
-/

namespace Zanzi

open Spec

section
variable {env : Env} {s : Store} {pid : String} {rec : PolicyRecord}

/-! ### C66: formats -/

theorem andThen_eq_ok {α β : Type} {x : Res α × Store} {k : α → Store → Res β × Store} {b : β} (h : (Res.andThen x k).1 = .ok b) :
    ∃ a s, x = (.ok a, s) ∧ (k a s).1 = .ok b := by
  obtain ⟨r, s⟩ := x
  cases r with
  | ok a => exact ⟨a, s, rfl, h⟩
  | err e => cases h
  | panic => cases h
  | fuel => cases h

theorem serialize_format {f : ExplainFormat} {t : GoalTree} {o : Serialized} (h : serialize f t = .ok o) : formatOf o = f := by
  cases f with
  | spew => cases h; rfl
  | json =>
    simp only [serialize, jsonSerialize] at h
    split at h
    · cases h
    · cases h; rfl
  | dot =>
    obtain ⟨cs, _, h⟩ := Res.bind_eq_ok.1 h
    cases h
    rfl
  | unknown => cases h

/-- C66 for Expand: the text is in the requested format, and the response names that format. -/
theorem C66_expand_format (env : Env) (s : Store) (fuel : Nat) (pid : String) (root : Option RelationNode) (f g : ExplainFormat) (o : Serialized)
    (h : (serve env (.expand fuel pid root f) s).1 = .ok (.expanded o g)) : g = f ∧ formatOf o = f := by
  rw [show serve env (.expand fuel pid root f) s = _ from expand_yields' env fuel pid root f s] at h
  obtain ⟨q, hq, h⟩ := Res.bind_eq_ok.1 h
  cases h
  obtain ⟨_, _, h⟩ := Res.bind_eq_ok.1 hq
  obtain ⟨rec, _, h⟩ := Res.bind_eq_ok.1 h
  obtain ⟨t, _, h⟩ := Res.bind_eq_ok.1 h
  obtain ⟨o, h1, h⟩ := Res.bind_eq_ok.1 h
  cases h
  exact ⟨rfl, serialize_format h1⟩

/-- An expansion drawn in DOT. -/
example : ∃ cs, (serve gEnv (.expand 10 "p" (some (.entitySet (some doc1) "any")) .dot) abStore).1 = .ok (.expanded (.dot cs) .dot) := by
  have h : (match (serve gEnv (.expand 10 "p" (some (.entitySet (some doc1) "any")) .dot) abStore).1 with
    | .ok (.expanded (.dot _) .dot) => true | _ => false) = true := by decide +kernel
  revert h
  split
  · intro _; exact ⟨_, by assumption⟩
  · intro h; cases h

/-- C66 for ExplainCheck: the text is in the requested format.  Missing: the format named in the response is always SPEW, so it is the
requested one for spew requests only (`C66_explain_violated`). -/
theorem C66_explain_partial (env : Env) (s : Store) (fuel : Nat) (pid : String) (req : Option AccessRequest) (f g : ExplainFormat) (o : Serialized)
    (b : Bool) (h : (serve env (.explainCheck fuel pid req f) s).1 = .ok (.explained o b g)) : formatOf o = f ∧ (g = f ↔ f = .spew) := by
  rw [show serve env (.explainCheck fuel pid req f) s = _ from explainCheck_yields' env fuel pid req f s] at h
  obtain ⟨q, hq, h⟩ := Res.bind_eq_ok.1 h
  cases h
  obtain ⟨_, _, h⟩ := Res.bind_eq_ok.1 hq
  obtain ⟨rec, _, h⟩ := Res.bind_eq_ok.1 h
  obtain ⟨t, _, h⟩ := Res.bind_eq_ok.1 h
  obtain ⟨o, h1, h⟩ := Res.bind_eq_ok.1 h
  cases h
  exact ⟨serialize_format h1, eq_comm⟩

/-- A drawing and the format named in the response. -/
def explDotB (f : List DotCall → Bool → ExplainFormat → Bool) : Res Answer → Bool
  | .ok (.explained (.dot cs) b g) => f cs b g
  | _ => false

theorem explDot_of {f : List DotCall → Bool → ExplainFormat → Bool} {r : Res Answer} (h : explDotB f r = true) :
    ∃ cs b g, r = .ok (.explained (.dot cs) b g) ∧ f cs b g = true := by
  unfold explDotB at h
  split at h
  · exact ⟨_, _, _, rfl, h⟩
  · cases h

/-- C66 is false for ExplainCheck: a granted request answered with a DOT text is labelled SPEW. -/
theorem C66_explain_violated : ∃ cs, (serve gEnv (.explainCheck 10 "p" (ask ⟨doc1, "a"⟩ usr) .dot) abStore).1 = .ok (.explained (.dot cs) true .spew) := by
  obtain ⟨cs, b, g, h1, h2⟩ := explDot_of (f := fun _ b g => b && decide (g = .spew)) (r := (serve gEnv (.explainCheck 10 "p" (ask ⟨doc1, "a"⟩ usr) .dot) abStore).1)
    (by decide +kernel)
  simp only [Bool.and_eq_true, decide_eq_true_eq] at h2
  obtain ⟨rfl, rfl⟩ := h2
  exact ⟨cs, h1⟩

/-- C66, unknown formats: ExplainCheck and Expand refuse them without a single storage call, and DumpRelationships never answers them. -/
theorem C66_unknown_refused (env : Env) (fuel : Nat) (pid : String) :
    (∀ req, (Call.explainCheck fuel pid req .unknown).prog env = .done (.err .invalidVariant)) ∧
    (∀ root, (Call.expand fuel pid root .unknown).prog env = .done (.err .invalidVariant)) ∧
    (∀ order s a, (serve env (.dumpRelationships fuel order pid .unknown) s).1 ≠ .ok a) := by
  refine ⟨fun _ => rfl, fun _ => rfl, fun order s a h => ?_⟩
  have h1 : ∀ x, ((GraphService.dumpRelationships env fuel order pid .unknown).run s).1 ≠ .ok x := by
    intro x hx
    unfold GraphService.dumpRelationships at hx
    rw [Prog.run_bind] at hx
    obtain ⟨rec, s1, h1, hx⟩ := andThen_eq_ok hx
    rw [Prog.run_bind] at hx
    obtain ⟨es, s2, h2, hx⟩ := andThen_eq_ok hx
    rw [Prog.run_bind] at hx
    obtain ⟨f, s3, h3, hx⟩ := andThen_eq_ok hx
    cases hx
  have h2 : ((GraphService.dumpRelationships env fuel order pid .unknown >>= fun x => pure (Answer.dumped x)).run s).1 = .ok a := h
  rw [Prog.run_bind] at h2
  obtain ⟨x, s1, h3, _⟩ := andThen_eq_ok h2
  exact h1 x (congrArg Prod.fst h3)

/-! ### C67: quoting -/

/-- C67, exactly when a text between quotes reads back as itself: it has no quote, and does not end within a backslash pair.  A path of the drawing ends with its result, so only quotes
matter there. -/
theorem C67_wrap_exact (l : String) : Reads (dotWrap l) l ↔ QuoteFree l ∧ midPair l.toList = false := reads_wrap_iff l

/-- C67 for goal trees, when names in the request, in the rules of the policy and in stored subjects have no quotes: every vertex name and every label ExplainCheck and Expand write reads
back as itself.  Missing: names with quotes (`C67_quoting_violated`). -/
theorem C67_goal_tree_partial (hs : WF env s) (hp : policyAt s pid = some rec) (hr : PlainRules env.U rec.policy) (hd : PlainSubjects (Present s pid)) :
    (∀ fuel (req : AccessRequest) cs b g, NodePlain (.entitySet req.object req.relation) →
      (serve env (.explainCheck fuel pid (some req) .dot) s).1 = .ok (.explained (.dot cs) b g) → WellQuoted cs) ∧
    (∀ fuel n cs g, NodePlain n → (serve env (.expand fuel pid (some n) .dot) s).1 = .ok (.expanded (.dot cs) g) → WellQuoted cs) := by
  have hpr : policyRes s pid = .ok rec := by unfold policyRes; rw [hp]
  refine ⟨fun fuel req cs b g hn h => ?_, fun fuel n cs g hn h => ?_⟩
  · rw [show serve env (.explainCheck fuel pid (some req) .dot) s = _ from explainCheck_yields' env fuel pid (some req) .dot s] at h
    obtain ⟨⟨_, _, _⟩, hq, h⟩ := Res.bind_eq_ok.1 h
    cases h
    obtain ⟨_, _, h⟩ := Res.bind_eq_ok.1 hq
    obtain ⟨rec', h0, h⟩ := Res.bind_eq_ok.1 h
    rw [hpr] at h0
    cases h0
    obtain ⟨t, h1, h⟩ := Res.bind_eq_ok.1 h
    obtain ⟨o, h2, h⟩ := Res.bind_eq_ok.1 h
    cases h
    obtain ⟨cs', h3, h4⟩ := Res.bind_eq_ok.1 h2
    cases h4
    rw [Res.deref_some, Res.bind_ok] at h1
    exact dotSerialize_wellQuoted h3 (search_plain hs hp hr hd (by rintro _ ⟨⟩; exact hn) h1)
  · rw [show serve env (.expand fuel pid (some n) .dot) s = _ from expand_yields' env fuel pid (some n) .dot s] at h
    obtain ⟨⟨_, _⟩, hq, h⟩ := Res.bind_eq_ok.1 h
    cases h
    obtain ⟨_, _, h⟩ := Res.bind_eq_ok.1 hq
    obtain ⟨rec', h0, h⟩ := Res.bind_eq_ok.1 h
    rw [hpr] at h0
    cases h0
    obtain ⟨t, h1, h⟩ := Res.bind_eq_ok.1 h
    obtain ⟨o, h2, h⟩ := Res.bind_eq_ok.1 h
    cases h
    obtain ⟨cs', h3, h4⟩ := Res.bind_eq_ok.1 h2
    cases h4
    exact dotSerialize_wellQuoted h3 (search_plain hs hp hr hd (by rintro _ ⟨⟩; exact hn) h1)

theorem pretty_midPair {n : RelationNode} {l : String} (h : n.prettyString = .ok l) : midPair l.toList = false := by
  have key : ∀ a : String, midPair (a ++ ")").toList = false := by
    intro a
    rw [String.toList_append]
    exact midPair_append_last (by decide) _
  cases n with
  | unset => cases h; exact key _
  | wildcard r => cases h; exact key _
  | entity o => cases o with | none => cases h | some o => cases h; exact key _
  | entitySet o rel => cases o with | none => cases h | some o => cases h; exact key _

/-- C67 for DumpRelationships, when names in stored relationships have no quotes, whatever the identifiers and the order of the roots. -/
theorem C67_dump_partial (hs : WF env s) (hp : policyAt s pid = some rec) (hd : PlainSubjects (Present s pid)) (ho : PlainObjects (Present s pid))
    {fuel : Nat} {order : List Nat → List Nat} {cs : List DotCall} (h : (serve env (.dumpRelationships fuel order pid .dot) s).1 = .ok (.dumped cs)) :
    DumpQuoted cs := by
  obtain ⟨f, hw, hf⟩ := forest_of hs pid
  rw [serve_dump hs hp fuel order hw] at h
  obtain ⟨cs', h1, h⟩ := Res.bind_eq_ok.1 h
  cases h
  obtain ⟨cs', h2, h⟩ := Res.bind_eq_ok.1 h1
  cases h
  refine ⟨fun d l hm => ?_, fun h _ _ => reads_hash h, fun _ _ => reads_root⟩
  rcases List.mem_cons.1 hm with hm | hm
  · cases hm
    exact (reads_wrap_iff "root").2 ⟨by unfold QuoteFree; decide, by decide⟩
  · obtain ⟨o, _, b, h3, h4⟩ := ((concatRes_mem h2).2 _).1 hm
    obtain ⟨i, m, _, _, h5, h6⟩ := ((dumpNode_mem h3).1 d l).1 h4
    refine (reads_wrap_iff l).2 ⟨?_, pretty_midPair h6⟩
    obtain ⟨⟨e, he, hm⟩, _⟩ := hf.only i m h5
    obtain ⟨o, rel, sub, hr, h7, h8⟩ := (edgesAt_iff hs).1 (show (e.1, e.2) ∈ edgesAt s pid from he)
    rcases hm with rfl | rfl
    · rw [h7] at h6
      exact ho _ o hr rfl l (prettyString_iff.1 h6)
    · rw [h8] at h6
      exact hd _ sub hr rfl l (prettyString_iff.1 h6)

/-- C67 for GraphToDOT, exactly: the vertex name written for an id reads back as the id unless a backslash of the id is followed by a quote, or by nothing, and a label reads back as the data of
its node when that has no quote and does not end within a backslash pair. -/
theorem C67_digraph_exact_partial (h : List DiGraphOp) (g : MapDiGraph) (hg : MapDiGraph.new.run h = .ok g) (o : RangeOrder) (inner : String → RangeOrder) :
    (∀ id label, .node id label ∈ g.toDOT o inner → ∃ n, AddedNode h n ∧ (Reads id n.id ↔ pairedQuote n.id.toList = false) ∧
      (Reads label n.data ↔ QuoteFree n.data ∧ midPair n.data.toList = false)) ∧
    (∀ src dst, .edge src dst ∈ g.toDOT o inner → ∃ e, AddedEdge h e ∧ (Reads src e.source ↔ pairedQuote e.source.toList = false) ∧
      (Reads dst e.dest ↔ pairedQuote e.dest.toList = false)) := by
  obtain ⟨_, h1, h2, _⟩ := C56_dot_requests h g hg o inner
  refine ⟨fun id label hm => ?_, fun src dst hm => ?_⟩
  · obtain ⟨n, h3, rfl, rfl⟩ := (h1 id label).1 hm
    exact ⟨n, h3, reads_mapId_iff _, reads_wrap_iff _⟩
  · obtain ⟨e, h3, rfl, rfl⟩ := (h2 src dst).1 hm
    exact ⟨e, h3, reads_mapId_iff _, reads_mapId_iff _⟩

/-- user:u has relation a on a document whose id holds a quote. -/
def quoteDoc : Entity := ⟨"doc", "a\"b"⟩
def quoteRels : List Relationship := [⟨some quoteDoc, "a", some (.entity usr)⟩]
def quoteStore : Store := gStore gEnv opRels quoteRels

/-- Some label is no quoted string at all. -/
def brokenB (cs : List DotCall) : Bool :=
  cs.any (fun | .node _ l => decide (readBody (dotWrap l).toList.tail = none) | _ => false)

theorem broken_of {cs : List DotCall} (h : brokenB cs = true) : ∃ d l, .node d l ∈ cs ∧ ∀ m, ¬ Reads (dotWrap l) m := by
  obtain ⟨c, h1, h2⟩ := List.any_eq_true.1 h
  cases c with
  | edge => cases h2
  | node d l =>
    refine ⟨d, l, h1, fun m hm => ?_⟩
    obtain ⟨cs, h3, h4⟩ := hm
    simp only [decide_eq_true_eq] at h2
    rw [h3] at h2
    rw [List.tail_cons, h4] at h2
    cases h2

def dumpB (f : List DotCall → Bool) : Res Answer → Bool
  | .ok (.dumped cs) => f cs
  | _ => false

theorem dumpB_of {f : List DotCall → Bool} {r : Res Answer} (h : dumpB f r = true) : ∃ cs, r = .ok (.dumped cs) ∧ f cs = true := by
  unfold dumpB at h
  split at h
  · exact ⟨_, rfl, h⟩
  · cases h

/-- C67 is false: a document whose id holds a quote is accepted and checked, but the drawings of ExplainCheck and of DumpRelationships hold a label that is not a quoted string; and
GraphToDOT writes a node whose id ends with a backslash under a name that is not a quoted string. -/
theorem C67_quoting_violated :
    relationships quoteStore "p" = quoteRels ∧ Checks gEnv quoteStore 10 "p" ⟨quoteDoc, "a"⟩ usr true ∧
    (∃ cs g, (serve gEnv (.explainCheck 10 "p" (ask ⟨quoteDoc, "a"⟩ usr) .dot) quoteStore).1 = .ok (.explained (.dot cs) true g) ∧
      ∃ d l, .node d l ∈ cs ∧ ∀ m, ¬ Reads (dotWrap l) m) ∧
    (∃ cs, (serve gEnv (.dumpRelationships 10 id "p" .dot) quoteStore).1 = .ok (.dumped cs) ∧ ∃ d l, .node d l ∈ cs ∧ ∀ m, ¬ Reads (dotWrap l) m) ∧
    ∀ m, ¬ Reads (MapDiGraph.mapId "a\\") m := by
  refine ⟨by decide +kernel, checks_of (by decide +kernel), ?_, ?_, ?_⟩
  · obtain ⟨cs, b, g, h1, h2⟩ := explDot_of (f := fun cs b _ => b && brokenB cs)
      (r := (serve gEnv (.explainCheck 10 "p" (ask ⟨quoteDoc, "a"⟩ usr) .dot) quoteStore).1) (by decide +kernel)
    simp only [Bool.and_eq_true] at h2
    obtain ⟨rfl, h2⟩ := h2
    exact ⟨cs, g, h1, broken_of h2⟩
  · obtain ⟨cs, h1, h2⟩ := dumpB_of (f := brokenB) (r := (serve gEnv (.dumpRelationships 10 id "p" .dot) quoteStore).1) (by decide +kernel)
    exact ⟨cs, h1, broken_of h2⟩
  · rintro m ⟨cs, h1, h2⟩
    have h3 : readBody (MapDiGraph.mapId "a\\").toList.tail = none := by decide +kernel
    rw [h1, List.tail_cons, h2] at h3
    cases h3

/-- The hypotheses of the partial theorems on a store with two relationships. -/
example : WF gEnv abStore ∧ policyAt abStore "p" = some ⟨gPolicy opRels, [], 0⟩ ∧ PlainRules gEnv.U (gPolicy opRels) ∧
    PlainSubjects (Present abStore "p") ∧ PlainObjects (Present abStore "p") ∧ NodePlain (.entitySet (some doc1) "both") := by
  have hq : ∀ r, Present abStore "p" r → r ∈ abRels := fun r h => by
    have h : r ∈ relationships abStore "p" := h
    rwa [abStore_rels] at h
  refine ⟨gStore_wf _ _ _, abStore_pol, fun y e h => ?_, fun r sub hr hsub => ?_, fun r o hr ho => ?_, ?_⟩
  · rcases op_defined h with ⟨_, _, rfl⟩ | ⟨_, ⟨_, rfl⟩ | ⟨_, rfl⟩ | ⟨_, rfl⟩ | ⟨_, rfl⟩ | ⟨_, rfl⟩⟩ <;>
      (unfold QuoteFree; decide)
  · have := hq r hr
    simp only [abRels, List.mem_cons, List.not_mem_nil, or_false] at this
    rcases this with rfl | rfl <;> cases hsub <;> exact nodePlain_entity.2 (by unfold QuoteFree; decide)
  · have := hq r hr
    simp only [abRels, List.mem_cons, List.not_mem_nil, or_false] at this
    rcases this with rfl | rfl <;> cases ho <;> exact nodePlain_entitySet.2 (by unfold QuoteFree; decide)
  · exact nodePlain_entitySet.2 (by unfold QuoteFree; decide)

end

end Zanzi
