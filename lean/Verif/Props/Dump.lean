import Verif.Lemmas.Dump
import Verif.Props.Search

/-
Property C50: DumpRelationships.
-/

namespace Zanzi

open Spec

section
variable {env : Env} {s : Store} {pid : String} {rec : PolicyRecord}

/-- The edges listed for a policy. -/
def edgesAt (s : Store) (pid : String) : List (RelationNode × RelationNode) :=
  (s.edges pid).map (fun p => (toPublicNode p.2.source, toPublicNode p.2.dest))

theorem edgesAt_iff (hs : WF env s) {m n : RelationNode} : (m, n) ∈ edgesAt s pid ↔ Edge (Present s pid) m n := by
  have hsrc : ∀ p ∈ s.edges pid, toPublicNode p.2.source = .entitySet (some ⟨p.2.source.resource, p.2.source.id⟩) p.2.source.relation := by
    rintro ⟨k, e⟩ hp
    obtain ⟨r, h1, _⟩ := hs.edgeNorm _ _ _ hp
    have : e.source.type = .objectSet := by
      obtain ⟨_, _, h1⟩ := Res.bind_eq_ok.1 h1
      obtain ⟨_, _, h1⟩ := Res.bind_eq_ok.1 h1
      obtain ⟨_, _, h1⟩ := Res.bind_eq_ok.1 h1
      cases h1
      rfl
    simp only [toPublicNode, this]
  constructor
  · intro h
    obtain ⟨p, hp, h⟩ := List.mem_map.1 h
    cases h
    exact ⟨⟨p.2.source.resource, p.2.source.id⟩, p.2.source.relation, subjectFromInternal p.2.dest, List.mem_map.2 ⟨p, hp, rfl⟩, hsrc p hp,
      (subjectNode_fromInternal _).symm⟩
  · rintro ⟨o, rel, sub, hr, rfl, rfl⟩
    obtain ⟨p, hp, h⟩ := List.mem_map.1 hr
    cases h
    exact List.mem_map.2 ⟨p, hp, by rw [hsrc p hp, subjectNode_fromInternal]⟩

theorem Edge.proper (hs : WF env s) {m n : RelationNode} (h : Edge (Present s pid) m n) : Proper m ∧ Proper n := by
  obtain ⟨o, rel, sub, hr, rfl, rfl⟩ := h
  obtain ⟨sub', h1, h2⟩ := hs.subject_proper hr
  cases h1
  exact ⟨trivial, h2⟩

theorem OnEdge.proper (hs : WF env s) {n : RelationNode} (h : OnEdge (Present s pid) n) : Proper n := by
  obtain ⟨m, h | h⟩ := h
  · exact (Edge.proper hs h).2
  · exact (Edge.proper hs h).1

theorem proper_id {H : String → Nat} {n : RelationNode} (h : Proper n) : ∃ i, n.nodeId H = .ok i := (proper_known h (goal := none) trivial).1

/-- The forest of a store. -/
theorem forest_of (hs : WF env s) (pid : String) : ∃ f, walk env.H (edgesAt s pid) = .ok f ∧ IsForest env.H (edgesAt s pid) f := by
  refine walk_forest (fun e he => ?_)
  have := Edge.proper hs ((edgesAt_iff hs).1 (show (e.1, e.2) ∈ _ from he))
  exact ⟨proper_id this.1, proper_id this.2⟩

variable {f : Forest}

theorem IsForest.child (hs : WF env s) (hf : IsForest env.H (edgesAt s pid) f) {i j : Nat} :
    (i, j) ∈ f.children ↔ ∃ m n, Edge (Present s pid) m n ∧ m.nodeId env.H = .ok i ∧ n.nodeId env.H = .ok j := by
  rw [hf.children]
  constructor
  · rintro ⟨⟨m, n⟩, h1, h2, h3⟩; exact ⟨m, n, (edgesAt_iff hs).1 h1, h2, h3⟩
  · rintro ⟨m, n, h1, h2, h3⟩; exact ⟨(m, n), (edgesAt_iff hs).2 h1, h2, h3⟩

theorem IsForest.onEdge (hs : WF env s) (hf : IsForest env.H (edgesAt s pid) f) {i : Nat} {n : RelationNode} (h : kvGet f.nodes i = some n) :
    OnEdge (Present s pid) n ∧ n.nodeId env.H = .ok i := by
  obtain ⟨⟨⟨a, b⟩, he, h1⟩, h2⟩ := hf.only i n h
  refine ⟨?_, h2⟩
  rcases h1 with rfl | rfl
  · exact ⟨b, .inr ((edgesAt_iff hs).1 he)⟩
  · exact ⟨a, .inl ((edgesAt_iff hs).1 he)⟩

theorem IsForest.node (hs : WF env s) (hc : EdgeIdsClear env.H (Present s pid)) (hf : IsForest env.H (edgesAt s pid) f) {i : Nat} {n : RelationNode}
    (h : OnEdge (Present s pid) n) (hi : n.nodeId env.H = .ok i) : kvGet f.nodes i = some n := by
  have : ∃ m, kvGet f.nodes i = some m := by
    obtain ⟨m, h | h⟩ := h
    · exact hf.has (m, n) ((edgesAt_iff hs).2 h) i (.inr hi)
    · exact hf.has (n, m) ((edgesAt_iff hs).2 h) i (.inl hi)
  obtain ⟨m, hm⟩ := this
  obtain ⟨h1, h2⟩ := hf.onEdge hs hm
  rw [hm, hc m n i h1 h h2 hi]

theorem IsForest.labelled (hs : WF env s) (hf : IsForest env.H (edgesAt s pid) f) : Labelled f := by
  refine ⟨fun i n h => proper_pretty (OnEdge.proper hs (hf.onEdge hs h).1), fun i j h => ?_⟩
  obtain ⟨e, he, h1, h2⟩ := (hf.children i j).1 h
  exact ⟨hf.has e he i (.inl h1), hf.has e he j (.inr h2)⟩

theorem IsForest.orphan (hs : WF env s) (hc : EdgeIdsClear env.H (Present s pid)) (hf : IsForest env.H (edgesAt s pid) f) {i : Nat} :
    i ∈ f.orphans ↔ ∃ n, Root (Present s pid) n ∧ n.nodeId env.H = .ok i := by
  rw [hf.orphans]
  constructor
  · rintro ⟨⟨⟨n, m⟩, h1, h2⟩, h3⟩
    have h1 := (edgesAt_iff hs).1 h1
    exact ⟨n, ⟨⟨m, h1⟩, fun m' hm' => h3 (m', n) ((edgesAt_iff hs).2 hm') h2⟩, h2⟩
  · rintro ⟨n, ⟨⟨m, h1⟩, h2⟩, h3⟩
    refine ⟨⟨(n, m), (edgesAt_iff hs).2 h1, h3⟩, fun ⟨a, b⟩ he hb => ?_⟩
    have he := (edgesAt_iff hs).1 he
    have := hc b n i ⟨a, .inl he⟩ ⟨m, .inr h1⟩ hb h3
    subst this
    exact h2 a he

/-- Below in the forest is reachability in the graph. -/
theorem IsForest.below (hs : WF env s) (hc : EdgeIdsClear env.H (Present s pid)) (hf : IsForest env.H (edgesAt s pid) f) {m n : RelationNode} {i j : Nat}
    (hm : OnEdge (Present s pid) m) (hi : m.nodeId env.H = .ok i) (hn : OnEdge (Present s pid) n) (hj : n.nodeId env.H = .ok j) :
    Below f i j ↔ m = n ∨ Leads (Present s pid) m n := by
  constructor
  · intro h
    induction h generalizing n with
    | refl => exact .inl (hc m n i hm hn hi hj)
    | @step k j _ h ih =>
      obtain ⟨a, b, h1, h2, h3⟩ := (hf.child hs).1 h
      have := hc b n j ⟨a, .inl h1⟩ hn h3 hj
      subst this
      rcases ih ⟨b, .inr h1⟩ h2 with rfl | h4
      · exact .inr (.edge h1)
      · exact .inr (.more h4 h1)
  · rintro (rfl | h)
    · rw [hi] at hj; cases hj; exact .refl
    · induction h generalizing j with
      | edge h => exact .step .refl ((hf.child hs).2 ⟨_, _, h, hi, hj⟩)
      | @more k n h h' ih =>
        obtain ⟨l, hl⟩ := proper_id (H := env.H) (Edge.proper hs h').1
        exact .step (ih ⟨n, .inr h'⟩ hl) ((hf.child hs).2 ⟨_, _, h', hl, hj⟩)

theorem Leads.onEdge {R : Relationship → Prop} {m n : RelationNode} (h : Leads R m n) : OnEdge R m ∧ OnEdge R n := by
  induction h with
  | edge h => exact ⟨⟨_, .inr h⟩, ⟨_, .inl h⟩⟩
  | more _ h ih => exact ⟨ih.1, ⟨_, .inl h⟩⟩

theorem leads_head {R : Relationship → Prop} {m n : RelationNode} (h : Leads R m n) : ∃ k, Edge R m k ∧ (k = n ∨ Leads R k n) := by
  induction h with
  | edge h => exact ⟨_, h, .inl rfl⟩
  | more _ h ih =>
    obtain ⟨k, h1, rfl | h2⟩ := ih
    · exact ⟨k, h1, .inr (.edge h)⟩
    · exact ⟨k, h1, .inr (.more h2 h)⟩

/-- DumpRelationships on a stored policy. -/
theorem serve_dump (hs : WF env s) (hp : policyAt s pid = some rec) (fuel : Nat) (order : List Nat → List Nat)
    (hw : walk env.H (edgesAt s pid) = .ok f) :
    (serve env (.dumpRelationships fuel order pid .dot) s).1 = (dumpSerialize f fuel (order f.orphans) >>= fun cs => pure (.dumped cs)) := by
  have hid : rec.policy.id = pid := hs.policy_id hp
  have h1 : ((Call.dumpRelationships fuel order pid .dot).prog env).Yields s ((policyRes s pid >>= fun rec =>
      ((.ok (edgesAt s rec.policy.id) : Res _) >>= fun es => walk env.H es >>= fun f => dumpSerialize f fuel (order f.orphans))) >>= fun cs => pure (.dumped cs)) :=
    ((getPolicy_yields' s pid).bind (fun rec => Prog.Yields.bind (r := .ok (edgesAt s rec.policy.id))
      (by show Prog.run _ _ = _
          simp only [Repo.listEdges, edgesAt, Prog.run_bind, Prog.run_edgeList, andThen_ok]
          rw [show (s.edges rec.policy.id).map (fun p => (toPublicNode p.2.source, toPublicNode p.2.dest)) =
            ((s.edges rec.policy.id).map (·.2)).map (fun e => (toPublicNode e.source, toPublicNode e.dest)) by rw [List.map_map]; rfl]
          rfl)
      (fun es => (Prog.Yields.lift _ _).bind (fun _ => Prog.Yields.lift _ _)))).bind (fun _ => .pure _ _)
  rw [show serve env (.dumpRelationships fuel order pid .dot) s = _ from h1]
  simp only [policyRes, hp, Res.bind_ok, hid, hw]

theorem leads_trans {R : Relationship → Prop} {m n k : RelationNode} (h : Leads R m n) (h' : Leads R n k) : Leads R m k := by
  induction h' with
  | edge h' => exact .more h h'
  | more _ h' ih => exact .more ih h'

theorem Hangs.onEdge {R : Relationship → Prop} {n : RelationNode} (h : Hangs R n) : OnEdge R n := by
  rcases h with ⟨⟨m, h⟩, _⟩ | ⟨m, _, h⟩
  · exact ⟨m, .inr h⟩
  · exact (Leads.onEdge h).2

/-- In a finite graph without cycles, every node hangs from a root. -/
theorem hangs_of (hs : WF env s) (hc : EdgeIdsClear env.H (Present s pid)) (hf : IsForest env.H (edgesAt s pid) f) (hac : Acyclic (Present s pid)) :
    ∀ (k : Nat) (chain : List Nat) (n : RelationNode) (i : Nat), OnEdge (Present s pid) n → n.nodeId env.H = .ok i → i ∉ chain →
      (∀ c ∈ chain, ∃ m, m.nodeId env.H = .ok c ∧ Leads (Present s pid) n m) → unvisited (f.nodes.map (·.1)) chain ≤ k → Hangs (Present s pid) n := by
  intro k
  induction k with
  | zero =>
    intro chain n i hn hi hnew _ hk
    have := unvisited_lt (L := f.nodes.map (·.1)) (s := chain) (id := i) (List.mem_map.2 ⟨_, kvGet_mem (hf.node hs hc hn hi), rfl⟩) hnew
    omega
  | succ k ih =>
    intro chain n i hn hi hnew hch hk
    have hlt := unvisited_lt (L := f.nodes.map (·.1)) (s := chain) (id := i) (List.mem_map.2 ⟨_, kvGet_mem (hf.node hs hc hn hi), rfl⟩) hnew
    by_cases hpre : ∃ m, Edge (Present s pid) m n
    · obtain ⟨m, hm⟩ := hpre
      have hmn : OnEdge (Present s pid) m := ⟨n, .inr hm⟩
      obtain ⟨j, hj⟩ := proper_id (H := env.H) (Edge.proper hs hm).1
      have hmh : Hangs (Present s pid) m := by
        refine ih (i :: chain) m j hmn hj ?_ ?_ (by omega)
        · intro hmem
          rcases List.mem_cons.1 hmem with rfl | hmem
          · have := hc m n j hmn hn hj hi
            subst this
            exact hac m (.edge hm)
          · obtain ⟨m', h1, h2⟩ := hch j hmem
            have := hc m m' j hmn (Leads.onEdge h2).2 hj h1
            subst this
            exact hac m (leads_trans (.edge hm) h2)
        · intro c hcm
          rcases List.mem_cons.1 hcm with rfl | hcm
          · exact ⟨n, hi, .edge hm⟩
          · obtain ⟨m', h1, h2⟩ := hch c hcm
            exact ⟨m', h1, leads_trans (.edge hm) h2⟩
      rcases hmh with hr | ⟨r, hr, hl⟩
      · exact .inr ⟨m, hr, .edge hm⟩
      · exact .inr ⟨r, hr, .more hl hm⟩
    · have hno : ∀ m, ¬ Edge (Present s pid) m n := fun m hm => hpre ⟨m, hm⟩
      obtain ⟨m, h | h⟩ := hn
      · exact absurd h (hno m)
      · exact .inl ⟨⟨m, h⟩, hno⟩

/-- Ids below some orphan are the ids of hanging nodes. -/
theorem IsForest.hangs (hs : WF env s) (hc : EdgeIdsClear env.H (Present s pid)) (hf : IsForest env.H (edgesAt s pid) f) {n : RelationNode} {i : Nat}
    (hn : OnEdge (Present s pid) n) (hi : n.nodeId env.H = .ok i) : (∃ o ∈ f.orphans, Below f o i) ↔ Hangs (Present s pid) n := by
  constructor
  · rintro ⟨o, ho, hb⟩
    obtain ⟨r, hr, hro⟩ := (hf.orphan hs hc).1 ho
    have hre : OnEdge (Present s pid) r := Hangs.onEdge (.inl hr)
    rcases (hf.below hs hc hre hro hn hi).1 hb with rfl | h
    · exact .inl hr
    · exact .inr ⟨r, hr, h⟩
  · intro h
    have hex : ∃ r, Root (Present s pid) r ∧ (r = n ∨ Leads (Present s pid) r n) := by
      rcases h with h | ⟨r, h1, h2⟩
      · exact ⟨n, h, .inl rfl⟩
      · exact ⟨r, h1, .inr h2⟩
    obtain ⟨r, hr, hl⟩ := hex
    have hre : OnEdge (Present s pid) r := Hangs.onEdge (.inl hr)
    obtain ⟨o, ho⟩ := proper_id (H := env.H) (OnEdge.proper hs hre)
    exact ⟨o, (hf.orphan hs hc).2 ⟨r, hr, ho⟩, (hf.below hs hc hre ho hn hi).2 hl⟩

/-- What a completed drawing contains. -/
theorem dumpSerialize_dumps (hs : WF env s) (hc : EdgeIdsClear env.H (Present s pid)) (hf : IsForest env.H (edgesAt s pid) f) {fuel : Nat}
    {order : List Nat} (ho : order.Perm f.orphans) {cs : List DotCall} (h : dumpSerialize f fuel order = .ok cs) :
    Dumps env.H (Present s pid) (Hangs (Present s pid)) cs := by
  obtain ⟨cs', h1, h⟩ := Res.bind_eq_ok.1 h
  cases h
  obtain ⟨h2, h3⟩ := concatRes_mem h1
  have hedge : ∀ p d, DotCall.edge p d ∈ cs' ↔ ∃ o ∈ f.orphans, (p = .root ∧ d = .num o) ∨ ∃ i j, p = .num i ∧ d = .num j ∧ Below f o i ∧ (i, j) ∈ f.children := by
    intro p d
    rw [h3]
    constructor
    · rintro ⟨o, hmem, b, hb, hx⟩
      exact ⟨o, ho.mem_iff.1 hmem, ((dumpNode_mem hb).2 p d).1 hx⟩
    · rintro ⟨o, hmem, hx⟩
      obtain ⟨b, hb⟩ := h2 o (ho.mem_iff.2 hmem)
      exact ⟨o, ho.mem_iff.2 hmem, b, hb, ((dumpNode_mem hb).2 p d).2 hx⟩
  refine ⟨fun i j => ?_, fun j => ?_, fun i l => ?_, fun l => ?_, fun d hd => ?_⟩
  · rw [List.mem_cons, hedge]
    constructor
    · rintro (h | ⟨o, ho', (⟨h, _⟩ | ⟨i', j', h4, h5, h6, h7⟩)⟩)
      · cases h
      · cases h
      · cases h4; cases h5
        obtain ⟨m, n, he, hm, hn⟩ := (hf.child hs).1 h7
        exact ⟨m, n, (hf.hangs hs hc ⟨n, .inr he⟩ hm).1 ⟨o, ho', h6⟩, he, hm, hn⟩
    · rintro ⟨m, n, hp, he, hm, hn⟩
      obtain ⟨o, ho', hb⟩ := (hf.hangs hs hc ⟨n, .inr he⟩ hm).2 hp
      exact .inr ⟨o, ho', .inr ⟨i, j, rfl, rfl, hb, (hf.child hs).2 ⟨m, n, he, hm, hn⟩⟩⟩
  · rw [List.mem_cons, hedge, ← hf.orphan hs hc]
    constructor
    · rintro (h | ⟨o, ho', (⟨_, h⟩ | ⟨i', j', h4, _⟩)⟩)
      · cases h
      · cases h; exact ho'
      · cases h4
    · intro h
      exact .inr ⟨j, h, .inl ⟨rfl, rfl⟩⟩
  · rw [List.mem_cons, h3]
    constructor
    · rintro (h | ⟨o, hmem, b, hb, hx⟩)
      · cases h
      · obtain ⟨i', m, h4, h5, h6, h7⟩ := ((dumpNode_mem hb).1 _ _).1 hx
        cases h4
        obtain ⟨h8, h9⟩ := hf.onEdge hs h6
        exact ⟨m, h8, (hf.hangs hs hc h8 h9).1 ⟨o, ho.mem_iff.1 hmem, h5⟩, h9, prettyString_iff.1 h7⟩
    · rintro ⟨n, h4, h5, h6, h7⟩
      obtain ⟨o, ho', hb'⟩ := (hf.hangs hs hc h4 h6).2 h5
      obtain ⟨b, hb⟩ := h2 o (ho.mem_iff.2 ho')
      exact .inr ⟨o, ho.mem_iff.2 ho', b, hb, ((dumpNode_mem hb).1 _ _).2 ⟨i, n, rfl, hb', hf.node hs hc h4 h6, prettyString_iff.2 h7⟩⟩
  · rw [List.mem_cons, h3]
    constructor
    · rintro (h | ⟨o, hmem, b, hb, hx⟩)
      · cases h; rfl
      · obtain ⟨i', m, h4, _⟩ := ((dumpNode_mem hb).1 _ _).1 hx
        cases h4
    · rintro rfl
      exact .inl rfl
  · rw [List.mem_cons, hedge] at hd
    rcases hd with h | ⟨o, _, (⟨_, h⟩ | ⟨_, _, _, h, _⟩)⟩ <;> cases h

/-! ### C50 -/

/-- A dump that answers shows exactly what hangs from the roots of the relationship graph, whatever order Go iterates the
roots in. -/
theorem C50_dump_shows (hs : WF env s) (hp : policyAt s pid = some rec) (hc : EdgeIdsClear env.H (Present s pid)) {order : List Nat → List Nat}
    (ho : ∀ l, (order l).Perm l) {fuel : Nat} {cs : List DotCall} (h : (serve env (.dumpRelationships fuel order pid .dot) s).1 = .ok (.dumped cs)) :
    Dumps env.H (Present s pid) (Hangs (Present s pid)) cs := by
  obtain ⟨f, hw, hf⟩ := forest_of hs pid
  rw [serve_dump hs hp fuel order hw] at h
  obtain ⟨cs', h1, h⟩ := Res.bind_eq_ok.1 h
  cases h
  exact dumpSerialize_dumps hs hc hf (ho _) h1

/-- C50 when relationships form no cycle: DumpRelationships returns, and draws every stored relationship and nothing else.  Missing: cycles
(`C50_dump_violated`) and identifier collisions. -/
theorem C50_dump_partial (hs : WF env s) (hp : policyAt s pid = some rec) (hc : EdgeIdsClear env.H (Present s pid)) (hac : Acyclic (Present s pid)) :
    ∃ N, ∀ fuel, N ≤ fuel → ∀ order : List Nat → List Nat, (∀ l, (order l).Perm l) →
      ∃ cs, (serve env (.dumpRelationships fuel order pid .dot) s).1 = .ok (.dumped cs) ∧ Dumps env.H (Present s pid) (OnEdge (Present s pid)) cs := by
  obtain ⟨f, hw, hf⟩ := forest_of hs pid
  have hlab := hf.labelled hs
  refine ⟨(f.nodes.map (·.1)).length, fun fuel hfuel order ho => ?_⟩
  have hret : ∃ cs, dumpSerialize f fuel (order f.orphans) = .ok cs := by
    obtain ⟨cs, hcs⟩ := concatRes_ok (g := dumpNode f fuel .root) (l := order f.orphans) (fun o hmem => by
      obtain ⟨r, hr, hro⟩ := (hf.orphan hs hc).1 ((ho _).mem_iff.1 hmem)
      have hre : OnEdge (Present s pid) r := Hangs.onEdge (.inl hr)
      refine dumpNode_returns hlab (chain := []) ⟨r, hf.node hs hc hre hro⟩ (by simp) (by simp) ?_ ?_
      · intro j _ k hjk hkj
        obtain ⟨a, b, he, ha, hb⟩ := (hf.child hs).1 hjk
        rcases (hf.below hs hc ⟨a, .inl he⟩ hb ⟨b, .inr he⟩ ha).1 hkj with rfl | h
        · exact hac b (.edge he)
        · exact hac b (.more h he)
      · refine Nat.le_trans ?_ hfuel
        unfold unvisited
        exact List.length_filter_le _ _)
    exact ⟨.node .root "root" :: cs, by rw [dumpSerialize, hcs]; rfl⟩
  obtain ⟨cs, hcs⟩ := hret
  have hall : ∀ n, OnEdge (Present s pid) n → Hangs (Present s pid) n := by
    intro n hn
    obtain ⟨i, hi⟩ := proper_id (H := env.H) (OnEdge.proper hs hn)
    exact hangs_of hs hc hf hac _ [] n i hn hi (by simp) (by simp) (Nat.le_refl _)
  have hd := dumpSerialize_dumps hs hc hf (ho _) hcs
  refine ⟨cs, by rw [serve_dump hs hp fuel order hw, hcs]; rfl, fun i j => ?_, hd.roots, fun i l => ?_, hd.root, hd.into⟩
  · rw [hd.edges]
    constructor
    · rintro ⟨m, n, _, h⟩; exact ⟨m, n, ⟨n, .inr h.1⟩, h⟩
    · rintro ⟨m, n, h, h'⟩; exact ⟨m, n, hall m h, h'⟩
  · rw [hd.labels]
    constructor
    · rintro ⟨n, h, _, h'⟩; exact ⟨n, h, h, h'⟩
    · rintro ⟨n, h, _, h'⟩; exact ⟨n, h, hall n h, h'⟩

/-- A cycle hanging from a root keeps DumpRelationships from ever returning: every recursion bound is exceeded. -/
theorem C50_dump_diverges (hs : WF env s) (hp : policyAt s pid = some rec) (hc : EdgeIdsClear env.H (Present s pid)) {n : RelationNode}
    (hn : Hangs (Present s pid) n) (hcy : Leads (Present s pid) n n) {order : List Nat → List Nat} (ho : ∀ l, (order l).Perm l) (fuel : Nat) :
    (serve env (.dumpRelationships fuel order pid .dot) s).1 = .fuel := by
  obtain ⟨f, hw, hf⟩ := forest_of hs pid
  have hlab := hf.labelled hs
  rw [serve_dump hs hp fuel order hw]
  have hne := Hangs.onEdge hn
  obtain ⟨i, hi⟩ := proper_id (H := env.H) (OnEdge.proper hs hne)
  obtain ⟨o, ho', hb⟩ := (hf.hangs hs hc hne hi).2 hn
  obtain ⟨k, he, hk⟩ := leads_head hcy
  have hke : OnEdge (Present s pid) k := ⟨n, .inl he⟩
  obtain ⟨j, hj⟩ := proper_id (H := env.H) (OnEdge.proper hs hke)
  have hcyc : ∃ j, (i, j) ∈ f.children ∧ Below f j i := ⟨j, (hf.child hs).2 ⟨n, k, he, hi, hj⟩, (hf.below hs hc hke hj hne hi).2 hk⟩
  have := concatRes_fuel (g := dumpNode f fuel .root) (l := order f.orphans) (fun o' hmem => by
    obtain ⟨r, hr, hro⟩ := (hf.orphan hs hc).1 ((ho _).mem_iff.1 hmem)
    exact dumpNode_total hlab ⟨r, hf.node hs hc (Hangs.onEdge (.inl hr)) hro⟩) ⟨o, (ho _).mem_iff.2 ho', dumpNode_diverges hlab hcyc hb⟩
  rw [dumpSerialize, this]
  rfl

/-- Two groups that are members of each other, nothing else. -/
def ringRels : List Relationship :=
  [⟨some ⟨"group", "a"⟩, "member", some (.entitySet (some ⟨"group", "b"⟩) "member")⟩, ⟨some ⟨"group", "b"⟩, "member", some (.entitySet (some ⟨"group", "a"⟩) "member")⟩]

def ringStore : Store := gStore gEnv opRels ringRels

/-- A document shared with a group that is a member of itself. -/
def loopRels : List Relationship :=
  [⟨some ⟨"group", "a"⟩, "member", some (.entitySet (some ⟨"group", "a"⟩) "member")⟩, ⟨some doc1, "a", some (.entitySet (some ⟨"group", "a"⟩) "member")⟩]

def loopStore : Store := gStore gEnv opRels loopRels

theorem ringStore_pol : policyAt ringStore "p" = some ⟨gPolicy opRels, [], 0⟩ := by decide +kernel
theorem loopStore_pol : policyAt loopStore "p" = some ⟨gPolicy opRels, [], 0⟩ := by decide +kernel

/-- Nodes of the stored edges. -/
def nodesAt (s : Store) (pid : String) : List RelationNode := (edgesAt s pid).flatMap (fun e => [e.1, e.2])

/-- Distinct nodes have distinct ids. -/
def idsB (H : String → Nat) (L : List RelationNode) : Bool :=
  L.all fun m => L.all fun n => decide (m = n) || decide (m.nodeId H ≠ n.nodeId H)

theorem edgeIdsClear_of (hs : WF env s) (h : idsB env.H (nodesAt s pid) = true) : EdgeIdsClear env.H (Present s pid) := by
  have hmem : ∀ n, OnEdge (Present s pid) n → n ∈ nodesAt s pid := by
    rintro n ⟨m, h | h⟩
    · exact List.mem_flatMap.2 ⟨(m, n), (edgesAt_iff hs).2 h, by simp⟩
    · exact List.mem_flatMap.2 ⟨(n, m), (edgesAt_iff hs).2 h, by simp⟩
  intro m n id hm hn h1 h2
  have := List.all_eq_true.1 (List.all_eq_true.1 h m (hmem m hm)) n (hmem n hn)
  simp only [Bool.or_eq_true, decide_eq_true_eq] at this
  rcases this with h3 | h3
  · exact h3
  · exact absurd (h1.trans h2.symm) h3

/-- C50 is false.  Groups a and b being members of each other are stored, but the dump shows no relationship; and with doc:1 shared with
group a, a member of itself, the dump never returns. -/
theorem C50_dump_violated :
    relationships ringStore "p" = ringRels ∧
    (∀ fuel (order : List Nat → List Nat), (∀ l, (order l).Perm l) →
      (serve gEnv (.dumpRelationships fuel order "p" .dot) ringStore).1 = .ok (.dumped [.node .root "root"])) ∧
    relationships loopStore "p" = loopRels.reverse ∧
    ∀ fuel (order : List Nat → List Nat), (∀ l, (order l).Perm l) → (serve gEnv (.dumpRelationships fuel order "p" .dot) loopStore).1 = .fuel := by
  have hring : relationships ringStore "p" = ringRels := by decide +kernel
  have hloop : relationships loopStore "p" = loopRels.reverse := by decide +kernel
  refine ⟨hring, fun fuel order ho => ?_, hloop, fun fuel order ho => ?_⟩
  · have h1 : (match walk gEnv.H (edgesAt ringStore "p") with | .ok f => decide (f.orphans = []) | _ => false) = true := by decide +kernel
    split at h1
    · next f hw =>
      rw [serve_dump (s := ringStore) (gStore_wf _ _ _) ringStore_pol fuel order hw, of_decide_eq_true h1, List.Perm.eq_nil (ho [])]
      rfl
    · cases h1
  · have hg : Edge (Present loopStore "p") (.entitySet (some ⟨"group", "a"⟩) "member") (.entitySet (some ⟨"group", "a"⟩) "member") :=
      ⟨⟨"group", "a"⟩, "member", .entitySet (some ⟨"group", "a"⟩) "member", by rw [Present, hloop]; simp [loopRels], rfl, rfl⟩
    have hd : Edge (Present loopStore "p") (.entitySet (some doc1) "a") (.entitySet (some ⟨"group", "a"⟩) "member") :=
      ⟨doc1, "a", .entitySet (some ⟨"group", "a"⟩) "member", by rw [Present, hloop]; simp [loopRels], rfl, rfl⟩
    refine C50_dump_diverges (env := gEnv) (s := loopStore) (gStore_wf _ _ _) loopStore_pol (edgeIdsClear_of (gStore_wf _ _ _) (by decide +kernel))
      (.inr ⟨_, ⟨⟨_, hd⟩, ?_⟩, .edge hd⟩) (.edge hg) ho fuel
    rintro m ⟨o, r, sub, h1, rfl, h2⟩
    rw [Present, hloop] at h1
    simp [loopRels] at h1
    rcases h1 with ⟨_, _, rfl⟩ | ⟨_, _, rfl⟩ <;> simp [subjectNode, doc1] at h2

/-- The hypotheses of `C50_dump_partial` hold of `abStore`, where user:u has a and b on doc:1. -/
example : EdgeIdsClear gEnv.H (Present abStore "p") ∧ Acyclic (Present abStore "p") ∧ policyAt abStore "p" = some ⟨gPolicy opRels, [], 0⟩ ∧
    Edge (Present abStore "p") (.entitySet (some doc1) "a") (.entity (some usr)) := by
  refine ⟨edgeIdsClear_of (gStore_wf _ _ _) (by decide +kernel), fun n h => ?_, abStore_pol, ⟨doc1, "a", .entity usr, by rw [Present, abStore_rels]; simp [abRels], rfl, rfl⟩⟩
  have hed : ∀ m n, Edge (Present abStore "p") m n → n = .entity (some usr) ∧ m.isTerminal = false := by
    rintro m n ⟨o, r, sub, h1, rfl, rfl⟩
    rw [Present, abStore_rels] at h1
    simp [abRels] at h1
    rcases h1 with ⟨_, _, rfl⟩ | ⟨_, _, rfl⟩ <;> exact ⟨rfl, rfl⟩
  obtain ⟨k, h1, _⟩ := leads_head h
  have hn : n = .entity (some usr) := by
    cases h with
    | edge h => exact (hed _ _ h).1
    | more _ h => exact (hed _ _ h).1
  subst hn
  cases (hed _ _ h1).2

end

end Zanzi
