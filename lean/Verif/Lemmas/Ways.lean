import Verif.Props.Dump

/-
The drawing of a forest has a part for every way from a root.
-/

namespace Zanzi

open Spec

/-- The identifier of a node that has one. -/
def idOf (H : String → Nat) (n : RelationNode) : Nat := match n.nodeId H with | .ok i => i | _ => 0

theorem idOf_ok {H : String → Nat} {n : RelationNode} {i : Nat} (h : n.nodeId H = .ok i) : idOf H n = i := by unfold idOf; rw [h]

theorem walkOrphans_nodup {H : String → Nat} : ∀ {es : List (RelationNode × RelationNode)} {os : List Nat}, walkOrphans H es = .ok os → os.Nodup := by
  intro es
  induction es with
  | nil => intro os h; cases h; exact .nil
  | cons e es ih =>
    intro os h
    rw [walkOrphans] at h
    obtain ⟨i, _, h⟩ := Res.bind_eq_ok.1 h
    obtain ⟨os', h1, h⟩ := Res.bind_eq_ok.1 h
    have h := Res.ok.inj h
    subst h
    split
    · exact ih h1
    · next hn => exact List.nodup_cons.2 ⟨hn, ih h1⟩

theorem idOf_cons {H : String → Nat} {e : RelationNode × RelationNode} {es : List (RelationNode × RelationNode)} {i j : Nat} (h1 : e.1.nodeId H = .ok i)
    (h2 : e.2.nodeId H = .ok j) : (e :: es).map (fun e => (idOf H e.1, idOf H e.2)) = (i, j) :: es.map (fun e => (idOf H e.1, idOf H e.2)) := by
  rw [List.map_cons, idOf_ok h1, idOf_ok h2]

theorem walkEdges_lists {H : String → Nat} : ∀ {es : List (RelationNode × RelationNode)} {f f' : Forest}, walkEdges H es f = .ok f' →
    (f.orphans.Nodup → f'.orphans.Nodup) ∧ f'.children = f.children ++ es.map (fun e => (idOf H e.1, idOf H e.2)) := by
  intro es
  induction es with
  | nil => intro f f' h; cases h; simp
  | cons e es ih =>
    intro f f' h
    rw [walkEdges] at h
    obtain ⟨i, h1, h⟩ := Res.bind_eq_ok.1 h
    obtain ⟨j, h2, h⟩ := Res.bind_eq_ok.1 h
    obtain ⟨h3, h4⟩ := ih h
    refine ⟨fun hn => h3 ?_, ?_⟩
    · dsimp only
      rw [(getTree_children _ _ _).2, (getTree_children _ _ _).2]
      exact hn.filter _
    · rw [h4, idOf_cons h1 h2, (getTree_children _ _ _).1, (getTree_children _ _ _).1, List.append_assoc]
      rfl

/-- Ways down a forest. -/
inductive Down (f : Forest) : Nat → List Nat → Prop
  | here {i} : Down f i [i]
  | step {i j w} : (i, j) ∈ f.children → Down f j w → Down f i (i :: w)

theorem Down.head {f : Forest} {i : Nat} {w : List Nat} (h : Down f i w) : w.head? = some i := by cases h <;> rfl

theorem childrenOf_nodup {f : Forest} (h : f.children.Nodup) (i : Nat) : (f.childrenOf i).Nodup := by
  unfold Forest.childrenOf
  have h1 := h.filter (fun p => decide (p.1 = i))
  refine List.Pairwise.map _ ?_ (h1.imp_of_mem (R := fun a b => a ≠ b) (S := fun a b => a.2 ≠ b.2) ?_)
  · exact fun a b h => h
  · intro a b ha hb hab h2
    simp only [List.mem_filter, decide_eq_true_eq] at ha hb
    exact hab (Prod.ext (ha.2.trans hb.2.symm) h2)

theorem concat_ways {f : Forest} {g : Nat → Res (List DotCall)}
    (hg : ∀ i cs, g i = .ok cs → ∃ W : List (List Nat), W.Nodup ∧ (∀ w, w ∈ W ↔ Down f i w) ∧ cs.length = 2 * W.length) :
    ∀ {l : List Nat} {cs : List DotCall}, l.Nodup → concatRes g l = .ok cs →
      ∃ W : List (List Nat), W.Nodup ∧ (∀ w, w ∈ W ↔ ∃ i ∈ l, Down f i w) ∧ cs.length = 2 * W.length := by
  intro l
  induction l with
  | nil => intro cs _ h; cases h; exact ⟨[], .nil, by simp, rfl⟩
  | cons a l ih =>
    intro cs hn h
    rw [concatRes] at h
    obtain ⟨b, h1, h⟩ := Res.bind_eq_ok.1 h
    obtain ⟨bs, h2, h⟩ := Res.bind_eq_ok.1 h
    cases h
    obtain ⟨W, k1, k2, k3⟩ := hg a b h1
    obtain ⟨W', m1, m2, m3⟩ := ih (List.nodup_cons.1 hn).2 h2
    refine ⟨W ++ W', ?_, ?_, ?_⟩
    · refine List.nodup_append.2 ⟨k1, m1, ?_⟩
      intro w hw w' hw' hww
      subst hww
      obtain ⟨i, hi, hd⟩ := (m2 w).1 hw'
      have := ((k2 w).1 hw).head.symm.trans hd.head
      cases this
      exact (List.nodup_cons.1 hn).1 hi
    · intro w
      rw [List.mem_append, k2, m2]
      simp
    · rw [List.length_append, k3, m3, List.length_append]
      omega

theorem dumpNode_ways {f : Forest} (hn : f.children.Nodup) : ∀ (fuel : Nat) (parent : DotId) (i : Nat) (cs : List DotCall), dumpNode f fuel parent i = .ok cs →
    ∃ W : List (List Nat), W.Nodup ∧ (∀ w, w ∈ W ↔ Down f i w) ∧ cs.length = 2 * W.length := by
  intro fuel
  induction fuel with
  | zero => intro _ _ _ h; cases h
  | succ fuel ih =>
    intro parent i cs h
    rw [dumpNode] at h
    split at h
    · cases h
    · obtain ⟨p, _, h⟩ := Res.bind_eq_ok.1 h
      obtain ⟨cs', h1, h⟩ := Res.bind_eq_ok.1 h
      cases h
      obtain ⟨W, k1, k2, k3⟩ := concat_ways (f := f) (fun j cs h => ih (.num i) j cs h) (childrenOf_nodup hn i) h1
      have hmap : (W.map (i :: ·)).Nodup := List.Pairwise.map _ (fun a b hab he => hab (List.cons.inj he).2) k1
      refine ⟨[i] :: W.map (i :: ·), List.nodup_cons.2 ⟨?_, hmap⟩, fun w => ?_, ?_⟩
      · intro hmem
        obtain ⟨w, hw, he⟩ := List.mem_map.1 hmem
        obtain ⟨j, _, hd⟩ := (k2 w).1 hw
        have := (List.cons.inj he).2
        subst this
        cases hd
      · rw [List.mem_cons, List.mem_map]
        constructor
        · rintro (rfl | ⟨w', hw', rfl⟩)
          · exact .here
          · obtain ⟨j, hj, hd⟩ := (k2 w').1 hw'
            exact .step (mem_childrenOf.1 hj) hd
        · intro hd
          cases hd with
          | here => exact .inl rfl
          | @step _ j w' hc hd => exact .inr ⟨w', (k2 w').2 ⟨j, mem_childrenOf.2 hc, hd⟩, rfl⟩
      · simp only [List.length_cons, List.length_map]
        omega

section
variable {env : Env} {s : Store} {pid : String} {f : Forest}

theorem subjectNode_inj {a b : Subject} (h : subjectNode a = subjectNode b) : a = b := by
  cases a <;> cases b <;> simp_all [subjectNode]

theorem edge_source (hs : WF env s) {p : EdgeKey × IRel} (hp : p ∈ s.edges pid) :
    toPublicNode p.2.source = .entitySet (some ⟨p.2.source.resource, p.2.source.id⟩) p.2.source.relation := by
  obtain ⟨k, e⟩ := p
  obtain ⟨r, h1, _⟩ := hs.edgeNorm _ _ _ hp
  have : e.source.type = .objectSet := by
    obtain ⟨_, _, h1⟩ := Res.bind_eq_ok.1 h1
    obtain ⟨_, _, h1⟩ := Res.bind_eq_ok.1 h1
    obtain ⟨_, _, h1⟩ := Res.bind_eq_ok.1 h1
    cases h1
    rfl
  simp only [toPublicNode, this]

theorem edgesAt_nodup (hs : WF env s) (pid : String) : (edgesAt s pid).Nodup := by
  have hn := hs.relationships_nodup pid
  unfold relationships at hn
  unfold edgesAt
  have hn' := List.Pairwise.of_map (S := fun a b => a ≠ b) (R := fun p q : EdgeKey × IRel => fromInternal p.2 ≠ fromInternal q.2) _ (fun a b h => h) hn
  refine List.Pairwise.map (R := fun p q : EdgeKey × IRel => (toPublicNode p.2.source, toPublicNode p.2.dest) ≠ (toPublicNode q.2.source, toPublicNode q.2.dest)) _ (fun p q h => h) ?_
  refine hn'.imp_of_mem (fun {p q} hp hq hpq h => hpq ?_)
  rw [edge_source hs hp, edge_source hs hq, ← subjectNode_fromInternal, ← subjectNode_fromInternal] at h
  obtain ⟨h1, h2⟩ := Prod.mk.inj h
  have h2 := subjectNode_inj h2
  injection h1 with h1 h3
  injection h1 with h1
  show (⟨some ⟨p.2.source.resource, p.2.source.id⟩, p.2.source.relation, some (subjectFromInternal p.2.dest)⟩ : Relationship) =
    ⟨some ⟨q.2.source.resource, q.2.source.id⟩, q.2.source.relation, some (subjectFromInternal q.2.dest)⟩
  rw [h1, h2, h3]

theorem forest_nodup (hs : WF env s) (hc : EdgeIdsClear env.H (Present s pid)) (hw : walk env.H (edgesAt s pid) = .ok f) : f.children.Nodup ∧ f.orphans.Nodup := by
  unfold walk at hw
  obtain ⟨os, h1, hw⟩ := Res.bind_eq_ok.1 hw
  obtain ⟨h2, h3⟩ := walkEdges_lists hw
  refine ⟨?_, h2 (walkOrphans_nodup h1)⟩
  rw [h3]
  refine List.Pairwise.map (R := fun a b : RelationNode × RelationNode => (idOf env.H a.1, idOf env.H a.2) ≠ (idOf env.H b.1, idOf env.H b.2)) _ (fun a b h => h) ?_
  refine (edgesAt_nodup hs pid).imp_of_mem (fun {a b} ha hb hab h => hab ?_)
  have ha' := (edgesAt_iff hs).1 (show (a.1, a.2) ∈ _ from ha)
  have hb' := (edgesAt_iff hs).1 (show (b.1, b.2) ∈ _ from hb)
  obtain ⟨i, hi⟩ := proper_id (H := env.H) (Edge.proper hs ha').1
  obtain ⟨j, hj⟩ := proper_id (H := env.H) (Edge.proper hs ha').2
  obtain ⟨i', hi'⟩ := proper_id (H := env.H) (Edge.proper hs hb').1
  obtain ⟨j', hj'⟩ := proper_id (H := env.H) (Edge.proper hs hb').2
  rw [idOf_ok hi, idOf_ok hj, idOf_ok hi', idOf_ok hj'] at h
  obtain ⟨rfl, rfl⟩ := Prod.mk.inj h
  exact Prod.ext (hc _ _ i ⟨_, .inr ha'⟩ ⟨_, .inr hb'⟩ hi hi') (hc _ _ j ⟨_, .inl ha'⟩ ⟨_, .inl hb'⟩ hj hj')

/-- The node of an identifier. -/
def nodeOf (f : Forest) (i : Nat) : RelationNode := (kvGet f.nodes i).getD .unset

theorem down_way (hs : WF env s) (hc : EdgeIdsClear env.H (Present s pid)) (hf : IsForest env.H (edgesAt s pid) f) {i : Nat} {w : List Nat} (h : Down f i w) :
    ∀ {m : RelationNode}, OnEdge (Present s pid) m → m.nodeId env.H = .ok i → Way (Present s pid) m (w.map (nodeOf f)) ∧ (w.map (nodeOf f)).map (idOf env.H) = w := by
  have hnode : ∀ {m : RelationNode} {i : Nat}, OnEdge (Present s pid) m → m.nodeId env.H = .ok i → nodeOf f i = m := by
    intro m i h1 h2
    unfold nodeOf
    rw [hf.node hs hc h1 h2]
    rfl
  induction h with
  | here =>
    intro m h1 h2
    simp only [List.map_cons, List.map_nil, hnode h1 h2, idOf_ok h2]
    exact ⟨.here, trivial⟩
  | @step i j w hij _ ih =>
    intro m h1 h2
    obtain ⟨a, b, h3, h4, h5⟩ := (hf.child hs).1 hij
    obtain rfl := hc m a i h1 ⟨b, .inr h3⟩ h2 h4
    obtain ⟨h6, h7⟩ := ih ⟨m, .inl h3⟩ h5
    simp only [List.map_cons, hnode h1 h2, idOf_ok h2, h7]
    exact ⟨.step h3 h6, trivial⟩

theorem way_down (hs : WF env s) (hc : EdgeIdsClear env.H (Present s pid)) (hf : IsForest env.H (edgesAt s pid) f) {m : RelationNode} {w : List RelationNode}
    (h : Way (Present s pid) m w) : ∀ {i : Nat}, OnEdge (Present s pid) m → m.nodeId env.H = .ok i → Down f i (w.map (idOf env.H)) ∧ (w.map (idOf env.H)).map (nodeOf f) = w := by
  have hnode : ∀ {m : RelationNode} {i : Nat}, OnEdge (Present s pid) m → m.nodeId env.H = .ok i → nodeOf f i = m := by
    intro m i h1 h2
    unfold nodeOf
    rw [hf.node hs hc h1 h2]
    rfl
  induction h with
  | here =>
    intro i h1 h2
    simp only [List.map_cons, List.map_nil, hnode h1 h2, idOf_ok h2]
    exact ⟨.here, trivial⟩
  | @step m n w he _ ih =>
    intro i h1 h2
    have hne : OnEdge (Present s pid) n := ⟨m, .inl he⟩
    obtain ⟨j, hj⟩ := proper_id (H := env.H) (OnEdge.proper hs hne)
    obtain ⟨h6, h7⟩ := ih hne hj
    simp only [List.map_cons, hnode h1 h2, idOf_ok h2, h7]
    exact ⟨.step ((hf.child hs).2 ⟨m, n, he, h2, hj⟩) h6, trivial⟩

end

end Zanzi
