import Verif.Lemmas.Containers
import Verif.Props.Definition

/-
Property C56: the exported graph containers, after any history of calls.
-/

namespace Zanzi

open Spec

section map
variable {T : Type} [Inhabited T]

/-- C56 for `MapGraph`: after any history, a node reads as last set; the successors of `a` are the nodes `b` with an edge `a → b` accepted at some
point, the ancestors of `b` are the nodes `a` with one, each once and with its latest value, in every iteration order. -/
theorem C56_map_graph (h : List (GraphOp T)) (o : RangeOrder) :
    let g := h.foldl MapGraph.apply MapGraph.new
    (∀ id v, g.getNode id = some v ↔ LastNode h id v) ∧
    (∀ a, ValuesOf h (fun b => Linked h a b) (g.getSucessors o a)) ∧
    (∀ b, ValuesOf h (fun a => Linked h a b) (g.getAncestors o b)) := by
  intro g
  have hg : Holds h g := by simpa using (holds_new (T := T)).run h
  have empty : ∀ R : String → Prop, (∀ id, ¬ R id) → ValuesOf h R ([] : List T) := by
    intro R hR
    exact ⟨[], .nil, fun id => ⟨nofun, fun h => (hR id h).elim⟩, nofun, rfl⟩
  refine ⟨hg.nodes, fun a => ?_, fun b => ?_⟩
  · unfold MapGraph.getSucessors
    cases he : g.forwardEdges.get a with
    | none =>
      refine empty _ (fun b hb => ?_)
      have := (hg.fwd a b).2 hb
      rw [Entry, he] at this
      cases this
    | some m =>
      refine hg.values o m _ (fun b => ?_) (fun b hb => (linked_nodes hb).2)
      rw [← hg.fwd, Entry, he]
      rfl
  · unfold MapGraph.getAncestors
    cases he : g.backwardEdges.get b with
    | none =>
      refine empty _ (fun a ha => ?_)
      have := (hg.back a b).2 ha
      rw [Entry, he] at this
      cases this
    | some m =>
      refine hg.values o m _ (fun a => ?_) (fun a ha => (linked_nodes ha).1)
      rw [← hg.back, Entry, he]
      rfl

/-- C56, `SetEdge`: it fails exactly when an end was never set, and then changes nothing. -/
theorem C56_set_edge (h : List (GraphOp T)) (a b : String) :
    let g := h.foldl MapGraph.apply MapGraph.new
    ((g.setEdge a b).1 = none ↔ (∃ v, .setNode a v ∈ h) ∧ ∃ v, .setNode b v ∈ h) ∧
    ((g.setEdge a b).1 ≠ none → (g.setEdge a b).2 = g) := by
  intro g
  have hg : Holds h g := by simpa using (holds_new (T := T)).run h
  unfold MapGraph.setEdge
  split
  · next h1 =>
    rw [hg.exists_iff] at h1
    exact ⟨⟨nofun, fun hx => (hx.1.elim (fun v hv => h1 v hv)).elim⟩, fun _ => rfl⟩
  · next h1 =>
    split
    · next h2 =>
      rw [hg.exists_iff] at h2
      exact ⟨⟨nofun, fun hx => (hx.2.elim (fun v hv => h2 v hv)).elim⟩, fun _ => rfl⟩
    · next h2 =>
      rw [hg.exists_iff] at h1 h2
      refine ⟨⟨fun _ => ⟨?_, ?_⟩, fun _ => rfl⟩, fun hx => absurd rfl hx⟩
      · exact Classical.byContradiction (fun hc => h1 (fun v hv => hc ⟨v, hv⟩))
      · exact Classical.byContradiction (fun hc => h2 (fun v hv => hc ⟨v, hv⟩))

end map

/-- Two nodes, one accepted edge, one refused edge, a later update of the target. -/
def exHistory : List (GraphOp String) :=
  [.setNode "a" "1", .setEdge "a" "b", .setNode "b" "2", .setEdge "a" "b", .setEdge "b" "c", .setNode "b" "3"]

/-- The history is not degenerate: the edge is there in both directions with the latest value, the refused ones are not. -/
example : (exHistory.foldl MapGraph.apply MapGraph.new).getSucessors listOrder "a" = ["3"] ∧
    (exHistory.foldl MapGraph.apply MapGraph.new).getAncestors listOrder "b" = ["1"] ∧
    (exHistory.foldl MapGraph.apply MapGraph.new).getSucessors listOrder "b" = [] ∧
    ((exHistory.foldl MapGraph.apply MapGraph.new).setEdge "b" "c").1 = some "node not found: c" := by
  refine ⟨?_, ?_, ?_, ?_⟩ <;> decide +kernel

/-- C56 for `MapDiGraph`: no history panics; a node reads as last added; the edge kept between `a` and `b` is the last one added between them,
under both indexes. -/
theorem C56_digraph (h : List DiGraphOp) :
    ∃ g, MapDiGraph.new.run h = .ok g ∧
      (∀ id n, g.getNode id = some n ↔ n.id = id ∧ AddedNode h n) ∧
      ∀ a b e, (((g.forwardEdges.get a).getD .empty).get b = some e ↔ e.source = a ∧ e.dest = b ∧ AddedEdge h e) ∧
        (((g.backEdges.get b).getD .empty).get a = some e ↔ e.source = a ∧ e.dest = b ∧ AddedEdge h e) := by
  obtain ⟨g, h1, h2⟩ := holdsDi_new.run h
  exact ⟨g, h1, h2.nodes, fun a b e => ⟨h2.fwd a b e, h2.back a b e⟩⟩

/-- Drawing a graph asks for exactly its nodes and edges, each once, under names that never clash, in every iteration order. -/
theorem C56_dot_requests (h : List DiGraphOp) (g : MapDiGraph) (hg : MapDiGraph.new.run h = .ok g) (o : RangeOrder) (inner : String → RangeOrder) :
    (g.toDOT o inner).Nodup ∧
    (∀ id label, .node id label ∈ g.toDOT o inner ↔ ∃ n, AddedNode h n ∧ id = MapDiGraph.mapId n.id ∧ label = "\"" ++ n.data ++ "\"") ∧
    (∀ src dst, .edge src dst ∈ g.toDOT o inner ↔ ∃ e, AddedEdge h e ∧ src = MapDiGraph.mapId e.source ∧ dst = MapDiGraph.mapId e.dest) ∧
    (∀ x y, MapDiGraph.mapId x = MapDiGraph.mapId y → x = y) := by
  obtain ⟨g', h1, h2⟩ := holdsDi_new.run h
  rw [hg] at h1
  cases h1
  have hmem : ∀ n, n ∈ g.nodes.range o ↔ AddedNode h n := by
    intro n
    rw [(g.nodes.range_perm o).mem_iff, List.mem_map]
    constructor
    · rintro ⟨⟨k, m⟩, hk, rfl⟩
      exact ((h2.nodes k m).1 (mem_kvGet g.nodes.nodup hk)).2
    · intro hn
      exact ⟨(n.id, n), kvGet_mem ((h2.nodes n.id n).2 ⟨rfl, hn⟩), rfl⟩
  have hsrc : ∀ src dst, dst ∈ ((g.forwardEdges.get src).getD .empty).keys (inner src) ↔ ∃ e, AddedEdge h e ∧ e.source = src ∧ e.dest = dst := by
    intro src dst
    rw [GoMap.mem_keys]
    constructor
    · rintro ⟨e, he⟩
      obtain ⟨h3, h4, h5⟩ := (h2.fwd src dst e).1 he
      exact ⟨e, h5, h3, h4⟩
    · rintro ⟨e, h5, h3, h4⟩
      exact ⟨e, (h2.fwd src dst e).2 ⟨h3, h4, h5⟩⟩
  refine ⟨?_, fun id label => ?_, fun src dst => ?_, fun x y => mapId_injective⟩
  · unfold MapDiGraph.toDOT
    rw [List.nodup_append]
    refine ⟨?_, ?_, ?_⟩
    · have : ((g.nodes.range o).map (·.id)).Nodup := by
        rw [((g.nodes.range_perm o).map _).nodup_iff, List.map_map]
        have : g.nodes.entries.map ((·.id) ∘ (·.2)) = g.nodes.entries.map (·.1) := by
          apply List.map_congr_left
          rintro ⟨k, m⟩ hk
          exact ((h2.nodes k m).1 (mem_kvGet g.nodes.nodup hk)).1
        rw [this]
        exact g.nodes.nodup
      rw [List.Nodup, List.pairwise_map] at this ⊢
      refine this.imp ?_
      intro a b hab he
      exact hab (mapId_injective (MapDiGraph.Draw.node.inj he).1)
    · rw [List.Nodup, List.pairwise_flatMap]
      refine ⟨fun src _ => ?_, ?_⟩
      · rw [List.pairwise_map]
        refine (GoMap.keys_nodup _ _).imp ?_
        intro a b hab he
        exact hab (mapId_injective (MapDiGraph.Draw.edge.inj he).2)
      · refine (GoMap.keys_nodup _ _).imp ?_
        intro a b hab x hx y hy he
        obtain ⟨_, _, rfl⟩ := List.mem_map.1 hx
        obtain ⟨_, _, rfl⟩ := List.mem_map.1 hy
        exact hab (mapId_injective (MapDiGraph.Draw.edge.inj he).1)
    · rintro x hx y hy rfl
      obtain ⟨_, _, rfl⟩ := List.mem_map.1 hx
      obtain ⟨_, _, hy⟩ := List.mem_flatMap.1 hy
      obtain ⟨_, _, hy⟩ := List.mem_map.1 hy
      cases hy
  · unfold MapDiGraph.toDOT
    rw [List.mem_append]
    constructor
    · rintro (hx | hx)
      · obtain ⟨n, hn, he⟩ := List.mem_map.1 hx
        cases he
        exact ⟨n, (hmem n).1 hn, rfl, rfl⟩
      · obtain ⟨_, _, hy⟩ := List.mem_flatMap.1 hx
        obtain ⟨_, _, hy⟩ := List.mem_map.1 hy
        cases hy
    · rintro ⟨n, hn, rfl, rfl⟩
      exact .inl (List.mem_map.2 ⟨n, (hmem n).2 hn, rfl⟩)
  · unfold MapDiGraph.toDOT
    rw [List.mem_append]
    constructor
    · rintro (hx | hx)
      · obtain ⟨n, hn, he⟩ := List.mem_map.1 hx
        cases he
      · obtain ⟨s, _, hy⟩ := List.mem_flatMap.1 hx
        obtain ⟨d, hd, hy⟩ := List.mem_map.1 hy
        cases hy
        obtain ⟨e, he, rfl, rfl⟩ := (hsrc _ _).1 hd
        exact ⟨e, he, rfl, rfl⟩
    · rintro ⟨e, he, rfl, rfl⟩
      refine .inr (List.mem_flatMap.2 ⟨e.source, ?_, List.mem_map.2 ⟨e.dest, (hsrc _ _).2 ⟨e, he, rfl, rfl⟩, rfl⟩⟩)
      have := (h2.fwd e.source e.dest e).2 ⟨rfl, rfl, he⟩
      rw [GoMap.mem_keys]
      unfold Entry at this
      cases hx : g.forwardEdges.get e.source with
      | none => rw [hx] at this; cases this
      | some m => exact ⟨m, rfl⟩

/-- A node, an edge to a node that does not exist (which `AddEdge` accepts), and the edge again with another label. -/
def exDiHistory : List DiGraphOp := [.addNode ⟨"a\"", "A"⟩, .addEdge ⟨"a\"", "b", "x"⟩, .addEdge ⟨"a\"", "b", "y"⟩]

/-- What is drawn for it. -/
example : (match MapDiGraph.new.run exDiHistory with
      | .ok g => decide (g.toDOT listOrder (fun _ => listOrder) = [.node "\"a\\\"\"" "\"A\"", .edge "\"a\\\"\"" "\"b\""])
      | _ => false) = true := by
  decide +kernel

end Zanzi
