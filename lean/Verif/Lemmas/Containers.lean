import Verif.Lemmas.Definition
import Verif.Lemmas.Kv
import Verif.Spec.Containers

/- Lemmas for the graph containers. -/

namespace Zanzi

open Spec

theorem GoMap.get_set {V : Type} (m : GoMap V) (k : String) (v : V) (k' : String) : (m.set k v).get k' = if k' = k then some v else m.get k' := by
  unfold GoMap.get GoMap.set
  dsimp only
  rw [kvGet]
  by_cases h : k' = k
  · subst h; simp
  · rw [if_neg (Ne.symm h), if_neg h, kvGet_del]
    simp [h]

theorem GoMap.get_empty {V : Type} (k : String) : (GoMap.empty : GoMap V).get k = none := rfl

theorem GoMap.mem_keys {V : Type} (o : RangeOrder) (m : GoMap V) (k : String) : k ∈ m.keys o ↔ ∃ v, m.get k = some v := by
  unfold GoMap.keys GoMap.get
  rw [(o.perm _).mem_iff, ← Option.isSome_iff_exists, kvGet_isSome_iff, List.mem_map]
  constructor
  · rintro ⟨⟨_, v⟩, h, rfl⟩; exact ⟨v, h⟩
  · rintro ⟨v, h⟩; exact ⟨_, h, rfl⟩

theorem GoMap.keys_nodup {V : Type} (o : RangeOrder) (m : GoMap V) : (m.keys o).Nodup := (o.perm _).nodup_iff.2 m.nodup

theorem append_singleton_eq {α : Type} {h pre post : List α} {x y : α} :
    h ++ [x] = pre ++ y :: post ↔ (post = [] ∧ pre = h ∧ y = x) ∨ ∃ post', post = post' ++ [x] ∧ h = pre ++ y :: post' := by
  rcases List.eq_nil_or_concat post with rfl | ⟨post', z, rfl⟩
  · constructor
    · intro he
      have := List.append_inj' he rfl
      exact .inl ⟨rfl, this.1.symm, by simpa using this.2.symm⟩
    · rintro (⟨_, rfl, rfl⟩ | ⟨p, hp, _⟩)
      · rfl
      · simp at hp
  · constructor
    · intro he
      have he' : h ++ [x] = (pre ++ y :: post') ++ [z] := by simpa using he
      have := List.append_inj' he' rfl
      exact .inr ⟨post', by simpa using this.2.symm, this.1⟩
    · rintro (⟨hp, _⟩ | ⟨p, hp, rfl⟩)
      · simp at hp
      · have hp' : post' ++ [z] = p ++ [x] := by simpa using hp
        have := List.append_inj' hp' rfl
        obtain ⟨rfl, hz⟩ := this
        simp at hz
        subst hz
        simp

section map
variable {T : Type}

theorem lastNode_setNode {h : List (GraphOp T)} {i id : String} {w v : T} :
    LastNode (h ++ [.setNode i w]) id v ↔ if id = i then v = w else LastNode h id v := by
  unfold LastNode
  simp only [append_singleton_eq]
  constructor
  · rintro ⟨pre, post, (⟨rfl, rfl, he⟩ | ⟨post', rfl, rfl⟩), hp⟩
    · cases he; simp
    · rw [if_neg]
      · exact ⟨pre, post', rfl, fun w hw => hp w (List.mem_append.2 (.inl hw))⟩
      · rintro rfl
        exact hp w (List.mem_append.2 (.inr List.mem_cons_self))
  · intro hc
    split at hc
    · next he => subst he hc; exact ⟨h, [], .inl ⟨rfl, rfl, rfl⟩, nofun⟩
    · next he =>
      obtain ⟨pre, post, rfl, hp⟩ := hc
      refine ⟨pre, post ++ [.setNode i w], .inr ⟨post, rfl, rfl⟩, fun x hx => ?_⟩
      rcases List.mem_append.1 hx with hx | hx
      · exact hp x hx
      · simp at hx
        exact he hx.1

theorem lastNode_setEdge {h : List (GraphOp T)} {a b id : String} {v : T} : LastNode (h ++ [.setEdge a b]) id v ↔ LastNode h id v := by
  unfold LastNode
  simp only [append_singleton_eq]
  constructor
  · rintro ⟨pre, post, (⟨rfl, rfl, he⟩ | ⟨post', rfl, rfl⟩), hp⟩
    · cases he
    · exact ⟨pre, post', rfl, fun w hw => hp w (List.mem_append.2 (.inl hw))⟩
  · rintro ⟨pre, post, rfl, hp⟩
    refine ⟨pre, post ++ [.setEdge a b], .inr ⟨post, rfl, rfl⟩, fun x hx => ?_⟩
    rcases List.mem_append.1 hx with hx | hx
    · exact hp x hx
    · simp at hx

theorem linked_setNode {h : List (GraphOp T)} {i a b : String} {w : T} : Linked (h ++ [.setNode i w]) a b ↔ Linked h a b := by
  unfold Linked
  simp only [append_singleton_eq]
  constructor
  · rintro ⟨pre, post, (⟨rfl, rfl, he⟩ | ⟨post', rfl, rfl⟩), hp⟩
    · cases he
    · exact ⟨pre, post', rfl, hp⟩
  · rintro ⟨pre, post, rfl, hp⟩
    exact ⟨pre, post ++ [.setNode i w], .inr ⟨post, rfl, rfl⟩, hp⟩

theorem linked_setEdge {h : List (GraphOp T)} {x y a b : String} :
    Linked (h ++ [.setEdge x y]) a b ↔ Linked h a b ∨ (a = x ∧ b = y ∧ (∃ v, .setNode a v ∈ h) ∧ ∃ v, .setNode b v ∈ h) := by
  unfold Linked
  simp only [append_singleton_eq]
  constructor
  · rintro ⟨pre, post, (⟨rfl, rfl, he⟩ | ⟨post', rfl, rfl⟩), hp⟩
    · cases he; exact .inr ⟨rfl, rfl, hp⟩
    · exact .inl ⟨pre, post', rfl, hp⟩
  · rintro (⟨pre, post, rfl, hp⟩ | ⟨rfl, rfl, hp⟩)
    · exact ⟨pre, post ++ [.setEdge x y], .inr ⟨post, rfl, rfl⟩, hp⟩
    · exact ⟨h, [], .inl ⟨rfl, rfl, rfl⟩, hp⟩

theorem exists_lastNode {h : List (GraphOp T)} {id : String} : (∃ v, LastNode h id v) ↔ ∃ v, .setNode id v ∈ h := by
  constructor
  · rintro ⟨v, pre, post, rfl, _⟩; exact ⟨v, by simp⟩
  · rintro ⟨v, hv⟩
    induction h generalizing v with
    | nil => cases hv
    | cons x h ih =>
      by_cases hx : ∃ w, GraphOp.setNode id w ∈ h
      · obtain ⟨w, hw⟩ := hx
        obtain ⟨u, pre, post, rfl, hp⟩ := ih w hw
        exact ⟨u, x :: pre, post, rfl, hp⟩
      · rcases List.mem_cons.1 hv with rfl | hv
        · exact ⟨v, [], h, rfl, fun w hw => hx ⟨w, hw⟩⟩
        · exact absurd ⟨v, hv⟩ hx

/-- One call. -/
def MapGraph.apply (g : MapGraph T) : GraphOp T → MapGraph T
  | .setNode id v => g.setNode id v
  | .setEdge a b => (g.setEdge a b).2

/-- Edge `b` of entry `a`. -/
def Entry {V : Type} (m : GoMap (GoMap V)) (a b : String) (v : V) : Prop := ((m.get a).getD .empty).get b = some v

theorem entry_set {V : Type} {m : GoMap (GoMap V)} {x y a b : String} {v w : V} :
    Entry (m.set x (((m.get x).getD .empty).set y w)) a b v ↔ if a = x ∧ b = y then v = w else Entry m a b v := by
  unfold Entry
  rw [GoMap.get_set]
  by_cases ha : a = x
  · subst ha
    rw [if_pos rfl]
    show (GoMap.set _ y w).get b = some v ↔ _
    rw [GoMap.get_set]
    by_cases hb : b = y
    · subst hb; simp [eq_comm]
    · simp [hb]
  · rw [if_neg ha, if_neg (fun h => ha h.1)]

/-- What a graph built by a history holds. -/
structure Holds (h : List (GraphOp T)) (g : MapGraph T) : Prop where
  nodes : ∀ id v, g.getNode id = some v ↔ LastNode h id v
  fwd : ∀ a b, Entry g.forwardEdges a b () ↔ Linked h a b
  back : ∀ a b, Entry g.backwardEdges b a () ↔ Linked h a b

theorem holds_new : Holds [] (MapGraph.new : MapGraph T) := by
  have h1 : ∀ a b, ¬ Linked ([] : List (GraphOp T)) a b := by
    rintro a b ⟨pre, post, h, _⟩
    simp at h
  refine ⟨fun id v => ?_, fun a b => ⟨nofun, fun h => (h1 _ _ h).elim⟩, fun a b => ⟨nofun, fun h => (h1 _ _ h).elim⟩⟩
  constructor
  · nofun
  · rintro ⟨pre, post, h, _⟩
    simp at h

theorem Holds.exists_iff {h : List (GraphOp T)} {g : MapGraph T} (hg : Holds h g) {id : String} : (g.getNode id).isNone = true ↔ ∀ v, .setNode id v ∉ h := by
  cases he : g.getNode id with
  | none =>
    refine ⟨fun _ v hv => ?_, fun _ => rfl⟩
    obtain ⟨w, hw⟩ := exists_lastNode.2 ⟨v, hv⟩
    rw [(hg.nodes id w).2 hw] at he
    cases he
  | some v =>
    refine ⟨nofun, fun h => ?_⟩
    obtain ⟨w, hw⟩ := exists_lastNode.1 ⟨v, (hg.nodes id v).1 he⟩
    exact absurd hw (h w)

theorem Holds.step {h : List (GraphOp T)} {g : MapGraph T} (hg : Holds h g) (op : GraphOp T) : Holds (h ++ [op]) (g.apply op) := by
  cases op with
  | setNode i w =>
    refine ⟨fun id v => ?_, fun a b => ?_, fun a b => ?_⟩
    · rw [lastNode_setNode]
      show (g.nodes.set i w).get id = some v ↔ _
      rw [GoMap.get_set]
      split
      · simp [eq_comm]
      · exact hg.nodes id v
    · rw [linked_setNode]; exact hg.fwd a b
    · rw [linked_setNode]; exact hg.back a b
  | setEdge x y =>
    show Holds _ (g.setEdge x y).2
    unfold MapGraph.setEdge
    split
    · next h1 =>
      rw [hg.exists_iff] at h1
      refine ⟨fun id v => by rw [lastNode_setEdge]; exact hg.nodes id v, fun a b => ?_, fun a b => ?_⟩
      · rw [linked_setEdge, hg.fwd]
        exact ⟨.inl, fun h => h.elim id (fun ⟨ha, _, ⟨v, hv⟩, _⟩ => absurd (ha ▸ hv) (h1 v))⟩
      · rw [linked_setEdge, hg.back]
        exact ⟨.inl, fun h => h.elim id (fun ⟨ha, _, ⟨v, hv⟩, _⟩ => absurd (ha ▸ hv) (h1 v))⟩
    · split
      · next h1 =>
        rw [hg.exists_iff] at h1
        refine ⟨fun id v => by rw [lastNode_setEdge]; exact hg.nodes id v, fun a b => ?_, fun a b => ?_⟩
        · rw [linked_setEdge, hg.fwd]
          exact ⟨.inl, fun h => h.elim id (fun ⟨_, hb, _, ⟨v, hv⟩⟩ => absurd (hb ▸ hv) (h1 v))⟩
        · rw [linked_setEdge, hg.back]
          exact ⟨.inl, fun h => h.elim id (fun ⟨_, hb, _, ⟨v, hv⟩⟩ => absurd (hb ▸ hv) (h1 v))⟩
      · next h1 h2 =>
        have e1 : ∃ v, GraphOp.setNode x v ∈ h := by
          apply Classical.byContradiction
          intro hc
          exact h1 (hg.exists_iff.2 (fun v hv => hc ⟨v, hv⟩))
        have e2 : ∃ v, GraphOp.setNode y v ∈ h := by
          apply Classical.byContradiction
          intro hc
          exact h2 (hg.exists_iff.2 (fun v hv => hc ⟨v, hv⟩))
        refine ⟨fun id v => by rw [lastNode_setEdge]; exact hg.nodes id v, fun a b => ?_, fun a b => ?_⟩
        · rw [linked_setEdge, ← hg.fwd]
          dsimp only
          rw [entry_set]
          split
          · next hab => obtain ⟨rfl, rfl⟩ := hab; exact ⟨fun _ => .inr ⟨rfl, rfl, e1, e2⟩, fun _ => rfl⟩
          · next hab => exact ⟨.inl, fun h => h.elim id (fun h => absurd ⟨h.1, h.2.1⟩ hab)⟩
        · rw [linked_setEdge, ← hg.back]
          dsimp only
          rw [entry_set]
          split
          · next hab => obtain ⟨rfl, rfl⟩ := hab; exact ⟨fun _ => .inr ⟨rfl, rfl, e1, e2⟩, fun _ => rfl⟩
          · next hab => exact ⟨.inl, fun h => h.elim id (fun h => absurd ⟨h.2.1, h.1⟩ hab)⟩

theorem Holds.run {h : List (GraphOp T)} {g : MapGraph T} (hg : Holds h g) (ops : List (GraphOp T)) : Holds (h ++ ops) (ops.foldl MapGraph.apply g) := by
  induction ops generalizing h g with
  | nil => simpa using hg
  | cons op ops ih =>
    have := ih (hg.step op)
    rwa [List.append_assoc] at this

theorem linked_nodes {h : List (GraphOp T)} {a b : String} (hl : Linked h a b) : (∃ v, LastNode h a v) ∧ ∃ v, LastNode h b v := by
  obtain ⟨pre, post, rfl, ⟨v, hv⟩, ⟨w, hw⟩⟩ := hl
  exact ⟨exists_lastNode.2 ⟨v, List.mem_append.2 (.inl hv)⟩, exists_lastNode.2 ⟨w, List.mem_append.2 (.inl hw)⟩⟩

theorem Holds.values [Inhabited T] {h : List (GraphOp T)} {g : MapGraph T} (hg : Holds h g) (o : RangeOrder) (m : GoMap Unit) (R : String → Prop)
    (hR : ∀ id, m.get id = some () ↔ R id) (hn : ∀ id, R id → ∃ v, LastNode h id v) : ValuesOf h R (g.getNodesFromEdges o m) := by
  refine ⟨(m.keys o).map (fun id => (id, (g.nodes.get id).getD default)), ?_, fun id => ?_, fun p hp => ?_, ?_⟩
  · rw [List.map_map, show (Prod.fst ∘ fun id => (id, (g.nodes.get id).getD default)) = _root_.id from rfl, List.map_id]
    exact m.keys_nodup o
  · rw [List.map_map, show (Prod.fst ∘ fun id => (id, (g.nodes.get id).getD default)) = _root_.id from rfl, List.map_id, GoMap.mem_keys, ← hR]
    exact ⟨fun ⟨_, h⟩ => h, fun h => ⟨_, h⟩⟩
  · obtain ⟨id, hid, rfl⟩ := List.mem_map.1 hp
    obtain ⟨u, hu⟩ := (m.mem_keys o id).1 hid
    obtain ⟨v, hv⟩ := hn id ((hR id).1 hu)
    have hv' := (hg.nodes id v).2 hv
    show LastNode h id ((g.nodes.get id).getD default)
    rw [show g.nodes.get id = some v from hv']
    exact hv
  · rw [List.map_map]; rfl

end map

/-! ### MapDiGraph -/

theorem addedNode_snoc {h : List DiGraphOp} {op : DiGraphOp} {n : GraphNode} :
    AddedNode (h ++ [op]) n ↔ (match op with | .addNode m => if n.id = m.id then n = m else AddedNode h n | .addEdge _ => AddedNode h n) := by
  unfold AddedNode
  simp only [append_singleton_eq]
  constructor
  · rintro ⟨pre, post, (⟨rfl, rfl, he⟩ | ⟨post', rfl, rfl⟩), hp⟩
    · subst he; simp
    · have : ∃ pre_1 post, pre ++ DiGraphOp.addNode n :: post' = pre_1 ++ DiGraphOp.addNode n :: post ∧ ∀ m, DiGraphOp.addNode m ∈ post → m.id ≠ n.id :=
        ⟨pre, post', rfl, fun m hm => hp m (List.mem_append.2 (.inl hm))⟩
      cases op with
      | addNode m =>
        dsimp only
        rw [if_neg]
        · exact this
        · exact fun he => hp m (List.mem_append.2 (.inr List.mem_cons_self)) he.symm
      | addEdge => exact this
  · intro hc
    have ext : (∀ m, op = .addNode m → m.id ≠ n.id) → (∃ pre post, h = pre ++ DiGraphOp.addNode n :: post ∧ ∀ m, DiGraphOp.addNode m ∈ post → m.id ≠ n.id) →
        ∃ pre post, ((post = [] ∧ pre = h ∧ DiGraphOp.addNode n = op) ∨ ∃ post', post = post' ++ [op] ∧ h = pre ++ DiGraphOp.addNode n :: post') ∧
          ∀ m, DiGraphOp.addNode m ∈ post → m.id ≠ n.id := by
      rintro ho ⟨pre, post, rfl, hp⟩
      refine ⟨pre, post ++ [op], .inr ⟨post, rfl, rfl⟩, fun m hm => ?_⟩
      rcases List.mem_append.1 hm with hm | hm
      · exact hp m hm
      · simp at hm; exact ho m hm.symm
    cases op with
    | addEdge => exact ext nofun hc
    | addNode m =>
      dsimp only at hc
      split at hc
      · subst hc; exact ⟨h, [], .inl ⟨rfl, rfl, rfl⟩, nofun⟩
      · next he => exact ext (fun m' hm => by cases hm; exact Ne.symm he) hc

theorem addedEdge_snoc {h : List DiGraphOp} {op : DiGraphOp} {e : GraphEdge} :
    AddedEdge (h ++ [op]) e ↔
      (match op with | .addEdge f => if e.source = f.source ∧ e.dest = f.dest then e = f else AddedEdge h e | .addNode _ => AddedEdge h e) := by
  unfold AddedEdge
  simp only [append_singleton_eq]
  constructor
  · rintro ⟨pre, post, (⟨rfl, rfl, he⟩ | ⟨post', rfl, rfl⟩), hp⟩
    · subst he; simp
    · have : ∃ pre_1 post, pre ++ DiGraphOp.addEdge e :: post' = pre_1 ++ DiGraphOp.addEdge e :: post ∧
          ∀ f, DiGraphOp.addEdge f ∈ post → ¬ (f.source = e.source ∧ f.dest = e.dest) :=
        ⟨pre, post', rfl, fun m hm => hp m (List.mem_append.2 (.inl hm))⟩
      cases op with
      | addEdge m =>
        dsimp only
        rw [if_neg]
        · exact this
        · exact fun he => hp m (List.mem_append.2 (.inr List.mem_cons_self)) ⟨he.1.symm, he.2.symm⟩
      | addNode => exact this
  · intro hc
    have ext : (∀ f, op = .addEdge f → ¬ (f.source = e.source ∧ f.dest = e.dest)) →
        (∃ pre post, h = pre ++ DiGraphOp.addEdge e :: post ∧ ∀ f, DiGraphOp.addEdge f ∈ post → ¬ (f.source = e.source ∧ f.dest = e.dest)) →
        ∃ pre post, ((post = [] ∧ pre = h ∧ DiGraphOp.addEdge e = op) ∨ ∃ post', post = post' ++ [op] ∧ h = pre ++ DiGraphOp.addEdge e :: post') ∧
          ∀ f, DiGraphOp.addEdge f ∈ post → ¬ (f.source = e.source ∧ f.dest = e.dest) := by
      rintro ho ⟨pre, post, rfl, hp⟩
      refine ⟨pre, post ++ [op], .inr ⟨post, rfl, rfl⟩, fun m hm => ?_⟩
      rcases List.mem_append.1 hm with hm | hm
      · exact hp m hm
      · simp at hm; exact ho m hm.symm
    cases op with
    | addNode => exact ext nofun hc
    | addEdge m =>
      dsimp only at hc
      split at hc
      · subst hc; exact ⟨h, [], .inl ⟨rfl, rfl, rfl⟩, nofun⟩
      · next he => exact ext (fun m' hm => by cases hm; exact fun hx => he ⟨hx.1.symm, hx.2.symm⟩) hc

/-- One call. -/
def MapDiGraph.apply (g : MapDiGraph) : DiGraphOp → Res MapDiGraph
  | .addNode n => g.addNode (some n)
  | .addEdge e => g.addEdge (some e)

/-- Calls in a row. -/
def MapDiGraph.run (g : MapDiGraph) : List DiGraphOp → Res MapDiGraph
  | [] => .ok g
  | op :: ops => g.apply op >>= fun g => g.run ops

/-- What a graph built by a history holds. -/
structure HoldsDi (h : List DiGraphOp) (g : MapDiGraph) : Prop where
  nodes : ∀ id n, g.getNode id = some n ↔ n.id = id ∧ AddedNode h n
  fwd : ∀ a b e, Entry g.forwardEdges a b e ↔ e.source = a ∧ e.dest = b ∧ AddedEdge h e
  back : ∀ a b e, Entry g.backEdges b a e ↔ e.source = a ∧ e.dest = b ∧ AddedEdge h e

theorem holdsDi_new : HoldsDi [] MapDiGraph.new := by
  have h1 : ∀ e, ¬ AddedEdge [] e := by
    rintro e ⟨pre, post, h, _⟩
    simp at h
  refine ⟨fun id v => ⟨nofun, ?_⟩, fun a b e => ⟨nofun, fun h => (h1 _ h.2.2).elim⟩, fun a b e => ⟨nofun, fun h => (h1 _ h.2.2).elim⟩⟩
  rintro ⟨_, pre, post, h, _⟩
  simp at h

theorem HoldsDi.step {h : List DiGraphOp} {g : MapDiGraph} (hg : HoldsDi h g) (op : DiGraphOp) : ∃ g', g.apply op = .ok g' ∧ HoldsDi (h ++ [op]) g' := by
  cases op with
  | addNode m =>
    refine ⟨_, rfl, fun id n => ?_, fun a b e => ?_, fun a b e => ?_⟩
    · rw [addedNode_snoc]
      show (g.nodes.set m.id m).get id = some n ↔ _
      rw [GoMap.get_set]
      dsimp only
      by_cases hi : id = m.id
      · subst hi
        rw [if_pos rfl]
        constructor
        · intro hx; cases hx; simp
        · rintro ⟨hx, hy⟩; rw [if_pos hx] at hy; rw [hy]
      · rw [if_neg hi]
        show g.getNode id = some n ↔ _
        rw [hg.nodes]
        constructor
        · rintro ⟨rfl, hx⟩; rw [if_neg hi]; exact ⟨rfl, hx⟩
        · rintro ⟨rfl, hx⟩; rw [if_neg hi] at hx; exact ⟨rfl, hx⟩
    · rw [addedEdge_snoc]; exact hg.fwd a b e
    · rw [addedEdge_snoc]; exact hg.back a b e
  | addEdge f =>
    refine ⟨_, rfl, fun id n => ?_, fun a b e => ?_, fun a b e => ?_⟩
    · rw [addedNode_snoc]; exact hg.nodes id n
    · rw [addedEdge_snoc]
      dsimp only
      rw [entry_set]
      by_cases hx : a = f.source ∧ b = f.dest
      · obtain ⟨rfl, rfl⟩ := hx
        rw [if_pos ⟨rfl, rfl⟩]
        constructor
        · rintro rfl; simp
        · rintro ⟨h1, h2, h3⟩; rwa [if_pos ⟨h1, h2⟩] at h3
      · rw [if_neg hx, hg.fwd]
        constructor
        · rintro ⟨rfl, rfl, h3⟩; rw [if_neg hx]; exact ⟨rfl, rfl, h3⟩
        · rintro ⟨rfl, rfl, h3⟩; rw [if_neg hx] at h3; exact ⟨rfl, rfl, h3⟩
    · rw [addedEdge_snoc]
      dsimp only
      rw [entry_set]
      by_cases hx : a = f.source ∧ b = f.dest
      · obtain ⟨rfl, rfl⟩ := hx
        rw [if_pos ⟨rfl, rfl⟩]
        constructor
        · rintro rfl; simp
        · rintro ⟨h1, h2, h3⟩; rwa [if_pos ⟨h1, h2⟩] at h3
      · rw [if_neg (fun h => hx ⟨h.2, h.1⟩), hg.back]
        constructor
        · rintro ⟨rfl, rfl, h3⟩; rw [if_neg hx]; exact ⟨rfl, rfl, h3⟩
        · rintro ⟨rfl, rfl, h3⟩; rw [if_neg hx] at h3; exact ⟨rfl, rfl, h3⟩

theorem HoldsDi.run {h : List DiGraphOp} {g : MapDiGraph} (hg : HoldsDi h g) (ops : List DiGraphOp) : ∃ g', g.run ops = .ok g' ∧ HoldsDi (h ++ ops) g' := by
  induction ops generalizing h g with
  | nil => exact ⟨g, rfl, by simpa using hg⟩
  | cons op ops ih =>
    obtain ⟨g', h1, h2⟩ := hg.step op
    obtain ⟨g'', h3, h4⟩ := ih h2
    refine ⟨g'', ?_, by rwa [List.append_assoc] at h4⟩
    show g.apply op >>= _ = _
    rw [h1]
    exact h3

/-! ### DOT -/

theorem escape_injective : ∀ {a b : List Char}, MapDiGraph.escape a = MapDiGraph.escape b → a = b := by
  have key : ∀ (b : List Char) (rest : List Char), MapDiGraph.escape b ≠ '"' :: rest := by
    intro b rest h
    cases b with
    | nil => cases h
    | cons c b =>
      by_cases hc : c = '"'
      · subst hc; rw [MapDiGraph.escape] at h; simp at h
      · rw [MapDiGraph.escape] at h
        · simp at h; exact hc h.1
        · exact hc
  intro a
  induction a with
  | nil =>
    intro b h
    cases b with
    | nil => rfl
    | cons c b =>
      by_cases hc : c = '"'
      · subst hc; simp [MapDiGraph.escape] at h
      · rw [MapDiGraph.escape.eq_3 _ _ hc] at h; simp [MapDiGraph.escape] at h
  | cons x a ih =>
    intro b h
    cases b with
    | nil =>
      by_cases hc : x = '"'
      · subst hc; simp [MapDiGraph.escape] at h
      · rw [MapDiGraph.escape.eq_3 _ _ hc] at h; simp [MapDiGraph.escape] at h
    | cons y b =>
      by_cases hx : x = '"'
      · subst hx
        by_cases hy : y = '"'
        · subst hy
          rw [MapDiGraph.escape, MapDiGraph.escape] at h
          simp at h
          rw [ih h]
        · rw [MapDiGraph.escape, MapDiGraph.escape.eq_3 _ _ hy] at h
          simp at h
          exact absurd h.2.symm (key _ _)
      · by_cases hy : y = '"'
        · subst hy
          rw [MapDiGraph.escape.eq_3 _ _ hx, MapDiGraph.escape] at h
          simp at h
          exact absurd h.2 (key _ _)
        · rw [MapDiGraph.escape.eq_3 _ _ hx, MapDiGraph.escape.eq_3 _ _ hy] at h
          simp at h
          rw [h.1, ih h.2]

theorem mapId_injective {a b : String} (h : MapDiGraph.mapId a = MapDiGraph.mapId b) : a = b := by
  unfold MapDiGraph.mapId MapDiGraph.wrap at h
  have h' := congrArg String.toList h
  simp only [String.toList_append, String.toList_ofList] at h'
  apply String.toList_inj.1
  apply escape_injective
  have h2 := List.append_cancel_right h'
  exact List.append_cancel_left h2

end Zanzi
