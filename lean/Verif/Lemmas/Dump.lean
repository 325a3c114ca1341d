import Verif.Lemmas.Term
import Verif.Lemmas.Kv
import Verif.Lemmas.NodeText
import Verif.Spec.Dump

/-
The walker's forest and its drawing, in terms of edges.
-/

namespace Zanzi

open Spec

variable {H : String → Nat}

/-! ### Building the forest -/

theorem kvGet_append_some {K V : Type} [DecidableEq K] {m m' : List (K × V)} {k : K} {v : V} (h : kvGet m k = some v) : kvGet (m ++ m') k = some v := by
  induction m with
  | nil => cases h
  | cons a m ih =>
    obtain ⟨k', v'⟩ := a
    simp only [List.cons_append, kvGet] at h ⊢
    split at h
    · next hk => rw [if_pos hk]; exact h
    · next hk => rw [if_neg hk]; exact ih h

theorem kvGet_append_single {K V : Type} [DecidableEq K] {m : List (K × V)} {k k' : K} {v v' : V} (h : kvGet (m ++ [(k', v')]) k = some v) :
    kvGet m k = some v ∨ (k = k' ∧ v = v') := by
  induction m with
  | nil =>
    simp only [List.nil_append, kvGet] at h
    split at h
    · next hk => cases h; exact .inr ⟨hk.symm, rfl⟩
    · cases h
  | cons a m ih =>
    obtain ⟨k1, v1⟩ := a
    simp only [List.cons_append, kvGet] at h ⊢
    split at h
    · next hk => rw [if_pos hk]; exact .inl h
    · next hk => rw [if_neg hk]; exact ih h

theorem getTree_keeps (f : Forest) (id : Nat) (n : RelationNode) {i : Nat} {m : RelationNode} (h : kvGet f.nodes i = some m) :
    kvGet (f.getTree id n).nodes i = some m := by
  unfold Forest.getTree
  split
  · exact h
  · exact kvGet_append_some h

theorem getTree_has (f : Forest) (id : Nat) (n : RelationNode) : ∃ m, kvGet (f.getTree id n).nodes id = some m := by
  unfold Forest.getTree
  split
  · next m h => exact ⟨m, h⟩
  · next h =>
    have := (kvGet_isSome_iff (m := f.nodes ++ [(id, n)]) (k := id)).2 ⟨n, by simp⟩
    exact Option.isSome_iff_exists.1 this

theorem getTree_only (f : Forest) (id : Nat) (n : RelationNode) {i : Nat} {m : RelationNode} (h : kvGet (f.getTree id n).nodes i = some m) :
    kvGet f.nodes i = some m ∨ (i = id ∧ m = n) := by
  unfold Forest.getTree at h
  split at h
  · exact .inl h
  · exact kvGet_append_single h

theorem getTree_children (f : Forest) (id : Nat) (n : RelationNode) : (f.getTree id n).children = f.children ∧ (f.getTree id n).orphans = f.orphans := by
  unfold Forest.getTree
  split <;> exact ⟨rfl, rfl⟩

/-- What the second loop adds. -/
structure Grown (H : String → Nat) (es : List (RelationNode × RelationNode)) (f f' : Forest) : Prop where
  children : ∀ i j, (i, j) ∈ f'.children ↔ (i, j) ∈ f.children ∨ ∃ e ∈ es, e.1.nodeId H = .ok i ∧ e.2.nodeId H = .ok j
  keeps : ∀ i n, kvGet f.nodes i = some n → kvGet f'.nodes i = some n
  only : ∀ i n, kvGet f'.nodes i = some n → kvGet f.nodes i = some n ∨ (∃ e ∈ es, n = e.1 ∨ n = e.2) ∧ n.nodeId H = .ok i
  has : ∀ e ∈ es, ∀ i, e.1.nodeId H = .ok i ∨ e.2.nodeId H = .ok i → ∃ n, kvGet f'.nodes i = some n
  orphans : ∀ o, o ∈ f'.orphans ↔ o ∈ f.orphans ∧ ∀ e ∈ es, e.2.nodeId H ≠ .ok o

theorem walkEdges_grown : ∀ {es : List (RelationNode × RelationNode)} {f : Forest},
    (∀ e ∈ es, (∃ i, e.1.nodeId H = .ok i) ∧ ∃ j, e.2.nodeId H = .ok j) → ∃ f', walkEdges H es f = .ok f' ∧ Grown H es f f' := by
  intro es
  induction es with
  | nil => intro f _; exact ⟨f, rfl, by simp, fun _ _ h => h, fun _ _ h => .inl h, by simp, by simp⟩
  | cons e es ih =>
    intro f h
    obtain ⟨⟨p, hp⟩, ⟨c, hc⟩⟩ := h e List.mem_cons_self
    let g := (f.getTree p e.1).getTree c e.2
    obtain ⟨f', h1, h2⟩ := ih (f := { g with children := g.children ++ [(p, c)], orphans := g.orphans.filter (fun o => decide (o ≠ c)) })
      (fun e' he' => h e' (List.mem_cons_of_mem _ he'))
    have hgc : g.children = f.children := by rw [(getTree_children _ _ _).1, (getTree_children _ _ _).1]
    have hgo : g.orphans = f.orphans := by rw [(getTree_children _ _ _).2, (getTree_children _ _ _).2]
    refine ⟨f', ?_, ?_, ?_, ?_, ?_, ?_⟩
    · rw [walkEdges, hp, Res.bind_ok, hc, Res.bind_ok]
      exact h1
    · intro i j
      rw [h2.children i j]
      simp only [hgc, List.mem_append, Prod.mk.injEq, List.mem_cons, List.not_mem_nil, or_false, exists_eq_or_imp]
      constructor
      · rintro ((h | ⟨rfl, rfl⟩) | h)
        · exact .inl h
        · exact .inr (.inl ⟨hp, hc⟩)
        · exact .inr (.inr h)
      · rintro (h | (⟨h, h'⟩ | h))
        · exact .inl (.inl h)
        · rw [hp] at h; rw [hc] at h'
          cases h; cases h'
          exact .inl (.inr ⟨rfl, rfl⟩)
        · exact .inr h
    · intro i n hi
      exact h2.keeps i n (getTree_keeps _ _ _ (getTree_keeps _ _ _ hi))
    · intro i n hi
      rcases h2.only i n hi with h3 | ⟨⟨e', he', h3⟩, h4⟩
      · rcases getTree_only _ _ _ h3 with h3 | ⟨rfl, rfl⟩
        · rcases getTree_only _ _ _ h3 with h3 | ⟨rfl, rfl⟩
          · exact .inl h3
          · exact .inr ⟨⟨e, List.mem_cons_self, .inl rfl⟩, hp⟩
        · exact .inr ⟨⟨e, List.mem_cons_self, .inr rfl⟩, hc⟩
      · exact .inr ⟨⟨e', List.mem_cons_of_mem _ he', h3⟩, h4⟩
    · intro e' he' i hi
      rcases List.mem_cons.1 he' with rfl | he'
      · rcases hi with hi | hi
        · rw [hp] at hi; cases hi
          obtain ⟨m, hm⟩ := getTree_has f p e'.1
          exact ⟨m, h2.keeps _ _ (getTree_keeps _ _ _ hm)⟩
        · rw [hc] at hi; cases hi
          obtain ⟨m, hm⟩ := getTree_has (f.getTree p e'.1) c e'.2
          exact ⟨m, h2.keeps _ _ hm⟩
      · exact h2.has e' he' i hi
    · intro o
      rw [h2.orphans o]
      simp only [hgo, List.mem_filter, decide_eq_true_eq, List.mem_cons, forall_eq_or_imp, hc, ne_eq, Res.ok.injEq]
      constructor
      · rintro ⟨⟨h1, h2⟩, h3⟩; exact ⟨h1, fun h => h2 h.symm, h3⟩
      · rintro ⟨h1, h2, h3⟩; exact ⟨⟨h1, fun h => h2 h.symm⟩, h3⟩

theorem walkOrphans_ok : ∀ {es : List (RelationNode × RelationNode)}, (∀ e ∈ es, ∃ i, e.1.nodeId H = .ok i) →
    ∃ os, walkOrphans H es = .ok os ∧ ∀ o, o ∈ os ↔ ∃ e ∈ es, e.1.nodeId H = .ok o := by
  intro es
  induction es with
  | nil => intro _; exact ⟨[], rfl, by simp⟩
  | cons e es ih =>
    intro h
    obtain ⟨i, hi⟩ := h e List.mem_cons_self
    obtain ⟨os, h1, h2⟩ := ih (fun e' he' => h e' (List.mem_cons_of_mem _ he'))
    refine ⟨if i ∈ os then os else i :: os, ?_, ?_⟩
    · rw [walkOrphans, hi, Res.bind_ok, h1]; rfl
    · intro o
      simp only [List.mem_cons, exists_eq_or_imp, hi, Res.ok.injEq, ← h2 o]
      split
      · next hin =>
        constructor
        · exact .inr
        · rintro (rfl | h)
          · exact hin
          · exact h
      · simp only [List.mem_cons]
        constructor
        · rintro (rfl | h)
          · exact .inl rfl
          · exact .inr h
        · rintro (rfl | h)
          · exact .inl rfl
          · exact .inr h

/-- The forest of a list of edges. -/
structure IsForest (H : String → Nat) (es : List (RelationNode × RelationNode)) (f : Forest) : Prop where
  children : ∀ i j, (i, j) ∈ f.children ↔ ∃ e ∈ es, e.1.nodeId H = .ok i ∧ e.2.nodeId H = .ok j
  only : ∀ i n, kvGet f.nodes i = some n → (∃ e ∈ es, n = e.1 ∨ n = e.2) ∧ n.nodeId H = .ok i
  has : ∀ e ∈ es, ∀ i, e.1.nodeId H = .ok i ∨ e.2.nodeId H = .ok i → ∃ n, kvGet f.nodes i = some n
  orphans : ∀ o, o ∈ f.orphans ↔ (∃ e ∈ es, e.1.nodeId H = .ok o) ∧ ∀ e ∈ es, e.2.nodeId H ≠ .ok o

theorem walk_forest {es : List (RelationNode × RelationNode)} (h : ∀ e ∈ es, (∃ i, e.1.nodeId H = .ok i) ∧ ∃ j, e.2.nodeId H = .ok j) :
    ∃ f, walk H es = .ok f ∧ IsForest H es f := by
  obtain ⟨os, h1, h2⟩ := walkOrphans_ok (H := H) (fun e he => (h e he).1)
  obtain ⟨f, h3, h4⟩ := walkEdges_grown (H := H) (f := ⟨[], [], os⟩) h
  refine ⟨f, by rw [walk, h1]; exact h3, ?_, ?_, h4.has, ?_⟩
  · intro i j; simpa using h4.children i j
  · intro i n hi
    rcases h4.only i n hi with h5 | h5
    · cases h5
    · exact h5
  · intro o
    rw [h4.orphans o, ← h2 o]

/-! ### Drawing the forest -/

theorem mem_childrenOf {f : Forest} {i j : Nat} : j ∈ f.childrenOf i ↔ (i, j) ∈ f.children := by
  simp only [Forest.childrenOf, List.mem_map, List.mem_filter, decide_eq_true_eq]
  constructor
  · rintro ⟨⟨a, b⟩, ⟨h, rfl⟩, rfl⟩; exact h
  · intro h; exact ⟨(i, j), ⟨h, rfl⟩, rfl⟩

theorem concatRes_mem {α β : Type} {g : α → Res (List β)} : ∀ {l : List α} {bs : List β}, concatRes g l = .ok bs →
    (∀ a ∈ l, ∃ b, g a = .ok b) ∧ ∀ x, x ∈ bs ↔ ∃ a ∈ l, ∃ b, g a = .ok b ∧ x ∈ b := by
  intro l
  induction l with
  | nil => intro bs h; cases h; simp
  | cons a l ih =>
    intro bs h
    obtain ⟨b, h1, h⟩ := Res.bind_eq_ok.1 h
    obtain ⟨bs', h2, h⟩ := Res.bind_eq_ok.1 h
    cases h
    obtain ⟨h3, h4⟩ := ih h2
    refine ⟨?_, fun x => ?_⟩
    · intro a' ha'
      rcases List.mem_cons.1 ha' with rfl | ha'
      · exact ⟨b, h1⟩
      · exact h3 a' ha'
    · simp only [List.mem_append, h4 x, List.mem_cons, exists_eq_or_imp, h1, Res.ok.injEq, exists_eq_left']

theorem concatRes_ok {α β : Type} {g : α → Res (List β)} : ∀ {l : List α}, (∀ a ∈ l, ∃ b, g a = .ok b) → ∃ bs, concatRes g l = .ok bs := by
  intro l
  induction l with
  | nil => intro _; exact ⟨[], rfl⟩
  | cons a l ih =>
    intro h
    obtain ⟨b, hb⟩ := h a List.mem_cons_self
    obtain ⟨bs, hbs⟩ := ih (fun a' ha' => h a' (List.mem_cons_of_mem _ ha'))
    exact ⟨b ++ bs, by rw [concatRes, hb, Res.bind_ok, hbs]; rfl⟩

/-- A loop some of whose steps does not return, while the others return or do not, does not return. -/
theorem concatRes_fuel {α β : Type} {g : α → Res (List β)} : ∀ {l : List α}, (∀ a ∈ l, (∃ b, g a = .ok b) ∨ g a = .fuel) → (∃ a ∈ l, g a = .fuel) →
    concatRes g l = .fuel := by
  intro l
  induction l with
  | nil => intro _ h; obtain ⟨a, ha, _⟩ := h; cases ha
  | cons a l ih =>
    intro h h'
    rcases h a List.mem_cons_self with ⟨b, hb⟩ | hb
    · obtain ⟨a', ha', hf⟩ := h'
      rcases List.mem_cons.1 ha' with rfl | ha'
      · rw [hb] at hf; cases hf
      · rw [concatRes, hb, Res.bind_ok, ih (fun x hx => h x (List.mem_cons_of_mem _ hx)) ⟨a', ha', hf⟩]; rfl
    · rw [concatRes, hb]; rfl

/-- Ids at or below `i`. -/
inductive Below (f : Forest) (i : Nat) : Nat → Prop
  | refl : Below f i i
  | step {k j} : Below f i k → (k, j) ∈ f.children → Below f i j

theorem Below.head {f : Forest} {i k j : Nat} (h : (i, k) ∈ f.children) (h' : Below f k j) : Below f i j := by
  induction h' with
  | refl => exact .step .refl h
  | step _ h2 ih => exact .step ih h2

theorem below_iff {f : Forest} {i j : Nat} : Below f i j ↔ j = i ∨ ∃ k, (i, k) ∈ f.children ∧ Below f k j := by
  constructor
  · intro h
    induction h with
    | refl => exact .inl rfl
    | @step k j _ h2 ih =>
      rcases ih with rfl | ⟨k', h3, h4⟩
      · exact .inr ⟨j, h2, .refl⟩
      · exact .inr ⟨k', h3, .step h4 h2⟩
  · rintro (rfl | ⟨k, h1, h2⟩)
    · exact .refl
    · exact .head h1 h2

/-- What a drawing of the tree at `id` contains. -/
theorem dumpNode_mem {f : Forest} : ∀ {n : Nat} {parent : DotId} {id : Nat} {cs : List DotCall}, dumpNode f n parent id = .ok cs →
    (∀ d l, DotCall.node d l ∈ cs ↔ ∃ i m, d = .num i ∧ Below f id i ∧ kvGet f.nodes i = some m ∧ m.prettyString = .ok l) ∧
    (∀ p d, DotCall.edge p d ∈ cs ↔ (p = parent ∧ d = .num id) ∨ ∃ i j, p = .num i ∧ d = .num j ∧ Below f id i ∧ (i, j) ∈ f.children) := by
  intro n
  induction n with
  | zero => intro _ _ _ h; cases h
  | succ n ih =>
    intro parent id cs h
    rw [dumpNode] at h
    split at h
    · cases h
    · next node hnode =>
      obtain ⟨pretty, h1, h⟩ := Res.bind_eq_ok.1 h
      obtain ⟨cs', h2, h⟩ := Res.bind_eq_ok.1 h
      cases h
      obtain ⟨h3, h4⟩ := concatRes_mem h2
      refine ⟨fun d l => ?_, fun p d => ?_⟩
      · rw [List.mem_cons, List.mem_cons, h4]
        constructor
        · rintro (h | h | ⟨k, hk, b, hb, h⟩)
          · cases h
            exact ⟨id, node, rfl, .refl, hnode, h1⟩
          · cases h
          · obtain ⟨i, m, rfl, h5, h6⟩ := ((ih hb).1 d l).1 h
            exact ⟨i, m, rfl, .head (mem_childrenOf.1 hk) h5, h6⟩
        · rintro ⟨i, m, rfl, h5, h6, h7⟩
          rcases below_iff.1 h5 with rfl | ⟨k, hk, h5⟩
          · rw [hnode] at h6
            cases h6
            rw [h1] at h7
            cases h7
            exact .inl rfl
          · obtain ⟨b, hb⟩ := h3 k (mem_childrenOf.2 hk)
            exact .inr (.inr ⟨k, mem_childrenOf.2 hk, b, hb, ((ih hb).1 _ _).2 ⟨i, m, rfl, h5, h6, h7⟩⟩)
      · rw [List.mem_cons, List.mem_cons, h4]
        constructor
        · rintro (h | h | ⟨k, hk, b, hb, h⟩)
          · cases h
          · cases h
            exact .inl ⟨rfl, rfl⟩
          · rcases ((ih hb).2 p d).1 h with ⟨rfl, rfl⟩ | ⟨i, j, rfl, rfl, h5, h6⟩
            · exact .inr ⟨id, k, rfl, rfl, .refl, mem_childrenOf.1 hk⟩
            · exact .inr ⟨i, j, rfl, rfl, .head (mem_childrenOf.1 hk) h5, h6⟩
        · rintro (⟨rfl, rfl⟩ | ⟨i, j, rfl, rfl, h5, h6⟩)
          · exact .inr (.inl rfl)
          · rcases below_iff.1 h5 with rfl | ⟨k, hk, h5⟩
            · obtain ⟨b, hb⟩ := h3 j (mem_childrenOf.2 h6)
              exact .inr (.inr ⟨j, mem_childrenOf.2 h6, b, hb, ((ih hb).2 _ _).2 (.inl ⟨rfl, rfl⟩)⟩)
            · obtain ⟨b, hb⟩ := h3 k (mem_childrenOf.2 hk)
              exact .inr (.inr ⟨k, mem_childrenOf.2 hk, b, hb, ((ih hb).2 _ _).2 (.inr ⟨i, j, rfl, rfl, h5, h6⟩)⟩)

/-- All trees of a forest can be labelled. -/
def Labelled (f : Forest) : Prop :=
  (∀ i n, kvGet f.nodes i = some n → ∃ l, n.prettyString = .ok l) ∧ ∀ i j, (i, j) ∈ f.children → (∃ n, kvGet f.nodes i = some n) ∧ ∃ n, kvGet f.nodes j = some n

theorem Labelled.below {f : Forest} (hf : Labelled f) {i j : Nat} (h : Below f i j) (hi : ∃ n, kvGet f.nodes i = some n) : ∃ n, kvGet f.nodes j = some n := by
  cases h with
  | refl => exact hi
  | step _ h => exact (hf.2 _ _ h).2

/-- A drawing either completes or exceeds the bound. -/
theorem dumpNode_total {f : Forest} (hf : Labelled f) : ∀ {n : Nat} {parent : DotId} {id : Nat}, (∃ n, kvGet f.nodes id = some n) →
    (∃ cs, dumpNode f n parent id = .ok cs) ∨ dumpNode f n parent id = .fuel := by
  intro n
  induction n with
  | zero => intro _ _ _; exact .inr rfl
  | succ n ih =>
    intro parent id hid
    obtain ⟨node, hnode⟩ := hid
    obtain ⟨l, hl⟩ := hf.1 id node hnode
    have hch : ∀ k ∈ f.childrenOf id, (∃ cs, dumpNode f n (.num id) k = .ok cs) ∨ dumpNode f n (.num id) k = .fuel :=
      fun k hk => ih (hf.2 _ _ (mem_childrenOf.1 hk)).2
    rw [dumpNode, hnode]
    dsimp only
    rw [hl, Res.bind_ok]
    by_cases hfuel : ∃ k ∈ f.childrenOf id, dumpNode f n (.num id) k = .fuel
    · rw [concatRes_fuel hch hfuel]
      exact .inr rfl
    · obtain ⟨cs, hcs⟩ := concatRes_ok (g := dumpNode f n (.num id)) (l := f.childrenOf id) (fun k hk => by
        rcases hch k hk with h | h
        · exact h
        · exact absurd ⟨k, hk, h⟩ hfuel)
      rw [hcs]
      exact .inl ⟨_, rfl⟩

/-- Without a cycle below `id`, a bound as large as the number of nodes suffices. -/
theorem dumpNode_returns {f : Forest} (hf : Labelled f) : ∀ {n : Nat} {chain : List Nat} {parent : DotId} {id : Nat},
    (∃ m, kvGet f.nodes id = some m) → id ∉ chain → (∀ c ∈ chain, ∃ k, (c, k) ∈ f.children ∧ Below f k id) →
    (∀ j, Below f id j → ∀ k, (j, k) ∈ f.children → ¬ Below f k j) → unvisited (f.nodes.map (·.1)) chain ≤ n →
    ∃ cs, dumpNode f n parent id = .ok cs := by
  intro n
  induction n with
  | zero =>
    intro chain parent id hid hnew _ _ hn
    obtain ⟨m, hm⟩ := hid
    have := unvisited_lt (L := f.nodes.map (·.1)) (s := chain) (List.mem_map.2 ⟨_, kvGet_mem hm, rfl⟩) hnew
    omega
  | succ n ih =>
    intro chain parent id hid hnew hch hac hn
    obtain ⟨node, hnode⟩ := hid
    obtain ⟨l, hl⟩ := hf.1 id node hnode
    have hlt := unvisited_lt (L := f.nodes.map (·.1)) (s := chain) (id := id) (List.mem_map.2 ⟨_, kvGet_mem hnode, rfl⟩) hnew
    obtain ⟨cs, hcs⟩ := concatRes_ok (g := dumpNode f n (.num id)) (l := f.childrenOf id) (fun k hk => by
      have hk := mem_childrenOf.1 hk
      refine ih (chain := id :: chain) (hf.2 _ _ hk).2 ?_ ?_ (fun j hj => hac j (.head hk hj)) (by omega)
      · intro hmem
        rcases List.mem_cons.1 hmem with rfl | hmem
        · exact hac k .refl k hk .refl
        · obtain ⟨k', h1, h2⟩ := hch k hmem
          exact hac k (.step .refl hk) k' h1 (.step h2 hk)
      · intro c hc
        rcases List.mem_cons.1 hc with rfl | hc
        · exact ⟨k, hk, .refl⟩
        · obtain ⟨k', h1, h2⟩ := hch c hc
          exact ⟨k', h1, .step h2 hk⟩)
    rw [dumpNode, hnode]
    dsimp only
    rw [hl, Res.bind_ok, hcs]
    exact ⟨_, rfl⟩

/-- With a cycle below `id`, no bound suffices. -/
theorem dumpNode_diverges {f : Forest} (hf : Labelled f) {j : Nat} (hj : ∃ k, (j, k) ∈ f.children ∧ Below f k j) :
    ∀ {n : Nat} {parent : DotId} {id : Nat}, Below f id j → dumpNode f n parent id = .fuel := by
  intro n
  induction n with
  | zero => intro _ _ _; rfl
  | succ n ih =>
    intro parent id h
    obtain ⟨k, h1, h2⟩ : ∃ k, (id, k) ∈ f.children ∧ Below f k j := by
      rcases below_iff.1 h with rfl | h
      · exact hj
      · exact h
    obtain ⟨node, hnode⟩ := (hf.2 _ _ h1).1
    obtain ⟨l, hl⟩ := hf.1 id node hnode
    rw [dumpNode, hnode]
    dsimp only
    rw [hl, Res.bind_ok, concatRes_fuel (g := dumpNode f n (.num id)) (fun k hk => dumpNode_total hf (hf.2 _ _ (mem_childrenOf.1 hk)).2)
      ⟨k, mem_childrenOf.2 h1, ih h2⟩]
    rfl

end Zanzi
