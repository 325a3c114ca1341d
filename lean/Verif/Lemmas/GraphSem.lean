import Verif.Lemmas.Search
import Verif.Lemmas.StoreRun
import Verif.Props.Policy
import Verif.Spec.Graph

/-
Meaning of built goal trees.
-/

namespace Zanzi

open Spec

/-! ### Building goal trees, as a pure function -/

/-- Stored successors of a userset. -/
def succs (H : String → Nat) (s : Store) (pid : String) (x : USet) : List RelationNode :=
  (((s.edges pid).filter (fun p => decide (p.1.1 = H (x.object.resource ++ x.object.id ++ x.relation)))).map (·.2)).map (fun e => toPublicNode e.dest)

/-- Nodes of a rule. -/
def ruleNodes (H : String → Nat) (s : Store) (pid : String) (x : USet) : Rule → Res (List RelationNode)
  | .this => .ok (succs H s pid x)
  | .ttu tupleset computed => mapSliceErr (buildTtuNode computed) (succs H s pid ⟨x.object, tupleset⟩)
  | .cu target => .ok [.entitySet (some x.object) target]
  | .unset => .err .invalidVariant

/-- Tree of an expression. -/
def pBuild (H : String → Nat) (s : Store) (pid : String) (x : USet) : ExprTree → Res GoalTree
  | .nil => .panic
  | .unset => .err .invalidVariant
  | .rule rule => do
    let ns ← ruleNodes H s pid x rule
    return .or .unknown (ns.map (fun n => .leaf .unknown n (reasonBuilder rule)))
  | .op l operator r => do
    let left ← pBuild H s pid x l
    let right ← pBuild H s pid x r
    match operator with
    | .union => return .or .unknown [left, right]
    | .intersection => return .and .unknown [left, right]
    | .difference => return .diff .unknown left right
    | .unknown => .err .invalidVariant

theorem getSuccessors_yields (H : String → Nat) (s : Store) (pid : String) (x : USet) :
    (Repo.getSuccessors H pid (some x.object) x.relation).Yields s (.ok (succs H s pid x)) := rfl

theorem evaluateRule_yields (H : String → Nat) (s : Store) (pid : String) (x : USet) (r : Rule) :
    (evaluateRule H pid (some x.object) x.relation r).Yields s (ruleNodes H s pid x r) := by
  cases r with
  | unset => rfl
  | this => exact getSuccessors_yields H s pid x
  | cu t => rfl
  | ttu a b => exact (getSuccessors_yields H s pid ⟨x.object, a⟩).bind (fun _ => .lift _ _)

theorem buildGoalTree_yields (H : String → Nat) (s : Store) (pid : String) (x : USet) (t : ExprTree) :
    (buildGoalTree H pid (some x.object) x.relation t).Yields s (pBuild H s pid x t) := by
  induction t with
  | nil => rfl
  | unset => rfl
  | rule r =>
    unfold buildGoalTree pBuild
    exact (evaluateRule_yields H s pid x r).bind (fun _ => .pure _ _)
  | op l o r ihl ihr =>
    unfold buildGoalTree pBuild
    refine ihl.bind (fun a => ihr.bind (fun b => ?_))
    cases o
    · exact .pure _ _
    · exact .pure _ _
    · exact .pure _ _
    · exact .lift _ _

/-- The tree built for a userset node. -/
theorem bld_set (env : Env) (pol : Policy) (s : Store) (x : USet) :
    bld env pol s x.node = (match (newLut pol).getRelation x.object.resource x.relation with
      | none => .err .relationNotFound
      | some d => do
        let t ← getExpressionTree env.U d
        pBuild env.H s pol.id x t) := by
  unfold bld USet.node buildTree
  simp only [Res.deref_some, lift_ok_bind]
  cases (newLut pol).getRelation x.object.resource x.relation with
  | none => rfl
  | some d =>
    have : (Prog.lift (getExpressionTree env.U d) >>= fun tree => buildGoalTree env.H pol.id (some x.object) x.relation tree).Yields s
        (getExpressionTree env.U d >>= fun t => pBuild env.H s pol.id x t) :=
      (Prog.Yields.lift _ _).bind (fun t => buildGoalTree_yields env.H s pol.id x t)
    rw [Prog.Yields] at this
    exact congrArg Prod.fst this

theorem bld_ok {env : Env} {pol : Policy} (hu : NamesUnique pol) {s : Store} {x : USet} {t : GoalTree}
    (h : bld env pol s x.node = .ok t) : ∃ e, DefinedBy env.U pol x e ∧ pBuild env.H s pol.id x e = .ok t := by
  rw [bld_set] at h
  split at h
  · cases h
  · next d hd =>
    obtain ⟨e, h1, h2⟩ := Res.bind_eq_ok.1 h
    exact ⟨e, ⟨d, ((C11_lookup_exact pol hu _ _).1 d).1 hd, (getExpressionTree_ok_iff _ _ _).1 h1⟩, h2⟩

/-- A relation has one expression. -/
theorem DefinedBy.unique {U : Unicode} {p : Policy} (hu : NamesUnique p) {x : USet} {t t' : ExprTree} (h : DefinedBy U p x t)
    (h' : DefinedBy U p x t') : t = t' := by
  obtain ⟨d, h1, h2⟩ := h
  obtain ⟨d', h1', h2'⟩ := h'
  have e1 := ((C11_lookup_exact p hu _ _).1 d).2 h1
  have e2 := ((C11_lookup_exact p hu _ _).1 d').2 h1'
  rw [e1] at e2
  cases e2
  have e3 := (getExpressionTree_ok_iff U d t).2 h2
  have e4 := (getExpressionTree_ok_iff U d t').2 h2'
  rw [e3] at e4
  cases e4
  rfl

/-! ### Leaves -/

mutual
/-- Nodes a tree's search would visit directly. -/
def GoalTree.tops : GoalTree → List RelationNode
  | .or _ ps => topsList ps
  | .and _ ps => topsList ps
  | .diff _ l r => l.tops ++ r.tops
  | .leaf _ n _ => [n]
  | .path _ n _ _ => [n]
def topsList : List GoalTree → List RelationNode
  | [] => []
  | t :: ts => t.tops ++ topsList ts
end

theorem mem_topsList {ts : List GoalTree} {n : RelationNode} : n ∈ topsList ts ↔ ∃ t ∈ ts, n ∈ t.tops := by
  induction ts with
  | nil => simp [topsList]
  | cons t ts ih => simp [topsList, ih]

mutual
/-- Built trees: operands of AND and difference are operator nodes, and AND has at least two. -/
def GoalTree.Formed : GoalTree → Prop
  | .or _ ps => FormedList ps
  | .and _ ps => FormedList ps ∧ (∀ t ∈ ps, t.isOp = true) ∧ 2 ≤ ps.length
  | .diff _ l r => l.Formed ∧ r.Formed ∧ l.isOp = true ∧ r.isOp = true
  | .leaf _ _ _ => True
  | .path _ _ _ _ => True
def FormedList : List GoalTree → Prop
  | [] => True
  | t :: ts => t.Formed ∧ FormedList ts
/-- An operator node. -/
def GoalTree.isOp : GoalTree → Bool
  | .or _ _ => true
  | .and _ _ => true
  | .diff _ _ _ => true
  | _ => false
end

theorem formedList_iff {ts : List GoalTree} : FormedList ts ↔ ∀ t ∈ ts, t.Formed := by
  induction ts with
  | nil => simp [FormedList]
  | cons t ts ih => simp [FormedList, ih]

theorem pBuild_formed {H s pid x} : ∀ {e : ExprTree} {t : GoalTree}, pBuild H s pid x e = .ok t → t.Formed ∧ t.isOp = true := by
  intro e
  induction e with
  | nil => intro t h; cases h
  | unset => intro t h; cases h
  | rule r =>
    intro t h
    unfold pBuild at h
    obtain ⟨ns, _, h⟩ := Res.bind_eq_ok.1 h
    cases h
    refine ⟨formedList_iff.2 ?_, rfl⟩
    simp only [List.mem_map]
    rintro t ⟨n, _, rfl⟩
    exact trivial
  | op l o r ihl ihr =>
    intro t h
    unfold pBuild at h
    obtain ⟨a, ha, h⟩ := Res.bind_eq_ok.1 h
    obtain ⟨b, hb, h⟩ := Res.bind_eq_ok.1 h
    obtain ⟨fa, oa⟩ := ihl ha
    obtain ⟨fb, ob⟩ := ihr hb
    cases o
    · cases h
      exact ⟨⟨fa, fb, trivial⟩, rfl⟩
    · cases h
      exact ⟨⟨⟨fa, fb, trivial⟩, by simp [oa, ob], by simp⟩, rfl⟩
    · cases h
      exact ⟨⟨fa, fb, oa, ob⟩, rfl⟩
    · cases h

/-! ### Stored successors are the stored relationships -/

theorem subjectNode_fromInternal (d : INode) : subjectNode (subjectFromInternal d) = toPublicNode d := by
  unfold subjectFromInternal toPublicNode
  cases d.type <;> rfl

theorem mem_succs {env : Env} {s : Store} (hs : WF env s) {pid : String} {x : USet} (hk : KeyClear env.H (Present s pid) x)
    {n : RelationNode} : n ∈ succs env.H s pid x ↔ ∃ sub, Present s pid ⟨some x.object, x.relation, some sub⟩ ∧ n = subjectNode sub := by
  unfold succs
  simp only [List.mem_map, List.mem_filter, decide_eq_true_eq]
  constructor
  · rintro ⟨e, ⟨⟨k, e'⟩, ⟨hm, hkey⟩, rfl⟩, rfl⟩
    refine ⟨subjectFromInternal e'.dest, ?_, (subjectNode_fromInternal _).symm⟩
    have hp : Present s pid (fromInternal e') := List.mem_map.2 ⟨_, hm, rfl⟩
    rw [hs.edgeKey _ _ _ hm] at hkey
    obtain ⟨h1, h2⟩ := hk (fromInternal e') ⟨e'.source.resource, e'.source.id⟩ hp rfl hkey
    have : fromInternal e' = ⟨some x.object, x.relation, some (subjectFromInternal e'.dest)⟩ := by
      rw [← h1, ← h2]; rfl
    rw [← this]
    exact hp
  · rintro ⟨sub, hp, rfl⟩
    obtain ⟨⟨k, e⟩, hm, he⟩ := List.mem_map.1 hp
    unfold fromInternal at he
    simp only [Relationship.mk.injEq, Option.some.injEq] at he
    obtain ⟨h1, h2, h3⟩ := he
    refine ⟨e, ⟨(k, e), ⟨hm, ?_⟩, rfl⟩, ?_⟩
    · rw [hs.edgeKey _ _ _ hm, ← h1, ← h2]
      rfl
    · rw [← h3, subjectNode_fromInternal]

/-! ### Meaning -/

mutual
/-- Meaning of a goal tree when `N` are the nodes containing the user. -/
def GoalTree.Sem (N : RelationNode → Prop) : GoalTree → Prop
  | .or _ ps => SemAny N ps
  | .and _ ps => SemAll N ps
  | .diff _ l r => l.Sem N ∧ ¬ r.Sem N
  | .leaf _ n _ => N n
  | .path _ n _ _ => N n
def SemAny (N : RelationNode → Prop) : List GoalTree → Prop
  | [] => False
  | t :: ts => t.Sem N ∨ SemAny N ts
def SemAll (N : RelationNode → Prop) : List GoalTree → Prop
  | [] => True
  | t :: ts => t.Sem N ∧ SemAll N ts
end

mutual
/-- The same without exclusions. -/
def GoalTree.SemUp (N : RelationNode → Prop) : GoalTree → Prop
  | .or _ ps => SemUpAny N ps
  | .and _ ps => SemUpAll N ps
  | .diff _ l _ => l.SemUp N
  | .leaf _ n _ => N n
  | .path _ n _ _ => N n
def SemUpAny (N : RelationNode → Prop) : List GoalTree → Prop
  | [] => False
  | t :: ts => t.SemUp N ∨ SemUpAny N ts
def SemUpAll (N : RelationNode → Prop) : List GoalTree → Prop
  | [] => True
  | t :: ts => t.SemUp N ∧ SemUpAll N ts
end

/-- Nodes containing user `u`. -/
def NodeIn (V : USet → Prop) (u : Entity) : RelationNode → Prop
  | .entity (some e) => e = u
  | .wildcard r => u.resource = r
  | .entitySet (some e) rel => V ⟨e, rel⟩
  | _ => False

theorem nodeIn_subject (V : USet → Prop) (u : Entity) (sub : Subject) : NodeIn V u (subjectNode sub) ↔ SubjectIn V u sub := by
  cases sub with
  | unset => exact Iff.rfl
  | entity e => exact Iff.rfl
  | resourceSet n => exact Iff.rfl
  | entitySet e rel => cases e <;> exact Iff.rfl

theorem mapSliceErr_mem {α β : Type} {f : α → Res β} : ∀ {l : List α} {l' : List β}, mapSliceErr f l = .ok l' →
    (∀ b ∈ l', ∃ a ∈ l, f a = .ok b) ∧ (∀ a ∈ l, ∃ b ∈ l', f a = .ok b) := by
  intro l
  induction l with
  | nil => intro l' h; cases h; simp
  | cons a l ih =>
    intro l' h
    unfold mapSliceErr at h
    cases ha : f a with
    | ok b =>
      rw [ha] at h
      cases hl : mapSliceErr f l with
      | ok bs =>
        rw [hl] at h
        cases h
        obtain ⟨h1, h2⟩ := ih hl
        refine ⟨fun c hc => ?_, fun c hc => ?_⟩
        · rcases List.mem_cons.1 hc with rfl | hc
          · exact ⟨a, List.mem_cons_self, ha⟩
          · obtain ⟨x, hx, e⟩ := h1 c hc
            exact ⟨x, List.mem_cons_of_mem _ hx, e⟩
        · rcases List.mem_cons.1 hc with rfl | hc
          · exact ⟨b, List.mem_cons_self, ha⟩
          · obtain ⟨x, hx, e⟩ := h2 c hc
            exact ⟨x, List.mem_cons_of_mem _ hx, e⟩
      | err e => rw [hl] at h; cases h
      | panic => rw [hl] at h; cases h
      | fuel => rw [hl] at h; cases h
    | err e => rw [ha] at h; cases h
    | panic => rw [ha] at h; cases h
    | fuel => rw [ha] at h; cases h

/-- Nodes of an arrow, from the stored relationships of the tupleset. -/
theorem ttuNode_spec {c : String} {sub : Subject} {n : RelationNode} (h : buildTtuNode c (subjectNode sub) = .ok n) :
    n = .entitySet (pointsTo sub) c := by
  cases sub with
  | unset => cases h
  | entity e => cases h; rfl
  | resourceSet m => cases h; rfl
  | entitySet e rel => cases h; rfl

section
variable {env : Env} {s : Store} {pid : String} {x : USet}

/-- Nodes of a rule are those the policy gives. -/
theorem mem_ruleNodes (hs : WF env s) {rule : Rule} {ns : List RelationNode}
    (hx : KeyClear env.H (Present s pid) x) (hk : ∀ a b, rule = .ttu a b → KeyClear env.H (Present s pid) ⟨x.object, a⟩)
    (h : ruleNodes env.H s pid x rule = .ok ns) (n : RelationNode) : n ∈ ns ↔
      (rule = .this ∧ ∃ sub, Present s pid ⟨some x.object, x.relation, some sub⟩ ∧ n = subjectNode sub) ∨
      (∃ t, rule = .cu t ∧ n = .entitySet (some x.object) t) ∨
      (∃ a b sub, rule = .ttu a b ∧ Present s pid ⟨some x.object, a, some sub⟩ ∧ n = .entitySet (pointsTo sub) b) := by
  cases rule with
  | unset => cases h
  | this =>
    cases h
    rw [mem_succs hs hx]
    simp
  | cu t => cases h; simp
  | ttu a b =>
    obtain ⟨h1, h2⟩ := mapSliceErr_mem (f := buildTtuNode b) h
    have hk' := hk a b rfl
    simp only [reduceCtorEq, false_and, Rule.ttu.injEq, exists_const, false_or]
    constructor
    · intro hn
      obtain ⟨m, hm, e⟩ := h1 n hn
      obtain ⟨sub, hp, rfl⟩ := (mem_succs hs hk').1 hm
      exact ⟨a, b, sub, ⟨rfl, rfl⟩, hp, ttuNode_spec e⟩
    · rintro ⟨a', b', sub, ⟨rfl, rfl⟩, hp, rfl⟩
      obtain ⟨n', hn', e⟩ := h2 _ ((mem_succs hs hk').2 ⟨sub, hp, rfl⟩)
      rw [← ttuNode_spec e]
      exact hn'

theorem semAny_iff {N : RelationNode → Prop} {ts : List GoalTree} : SemAny N ts ↔ ∃ t ∈ ts, t.Sem N := by
  induction ts with
  | nil => simp [SemAny]
  | cons t ts ih => simp [SemAny, ih]

theorem semUpAny_iff {N : RelationNode → Prop} {ts : List GoalTree} : SemUpAny N ts ↔ ∃ t ∈ ts, t.SemUp N := by
  induction ts with
  | nil => simp [SemUpAny]
  | cons t ts ih => simp [SemUpAny, ih]

theorem ruleNodes_in (hs : WF env s) {rule : Rule} {ns : List RelationNode} (V : USet → Prop) (u : Entity)
    (hx : KeyClear env.H (Present s pid) x) (hk : ∀ a b, rule = .ttu a b → KeyClear env.H (Present s pid) ⟨x.object, a⟩)
    (h : ruleNodes env.H s pid x rule = .ok ns) : (∃ n ∈ ns, NodeIn V u n) ↔ RuleIn (Present s pid) u V x rule := by
  simp only [mem_ruleNodes hs hx hk h]
  cases rule with
  | unset => cases h
  | this =>
    simp only [RuleIn]
    constructor
    · rintro ⟨n, (⟨_, sub, hp, rfl⟩ | ⟨t, h, _⟩ | ⟨a, b, sub, h, _⟩), hn⟩
      · exact ⟨sub, hp, (nodeIn_subject V u sub).1 hn⟩
      · cases h
      · cases h
    · rintro ⟨sub, hp, hn⟩
      exact ⟨_, .inl ⟨trivial, sub, hp, rfl⟩, (nodeIn_subject V u sub).2 hn⟩
  | cu t =>
    simp only [RuleIn]
    constructor
    · rintro ⟨n, (⟨h, _⟩ | ⟨t', h, rfl⟩ | ⟨a, b, sub, h, _⟩), hn⟩
      · cases h
      · cases h; exact hn
      · cases h
    · intro hv
      exact ⟨_, .inr (.inl ⟨t, rfl, rfl⟩), hv⟩
  | ttu a b =>
    simp only [RuleIn]
    constructor
    · rintro ⟨n, (⟨h, _⟩ | ⟨t', h, rfl⟩ | ⟨a, b, sub, h, hp, rfl⟩), hn⟩
      · cases h
      · cases h
      · cases h
        cases he : pointsTo sub with
        | none => rw [he] at hn; exact hn.elim
        | some e => rw [he] at hn; exact ⟨sub, e, hp, he, hn⟩
    · rintro ⟨sub, e, hp, he, hv⟩
      exact ⟨_, .inr (.inr ⟨a, b, sub, rfl, hp, rfl⟩), by rw [he]; exact hv⟩

theorem pBuild_sem (hs : WF env s) (V : USet → Prop) (u : Entity) (hx : KeyClear env.H (Present s pid) x) : ∀ {e : ExprTree} {t : GoalTree},
    (∀ a b, .ttu a b ∈ leaves e → KeyClear env.H (Present s pid) ⟨x.object, a⟩) →
    pBuild env.H s pid x e = .ok t →
    (t.Sem (NodeIn V u) ↔ ExprIn (Present s pid) u V x e) ∧ (t.SemUp (NodeIn V u) ↔ ExprIn (Present s pid) u V x (positive e)) := by
  intro e
  induction e with
  | nil => intro t _ h; cases h
  | unset => intro t _ h; cases h
  | rule r =>
    intro t hk h
    unfold pBuild at h
    obtain ⟨ns, hns, h⟩ := Res.bind_eq_ok.1 h
    cases h
    have key := ruleNodes_in hs V u hx (fun a b h => hk a b (by simp [leaves, h])) hns
    constructor
    · simp only [GoalTree.Sem, semAny_iff, List.mem_map, ExprIn, ← key]
      constructor
      · rintro ⟨t, ⟨n, hn, rfl⟩, hs⟩; exact ⟨n, hn, hs⟩
      · rintro ⟨n, hn, hs⟩; exact ⟨_, ⟨n, hn, rfl⟩, hs⟩
    · simp only [GoalTree.SemUp, semUpAny_iff, List.mem_map, positive, ExprIn, ← key]
      constructor
      · rintro ⟨t, ⟨n, hn, rfl⟩, hs⟩; exact ⟨n, hn, hs⟩
      · rintro ⟨n, hn, hs⟩; exact ⟨_, ⟨n, hn, rfl⟩, hs⟩
  | op l o r ihl ihr =>
    intro t hk h
    unfold pBuild at h
    obtain ⟨a, ha, h⟩ := Res.bind_eq_ok.1 h
    obtain ⟨b, hb, h⟩ := Res.bind_eq_ok.1 h
    obtain ⟨l1, l2⟩ := ihl (fun a b h => hk a b (by simp [leaves, h])) ha
    obtain ⟨r1, r2⟩ := ihr (fun a b h => hk a b (by simp [leaves, h])) hb
    cases o
    · cases h
      simp only [GoalTree.Sem, SemAny, or_false, GoalTree.SemUp, SemUpAny, ExprIn, positive, l1, l2, r1, r2, and_self]
    · cases h
      simp only [GoalTree.Sem, SemAll, and_true, GoalTree.SemUp, SemUpAll, ExprIn, positive, l1, l2, r1, r2, and_self]
    · cases h
      simp only [GoalTree.Sem, GoalTree.SemUp, ExprIn, positive, l1, l2, r1, and_self]
    · cases h

/-- Direct nodes of a built tree: those the policy reaches in one step, or a node without object. -/
theorem pBuild_tops (hs : WF env s) {p : Policy} {e0 : ExprTree} (hd : DefinedBy env.U p x e0) (hx : KeyClear env.H (Present s pid) x) : ∀ {e : ExprTree} {t : GoalTree},
    (∀ r ∈ leaves e, r ∈ leaves e0) →
    (∀ a b, .ttu a b ∈ leaves e → KeyClear env.H (Present s pid) ⟨x.object, a⟩) →
    pBuild env.H s pid x e = .ok t →
    ∀ n ∈ t.tops, Rewrites env.U p (Present s pid) x n ∨ ∃ c, n = .entitySet none c := by
  intro e
  induction e with
  | nil => intro t _ _ h; cases h
  | unset => intro t _ _ h; cases h
  | rule r =>
    intro t hl hk h n hn
    unfold pBuild at h
    obtain ⟨ns, hns, h⟩ := Res.bind_eq_ok.1 h
    cases h
    rw [GoalTree.tops, mem_topsList] at hn
    obtain ⟨t, ht, hn⟩ := hn
    obtain ⟨m, hm, rfl⟩ := List.mem_map.1 ht
    rw [GoalTree.tops, List.mem_singleton] at hn
    subst hn
    have hr : r ∈ leaves e0 := hl r (by simp [leaves])
    rcases (mem_ruleNodes hs hx (fun a b h => hk a b (by simp [leaves, h])) hns n).1 hm with
      ⟨rfl, sub, hp, rfl⟩ | ⟨c, rfl, rfl⟩ | ⟨a, b, sub, rfl, hp, rfl⟩
    · exact .inl (.this hd hr hp)
    · exact .inl (.cu hd hr)
    · cases he : pointsTo sub with
      | none => exact .inr ⟨b, rfl⟩
      | some e => exact .inl (.arrow hd hr hp he)
  | op l o r ihl ihr =>
    intro t hl hk h n hn
    unfold pBuild at h
    obtain ⟨a, ha, h⟩ := Res.bind_eq_ok.1 h
    obtain ⟨b, hb, h⟩ := Res.bind_eq_ok.1 h
    have key : n ∈ a.tops ∨ n ∈ b.tops := by
      cases o <;> cases h <;> simpa [GoalTree.tops, topsList] using hn
    rcases key with hn | hn
    · exact ihl (fun r h => hl r (by simp [leaves, h])) (fun a b h => hk a b (by simp [leaves, h])) ha n hn
    · exact ihr (fun r h => hl r (by simp [leaves, h])) (fun a b h => hk a b (by simp [leaves, h])) hb n hn

end

end Zanzi
