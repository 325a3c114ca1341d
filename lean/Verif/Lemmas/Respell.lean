import Verif.Spec.Respell
import Verif.Spec.Involved
import Verif.Lemmas.RenameSearch

/-
The rules do not look at names of resources and relations either.
-/

namespace Zanzi

open Spec

variable {ν : Vocab} {R R' : Relationship → Prop} {U : Unicode} {p p' : Policy} {u : Entity} {x : USet}

theorem respellUSet_inj (hν : Respelling ν) {x y : USet} (h : respellUSet ν x = respellUSet ν y) : x = y := by
  obtain ⟨o, r⟩ := x
  obtain ⟨o', r'⟩ := y
  simp only [respellUSet, USet.mk.injEq] at h
  rw [hν.object_inj _ _ h.1, hν.relation_inj _ _ h.2]

theorem respellRule_inj (hν : Respelling ν) {a b : Rule} (h : respellRule ν a = respellRule ν b) : a = b := by
  cases a <;> cases b <;> simp only [respellRule, Rule.cu.injEq, Rule.ttu.injEq, reduceCtorEq] at h ⊢
  · exact hν.relation_inj _ _ h
  · exact ⟨hν.relation_inj _ _ h.1, hν.relation_inj _ _ h.2⟩

theorem respellExpr_inj (hν : Respelling ν) {a b : ExprTree} (h : respellExpr ν a = respellExpr ν b) : a = b := by
  induction a generalizing b with
  | rule r =>
    cases b <;> simp only [respellExpr, ExprTree.rule.injEq, reduceCtorEq] at h ⊢
    exact respellRule_inj hν h
  | op l o r ihl ihr =>
    cases b <;> simp only [respellExpr, ExprTree.op.injEq, reduceCtorEq] at h ⊢
    exact ⟨ihl h.1, h.2.1, ihr h.2.2⟩
  | nil => cases b <;> simp only [respellExpr, reduceCtorEq] at h ⊢
  | unset => cases b <;> simp only [respellExpr, reduceCtorEq] at h ⊢

theorem leaves_respell (t : ExprTree) : leaves (respellExpr ν t) = (leaves t).map (respellRule ν) := by
  induction t with
  | rule r => rfl
  | op l o r ihl ihr => simp [respellExpr, leaves, ihl, ihr]
  | nil => rfl
  | unset => rfl

theorem respelled_at (hν : Respelling ν) (hR : Respelled ν R R') (o : Entity) (rel : String) (sub' : Subject) :
    R' ⟨some (ν.object o), ν.relation rel, some sub'⟩ ↔ ∃ sub, R ⟨some o, rel, some sub⟩ ∧ respellSubject ν sub = sub' := by
  rw [hR]
  constructor
  · rintro ⟨⟨ro, rr, rs⟩, h1, h2⟩
    simp only [respellRelationship, Relationship.mk.injEq] at h2
    obtain ⟨h2, h4, h3⟩ := h2
    obtain rfl := hν.relation_inj _ _ h4
    cases ro with
    | none => cases h2
    | some ro =>
      cases rs with
      | none => cases h3
      | some rs =>
        obtain rfl := hν.object_inj _ _ (Option.some.inj h2)
        exact ⟨rs, h1, Option.some.inj h3⟩
  · rintro ⟨sub, h1, rfl⟩
    exact ⟨_, h1, rfl⟩

theorem subjectIn_respell (hν : Respelling ν) {V V' : USet → Prop} (hV : ∀ y, V y ↔ V' (respellUSet ν y)) (sub : Subject) :
    SubjectIn V u sub ↔ SubjectIn V' (ν.object u) (respellSubject ν sub) := by
  cases sub with
  | entity e => exact ⟨fun h => congrArg ν.object h, fun h => hν.object_inj _ _ h⟩
  | resourceSet n =>
    show u.resource = n ↔ (ν.object u).resource = ν.resource n
    rw [hν.resource]
    exact ⟨fun h => congrArg _ h, fun h => hν.resource_inj _ _ h⟩
  | entitySet e rel =>
    cases e with
    | none => exact Iff.rfl
    | some e => exact hV ⟨e, rel⟩
  | unset => exact Iff.rfl

theorem pointsTo_respell (sub : Subject) : pointsTo (respellSubject ν sub) = (pointsTo sub).map ν.object := by
  cases sub <;> rfl

theorem ruleIn_respell (hν : Respelling ν) (hR : Respelled ν R R') {V V' : USet → Prop} (hV : ∀ y, V y ↔ V' (respellUSet ν y)) (y : USet) (r : Rule) :
    RuleIn R u V y r ↔ RuleIn R' (ν.object u) V' (respellUSet ν y) (respellRule ν r) := by
  cases r with
  | this =>
    constructor
    · rintro ⟨sub, h1, h2⟩
      exact ⟨respellSubject ν sub, (respelled_at hν hR _ _ _).2 ⟨sub, h1, rfl⟩, (subjectIn_respell hν hV sub).1 h2⟩
    · rintro ⟨sub', h1, h2⟩
      obtain ⟨sub, h3, rfl⟩ := (respelled_at hν hR _ _ _).1 h1
      exact ⟨sub, h3, (subjectIn_respell hν hV sub).2 h2⟩
  | cu target => exact hV ⟨y.object, target⟩
  | ttu a b =>
    constructor
    · rintro ⟨sub, e, h1, h2, h3⟩
      refine ⟨respellSubject ν sub, ν.object e, (respelled_at hν hR _ _ _).2 ⟨sub, h1, rfl⟩, ?_, (hV ⟨e, b⟩).1 h3⟩
      rw [pointsTo_respell, h2]
      rfl
    · rintro ⟨sub', e', h1, h2, h3⟩
      obtain ⟨sub, h4, rfl⟩ := (respelled_at hν hR _ _ _).1 h1
      rw [pointsTo_respell] at h2
      cases he : pointsTo sub with
      | none => rw [he] at h2; cases h2
      | some e =>
        rw [he] at h2
        cases h2
        exact ⟨sub, e, h4, he, (hV ⟨e, b⟩).2 h3⟩
  | unset => exact Iff.rfl

theorem exprIn_respell (hν : Respelling ν) (hR : Respelled ν R R') {V V' : USet → Prop} (hV : ∀ y, V y ↔ V' (respellUSet ν y)) (y : USet) (t : ExprTree) :
    ExprIn R u V y t ↔ ExprIn R' (ν.object u) V' (respellUSet ν y) (respellExpr ν t) := by
  induction t with
  | rule r => exact ruleIn_respell hν hR hV y r
  | op l o r ihl ihr =>
    cases o
    · exact or_congr ihl ihr
    · exact and_congr ihl ihr
    · exact and_congr ihl (not_congr ihr)
    · exact Iff.rfl
  | nil => exact Iff.rfl
  | unset => exact Iff.rfl

/-- What defines a userset under the other names is what defines it under the first names. -/
theorem definedBy_respelled (hν : Respelling ν) (hP : RespelledPolicy U ν p p') {y : USet} {t' : ExprTree} :
    DefinedBy U p' (respellUSet ν y) t' ↔ ∃ t, DefinedBy U p y t ∧ respellExpr ν t = t' := by
  constructor
  · rintro ⟨d', h1, h2⟩
    obtain ⟨a, b, d, ha, hb, hd, h3⟩ := hP.nothingNew _ _ _ h1
    obtain ⟨t, h4, h5⟩ := h3 _ h2
    have ha' : ν.resource a = (ν.object y.object).resource := ha
    rw [hν.resource] at ha'
    obtain rfl := hν.resource_inj _ _ ha'
    obtain rfl := hν.relation_inj _ _ hb
    exact ⟨t, ⟨d, hd, h4⟩, h5⟩
  · rintro ⟨t, ⟨d, h1, h2⟩, rfl⟩
    obtain ⟨d', h3, h4⟩ := hP.kept _ _ _ h1
    refine ⟨d', ?_, h4 _ h2⟩
    show Declares p' (ν.object y.object).resource (ν.relation y.relation) d'
    rw [hν.resource]
    exact h3

theorem definedBy_respell (hν : Respelling ν) (hP : RespelledPolicy U ν p p') {y : USet} {t : ExprTree} (h : DefinedBy U p y t) :
    DefinedBy U p' (respellUSet ν y) (respellExpr ν t) := (definedBy_respelled hν hP).2 ⟨t, h, rfl⟩

theorem derived_respell (hν : Respelling ν) (hP : RespelledPolicy U ν p p') (hR : Respelled ν R R') {V V' : USet → Prop} (hV : ∀ y, V y ↔ V' (respellUSet ν y))
    (y : USet) : Derived U p R u V y ↔ Derived U p' R' (ν.object u) V' (respellUSet ν y) := by
  constructor
  · rintro ⟨t, h1, h2⟩
    exact ⟨_, definedBy_respell hν hP h1, (exprIn_respell hν hR hV y t).1 h2⟩
  · rintro ⟨t', h1, h2⟩
    obtain ⟨t, h3, rfl⟩ := (definedBy_respelled hν hP).1 h1
    exact ⟨t, h3, (exprIn_respell hν hR hV y t).2 h2⟩

/-- Nothing holds of objects no name stands for. -/
theorem exprIn_foreign (hR : Respelled ν R R') {V' : USet → Prop} (hV : ∀ y', V' y' → ∃ y, respellUSet ν y = y') {y' : USet} (hy : ∀ o, ν.object o ≠ y'.object)
    (u' : Entity) (t : ExprTree) : ¬ ExprIn R' u' V' y' t := by
  have hrel : ∀ rel sub, ¬ R' ⟨some y'.object, rel, some sub⟩ := by
    intro rel sub h
    obtain ⟨⟨ro, rr, rs⟩, _, h2⟩ := (hR _).1 h
    simp only [respellRelationship, Relationship.mk.injEq] at h2
    cases ro with
    | none => cases h2.1
    | some ro => exact hy ro (Option.some.inj h2.1)
  induction t with
  | rule r =>
    cases r with
    | this => rintro ⟨sub, h, _⟩; exact hrel _ _ h
    | cu target =>
      intro h
      obtain ⟨y, h2⟩ := hV _ h
      exact hy y.object (congrArg USet.object h2)
    | ttu a b => rintro ⟨sub, e, h, _⟩; exact hrel _ _ h
    | unset => exact id
  | op l o r ihl ihr =>
    cases o
    · exact fun h => h.elim ihl ihr
    · exact fun h => ihl h.1
    · exact fun h => ihl h.1
    · exact id
  | nil => exact id
  | unset => exact id

/-- The usersets of `V` under their other names. -/
def respellV (ν : Vocab) (V : USet → Prop) (y' : USet) : Prop := ∃ y, V y ∧ respellUSet ν y = y'

theorem respellV_iff (hν : Respelling ν) (V : USet → Prop) (y : USet) : V y ↔ respellV ν V (respellUSet ν y) := by
  constructor
  · exact fun h => ⟨y, h, rfl⟩
  · rintro ⟨z, h1, h2⟩
    obtain rfl := respellUSet_inj hν h2
    exact h1

theorem derived_respellV (hν : Respelling ν) (hP : RespelledPolicy U ν p p') (hR : Respelled ν R R') {V : USet → Prop} {y' : USet}
    (h : Derived U p' R' (ν.object u) (respellV ν V) y') : ∃ y, respellUSet ν y = y' ∧ Derived U p R u V y := by
  by_cases hy : ∃ o, ν.object o = y'.object
  · obtain ⟨o, ho⟩ := hy
    obtain ⟨t', ⟨d', h1, h2⟩, _⟩ := id h
    obtain ⟨a, b, d, _, hb, _, _⟩ := hP.nothingNew _ _ _ h1
    have he : respellUSet ν ⟨o, b⟩ = y' := by
      obtain ⟨o', r'⟩ := y'
      dsimp only at ho hb
      subst ho hb
      rfl
    exact ⟨_, he, (derived_respell hν hP hR (respellV_iff hν V) _).2 (he ▸ h)⟩
  · obtain ⟨t, _, h2⟩ := h
    exact absurd h2 (exprIn_foreign hR (fun y' ⟨y, _, e⟩ => ⟨y, e⟩) (fun o ho => hy ⟨o, ho⟩) _ t)

theorem granted_respell (hν : Respelling ν) (hP : RespelledPolicy U ν p p') (hR : Respelled ν R R') (x : USet) :
    Granted U p' R' (ν.object u) (respellUSet ν x) ↔ Granted U p R u x := by
  constructor
  · intro h V hV
    rw [respellV_iff hν V]
    refine h (respellV ν V) (fun y' hd => ?_)
    obtain ⟨y, rfl, h2⟩ := derived_respellV hν hP hR hd
    exact ⟨y, hV y h2, rfl⟩
  · intro h V' hV'
    exact h (fun y => V' (respellUSet ν y)) (fun y hd => hV' _ ((derived_respell hν hP hR (fun _ => Iff.rfl) y).1 hd))

theorem solution_respell (hν : Respelling ν) (hP : RespelledPolicy U ν p p') (hR : Respelled ν R R') {V : USet → Prop} (h : Solution U p R u V) :
    Solution U p' R' (ν.object u) (respellV ν V) := by
  intro y'
  constructor
  · rintro ⟨y, h1, rfl⟩
    exact (derived_respell hν hP hR (respellV_iff hν V) y).1 ((h y).1 h1)
  · intro hd
    obtain ⟨y, rfl, h2⟩ := derived_respellV hν hP hR hd
    exact ⟨y, (h y).2 h2, rfl⟩

/-! ### What is reached -/

theorem subjectNode_respell (sub : Subject) : subjectNode (respellSubject ν sub) = respellNode ν (subjectNode sub) := by
  cases sub <;> rfl

theorem respellNode_uset {n : RelationNode} {z' : USet} (h : respellNode ν n = z'.node) : ∃ z : USet, n = z.node ∧ z' = respellUSet ν z := by
  obtain ⟨o', r'⟩ := z'
  cases n with
  | entitySet o r =>
    cases o with
    | none => cases h
    | some o => exact ⟨⟨o, r⟩, rfl, by cases h; rfl⟩
  | entity => cases h
  | wildcard => cases h
  | unset => cases h

theorem leaf_respell {t : ExprTree} {r : Rule} (h : r ∈ leaves t) : respellRule ν r ∈ leaves (respellExpr ν t) := by
  rw [leaves_respell]
  exact List.mem_map_of_mem h

/-- Whatever is reached under the other names is reached under the first names. -/
theorem respelled_reaches (hν : Respelling ν) (hP : RespelledPolicy U ν p p') (hR : Respelled ν R R') {n' : RelationNode}
    (h : Reaches U p' R' (respellUSet ν x) n') : ∃ n, respellNode ν n = n' ∧ Reaches U p R x n := by
  induction h with
  | start => exact ⟨x.node, rfl, .start⟩
  | @step y' n' _ h2 ih =>
    obtain ⟨n, h3, h4⟩ := ih
    obtain ⟨y, rfl, rfl⟩ := respellNode_uset h3
    cases h2 with
    | @this t' sub' a b c =>
      obtain ⟨t, ht, rfl⟩ := (definedBy_respelled hν hP).1 a
      rw [leaves_respell, List.mem_map] at b
      obtain ⟨r, hr, hrr⟩ := b
      obtain rfl := respellRule_inj (b := .this) hν hrr
      obtain ⟨sub, h5, rfl⟩ := (respelled_at hν hR _ _ _).1 c
      exact ⟨subjectNode sub, (subjectNode_respell sub).symm, .step h4 (.this ht hr h5)⟩
    | @cu t' target' a b =>
      obtain ⟨t, ht, rfl⟩ := (definedBy_respelled hν hP).1 a
      rw [leaves_respell, List.mem_map] at b
      obtain ⟨r, hr, hrr⟩ := b
      cases r <;> simp only [respellRule, Rule.cu.injEq, reduceCtorEq] at hrr
      subst hrr
      exact ⟨.entitySet (some y.object) _, rfl, .step h4 (.cu ht hr)⟩
    | @arrow t' tupleset' computed' sub' e' a b c d =>
      obtain ⟨t, ht, rfl⟩ := (definedBy_respelled hν hP).1 a
      rw [leaves_respell, List.mem_map] at b
      obtain ⟨r, hr, hrr⟩ := b
      cases r <;> simp only [respellRule, Rule.ttu.injEq, reduceCtorEq] at hrr
      obtain ⟨rfl, rfl⟩ := hrr
      obtain ⟨sub, h5, rfl⟩ := (respelled_at hν hR _ _ _).1 c
      rw [pointsTo_respell, Option.map_eq_some_iff] at d
      obtain ⟨e, he, rfl⟩ := d
      exact ⟨.entitySet (some e) _, rfl, .step h4 (.arrow ht hr h5 he)⟩

theorem respelled_rewrites (hν : Respelling ν) (hP : RespelledPolicy U ν p p') {y : USet} {n : RelationNode}
    (hR : ∀ rel sub, R ⟨some y.object, rel, some sub⟩ → Consulted U p y ⟨y.object, rel⟩ →
      R' ⟨some (ν.object y.object), ν.relation rel, some (respellSubject ν sub)⟩) (hn : Rewrites U p R y n) :
    Rewrites U p' R' (respellUSet ν y) (respellNode ν n) := by
  cases hn with
  | @this t sub a b c =>
    rw [← subjectNode_respell]
    exact .this (definedBy_respell hν hP a) (leaf_respell b) (hR _ _ c (.inl rfl))
  | @cu t target a b => exact .cu (definedBy_respell hν hP a) (leaf_respell (r := .cu target) b)
  | @arrow t tupleset computed sub e a b c d =>
    refine .arrow (e := ν.object e) (definedBy_respell hν hP a) (leaf_respell (r := .ttu tupleset computed) b)
      (hR _ _ c (.inr ⟨t, tupleset, computed, a, b, rfl⟩)) ?_
    rw [pointsTo_respell, d]
    rfl

theorem reaches_respelled (hν : Respelling ν) (hP : RespelledPolicy U ν p p') (hR : Respelled ν R R') {n : RelationNode} (hn : Reaches U p R x n) :
    Reaches U p' R' (respellUSet ν x) (respellNode ν n) := by
  induction hn with
  | start => exact .start
  | @step y n _ h2 ih =>
    exact .step (y := respellUSet ν y) ih (respelled_rewrites hν hP (fun rel sub h _ => (respelled_at hν hR _ _ _).2 ⟨sub, h, rfl⟩) h2)

theorem exprsFrom_respell (hν : Respelling ν) (hP : RespelledPolicy U ν p p') (hR : Respelled ν R R') {P P' : ExprTree → Prop} (hPP : ∀ t, P t → P' (respellExpr ν t))
    (h : ExprsFrom U p R x P) : ExprsFrom U p' R' (respellUSet ν x) P' := by
  intro y' t' hy hd
  obtain ⟨n, h1, h2⟩ := respelled_reaches hν hP hR hy
  obtain ⟨y, rfl, rfl⟩ := respellNode_uset h1
  obtain ⟨t, ht, rfl⟩ := (definedBy_respelled hν hP).1 hd
  exact hPP t (h y t h2 ht)

theorem unionOnly_respell (t : ExprTree) (h : UnionOnly t) : UnionOnly (respellExpr ν t) := by
  induction t with
  | op l o r ihl ihr =>
    cases o <;> simp only [UnionOnly] at h
    exact ⟨ihl h.1, ihr h.2⟩
  | _ => exact trivial

/-! ### Who is concerned -/

theorem names_respell (hν : Respelling ν) (n : RelationNode) : Names (ν.object u) (respellNode ν n) ↔ Names u n := by
  cases n with
  | entity o =>
    cases o with
    | none => simp [Names, respellNode]
    | some o =>
      simp only [Names, respellNode, Option.map_some, RelationNode.entity.injEq, Option.some.injEq, reduceCtorEq, or_false]
      exact ⟨fun h => hν.object_inj _ _ h, fun h => by rw [h]⟩
  | wildcard n =>
    simp only [Names, respellNode, RelationNode.wildcard.injEq, reduceCtorEq, false_or, hν.resource]
    exact ⟨fun h => hν.resource_inj _ _ h, fun h => by rw [h]⟩
  | entitySet o rel => simp [Names, respellNode]
  | unset => simp [Names, respellNode]

theorem involves_respelled (hν : Respelling ν) (hP : RespelledPolicy U ν p p') (hR : Respelled ν R R') {n : RelationNode} :
    Involves U p' R' (ν.object u) (respellNode ν n) ↔ Involves U p R u n := by
  constructor
  · rintro (h | ⟨z', m', hz, hr, hm⟩)
    · exact .inl ((names_respell hν n).1 h)
    · obtain ⟨z, rfl, rfl⟩ := respellNode_uset hz
      obtain ⟨m, rfl, hr'⟩ := respelled_reaches hν hP hR hr
      exact .inr ⟨z, m, rfl, hr', (names_respell hν m).1 hm⟩
  · rintro (h | ⟨z, m, rfl, hr, hm⟩)
    · exact .inl ((names_respell hν n).2 h)
    · exact .inr ⟨respellUSet ν z, _, rfl, reaches_respelled hν hP hR hr, (names_respell hν m).2 hm⟩

theorem ruleLeads_respelled (hν : Respelling ν) (hR : Respelled ν R R') {y : USet} {r : Rule} {n' : RelationNode}
    (h : RuleLeads R' (respellUSet ν y) (respellRule ν r) n') : ∃ n, respellNode ν n = n' ∧ RuleLeads R y r n := by
  cases r with
  | this =>
    cases h with
    | this h =>
      obtain ⟨sub, h1, rfl⟩ := (respelled_at hν hR _ _ _).1 h
      exact ⟨_, (subjectNode_respell sub).symm, .this h1⟩
  | cu t => cases h; exact ⟨_, rfl, .cu⟩
  | ttu a b =>
    cases h with
    | arrow h h2 =>
      obtain ⟨sub, h1, rfl⟩ := (respelled_at hν hR _ _ _).1 h
      rw [pointsTo_respell, Option.map_eq_some_iff] at h2
      obtain ⟨e, h3, rfl⟩ := h2
      exact ⟨_, rfl, .arrow h1 h3⟩
  | unset => cases h

theorem guarded_respell (t : ExprTree) : guarded (respellExpr ν t) = (guarded t).map (respellRule ν) := by
  induction t with
  | rule r => rfl
  | op l o r ihl ihr => cases o <;> simp [respellExpr, guarded, ihl, ihr, leaves_respell]
  | nil => rfl
  | unset => rfl

theorem unconcerned_respelled (hν : Respelling ν) (hP : RespelledPolicy U ν p p') (hR : Respelled ν R R') (h : Unconcerned U p R x u) :
    Unconcerned U p' R' (respellUSet ν x) (ν.object u) := by
  intro y' t' r' n' hy hd hr hl hin
  obtain ⟨n, hn, hy'⟩ := respelled_reaches hν hP hR hy
  obtain ⟨y, rfl, rfl⟩ := respellNode_uset hn
  obtain ⟨t, ht, rfl⟩ := (definedBy_respelled hν hP).1 hd
  rw [guarded_respell, List.mem_map] at hr
  obtain ⟨r, hr, rfl⟩ := hr
  obtain ⟨n, rfl, hl'⟩ := ruleLeads_respelled hν hR hl
  exact h y t r n hy' ht hr hl' ((involves_respelled hν hP hR).1 hin)

end Zanzi
