import Verif.Props.Twins
import Verif.Props.Respell

/-
Property C118: objects with the same relationships are treated alike.
Specification: Spec/Twins.lean, Spec/Graph.lean, Spec/Rename.lean.
-/

namespace Zanzi

open Spec

section
variable {U : Unicode} {p : Policy} {R : Relationship → Prop} {u : Entity} {o o' : Entity} {rel : String}

theorem Spec.TwinObjects.symm (h : TwinObjects R o o') : TwinObjects R o' o := ⟨h.1.symm, fun rel sub => (h.2 rel sub).symm⟩

theorem definedBy_twin (h : o.resource = o'.resource) {c : String} {t : ExprTree} (hd : DefinedBy U p ⟨o, c⟩ t) : DefinedBy U p ⟨o', c⟩ t := by
  unfold DefinedBy at hd ⊢
  rw [show (⟨o', c⟩ : USet).object.resource = (⟨o, c⟩ : USet).object.resource from h.symm]
  exact hd

/-- What is reached from one object is reached from the other, up to the objects themselves. -/
theorem reaches_twinObject (h : TwinObjects R o o') {n : RelationNode} (hr : Reaches U p R ⟨o, rel⟩ n) :
    Reaches U p R ⟨o', rel⟩ n ∨ ∃ c, n = .entitySet (some o) c ∧ Reaches U p R ⟨o', rel⟩ (.entitySet (some o') c) := by
  induction hr with
  | start => exact .inr ⟨rel, rfl, .start⟩
  | @step y n h1 h2 ih =>
    rcases ih with ih | ⟨c, hy, ih⟩
    · exact .inl (.step ih h2)
    · obtain ⟨yo, yr⟩ := y
      cases hy
      have ih : Reaches U p R ⟨o', rel⟩ (USet.node ⟨o', yr⟩) := ih
      cases h2 with
      | this a b d => exact .inl (.step ih (.this (definedBy_twin h.1 a) b ((h.2 _ _).1 d)))
      | @cu t target a b => exact .inr ⟨target, rfl, .step ih (.cu (definedBy_twin h.1 a) b)⟩
      | arrow a b d e => exact .inl (.step ih (.arrow (definedBy_twin h.1 a) b ((h.2 _ _).1 d) e))

theorem involves_twinObject (h : TwinObjects R o o') (hi : Involves U p R u (USet.node ⟨o, rel⟩)) : Involves U p R u (USet.node ⟨o', rel⟩) := by
  rcases hi with (h1 | h1) | ⟨z, m, hz, hr, hm⟩
  · cases h1
  · cases h1
  · obtain ⟨z1, z2⟩ := z
    cases hz
    rcases reaches_twinObject h hr with hr | ⟨c, rfl, _⟩
    · exact .inr ⟨_, m, rfl, hr, hm⟩
    · rcases hm with hm | hm <;> cases hm

theorem unconcerned_twinObject (h : TwinObjects R o o') (hc : Unconcerned U p R ⟨o, rel⟩ u) : Unconcerned U p R ⟨o', rel⟩ u := by
  intro y t r n h1 h2 h3 h4 h5
  rcases reaches_twinObject h.symm h1 with h1 | ⟨c, hy, h1⟩
  · exact hc y t r n h1 h2 h3 h4 h5
  · obtain ⟨yo, yr⟩ := y
    cases hy
    have h2' := definedBy_twin h.1.symm h2
    cases h4 with
    | this a => exact hc ⟨o, yr⟩ t _ _ h1 h2' h3 (.this ((h.2 _ _).2 a)) h5
    | @cu target => exact hc ⟨o, yr⟩ t _ _ h1 h2' h3 .cu (involves_twinObject h.symm (rel := target) h5)
    | arrow a b => exact hc ⟨o, yr⟩ t _ _ h1 h2' h3 (.arrow ((h.2 _ _).2 a) b) h5

/-- `exprIn_map`, from one userset to another. -/
theorem exprIn_over {V V' : USet → Prop} {w w' : USet} {e : ExprTree} (hd : DiffFree e) (h : ∀ r ∈ leaves e, RuleIn R u V w r → RuleIn R u V' w' r) (he : ExprIn R u V w e) :
    ExprIn R u V' w' e := by
  induction e with
  | nil => exact he
  | unset => exact he
  | rule r => exact h r (by simp [leaves]) he
  | op l o r ihl ihr =>
    have h1 := fun q hq => h q (List.mem_append_left (leaves r) hq)
    have h2 := fun q hq => h q (List.mem_append_right (leaves l) hq)
    cases o with
    | union => exact he.imp (ihl hd.1 h1) (ihr hd.2 h2)
    | intersection => exact he.imp (ihl hd.1 h1) (ihr hd.2 h2)
    | difference => exact hd.elim
    | unknown => exact he

/-- What the rules grant on one object they grant on the other. -/
theorem granted_twinObject (h : TwinObjects R o o') (hd : ExprsFrom U p R ⟨o, rel⟩ DiffFree) (hg : Granted U p R u ⟨o, rel⟩) : Granted U p R u ⟨o', rel⟩ := by
  refine (hg (fun w => Reaches U p R ⟨o, rel⟩ w.node → Granted U p R u w ∧ (w.object = o → Granted U p R u ⟨o', w.relation⟩)) ?_ .start).2 rfl
  rintro w ⟨t, hw, he⟩ hz
  have hdf := hd w t hz hw
  have h1 := exprIn_map (R' := R) (V' := Granted U p R u) hdf (ruleIn_reach ⟨o, rel⟩ hz hw (fun v hv h => (h hv).1) (fun _ h => .inl h) (fun _ _ _ _ h => h)) he
  refine ⟨granted_of hw hdf h1, fun ho => ?_⟩
  obtain ⟨wo, wr⟩ := w
  cases ho
  refine granted_of (definedBy_twin h.1 hw) hdf (exprIn_over hdf (fun r hr hin => ?_) he)
  cases r with
  | unset => exact hin
  | cu c => exact (hin (.step hz (.cu hw hr))).2 rfl
  | ttu a b =>
    obtain ⟨sub, e, h3, h4, h5⟩ := hin
    exact ⟨sub, e, (h.2 _ _).1 h3, h4, (h5 (.step hz (.arrow hw hr h3 h4))).1⟩
  | this =>
    obtain ⟨sub, h3, h4⟩ := hin
    refine ⟨sub, (h.2 _ _).1 h3, ?_⟩
    match sub, h3, h4 with
    | .entity e, _, h4 => exact h4
    | .resourceSet n, _, h4 => exact h4
    | .entitySet (some e) r', h3, h4 => exact (h4 (.step hz (.this hw hr h3))).1

end

/-! ### The order of subjects does not depend on the object -/

theorem mapPairwise {α β : Type} {P : α → α → Prop} {Q : β → β → Prop} {f : α → Option β} : ∀ {l : List α}, l.Pairwise P →
    (∀ a ∈ l, ∀ b ∈ l, P a b → ∀ c d, f a = some c → f b = some d → Q c d) → (l.filterMap f).Pairwise Q := by
  intro l
  induction l with
  | nil => intro _ _; exact .nil
  | cons a l ih =>
    intro h hq
    obtain ⟨h1, h2⟩ := List.pairwise_cons.1 h
    have ih := ih h2 (fun a ha b hb => hq a (List.mem_cons_of_mem _ ha) b (List.mem_cons_of_mem _ hb))
    cases hf : f a with
    | none => rw [List.filterMap_cons_none hf]; exact ih
    | some c =>
      rw [List.filterMap_cons_some hf]
      refine List.pairwise_cons.2 ⟨fun d hd => ?_, ih⟩
      obtain ⟨b, hb, hfb⟩ := List.mem_filterMap.1 hd
      exact hq a List.mem_cons_self b (List.mem_cons_of_mem _ hb) (h1 b hb) c d hf hfb

/-- Second half of the storage key: that of the subject. -/
theorem relKey_subject (H : String → Nat) (o o' : Entity) (r : String) (sub : Subject) :
    (relKey H ⟨some o, r, some sub⟩).2 = (relKey H ⟨some o', r, some sub⟩).2 := by
  cases sub with
  | entity e => rfl
  | entitySet e rel => cases e <;> rfl
  | resourceSet n => rfl
  | unset => rfl

theorem relKey_object (H : String → Nat) (o : Entity) (r : String) {sub : Subject} {e : IRel} (h : toInternal ⟨some o, r, some sub⟩ = .ok e) :
    (relKey H ⟨some o, r, some sub⟩).1 = srcKey H o r := by
  rw [relKey_of h]
  cases sub with
  | entity e => cases h; rfl
  | entitySet e rel => cases e <;> cases h; rfl
  | resourceSet n => cases h; rfl
  | unset => cases h; rfl

theorem subjectsOf_sorted {env : Env} {s : Store} {pid : String} (hs : WF env s) (o : Entity) (r : String) :
    (subjectsOf s pid ⟨o, r⟩).Pairwise (fun a b => (relKey env.H ⟨some o, r, some a⟩).2 < (relKey env.H ⟨some o, r, some b⟩).2) := by
  have h0 : (relationships s pid).Pairwise (fun a b => edgeLt (relKey env.H a) (relKey env.H b) = true) := by
    unfold relationships
    rw [List.pairwise_map]
    refine List.Pairwise.imp_of_mem (fun {p q} hp hq h => ?_) (hs.edgeSorted pid)
    rw [relKey_of (hs.edgeNorm pid p.1 p.2 hp).back, relKey_of (hs.edgeNorm pid q.1 q.2 hq).back, ← hs.edgeKey _ _ _ hp, ← hs.edgeKey _ _ _ hq]
    exact h
  have hn : ∀ a ∈ relationships s pid, ∃ e, toInternal a = .ok e := by
    intro a ha
    obtain ⟨p, hp, rfl⟩ := List.mem_map.1 ha
    exact ⟨_, (hs.edgeNorm pid p.1 p.2 hp).back⟩
  refine mapPairwise h0 (fun a ha b hb hlt c d hc hd => ?_)
  split at hc
  · next h1 =>
    split at hd
    · next h2 =>
      obtain ⟨a1, a2, a3⟩ := a
      obtain ⟨b1, b2, b3⟩ := b
      obtain ⟨g1, g2⟩ := h1
      obtain ⟨g3, g4⟩ := h2
      dsimp only at hc hd g1 g2 g3 g4
      subst hc hd g1 g2 g3 g4
      obtain ⟨e1, h3⟩ := hn _ ha
      obtain ⟨e2, h4⟩ := hn _ hb
      have k1 := relKey_object env.H o _ h3
      have k2 := relKey_object env.H o _ h4
      simp only [edgeLt, Bool.or_eq_true, Bool.and_eq_true, decide_eq_true_eq] at hlt
      rcases hlt with h5 | ⟨_, h5⟩
      · rw [k1, k2] at h5; exact absurd h5 (Nat.lt_irrefl _)
      · exact h5
    · cases hd
  · cases hc

/-- Sorted lists with the same members are equal. -/
theorem sortedBy_ext {α : Type} (f : α → Nat) {l l' : List α} (h : l.Pairwise (fun a b => f a < f b)) (h' : l'.Pairwise (fun a b => f a < f b)) (hm : ∀ a, a ∈ l ↔ a ∈ l') : l = l' := by
  have key : l.map (fun a => (((0 : Nat), f a), a)) = l'.map (fun a => (((0 : Nat), f a), a)) := by
    refine sorted_ext ?_ ?_ (fun p => ?_)
    · unfold KeysSorted
      rw [List.pairwise_map]
      exact h.imp (fun h => by simp [edgeLt, h])
    · unfold KeysSorted
      rw [List.pairwise_map]
      exact h'.imp (fun h => by simp [edgeLt, h])
    · simp only [List.mem_map, hm]
  have := congrArg (List.map Prod.snd) key
  simpa [List.map_map, Function.comp_def] using this

theorem subjectsOf_twin {env : Env} {s : Store} {pid : String} (hs : WF env s) {o o' : Entity} (h : TwinObjects (Present s pid) o o') (r : String) :
    subjectsOf s pid ⟨o', r⟩ = subjectsOf s pid ⟨o, r⟩ := by
  refine sortedBy_ext (fun a => (relKey env.H ⟨some o, r, some a⟩).2) ?_ (subjectsOf_sorted hs o r) (fun a => ?_)
  · exact (subjectsOf_sorted hs o' r).imp (fun {a b} h => by rw [relKey_subject env.H o o' r a, relKey_subject env.H o o' r b]; exact h)
  · rw [mem_subjectsOf, mem_subjectsOf]
    exact (h.2 r a).symm

/-! ### C118 -/

theorem exchange_renaming {a b : Entity} (h : a.resource = b.resource) : Renaming (exchange a b) := by
  have h1 : ∀ e, exchange a b (exchange a b e) = e := by
    intro e
    unfold exchange
    repeat' split
    all_goals simp_all
  refine ⟨fun c d h => by rw [← h1 c, h, h1], fun c => ?_⟩
  unfold exchange
  repeat' split
  all_goals simp_all

theorem exchange_other {a b e : Entity} (h1 : e ≠ a) (h2 : e ≠ b) : exchange a b e = e := by
  unfold exchange
  rw [if_neg h1, if_neg h2]

theorem exchange_subject {a b : Entity} {sub : Subject} (h1 : namedIn sub ≠ some a) (h2 : namedIn sub ≠ some b) : renameSubject (exchange a b) sub = sub := by
  cases sub with
  | entity e => rw [renameSubject, exchange_other (fun h => h1 (by rw [h]; rfl)) (fun h => h2 (by rw [h]; rfl))]
  | entitySet e rel =>
    cases e with
    | none => rfl
    | some e => rw [renameSubject, Option.map_some, exchange_other (fun h => h1 (by rw [h]; rfl)) (fun h => h2 (by rw [h]; rfl))]
  | resourceSet n => rfl
  | unset => rfl

section
variable {env : Env} {s : Store} {pid : String} {rec : PolicyRecord} {u : Entity} {o o' : Entity} {rel : String}

/-- Usersets within reach are those of the object and those of others than the two. -/
theorem reaches_apart {U : Unicode} {p : Policy} {R : Relationship → Prop} (hb : NoWayBack U p R ⟨o, rel⟩ o) (hb' : NoWayBack U p R ⟨o, rel⟩ o') {y : USet}
    (h : Reaches U p R ⟨o, rel⟩ y.node) : y.object = o ∨ (y.object ≠ o ∧ y.object ≠ o') := by
  generalize hn : y.node = n at h
  induction h generalizing y with
  | start => left; cases y; cases hn; rfl
  | @step z n h1 h2 ih =>
    obtain ⟨yo, yr⟩ := y
    generalize hm : n = m at h2
    cases h2 with
    | @this t sub a b c =>
      right
      have hsub : sub = .entitySet (some yo) yr := by
        have := hm.symm.trans hn.symm
        cases sub <;> first | (cases this; rfl) | cases this
      subst hsub
      exact ⟨fun h => hb z z _ h1 (.inl rfl) c (by rw [show yo = o from h]; rfl), fun h => hb' z z _ h1 (.inl rfl) c (by rw [show yo = o' from h]; rfl)⟩
    | @cu t target a b =>
      cases hn.trans hm
      exact ih (y := z) rfl
    | @arrow t ts cp sub e a b c d =>
      right
      cases hn.trans hm
      have hne : namedIn sub = some yo := by
        cases sub <;> first | exact d | cases d
      exact ⟨fun h => hb z ⟨z.object, ts⟩ _ h1 (.inr ⟨t, ts, yr, a, b, rfl⟩) c (by rw [hne, show yo = o from h]),
        fun h => hb' z ⟨z.object, ts⟩ _ h1 (.inr ⟨t, ts, yr, a, b, rfl⟩) c (by rw [hne, show yo = o' from h])⟩

/-- Full claim: objects of the same kind with the same relationships get the same answers to Check, and the same explanations and trees up to the objects themselves.  Proved for all operators, errors
included, when nothing the request comes across is given to the two objects or their usersets, absent collisions.  Missing: requests that lead back to one of the objects
(`C118_back_violated`). -/
theorem C118_apart_partial (hs : WF env s) (hp : policyAt s pid = some rec) (ht : TwinObjects (Present s pid) o o')
    (hb : NoWayBack env.U rec.policy (Present s pid) ⟨o, rel⟩ o) (hb' : NoWayBack env.U rec.policy (Present s pid) ⟨o, rel⟩ o') (hu : u ≠ o) (hu' : u ≠ o')
    (hk : KeysClear env.U env.H rec.policy (Present s pid) ⟨o, rel⟩) (hk' : KeysClear env.U env.H rec.policy (Present s pid) ⟨o', rel⟩)
    (hi : IdsClear env.U env.H rec.policy (Present s pid) ⟨o, rel⟩) (hi' : IdsClear env.U env.H rec.policy (Present s pid) ⟨o', rel⟩) :
    ∃ N, ∀ fuel, N ≤ fuel →
      (serve env (.check fuel pid (ask ⟨o', rel⟩ u)) s).1 = (serve env (.check fuel pid (ask ⟨o, rel⟩ u)) s).1 ∧
      (serve env (.check fuel pid (ask ⟨o, rel⟩ u)) s).1 ≠ .fuel ∧
      (∀ t b, Explains env s fuel pid ⟨o, rel⟩ u t b → Explains env s fuel pid ⟨o', rel⟩ u (renameTree (exchange o o') t) b) ∧
      (∀ t, Expands env s fuel pid (.entitySet (some o) rel) t → Expands env s fuel pid (.entitySet (some o') rel) (renameTree (exchange o o') t)) := by
  have hx : renameUSet (exchange o o') ⟨o, rel⟩ = ⟨o', rel⟩ := by simp [renameUSet, exchange]
  have hu0 : exchange o o' u = u := exchange_other hu hu'
  have ho : RenamedInOrder env.U rec.policy (exchange o o') pid s s ⟨o, rel⟩ := by
    intro y z hy hz
    have hzo : z.object = y.object := by
      rcases hz with rfl | ⟨_, _, _, _, _, rfl⟩ <;> rfl
    have hmap : (subjectsOf s pid z).map (renameSubject (exchange o o')) = subjectsOf s pid z := by
      refine (List.map_congr_left (fun sub hsub => ?_)).trans (List.map_id _)
      have hpr := mem_subjectsOf.1 hsub
      exact exchange_subject (hb y z sub hy hz hpr) (hb' y z sub hy hz hpr)
    rw [hmap]
    obtain ⟨zo, zr⟩ := z
    have hzo : zo = y.object := hzo
    subst hzo
    rcases reaches_apart hb hb' hy with h | ⟨h1, h2⟩
    · rw [h, show renameUSet (exchange o o') ⟨o, zr⟩ = ⟨o', zr⟩ by simp [renameUSet, exchange]]
      exact subjectsOf_twin hs ht zr
    · rw [show renameUSet (exchange o o') ⟨y.object, zr⟩ = ⟨y.object, zr⟩ by simp only [renameUSet, exchange_other h1 h2]]
  have := C89_order_partial (u := u) (exchange_renaming ht.1) hs hs hp hp rfl ho hk (by rw [hx]; exact hk') hi (by rw [hx]; exact hi')
  rw [hx, hu0] at this
  exact this

/-- C118 for requests that meet only unions, leading back or not. -/
theorem C118_union_partial (hs : WF env s) (hp : policyAt s pid = some rec) (ht : TwinObjects (Present s pid) o o')
    (hk : KeysClear env.U env.H rec.policy (Present s pid) ⟨o, rel⟩) (hk' : KeysClear env.U env.H rec.policy (Present s pid) ⟨o', rel⟩)
    (hi : IdsClear env.U env.H rec.policy (Present s pid) ⟨o, rel⟩) (hi' : IdsClear env.U env.H rec.policy (Present s pid) ⟨o', rel⟩)
    (hd : ExprsFrom env.U rec.policy (Present s pid) ⟨o, rel⟩ UnionOnly) {fuel fuel' : Nat} {b b' : Bool}
    (h : Checks env s fuel pid ⟨o, rel⟩ u b) (h' : Checks env s fuel' pid ⟨o', rel⟩ u b') : b = b' := by
  have hd' : ExprsFrom env.U rec.policy (Present s pid) ⟨o', rel⟩ UnionOnly := by
    intro y t hy hdy
    rcases reaches_twinObject ht.symm hy with hy | ⟨c, hn, hy⟩
    · exact hd y t hy hdy
    · obtain ⟨yo, yr⟩ := y
      cases hn
      exact hd ⟨o, yr⟩ t hy (definedBy_twin ht.1.symm hdy)
  rw [Bool.eq_iff_iff, C37_union_exact_partial hs hp hk hi hd h, C37_union_exact_partial hs hp hk' hi' hd' h']
  exact ⟨granted_twinObject ht (fun w t hw hd1 => unionOnly_diffFree (hd w t hw hd1)), granted_twinObject ht.symm (fun w t hw hd1 => unionOnly_diffFree (hd' w t hw hd1))⟩

/-- C118 for all operators but differences, leading back or not, when neither explanation shows a branch cut off as already visited. -/
theorem C118_clean_partial (hs : WF env s) (hp : policyAt s pid = some rec) (ht : TwinObjects (Present s pid) o o')
    (hk : KeysClear env.U env.H rec.policy (Present s pid) ⟨o, rel⟩) (hk' : KeysClear env.U env.H rec.policy (Present s pid) ⟨o', rel⟩)
    (hd : ∀ y t, DefinedBy env.U rec.policy y t → DiffFree t) {fuel fuel' : Nat} {t t' : GoalTree} {b b' : Bool}
    (h : Explains env s fuel pid ⟨o, rel⟩ u t b) (hc : Clean t) (h' : Explains env s fuel' pid ⟨o', rel⟩ u t' b') (hc' : Clean t') : b = b' := by
  rw [Bool.eq_iff_iff, C37_clean_exact_partial hs hp hk hd h hc, C37_clean_exact_partial hs hp hk' hd h' hc']
  exact ⟨granted_twinObject ht (fun w t _ => hd w t), granted_twinObject ht.symm (fun w t _ => hd w t)⟩

/-- C118 for all operators, leading back or not, for users whom no intersection and no subtraction met on one object concerns: then none met on the other does, Check answers alike, and the trees of Expand
both have the user or both not. -/
theorem C118_unconcerned_partial (hs : WF env s) (hp : policyAt s pid = some rec) (ht : TwinObjects (Present s pid) o o')
    (hk : KeysClear env.U env.H rec.policy (Present s pid) ⟨o, rel⟩) (hk' : KeysClear env.U env.H rec.policy (Present s pid) ⟨o', rel⟩)
    (hi : IdsClear env.U env.H rec.policy (Present s pid) ⟨o, rel⟩) (hi' : IdsClear env.U env.H rec.policy (Present s pid) ⟨o', rel⟩)
    (hc : Unconcerned env.U rec.policy (Present s pid) ⟨o, rel⟩ u) {fuel fuel' : Nat} :
    (∀ b b', Checks env s fuel pid ⟨o, rel⟩ u b → Checks env s fuel' pid ⟨o', rel⟩ u b' → b = b') ∧
    (∀ t t', Expands env s fuel pid (USet.node ⟨o, rel⟩) t → Expands env s fuel' pid (USet.node ⟨o', rel⟩) t' → inSet u t = inSet u t') := by
  have hc' := unconcerned_twinObject ht hc
  have hinv : Involves env.U rec.policy (Present s pid) u (USet.node ⟨o, rel⟩) ↔ Involves env.U rec.policy (Present s pid) u (USet.node ⟨o', rel⟩) :=
    ⟨involves_twinObject ht, involves_twinObject ht.symm⟩
  constructor
  · intro b b' h h'
    rw [Bool.eq_iff_iff, checks_involved hs hp hk hi hc h, checks_involved hs hp hk' hi' hc' h', hinv]
  · intro t t' h h'
    obtain ⟨_, e⟩ := expands_ev hp h
    obtain ⟨_, e'⟩ := expands_ev hp h'
    rw [Bool.eq_iff_iff, expand_involved hs hp hk hi hc e, expand_involved hs hp hk' hi' hc' e', hinv]

end

/-- Twin objects, by comparing lists. -/
theorem twinObjects_of {s : Store} {pid : String} {o o' : Entity} (h0 : o.resource = o'.resource)
    (h1 : ∀ r ∈ relationships s pid, r.object = some o → (⟨some o', r.relation, r.subject⟩ : Relationship) ∈ relationships s pid)
    (h2 : ∀ r ∈ relationships s pid, r.object = some o' → (⟨some o, r.relation, r.subject⟩ : Relationship) ∈ relationships s pid) : TwinObjects (Present s pid) o o' :=
  ⟨h0, fun _ _ => ⟨fun h => h1 _ h rfl, fun h => h2 _ h rfl⟩⟩

/-- Who has `b` on doc:1 has `a` on the object, and user:u and all users have `b` on it. -/
def backRels (o : Entity) : List Relationship := [givenTo ⟨o, "a"⟩ ⟨doc1, "b"⟩, ⟨some o, "b", some (.resourceSet "user")⟩, byName o "b" usr]

def backStore : Store := gStore gEnv opRels (backRels doc1 ++ backRels doc2)

/-- The code violates the claim when one of the objects is led back to: doc:1 and doc:2 have the same relationships, and user:u has `both` on one and not on the other. -/
theorem C118_back_violated :
    TwinObjects (Present backStore "p") doc1 doc2 ∧ Checks gEnv backStore 20 "p" ⟨doc1, "both"⟩ usr false ∧ Checks gEnv backStore 20 "p" ⟨doc2, "both"⟩ usr true :=
  ⟨twinObjects_of rfl (by decide +kernel) (by decide +kernel), checks_of (by decide +kernel), checks_of (by decide +kernel)⟩

/-- Nothing at all is given to an object or its usersets. -/
theorem noWayBack_of {U : Unicode} {p : Policy} {s : Store} {pid : String} {x : USet} {o : Entity}
    (h : ∀ r ∈ relationships s pid, ∀ sub ∈ r.subject, namedIn sub ≠ some o) : NoWayBack U p (Present s pid) x o :=
  fun _ _ sub _ _ h1 => h _ h1 sub rfl

/-- user:u and all users have `a`, and the members of group:g, of which user:u is the only one, have `b`. -/
def pairRels (o : Entity) : List Relationship := [byName o "a" usr, ⟨some o, "a", some (.resourceSet "user")⟩, givenTo ⟨o, "b"⟩ crew]

def pairStore : Store := gStore gEnv opRels (pairRels doc1 ++ pairRels doc2 ++ [byName grp "member" usr])

theorem pair_pol : policyAt pairStore "p" = some ⟨gPolicy opRels, [], 0⟩ := by decide +kernel

def pairNodes (o : Entity) (r : String) : List RelationNode :=
  [.entitySet (some o) r, .entitySet (some o) "a", .entitySet (some o) "b", .entity (some usr), .wildcard "user", crew.node]

/-- `C118_apart_partial` applies to `both = a & b` and user:u, who is granted it on doc:1. -/
example : Checks gEnv pairStore 20 "p" ⟨doc1, "both"⟩ usr true ∧ ∃ N, ∀ fuel, N ≤ fuel →
    (serve gEnv (.check fuel "p" (ask ⟨doc2, "both"⟩ usr)) pairStore).1 = (serve gEnv (.check fuel "p" (ask ⟨doc1, "both"⟩ usr)) pairStore).1 := by
  have k := clear_of (env := gEnv) (s := pairStore) (x := ⟨doc1, "both"⟩) (L := pairNodes doc1 "both") (gStore_wf _ _ _) pair_pol (by simp [pairNodes, USet.node]) (by decide +kernel)
  have k' := clear_of (env := gEnv) (s := pairStore) (x := ⟨doc2, "both"⟩) (L := pairNodes doc2 "both") (gStore_wf _ _ _) pair_pol (by simp [pairNodes, USet.node]) (by decide +kernel)
  obtain ⟨N, h⟩ := C118_apart_partial (env := gEnv) (s := pairStore) (u := usr) (o := doc1) (o' := doc2) (rel := "both") (gStore_wf _ _ _) pair_pol
    (twinObjects_of rfl (by decide +kernel) (by decide +kernel)) (noWayBack_of (by decide +kernel)) (noWayBack_of (by decide +kernel)) (by decide) (by decide) k.1 k'.1 k.2 k'.2
  exact ⟨checks_of (by decide +kernel), N, fun fuel hf => (h fuel hf).1⟩

/-- `C118_union_partial` applies to `any = a + b` where doc:1 is led back to. -/
example : ∃ b, b = true ∧ Checks gEnv backStore 20 "p" ⟨doc2, "any"⟩ usr b := by
  have hp : policyAt backStore "p" = some ⟨gPolicy opRels, [], 0⟩ := by decide +kernel
  obtain ⟨b, h⟩ : ∃ b, Checks gEnv backStore 20 "p" ⟨doc2, "any"⟩ usr b := ⟨true, checks_of (by decide +kernel)⟩
  have k := clear_of (env := gEnv) (s := backStore) (x := ⟨doc1, "any"⟩) (L := pairNodes doc1 "any") (gStore_wf _ _ _) hp (by simp [pairNodes, USet.node]) (by decide +kernel)
  have k' := clear_of (env := gEnv) (s := backStore) (x := ⟨doc2, "any"⟩) (L := pairNodes doc2 "any" ++ pairNodes doc1 "a") (gStore_wf _ _ _) hp (by simp [pairNodes, USet.node]) (by decide +kernel)
  exact ⟨b, (C118_union_partial (env := gEnv) (s := backStore) (o := doc1) (o' := doc2) (fuel := 20) (gStore_wf _ _ _) hp C118_back_violated.1 k.1 k'.1 k.2 k'.2
    (exprs_of (env := gEnv) (x := ⟨doc1, "any"⟩) (f := unionOnlyB) (fun _ => unionOnly_of) (gStore_wf _ _ _) hp (L := pairNodes doc1 "any") (by simp [pairNodes, USet.node])
      (by decide +kernel) (by decide +kernel)) (checks_of (by decide +kernel)) h).symm, h⟩

def likeRels (o : Entity) : List Relationship := [byName o "c" usr, byName o "a" late, byName o "b" late]
def likeStore : Store := gStore gEnv altRels (likeRels doc1 ++ likeRels doc2)
def likeNodes (o : Entity) : List RelationNode :=
  [.entitySet (some o) "alt", .entitySet (some o) "a", .entitySet (some o) "b", .entitySet (some o) "c", .entity (some usr), .entity (some late)]

/-- The hypotheses of `C118_clean_partial` and `C118_unconcerned_partial` for `alt = (a & b) + c`, granted on both. -/
example : TwinObjects (Present likeStore "p") doc1 doc2 ∧
    (∀ o, o = doc1 ∨ o = doc2 → KeysClear U0 Hx (gPolicy altRels) (Present likeStore "p") ⟨o, "alt"⟩ ∧ IdsClear U0 Hx (gPolicy altRels) (Present likeStore "p") ⟨o, "alt"⟩ ∧
      ∃ t, Explains gEnv likeStore 10 "p" ⟨o, "alt"⟩ usr t true ∧ Clean t) ∧
    Unconcerned U0 (gPolicy altRels) (Present likeStore "p") ⟨doc1, "alt"⟩ usr ∧ (∀ y t, DefinedBy U0 (gPolicy altRels) y t → DiffFree t) := by
  have hp : policyAt likeStore "p" = some ⟨gPolicy altRels, [], 0⟩ := by decide +kernel
  refine ⟨twinObjects_of rfl (by decide +kernel) (by decide +kernel), ?_, ?_, fun _ _ => alt_diffFree⟩
  · rintro o (rfl | rfl)
    · have k := clear_of (env := gEnv) (s := likeStore) (x := ⟨doc1, "alt"⟩) (L := likeNodes doc1) (gStore_wf _ _ _) hp (by simp [likeNodes, USet.node]) (by decide +kernel)
      obtain ⟨t, b, h1, h2⟩ := explains_of (env := gEnv) (s := likeStore) (pid := "p") (x := ⟨doc1, "alt"⟩) (u := usr) (fuel := 10) (f := fun t b => cleanB t && b) (by decide +kernel)
      simp only [Bool.and_eq_true] at h2
      obtain ⟨h2, rfl⟩ := h2
      exact ⟨k.1, k.2, t, h1, clean_of h2⟩
    · have k := clear_of (env := gEnv) (s := likeStore) (x := ⟨doc2, "alt"⟩) (L := likeNodes doc2) (gStore_wf _ _ _) hp (by simp [likeNodes, USet.node]) (by decide +kernel)
      obtain ⟨t, b, h1, h2⟩ := explains_of (env := gEnv) (s := likeStore) (pid := "p") (x := ⟨doc2, "alt"⟩) (u := usr) (fuel := 10) (f := fun t b => cleanB t && b) (by decide +kernel)
      simp only [Bool.and_eq_true] at h2
      obtain ⟨h2, rfl⟩ := h2
      exact ⟨k.1, k.2, t, h1, clean_of h2⟩
  · exact unconcerned_of (env := gEnv) (s := likeStore) (L := likeNodes doc1) (K := [.entitySet (some doc1) "a", .entitySet (some doc1) "b", .entity (some late)])
      (gStore_wf _ _ _) hp (by simp [likeNodes, USet.node]) (by decide +kernel)

end Zanzi
