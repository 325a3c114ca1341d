import Verif.Spec.BusyExplain
import Verif.Props.Explain
import Verif.Props.Interference

/-
Lemmas for C127: goal trees of searches whose reads come from different stores.
-/

namespace Zanzi

open Spec Prog

theorem spew_reads {env : Env} {I : Store → Prop} {fuel : Nat} {pid : String} {req : Option AccessRequest} {x : Serialized} {b : Bool} {g : ExplainFormat}
    (h : ((Call.explainCheck fuel pid req .spew).prog env).Reads I (.ok (.explained x b g))) :
    ∃ s rec q t seen, I s ∧ policyAt s pid = some rec ∧ req = some q ∧ x = .spew t ∧
      Ev env.H (RBuilds env rec.policy I) (some (.entity q.subject)) (.path (.entitySet q.object q.relation) "Request") [] (.tree t) seen ∧
      b = decide (t.result = .success) := by
  obtain ⟨b', h1, h2⟩ := Prog.Reads.map_ok (p := GraphService.explainCheck env fuel pid req .spew) (f := fun x => .explained x.1 x.2.1 x.2.2) h
  obtain ⟨_, _, h1⟩ := Prog.Reads.bind_ok h1
  obtain ⟨rec, h2', h3⟩ := h1.bind_ok
  obtain ⟨s, hs, hrec⟩ := getPolicy_reads h2'
  obtain ⟨t, h4, h5⟩ := h3.bind_ok
  obtain ⟨_, h8, h5⟩ := h5.bind_ok
  cases h8.lift
  cases h5.pure
  cases h2
  obtain ⟨q, h6, h7⟩ := Prog.Reads.bind_ok h4
  replace h6 := h6.lift
  cases req with
  | none => cases h6
  | some q' =>
    cases h6
    obtain ⟨o, seen, ho, hev⟩ := searchGoal_ev h7
    cases ho
    exact ⟨s, rec, _, t, seen, hs, hrec, rfl, rfl, hev, rfl⟩

theorem expand_reads {env : Env} {I : Store → Prop} {fuel : Nat} {pid : String} {root : Option RelationNode} {x : Serialized} {g : ExplainFormat}
    (h : ((Call.expand fuel pid root .spew).prog env).Reads I (.ok (.expanded x g))) :
    ∃ s rec o t seen, I s ∧ policyAt s pid = some rec ∧ root = some o ∧ x = .spew t ∧
      Ev env.H (RBuilds env rec.policy I) none (.path o "Request") [] (.tree t) seen := by
  obtain ⟨b', h1, h2⟩ := Prog.Reads.map_ok (p := GraphService.expand env fuel pid root .spew) (f := fun x => .expanded x.1 x.2) h
  obtain ⟨_, _, h1⟩ := Prog.Reads.bind_ok h1
  obtain ⟨rec, h2', h3⟩ := h1.bind_ok
  obtain ⟨s, hs, hrec⟩ := getPolicy_reads h2'
  obtain ⟨t, h4, h5⟩ := h3.bind_ok
  obtain ⟨_, h8, h5⟩ := h5.bind_ok
  cases h8.lift
  cases h5.pure
  cases h2
  obtain ⟨o, seen, ho, hev⟩ := searchGoal_ev h4
  exact ⟨s, rec, o, t, seen, hs, hrec, ho, rfl, hev⟩

section
variable {N : Rule → List RelationNode → Prop}

theorem Shape.fresh : ∀ {e : ExprTree} {t : GoalTree}, Shape N e t → t.Fresh := by
  intro e
  induction e with
  | nil => intro t h; exact h.elim
  | unset => intro t h; exact h.elim
  | rule r =>
    rintro t ⟨ns, _, rfl⟩
    rw [GoalTree.Fresh, freshList_iff]
    refine ⟨rfl, fun t ht => ?_⟩
    obtain ⟨n, _, rfl⟩ := List.mem_map.1 ht
    rw [GoalTree.Fresh]
  | op l o r ihl ihr =>
    rintro t ⟨a, b, ha, hb, h⟩
    rcases h with ⟨_, rfl⟩ | ⟨_, rfl⟩ | ⟨_, rfl⟩ <;> rw [GoalTree.Fresh]
    · exact ⟨rfl, ihl ha, ihr hb, trivial⟩
    · exact ⟨rfl, ihl ha, ihr hb, trivial⟩
    · exact ⟨rfl, ihl ha, ihr hb⟩

theorem mentions_leaves {why : String} {n : RelationNode} : ∀ {ns : List RelationNode},
    n ∈ mentionsList (ns.map (fun n => .leaf .unknown n why)) → n ∈ ns := by
  intro ns
  induction ns with
  | nil => intro h; cases h
  | cons m ns ih =>
    intro h
    rw [List.map_cons, mentionsList, mentions] at h
    rcases List.mem_append.1 h with h | h
    · exact List.mem_cons.2 (.inl (List.mem_singleton.1 h))
    · exact List.mem_cons_of_mem _ (ih h)

theorem Shape.mentioned : ∀ {e : ExprTree} {t : GoalTree}, Shape N e t → ∀ n ∈ mentions t, ∃ r ∈ leaves e, ∃ ns, N r ns ∧ n ∈ ns := by
  intro e
  induction e with
  | nil => intro t h; exact h.elim
  | unset => intro t h; exact h.elim
  | rule r =>
    rintro t ⟨ns, hns, rfl⟩ n hn
    rw [mentions] at hn
    exact ⟨r, by simp [leaves], ns, hns, mentions_leaves hn⟩
  | op l o r ihl ihr =>
    rintro t ⟨a, b, ha, hb, h⟩ n hn
    have key : n ∈ mentions a ∨ n ∈ mentions b := by
      rcases h with ⟨_, rfl⟩ | ⟨_, rfl⟩ | ⟨_, rfl⟩ <;> simpa [mentions, mentionsList] using hn
    rcases key with hn | hn
    · obtain ⟨q, h1, h2⟩ := ihl ha n hn
      exact ⟨q, by simp [leaves, h1], h2⟩
    · obtain ⟨q, h1, h2⟩ := ihr hb n hn
      exact ⟨q, by simp [leaves, h1], h2⟩

/-- A shape whose rules were read at moments of the history, and what it becomes when its nodes are searched. -/
theorem Shape.during {hist : List Store} {pid : String} {y : USet} : ∀ {e : ExprTree} {t t' : GoalTree},
    (∀ r ∈ leaves e, ∀ ns, N r ns → ∃ s ∈ hist, ∀ n, n ∈ ns ↔ RuleNode (Present s pid) y n r) → Shape N e t → outline t' = outline t →
    PrescribedDuring hist pid y e t' := by
  intro e
  induction e with
  | nil => intro t t' _ h; exact h.elim
  | unset => intro t t' _ h; exact h.elim
  | rule r =>
    rintro t t' hN ⟨ns, hns, rfl⟩ ht
    obtain ⟨s, hs, hn⟩ := hN r (by simp [leaves]) ns hns
    refine ⟨s, hs, ?_⟩
    rw [← prescribed_outline, ht, prescribed_outline, Prescribed]
    simp only [List.mem_map]
    refine ⟨?_, fun n => ?_⟩
    · rintro p ⟨n, _, rfl⟩
      exact ⟨⟨n, rfl⟩, by cases r <;> rfl⟩
    · rw [← hn n]
      constructor
      · rintro ⟨p, ⟨m, hm, rfl⟩, h⟩
        cases h
        exact hm
      · intro hm
        exact ⟨_, ⟨n, hm, rfl⟩, rfl⟩
  | op l o r ihl ihr =>
    rintro t t' hN ⟨a, b, ha, hb, h⟩ ht
    have hl : ∀ q ∈ leaves l, q ∈ leaves (.op l o r) := fun q hq => by simp [leaves, hq]
    have hr : ∀ q ∈ leaves r, q ∈ leaves (.op l o r) := fun q hq => by simp [leaves, hq]
    have key : ∀ {a' b'}, outline a' = outline a → outline b' = outline b → PrescribedDuring hist pid y l a' ∧ PrescribedDuring hist pid y r b' :=
      fun h1 h2 => ⟨ihl (fun q hq => hN q (hl q hq)) ha h1, ihr (fun q hq => hN q (hr q hq)) hb h2⟩
    rcases h with ⟨rfl, rfl⟩ | ⟨rfl, rfl⟩ | ⟨rfl, rfl⟩
    · cases t' with
      | or v ps =>
        match ps with
        | [] => simp [outline, outlineList] at ht
        | [_] => simp [outline, outlineList] at ht
        | [a', b'] =>
          simp only [outline, outlineList, GoalTree.or.injEq, List.cons.injEq, and_true, true_and] at ht
          exact key ht.1 ht.2
        | _ :: _ :: _ :: _ => simp [outline, outlineList] at ht
      | _ => simp [outline] at ht
    · cases t' with
      | and v ps =>
        match ps with
        | [] => simp [outline, outlineList] at ht
        | [_] => simp [outline, outlineList] at ht
        | [a', b'] =>
          simp only [outline, outlineList, GoalTree.and.injEq, List.cons.injEq, and_true, true_and] at ht
          exact key ht.1 ht.2
        | _ :: _ :: _ :: _ => simp [outline, outlineList] at ht
      | _ => simp [outline] at ht
    · cases t' with
      | diff v a' b' =>
        simp only [outline, GoalTree.diff.injEq, true_and] at ht
        exact key ht.1 ht.2
      | _ => simp [outline] at ht

end

end Zanzi
