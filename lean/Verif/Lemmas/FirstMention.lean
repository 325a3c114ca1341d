import Verif.Spec.FirstMention
import Verif.Lemmas.Steps

/-
Lemmas for C126: the list of visits goes with the set of visited identifiers.
-/

namespace Zanzi

open Spec

/-- A list of visits, read with the identifiers visited before and after. -/
inductive ReadsOff (H : String → Nat) : List Nat → List (RelationNode × Bool) → List Nat → Prop
  | nil {s} : ReadsOff H s [] s
  | decided {n id l s s'} : n.nodeId H = .ok id → id ∉ s → ReadsOff H (id :: s) l s' → ReadsOff H s ((n, true) :: l) s'
  | cut {n id l s s'} : n.nodeId H = .ok id → id ∈ s → ReadsOff H s l s' → ReadsOff H s ((n, false) :: l) s'

theorem ReadsOff.append {H : String → Nat} {s s' s'' : List Nat} {l l' : List (RelationNode × Bool)} (h : ReadsOff H s l s') (h' : ReadsOff H s' l' s'') :
    ReadsOff H s (l ++ l') s'' := by
  induction h with
  | nil => exact h'
  | decided h1 h2 _ ih => exact .decided h1 h2 (ih h')
  | cut h1 h2 _ ih => exact .cut h1 h2 (ih h')

/-- The visits of an outcome of a task. -/
def visitsAt : Task → Out → List (RelationNode × Bool)
  | .or _, .list ts _ => visitsOr ts
  | .and _, .list ts _ => visitsAnd ts
  | _, .tree t => visits t
  | _, _ => []

theorem Ev.readsOff {H : String → Nat} {build : RelationNode → GoalTree → Prop} {goal : Option RelationNode} {k s o s'} (h : Ev H build goal k s o s') :
    ReadsOff H s (visitsAt k o) s' := by
  induction h with
  | or _ ih => simp only [visitsAt, visits] at ih ⊢; exact ih
  | and _ ih => simp only [visitsAt, visits] at ih ⊢; exact ih
  | diff _ _ ih1 ih2 => simp only [visitsAt, visits] at ih1 ih2 ⊢; exact ih1.append ih2
  | leaf _ ih => exact ih
  | inner _ ih => exact ih
  | orNil => simp only [visitsAt, visitsOr]; exact .nil
  | orStop _ hr ih => simp only [visitsAt, visitsOr, if_pos hr, List.append_nil] at ih ⊢; exact ih
  | orGo _ hr _ ih1 ih2 => simp only [visitsAt, visitsOr, if_neg hr] at ih1 ih2 ⊢; exact ih1.append ih2
  | andNil => simp only [visitsAt, visitsAnd]; exact .nil
  | andStop _ hr ih => simp only [visitsAt, visitsAnd, if_pos hr, List.append_nil] at ih ⊢; exact ih
  | andGo _ hr _ ih1 ih2 => simp only [visitsAt, visitsAnd, if_neg hr] at ih1 ih2 ⊢; exact ih1.append ih2
  | repeated h1 h2 => simp only [visitsAt, visits]; exact .cut h1 h2 .nil
  | @ended _ _ _ b _ h1 h2 _ _ => cases b <;> (simp only [visitsAt, visits]; exact .decided h1 h2 .nil)
  | expanded h1 h2 _ _ _ _ ih => simp only [visitsAt, visits] at ih ⊢; exact .decided h1 h2 ih

/-- The identifiers visited before an entry are those before the list and those of the entries before. -/
theorem ReadsOff.first {H : String → Nat} {s s' : List Nat} {l r : List (RelationNode × Bool)} {n : RelationNode} {d : Bool}
    (h : ReadsOff H s (l ++ (n, d) :: r) s') : ∃ id, n.nodeId H = .ok id ∧ (d = true ↔ id ∉ s ∧ ∀ p ∈ l, p.1.nodeId H ≠ .ok id) := by
  induction l generalizing s with
  | nil =>
    cases h with
    | decided h1 h2 _ => exact ⟨_, h1, fun _ => ⟨h2, nofun⟩, fun _ => rfl⟩
    | cut h1 h2 _ => exact ⟨_, h1, nofun, fun h => absurd h2 h.1⟩
  | cons q l ih =>
    cases h with
    | @decided m i _ _ _ h1 h2 h3 =>
      obtain ⟨id, e1, e2⟩ := ih h3
      refine ⟨id, e1, e2.trans ⟨fun ⟨a, b⟩ => ⟨fun h => a (List.mem_cons_of_mem _ h), fun p hp => ?_⟩, fun ⟨a, b⟩ => ⟨fun h => ?_, fun p hp => b p (List.mem_cons_of_mem _ hp)⟩⟩⟩
      · rcases List.mem_cons.1 hp with rfl | hp
        · intro he
          have he : m.nodeId H = .ok id := he
          rw [h1] at he
          cases he
          exact a List.mem_cons_self
        · exact b p hp
      · rcases List.mem_cons.1 h with rfl | h
        · exact b _ List.mem_cons_self h1
        · exact a h
    | @cut m i _ _ _ h1 h2 h3 =>
      obtain ⟨id, e1, e2⟩ := ih h3
      refine ⟨id, e1, e2.trans ⟨fun ⟨a, b⟩ => ⟨a, fun p hp => ?_⟩, fun ⟨a, b⟩ => ⟨a, fun p hp => b p (List.mem_cons_of_mem _ hp)⟩⟩⟩
      rcases List.mem_cons.1 hp with rfl | hp
      · intro he
        have he : m.nodeId H = .ok id := he
        rw [h1] at he
        cases he
        exact a h2
      · exact b p hp

/-- An entry that is cut off comes after one with its identifier that is decided, unless the identifier was visited before the list. -/
theorem ReadsOff.before {H : String → Nat} {s s' : List Nat} {l r : List (RelationNode × Bool)} {n : RelationNode}
    (h : ReadsOff H s (l ++ (n, false) :: r) s') : (∃ id ∈ s, n.nodeId H = .ok id) ∨ ∃ m, (m, true) ∈ l ∧ m.nodeId H = n.nodeId H := by
  induction l generalizing s with
  | nil => cases h with | cut h1 h2 _ => exact .inl ⟨_, h2, h1⟩
  | cons q l ih =>
    cases h with
    | @decided m i _ _ _ h1 h2 h3 =>
      rcases ih h3 with ⟨id, e1, e2⟩ | ⟨k, e1, e2⟩
      · rcases List.mem_cons.1 e1 with rfl | e1
        · exact .inr ⟨m, List.mem_cons_self, h1.trans e2.symm⟩
        · exact .inl ⟨id, e1, e2⟩
      · exact .inr ⟨k, List.mem_cons_of_mem _ e1, e2⟩
    | cut h1 h2 h3 =>
      rcases ih h3 with h | ⟨k, e1, e2⟩
      · exact .inl h
      · exact .inr ⟨k, List.mem_cons_of_mem _ e1, e2⟩

end Zanzi
