import Verif.Spec.Layers

/-
Property C70: stores sharing one key-value store are separate.
-/

namespace Zanzi

open Layers

open Spec

theorem prefix_of_append_eq {a b k l : List Char} (h : a ++ k = b ++ l) : a <+: b ∨ b <+: a := by
  rcases List.append_eq_append_iff.1 h with ⟨c, h, _⟩ | ⟨c, h, _⟩
  · exact .inl ⟨c, h.symm⟩
  · exact .inr ⟨c, h.symm⟩

/-- C70: two stores are separate exactly when neither prefix begins with the other. -/
theorem C70_separate_iff {β : Type} [Inhabited β] (p q : List Char) : Separate β p q ↔ ¬ p <+: q ∧ ¬ q <+: p := by
  constructor
  · intro h
    constructor
    · rintro ⟨c, rfl⟩
      have := congrFun (h (fun _ => none) c (some default)).1 []
      simp [wrap, write] at this
    · rintro ⟨c, rfl⟩
      have := congrFun (h (fun _ => none) c (some default)).2 []
      simp [wrap, write] at this
  · rintro ⟨h1, h2⟩ b k v
    constructor <;> funext x <;> simp only [wrap, write] <;> rw [if_neg]
    · intro he
      rcases prefix_of_append_eq he with h | h
      · exact h2 h
      · exact h1 h
    · intro he
      rcases prefix_of_append_eq he with h | h
      · exact h1 h
      · exact h2 h

/-- C70, layers: policies, relationships of any policy and relationship data are separate. -/
theorem C70_layers (β : Type) [Inhabited β] (id : List Char) :
    Separate β policyPrefix dataPrefix ∧ Separate β policyPrefix (policyEdges id) ∧ Separate β (policyEdges id) dataPrefix := by
  simp only [C70_separate_iff]
  simp [policyPrefix, dataPrefix, policyEdges, relationshipPrefix]

/-- C70, policies: the relationships of two policies are separate exactly when neither id begins with the other.  In particular the stores of two different policies are separate whenever
their ids have the same length. -/
theorem C70_policies_partial (β : Type) [Inhabited β] (p q : List Char) :
    (Separate β (policyEdges p) (policyEdges q) ↔ ¬ p <+: q ∧ ¬ q <+: p) ∧
    (p.length = q.length → p ≠ q → Separate β (policyEdges p) (policyEdges q)) := by
  have h : Separate β (policyEdges p) (policyEdges q) ↔ ¬ p <+: q ∧ ¬ q <+: p := by
    rw [C70_separate_iff]
    simp [policyEdges, relationshipPrefix]
  refine ⟨h, fun hl hne => h.2 ⟨fun hp => hne ?_, fun hp => hne ?_⟩⟩
  · exact hp.eq_of_length hl
  · exact (hp.eq_of_length hl.symm).symm

/-- C70 is false for ids chosen by clients when one begins with the other: what is written in policy `ab` is listed in policy `a`, for every record. -/
theorem C70_policies_violated {β : Type} (p suffix k : List Char) (v : β) (b : Base β) :
    wrap (policyEdges p) (write (policyEdges (p ++ suffix)) k (some v) b) (suffix ++ k) = some v := by
  simp [wrap, write, policyEdges]

example : ¬ Separate Nat (policyEdges "a".toList) (policyEdges "ab".toList) := by
  rw [(C70_policies_partial Nat _ _).1]
  decide +kernel
example : Separate Nat (policyEdges "ab".toList) (policyEdges "ac".toList) :=
  (C70_policies_partial Nat _ _).2 (by decide +kernel) (by decide +kernel)

end Zanzi
