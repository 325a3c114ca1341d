import Verif.Lemmas.FqnText
import Verif.Props.Policy

/-
C11: the key of the lookup table is a text, the one-line text format of a message.
-/

namespace Zanzi

open Spec FqnText

/-- C11 (the text key): different pairs of names have different key texts, whatever characters are in them. -/
theorem C11_key_text_injective (wide : Bool) (a b a' b' : String) : relationKey wide a b = relationKey wide a' b' ↔ a = a' ∧ b = b' :=
  ⟨relationKey_inj, fun h => by rw [h.1, h.2]⟩

/-- C11 with text keys: in a policy with unique names the table keyed by text gives the relation declared under the two names, and nothing when there is none. -/
theorem C11_text_lookup_exact (wide : Bool) (p : Policy) (hu : NamesUnique p) (res rel : String) :
    (∀ d, kvGet (lutRelations wide p) (relationKey wide res rel) = some d ↔ Declares p res rel d) ∧
    (kvGet (lutRelations wide p) (relationKey wide res rel) = none ↔ ¬ HasRelation p res rel) := by
  rw [lookup_eq]
  exact ⟨(C11_lookup_exact p hu res rel).1, (C11_lookup_exact p hu res rel).2.1⟩

-- A pair of names that only escaping tells apart.
example : String.ofList (relationKey false "a\" relation_name:\"b" "") = "resource_name:\"a\\\" relation_name:\\\"b\"" ∧
    String.ofList (relationKey false "a" "b") = "resource_name:\"a\" relation_name:\"b\"" := by decide +kernel

example : NamesUnique exPolicy ∧ (kvGet (lutRelations true exPolicy) (relationKey true "file" "owner")).isSome = true :=
  ⟨by simp [NamesUnique, exPolicy], by decide +kernel⟩

end Zanzi
