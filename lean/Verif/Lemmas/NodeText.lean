import Verif.Spec.Graph

/-
The text the code gives a node.
-/

namespace Zanzi

open Spec

theorem prettyString_iff {n : RelationNode} {text : String} : n.prettyString = .ok text ↔ NodeText n text := by
  have h : (":" ++ "*" : String) = ":*" := by decide
  have h2 : (":*" ++ ")" : String) = ":*)" := by decide
  cases n with
  | unset =>
    simp only [RelationNode.prettyString, NodeText, Res.ok.injEq]
    rw [show ("(" ++ "" ++ ":" ++ "" ++ ")" : String) = "(:)" by decide]
    exact eq_comm
  | wildcard r =>
    simp only [RelationNode.prettyString, NodeText, Res.ok.injEq, String.append_assoc]
    rw [show (":" ++ ("*" ++ ")") : String) = ":*)" by decide]
    exact eq_comm
  | entity o =>
    cases o with
    | none => simp [RelationNode.prettyString, NodeText]
    | some o =>
      simp only [RelationNode.prettyString, NodeText, Res.ok.injEq]
      exact eq_comm
  | entitySet o rel =>
    cases o with
    | none => simp [RelationNode.prettyString, NodeText]
    | some o =>
      simp only [RelationNode.prettyString, NodeText, Res.ok.injEq]
      by_cases hr : rel = ""
      · simp [hr, eq_comm]
      · simp [hr, eq_comm, String.append_assoc]

end Zanzi
