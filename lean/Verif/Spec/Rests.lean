import Verif.Spec.Explain

/-
What an explanation says a grant rests on, arrows and intermediate usersets included (C116).
-/

namespace Zanzi.Spec

/-- By rule `rule`, relationship `r` leads from userset `y` to node `n`. -/
def RuleRests (y : USet) (n : RelationNode) (r : Relationship) : Rule → Prop
  | .this => ∃ sub, r = ⟨some y.object, y.relation, some sub⟩ ∧ n = subjectNode sub
  | .ttu tupleset computed => ∃ sub e, r = ⟨some y.object, tupleset, some sub⟩ ∧ pointsTo sub = some e ∧ n = .entitySet (some e) computed
  | _ => False

/-- The tree says that the grant rests on relationship `r`: on the way through successful results, a node was found below userset `y`, the last one above it, for a reason that
reads as a rule by which `r` leads there. -/
inductive RestsOn : Option USet → GoalTree → Relationship → Prop
  | or {y p ps r} : p ∈ ps → RestsOn y p r → RestsOn y (.or .success ps) r
  | and {y p ps r} : p ∈ ps → RestsOn y p r → RestsOn y (.and .success ps) r
  | diff {y a b r} : RestsOn y a r → RestsOn y (.diff .success a b) r
  | path {y y' n why c r} : n = y'.node → RestsOn (some y') c r → RestsOn y (.path .success n why c) r
  | found {y n rule r} : RuleRests y n r rule → RestsOn (some y) (.leaf .success n (ruleText rule)) r
  | passed {y n rule c r} : RuleRests y n r rule → RestsOn (some y) (.path .success n (ruleText rule) c) r

end Zanzi.Spec
