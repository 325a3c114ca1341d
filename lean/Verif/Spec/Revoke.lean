import Verif.Spec.Explain
import Verif.Spec.Flatten

/-
Revoking access: what an explanation says a grant rests on, and taking that away until nothing is left (C112).
-/

namespace Zanzi.Spec

/-- The tree says that the grant rests on relationship `r`: on the way through successful results, an object or wildcard `r.subject` was found among the subjects of userset `y`,
the last one above it. -/
inductive Cites : Option USet → GoalTree → Relationship → Prop
  | or {y p ps r} : p ∈ ps → Cites y p r → Cites y (.or .success ps) r
  | and {y p ps r} : p ∈ ps → Cites y p r → Cites y (.and .success ps) r
  | diff {y a b r} : Cites y a r → Cites y (.diff .success a b) r
  | path {y y' why c r} : Cites (some y') c r → Cites y (.path .success y'.node why c) r
  | found {y sub why} : Immediate sub → Cites (some y) (.leaf .success (subjectNode sub) why) ⟨some y.object, y.relation, some sub⟩

/-- Rounds of revocation of what `u` has by relation `x`: ExplainCheck grants, and a relationship its tree cites is deleted.  Between rounds the server takes any requests but ones that set relationships of the
policy.  The number counts rounds. -/
inductive Revoking (env : Env) (pid : String) (x : USet) (u : Entity) (s : Store) : Nat → Store → Prop
  | start : Revoking env pid x u s 0 s
  | round {n s' fuel t r} : Revoking env pid x u s n s' → Explains env s' fuel pid x u t true → Cites none t r →
      Revoking env pid x u s (n + 1) (((Call.deleteRelationship pid (some r)).prog env).run s').2
  | other {n s' c} : Revoking env pid x u s n s' → (∀ now r a, c ≠ Call.setRelationship now pid (some r) a) → Revoking env pid x u s n ((c.prog env).run s').2

end Zanzi.Spec
