import Verif.Spec.Store

/-
Times of requests.
-/

namespace Zanzi.Spec

/-- The time at which a creating request is served. -/
def stamp : Call → Option Timestamp
  | .createPolicy now _ _ => some now
  | .setRelationship now _ _ _ => some now
  | _ => none

/-- The clock does not run backwards during a history. -/
def InOrder (cs : List Call) : Prop := (cs.filterMap stamp).Pairwise (fun a b => a ≤ b)

end Zanzi.Spec
