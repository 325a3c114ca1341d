import Verif.Spec.Sched

/-
Vocabulary for requests sent again.
-/

namespace Zanzi.Spec

/-- The same request served when the clock shows `now`. -/
def servedAt (now : Timestamp) : Call → Call
  | .createPolicy _ d a => .createPolicy now d a
  | .setRelationship _ pid r a => .setRelationship now pid r a
  | c => c

/-- What a request is answered when it is sent again right after having been answered `r`. -/
def answeredAgain : Res Answer → Res Answer
  | .ok (.created _) => .err .policyExists
  | .ok (.overwritten _) => .ok (.overwritten true)
  | .ok (.found _) => .ok (.found false)
  | .ok (.affected _) => .ok (.affected 0)
  | .ok (.deletedPolicy _ _) => .ok (.deletedPolicy false 0)
  | r => r

end Zanzi.Spec
