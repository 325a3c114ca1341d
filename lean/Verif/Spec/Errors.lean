import Verif.Spec.Store
import Verif.Model.Exec

/-
Whose fault a failed request of the graph service is, as far as the service says so.
-/

namespace Zanzi.Spec

/-- The policy a request of the graph service is about. -/
def Asks : Call → String → Prop
  | .check _ pid _, q => pid = q
  | .explainCheck _ pid _ _, q => pid = q
  | .expand _ pid _ _, q => pid = q
  | .dumpRelationships _ _ pid _, q => pid = q
  | _, _ => False

/-- An explanation is asked for in a format that does not exist. -/
def UnknownFormat : Call → Prop
  | .explainCheck _ _ _ f => f = .unknown
  | .expand _ _ _ f => f = .unknown
  | _ => False

/-- An explanation is asked for in JSON. -/
def WantsJson : Call → Prop
  | .explainCheck _ _ _ f => f = .json
  | .expand _ _ _ f => f = .json
  | _ => False

end Zanzi.Spec
