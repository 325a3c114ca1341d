import Verif.Spec.Clock
import Verif.Lemmas.Serve

/-
When a policy says all another one says, and perhaps more.
-/

namespace Zanzi.Spec

/-- Whoever the first relation allows as subject, the second does. -/
def AllowsMore (d d' : Relation) : Prop := ∀ sr, d.subjectRestriction = some sr → ∃ sr', d'.subjectRestriction = some sr' ∧ ∀ s, Permits sr s → Permits sr' s

/-- A policy of the same id that has the resources of the first and, in each, its relations, standing for the same expression trees and allowing at least the same subjects.  It may have others besides. -/
structure Extends (U : Unicode) (p p' : Policy) : Prop where
  id : p'.id = p.id
  resources : ∀ n, HasResource p n → HasResource p' n
  kept : ∀ a b d, Declares p a b d → ∃ d', Declares p' a b d' ∧ (∀ t, Denotes U.isIdent whiteSpace d t → Denotes U.isIdent whiteSpace d' t) ∧ AllowsMore d d'

/-- Requests that only look. -/
def LooksOnly : Call → Prop
  | .getPolicy _ | .listPolicyIds | .getRelationship _ _ | .findRelationshipRecords _ _ | .check _ _ _ | .explainCheck _ _ _ _ | .expand _ _ _ _ | .dumpRelationships _ _ _ _ => True
  | _ => False

/-- The requests that do more than look were done. -/
def WritesDone (cs : List Call) (rs : List (Res Answer)) : Prop := ∀ c r, (c, r) ∈ cs.zip rs → LooksOnly c ∨ ∃ a, r = .ok a

/-- What was answered is answered so again; where an error was answered, anything may be. -/
def Kept (r r' : Res Answer) : Prop := ∀ a, r = .ok a → r' = .ok a

end Zanzi.Spec
