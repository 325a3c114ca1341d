import Verif.Model.Setup

/-
What configuration options ask for (C69).
-/

namespace Zanzi.Spec

open Setup

/-- The last element of a list to which `f` assigns something, with what it assigns. -/
def LastWith {α β : Type} (f : α → Option β) (l : List α) (b : β) : Prop :=
  ∃ before x after, l = before ++ x :: after ∧ f x = some b ∧ ∀ y ∈ after, f y = none

/-- Options about the store.  `some none`: a new in-memory store. -/
def storeAsked (home : List Char) : Opt → Option (Option Backend)
  | .kv b => some (some b)
  | .development => some none
  | .levelDb ('~' :: rest) => some (some (.level (home ++ rest)))
  | .levelDb path => some (some (.level path))
  | _ => none

/-- Options about logging. -/
def loggerAsked : Opt → Option Logger
  | .logger l => some l
  | .development => some .development
  | .developmentLogger => some .development
  | _ => none

/-- An option that works in this world. -/
def Works (w : World) : Opt → Prop
  | .kv _ => True
  | .logger _ => True
  | .development => w.zapOk = true
  | .developmentLogger => w.zapOk = true
  | .levelDb ('~' :: rest) => ∃ h, w.home = some h ∧ w.opens (h ++ rest) = true
  | .levelDb path => w.opens path = true

end Zanzi.Spec
