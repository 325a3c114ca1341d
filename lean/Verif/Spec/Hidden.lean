import Verif.Model.Hidden

/-
Specification for C85: messages nothing has happened to.
-/

namespace Zanzi.Spec

/-- An entity as a composite literal makes it. -/
def Pristine (e : MEntity) : Prop := e.hidden.info = false ∧ e.hidden.size = 0 ∧ e.hidden.unknown = []

/-- A subject, with every message inside it, as composite literals make it. -/
def PristineSubject (s : MSubject) : Prop :=
  (s.hidden.info = false ∧ s.hidden.size = 0 ∧ s.hidden.unknown = []) ∧
  (∀ e, s.kind = .entity e → Pristine e) ∧
  (∀ h e r, s.kind = .entitySet h e r → (h.info = false ∧ h.size = 0 ∧ h.unknown = []) ∧ ∀ x, e = some x → Pristine x) ∧
  (∀ h n, s.kind = .resourceSet h n → h.info = false ∧ h.size = 0 ∧ h.unknown = [])

/-- The object and the subject a selector names are as composite literals make them. -/
def PristineSelector (m : MSelector) : Prop :=
  (∀ e, m.object = some (.objectSpec e) → Pristine e) ∧ (∀ s, m.subject = some (.subjectSpec s) → PristineSubject s)

end Zanzi.Spec
