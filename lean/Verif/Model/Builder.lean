import Verif.Model.Service

/-
Model of the client-side builders /repo/pkg/domain/selector.go and /repo/pkg/domain/relationship.go:7-79.
-/

namespace Zanzi

/-- `SelectorBuilder` — selector.go:4-8; nil parts are `none`. -/
structure SelectorBuilder where
  objSelector : Option ObjectSelector := none
  relSelector : Option RelationSelector := none
  subjSelector : Option SubjectSelector := none

/-- The methods of the builder that change it.  Entities and subjects passed are taken to be non-nil. -/
inductive SelectorOp where
  | anyObject
  | withObject (e : Entity)
  | withRelation (name : String)
  | anyRelation
  | anySubject
  | withSubject (s : Subject)
  | reset

namespace SelectorBuilder

/-- selector.go:12-69, 81-85.  Every setter allocates a new part, so selectors built before are unaffected. -/
def apply (b : SelectorBuilder) : SelectorOp → SelectorBuilder
  | .anyObject => { b with objSelector := some .wildcard }
  | .withObject e => { b with objSelector := some (.objectSpec e) }
  | .withRelation n => { b with relSelector := some (.relationName n) }
  | .anyRelation => { b with relSelector := some .wildcard }
  | .anySubject => { b with subjSelector := some .wildcard }
  | .withSubject s => { b with subjSelector := some (.subjectSpec s) }
  | .reset => {}

/-- `Build` — selector.go:72-78. -/
def build (b : SelectorBuilder) : Selector := ⟨b.objSelector, b.relSelector, b.subjSelector⟩

/-- A builder after a sequence of method calls, starting from the zero value. -/
def run (h : List SelectorOp) : SelectorBuilder := h.foldl apply {}

end SelectorBuilder

namespace RelationshipBuilder

/-- `RelationshipBuilder.Relationship` — relationship.go:25-41. -/
def relationship (objResource objId relation subjResource subjId : String) : Relationship :=
  ⟨some ⟨objResource, objId⟩, relation, some (.entity ⟨subjResource, subjId⟩)⟩

/-- `RelationshipBuilder.EntitySet` — relationship.go:43-62. -/
def entitySet (objResource objId relation subjResource subjId subjRelation : String) : Relationship :=
  ⟨some ⟨objResource, objId⟩, relation, some (.entitySet (some ⟨subjResource, subjId⟩) subjRelation)⟩

/-- `RelationshipBuilder.Wildcard` — relationship.go:64-79. -/
def wildcard (objResource objId relation subjResource : String) : Relationship :=
  ⟨some ⟨objResource, objId⟩, relation, some (.resourceSet subjResource)⟩

end RelationshipBuilder

end Zanzi
