import Verif.Spec.Policy
import Verif.Model.Definition

/-
What a compact policy definition means (C51-C53): /repo/pkg/policy_definition/types.go comments, stated without loops, sorting or
string cutting.
-/

namespace Zanzi.Spec

/-- Strictly increasing names. -/
def Increasing (names : List String) : Prop := names.Pairwise (fun a b => a < b)

/-- A list of type constraints admits a subject: `*` admits all, `r` entities and wildcards of `r`, `r:x` the usersets `r#x`. -/
inductive TypesAdmit (types : List String) : Subject → Prop
  | all (s : Subject) : "*" ∈ types → TypesAdmit types s
  | entity (e : Entity) : e.resource ∈ types → ':' ∉ e.resource.toList → TypesAdmit types (.entity e)
  | wildcard (r : String) : r ∈ types → ':' ∉ r.toList → TypesAdmit types (.resourceSet r)
  | userset (e : Entity) (x : String) : e.resource ++ ":" ++ x ∈ types → ':' ∉ e.resource.toList → TypesAdmit types (.entitySet (some e) x)

/-- Relation `r` is what the entry `key: body` of a relations map describes. -/
structure DescribesRelation (key : String) (body : Option RelationDef) (r : Relation) : Prop where
  name : r.name = key
  doc : r.description = match body with | some b => b.doc | none => ""
  expr : r.relationExpression = some (.expr (match body with | some b => b.expr | none => ""))
  types : ∃ sr, r.subjectRestriction = some sr ∧ ∀ s, Permits sr s ↔ TypesAdmit (match body with | some b => b.types | none => []) s

/-- Entries of the relations map of a resource body. -/
def relationEntries : Option ResourceDef → List (String × Option RelationDef)
  | some b => b.relations.entries
  | none => []

/-- Resource `r` is what the entry `key: body` of the resources map describes. -/
structure DescribesResource (key : String) (body : Option ResourceDef) (r : Resource) : Prop where
  name : r.name = key
  doc : r.description = match body with | some b => b.doc | none => ""
  sorted : Increasing (r.relations.map (·.name))
  sound : ∀ d ∈ r.relations, ∃ k b, (k, b) ∈ relationEntries body ∧ DescribesRelation k b d
  complete : ∀ k b, (k, b) ∈ relationEntries body → ∃ d ∈ r.relations, DescribesRelation k b d

/-- Policy `p` is what the definition describes. -/
structure Describes (d : PolicyDef) (p : Policy) : Prop where
  id : p.id = d.id
  name : p.name = d.name
  doc : p.description = d.doc
  attributes : p.attributes = d.attributes
  sorted : Increasing (p.resources.map (·.name))
  sound : ∀ r ∈ p.resources, ∃ k b, (k, b) ∈ d.resources.entries ∧ DescribesResource k b r
  complete : ∀ k b, (k, b) ∈ d.resources.entries → ∃ r ∈ p.resources, DescribesResource k b r

end Zanzi.Spec
