import Verif.Spec.Definition
import Verif.Model.Yaml

/-
What a YAML policy definition may contain and what it says (C83), by paths of keys.
-/

namespace Zanzi.Spec

/-- A value that reads as text. -/
def Yaml.IsText (y : Yaml) : Prop := y = .null ∨ ∃ t, y = .scalar t

/-- A list of texts. -/
def Yaml.IsTexts (y : Yaml) : Prop := y = .null ∨ ∃ ys, y = .seq ys ∧ ∀ x ∈ ys, Yaml.IsText x

/-- A mapping whose keys differ and whose entries are all fine. -/
def Yaml.IsTable (fine : String → Yaml → Prop) (y : Yaml) : Prop :=
  y = .null ∨ ∃ es, y = .map es ∧ es.Pairwise (fun a b => a.1 ≠ b.1) ∧ ∀ k v, (k, v) ∈ es → fine k v

/-- The body of a relation. -/
def Yaml.IsRelation : Yaml → Prop :=
  Yaml.IsTable (fun k v => (k = "doc" ∧ Yaml.IsText v) ∨ (k = "expr" ∧ Yaml.IsText v) ∨ (k = "types" ∧ Yaml.IsTexts v))

/-- The body of a resource. -/
def Yaml.IsResource : Yaml → Prop :=
  Yaml.IsTable (fun k v => (k = "doc" ∧ Yaml.IsText v) ∨ (k = "relations" ∧ Yaml.IsTable (fun _ => Yaml.IsRelation) v))

/-- A definition. -/
def Yaml.IsDefinition : Yaml → Prop :=
  Yaml.IsTable (fun k v => (k = "id" ∧ Yaml.IsText v) ∨ (k = "name" ∧ Yaml.IsText v) ∨ (k = "doc" ∧ Yaml.IsText v) ∨
    (k = "resources" ∧ Yaml.IsTable (fun _ => Yaml.IsResource) v) ∨ (k = "attributes" ∧ Yaml.IsTable (fun _ => Yaml.IsText) v))

/-- `At y path v`: following the keys of `path` from `y` leads to `v`. -/
inductive Yaml.At : Yaml → List String → Yaml → Prop
  | here (y : Yaml) : Yaml.At y [] y
  | step (es : List (String × Yaml)) (k : String) (v w : Yaml) (path : List String) : (k, v) ∈ es → Yaml.At v path w → Yaml.At (.map es) (k :: path) w

/-- The text at a path; absent or null is the empty text. -/
def Yaml.Says (y : Yaml) (path : List String) (t : String) : Prop :=
  Yaml.At y path (.scalar t) ∨ (t = "" ∧ ∀ t', ¬ Yaml.At y path (.scalar t'))

/-- The type constraints at a path. -/
def Yaml.Lists (y : Yaml) (path : List String) (ts : List String) : Prop :=
  (∃ ys, Yaml.At y path (.seq ys) ∧ ts = ys.filterMap (fun | .scalar t => some t | _ => none)) ∨ (ts = [] ∧ ∀ ys, ¬ Yaml.At y path (.seq ys))

/-- The policy a document describes: texts where the keys say, resources and relations sorted by name. -/
structure Yaml.Describes (y : Yaml) (p : Policy) : Prop where
  id : Yaml.Says y ["id"] p.id
  name : Yaml.Says y ["name"] p.name
  doc : Yaml.Says y ["doc"] p.description
  attributes : Increasing (p.attributes.map (·.1)) ∧ ∀ k t, (k, t) ∈ p.attributes ↔ (∃ v, Yaml.At y ["attributes", k] v) ∧ Yaml.Says y ["attributes", k] t
  resources : Increasing (p.resources.map (·.name)) ∧ ∀ k, k ∈ p.resources.map (·.name) ↔ ∃ v, Yaml.At y ["resources", k] v
  resource : ∀ r ∈ p.resources, Yaml.Says y ["resources", r.name, "doc"] r.description
  relations : ∀ r ∈ p.resources, Increasing (r.relations.map (·.name)) ∧
    ∀ k, k ∈ r.relations.map (·.name) ↔ ∃ v, Yaml.At y ["resources", r.name, "relations", k] v
  relation : ∀ r ∈ p.resources, ∀ x ∈ r.relations, Yaml.Says y ["resources", r.name, "relations", x.name, "doc"] x.description ∧
    (∃ t, x.relationExpression = some (.expr t) ∧ Yaml.Says y ["resources", r.name, "relations", x.name, "expr"] t) ∧
    (∃ sr ts, x.subjectRestriction = some sr ∧ Yaml.Lists y ["resources", r.name, "relations", x.name, "types"] ts ∧ ∀ s, Permits sr s ↔ TypesAdmit ts s)

/-- The same document with entries of mappings in other orders. -/
inductive Yaml.Reordered : Yaml → Yaml → Prop
  | refl (y : Yaml) : Yaml.Reordered y y
  | trans (a b c : Yaml) : Yaml.Reordered a b → Yaml.Reordered b c → Yaml.Reordered a c
  | perm (es es' : List (String × Yaml)) : es.Perm es' → Yaml.Reordered (.map es) (.map es')
  | entry (pre post : List (String × Yaml)) (k : String) (v v' : Yaml) : Yaml.Reordered v v' →
      Yaml.Reordered (.map (pre ++ (k, v) :: post)) (.map (pre ++ (k, v') :: post))

/-- A document as /repo/docs/policy-definition.md:68-152 asks for: it has the sections marked as required. -/
def Yaml.AsDocumented (y : Yaml) : Prop :=
  ∀ key ∈ ["version", "name", "resources", "actors"], ∃ v, Yaml.At y [key] v

/-- How a relation is written. -/
def Yaml.writeRelation : Option RelationDef → Yaml
  | none => .null
  | some b => .map [("doc", .scalar b.doc), ("types", .seq (b.types.map .scalar)), ("expr", .scalar b.expr)]

/-- How a resource is written. -/
def Yaml.writeResource : Option ResourceDef → Yaml
  | none => .null
  | some b => .map [("doc", .scalar b.doc), ("relations", .map (b.relations.entries.map (fun e => (e.1, Yaml.writeRelation e.2))))]

/-- How a definition is written. -/
def Yaml.write (d : PolicyDef) : Yaml :=
  .map [("name", .scalar d.name), ("id", .scalar d.id), ("doc", .scalar d.doc),
    ("resources", .map (d.resources.entries.map (fun e => (e.1, Yaml.writeResource e.2)))), ("attributes", .map (d.attributes.map (fun e => (e.1, .scalar e.2))))]

/-- Resources and relations of a definition take their names from their keys: the bodies carry none. -/
def Unnamed (d : PolicyDef) : Prop :=
  ∀ k b, (k, some b) ∈ d.resources.entries → b.name = "" ∧ ∀ k' b', (k', some b') ∈ b.relations.entries → b'.name = ""

end Zanzi.Spec
