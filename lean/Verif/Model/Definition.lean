import Verif.Model.Policy
import Verif.Model.Kv

/-
Model of /repo/pkg/policy_definition/{types,unmarshaler,mapper}.go: compact policy definitions and their mapping to a
policy.  Decoding YAML (unmarshaler.go:12-22) is in Model/Yaml; here the
decoder is a parameter of `Env`.
-/

namespace Zanzi

/-- A Go map with string keys: entries with distinct keys.  The order of the list carries no meaning; iteration goes through
`RangeOrder`. -/
structure GoMap (V : Type) where
  entries : List (String × V)
  nodup : (entries.map (·.1)).Nodup

/-- Go iterates a map in an unspecified order: some permutation of its keys. -/
structure RangeOrder where
  visit : List String → List String
  perm : ∀ l, (visit l).Perm l

/-- Values of a map in iteration order (`for _, item := range m`). -/
def GoMap.range (o : RangeOrder) {V : Type} (m : GoMap V) : List V :=
  (o.visit (m.entries.map (·.1))).filterMap (fun k => kvGet m.entries k)

/-- Replace every value (`m[k] = f(k, v)` for each key). -/
def GoMap.mapValues {V W : Type} (m : GoMap V) (f : String → V → W) : GoMap W where
  entries := m.entries.map (fun p => (p.1, f p.1 p.2))
  nodup := by
    have : (m.entries.map (fun p => (p.1, f p.1 p.2))).map (·.1) = m.entries.map (·.1) := by rw [List.map_map]; rfl
    rw [this]
    exact m.nodup

/-- `RelationDefinition` — types.go:46-81.  `name` is the unexported field. -/
structure RelationDef where
  name : String
  doc : String
  expr : String
  types : List String

/-- `ResourceDefinition` — types.go:39-43; a nil map is an empty map. -/
structure ResourceDef where
  name : String
  doc : String
  relations : GoMap (Option RelationDef)

/-- `PolicyDefinition` — types.go:20-37. -/
structure PolicyDef where
  id : String
  name : String
  doc : String
  resources : GoMap (Option ResourceDef)
  attributes : List (String × String)

/-- Inner loop of `setEntityNames` — unmarshaler.go:39-48: placeholders get a zero definition, names come from the keys. -/
def nameRelation (key : String) (r : Option RelationDef) : Option RelationDef :=
  some { r.getD ⟨"", "", "", []⟩ with name := key }

/-- Outer loop of `setEntityNames` — unmarshaler.go:29-37.  Each iteration touches only the entry of its key, so the loop is a map over
the entries; the decoder allocates every definition separately. -/
def nameResource (key : String) (r : Option ResourceDef) : Option ResourceDef :=
  let r := r.getD ⟨"", "", ⟨[], .nil⟩⟩
  some { r with name := key, relations := r.relations.mapValues nameRelation }

/-- `setEntityNames` — unmarshaler.go:27-51. -/
def setEntityNames (d : PolicyDef) : PolicyDef := { d with resources := d.resources.mapValues nameResource }

/-- Insert before the first item with a larger key. -/
def insertBy {V : Type} (key : V → String) (v : V) : List V → List V
  | [] => [v]
  | w :: ws => if key v < key w then v :: w :: ws else w :: insertBy key v ws

/-- `sort.Sort(asSortable(items, keyFunc))` — mapper.go:118-158.  The library's algorithm is not modelled; `C51_sort_unique` shows that any
sorting algorithm gives this result when keys differ. -/
def sortBy {V : Type} (key : V → String) : List V → List V
  | [] => []
  | v :: vs => insertBy key v (sortBy key vs)

/-- Dereference every item: the key function and the mapper read fields of each. -/
def derefAll {V : Type} : List (Option V) → Res (List V)
  | [] => .ok []
  | v :: vs => do
    let v ← Res.deref v
    let vs ← derefAll vs
    return v :: vs

/-- `mapItemsToSlice` — mapper.go:112-121. -/
def mapItemsToSlice {V : Type} (o : RangeOrder) (m : GoMap (Option V)) (key : V → String) : Res (List V) := do
  let items ← derefAll (m.range o)
  return sortBy key items

/-- `strings.Cut(elem, ":")` — mapper.go:89. -/
def cutColon (elem : String) : String × Option String :=
  match elem.toList.dropWhile (fun c => c ≠ ':') with
  | [] => (elem, none)
  | _ :: after => (String.ofList (elem.toList.takeWhile (fun c => c ≠ ':')), some (String.ofList after))

/-- `mapSubjectRestrictionElem` — mapper.go:86-108. -/
def mapSubjectRestrictionElem (elem : String) : Restriction :=
  match cutColon elem with
  | (resource, none) => .entity resource
  | (resource, some relation) => .entitySet resource relation

/-- `mapSubjectRestriction` — mapper.go:68-84. -/
def mapSubjectRestriction (types : List String) : SubjectRestriction :=
  if types.contains "*" then .universalSet else .restrictionSet (types.map mapSubjectRestrictionElem)

/-- `mapRelation` — mapper.go:55-66. -/
def mapRelation (r : RelationDef) : Relation :=
  { name := r.name, description := r.doc, relationExpression := some (.expr r.expr), subjectRestriction := some (mapSubjectRestriction r.types) }

/-- `mapResource` — mapper.go:40-52.  `o` gives the iteration order at each resource. -/
def mapResource (o : String → RangeOrder) (r : ResourceDef) : Res Resource := do
  let rels ← mapItemsToSlice (o r.name) r.relations (·.name)
  return { name := r.name, description := r.doc, relations := rels.map mapRelation }

/-- `MapPolicyDefinition` — mapper.go:27-38. -/
def mapPolicyDefinition (top : RangeOrder) (o : String → RangeOrder) (d : PolicyDef) : Res Policy := do
  let ress ← mapItemsToSlice top d.resources (·.name)
  let resources ← mapSliceErr (mapResource o) ress
  return { id := d.id, name := d.name, description := d.doc, resources := resources, attributes := d.attributes }

/-- `PolicyFromYaml` — mapper.go:14-23, after decoding. -/
def policyFromDef (top : RangeOrder) (o : String → RangeOrder) (d : PolicyDef) : Res Policy := mapPolicyDefinition top o (setEntityNames d)

end Zanzi
