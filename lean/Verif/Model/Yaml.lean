import Verif.Model.Service

/-
Model of how a YAML document becomes a policy definition: `UnmarshalPolicyDefinition` — /repo/pkg/policy_definition/unmarshaler.go:12-25 — with
the struct tags of types.go:20-81.  The library gopkg.in/yaml.v3 is not available here; what is taken from it is stated at
each definition.  Not modelled: turning text into a tree (a parameter), anchors, merge keys, explicit tags, and keys that are not plain scalars.
The library collects its type errors and fails at the end; which of them comes first does not matter here, as they are all `Err.yaml`.
-/

namespace Zanzi

/-- A YAML document tree.  Scalars are kept as written: the fields decoded here are strings, which take a number or a boolean as its text. -/
inductive Yaml where
  | null
  | scalar (text : String)
  | seq (items : List Yaml)
  | map (entries : List (String × Yaml))

namespace Yaml

/-- Decoding into a `string`: null leaves the zero value. -/
def text : Yaml → Res String
  | .null => .ok ""
  | .scalar t => .ok t
  | _ => .err .yaml

/-- Decoding the items of a sequence into strings: null items are skipped. -/
def textItems : List Yaml → Res (List String)
  | [] => .ok []
  | .null :: ys => textItems ys
  | y :: ys => do
    let t ← y.text
    let ts ← textItems ys
    return t :: ts

/-- Decoding into a `[]string` (`Types`, types.go:80). -/
def textList : Yaml → Res (List String)
  | .null => .ok []
  | .seq ys => textItems ys
  | _ => .err .yaml

/-- Decoding the values of a mapping. -/
def entryValues {V : Type} (f : Yaml → Res V) : List (String × Yaml) → Res (List (String × V))
  | [] => .ok []
  | (k, y) :: es => do
    let v ← f y
    let vs ← entryValues f es
    return (k, v) :: vs

/-- Decoding into a Go map with string keys: a key given twice is an error; a null value is stored as the zero value. -/
def table {V : Type} (f : Yaml → Res V) : Yaml → Res (GoMap V)
  | .null => .ok ⟨[], .nil⟩
  | .map es => do
    let vs ← entryValues f es
    if h : (vs.map (·.1)).Nodup then .ok ⟨vs, h⟩ else .err .yaml
  | _ => .err .yaml

/-- The value under a key of a mapping; an absent field keeps its zero value, which is also what null gives. -/
def field (es : List (String × Yaml)) (key : String) : Yaml := (kvGet es key).getD .null

/-- What the decoder checks of the keys of a struct before reading it: none is given twice, and, because of
`decoder.KnownFields(true)` (unmarshaler.go:15), each is the tag of a field. -/
def knownFields (tags : List String) (es : List (String × Yaml)) : Res Unit :=
  if (es.map (·.1)).Nodup ∧ ∀ k ∈ es.map (·.1), k ∈ tags then .ok () else .err .yaml

/-- `*RelationDefinition` — types.go:46-81; null gives a nil pointer. -/
def relation : Yaml → Res (Option RelationDef)
  | .null => .ok none
  | .map es => do
    knownFields ["doc", "expr", "types"] es
    let doc ← (field es "doc").text
    let expr ← (field es "expr").text
    let types ← (field es "types").textList
    return some ⟨"", doc, expr, types⟩
  | _ => .err .yaml

/-- `*ResourceDefinition` — types.go:39-43. -/
def resource : Yaml → Res (Option ResourceDef)
  | .null => .ok none
  | .map es => do
    knownFields ["doc", "relations"] es
    let doc ← (field es "doc").text
    let relations ← (field es "relations").table relation
    return some ⟨"", doc, relations⟩
  | _ => .err .yaml

/-- `PolicyDefinition` — types.go:20-37.  A null document leaves the zero definition.  The attributes, a Go map without order, are written
down by key. -/
def definition : Yaml → Res PolicyDef
  | .null => .ok ⟨"", "", "", ⟨[], .nil⟩, []⟩
  | .map es => do
    knownFields ["id", "name", "doc", "resources", "attributes"] es
    let id ← (field es "id").text
    let name ← (field es "name").text
    let doc ← (field es "doc").text
    let resources ← (field es "resources").table resource
    let attributes ← (field es "attributes").table text
    return ⟨id, name, doc, resources, sortBy (·.1) attributes.entries⟩
  | _ => .err .yaml

end Yaml

/-- An environment whose decoder is the one of unmarshaler.go:12-22 on top of a YAML reader. -/
def Env.withYaml (env : Env) (read : String → Res Yaml) : Env :=
  { env with decode := fun text => do
      let y ← read text
      y.definition }

end Zanzi
