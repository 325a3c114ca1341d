import Verif.Model.Go

/-
Message types of /repo/proto/zanzi/zanzi/domain/*.proto as they reach the Go code.
A message-typed field is `Option` (Go nil pointer); a oneof has an explicit unset case.
Simplification: once a oneof variant is selected, the message inside it is non-nil (that is what
protobuf decoding produces), and repeated message fields have no nil elements.
Strings are valid UTF-8.
-/

namespace Zanzi

/-- relationship.proto `Entity`. -/
structure Entity where
  resource : String
  id : String
  deriving DecidableEq, Repr

/-- relationship.proto `Subject` (oneof), with `EntitySet` and `ResourceSet` inlined. -/
inductive Subject where
  | unset
  | entity (e : Entity)
  | entitySet (e : Option Entity) (relation : String)
  | resourceSet (resourceName : String)
  deriving DecidableEq, Repr

/-- relationship.proto `Relationship`. -/
structure Relationship where
  object : Option Entity
  relation : String
  subject : Option Subject
  deriving DecidableEq, Repr

/-- relation_expression_tree.proto `Operator`.  proto3 enums are open: other numbers decode to `unknown`. -/
inductive Operator where
  | union
  | intersection
  | difference
  | unknown
  deriving DecidableEq, Repr

/-- relation_expression_tree.proto `Rule`. -/
inductive Rule where
  | unset
  | this
  | cu (target : String)
  | ttu (tupleset : String) (computed : String)
  deriving DecidableEq, Repr

/-- relation_expression_tree.proto `RelationExpressionTree`; `nil` is a nil pointer
(`OpNode.left`/`right` may be absent), `unset` a tree whose oneof is not set. -/
inductive ExprTree where
  | nil
  | unset
  | op (left : ExprTree) (operator : Operator) (right : ExprTree)
  | rule (r : Rule)
  deriving DecidableEq, Repr

/-- policy.proto `RelationExpression`. -/
inductive RelationExpression where
  | unset
  | expr (text : String)
  | tree (t : ExprTree)
  deriving DecidableEq, Repr

/-- policy.proto `SubjectRestrictionSet.Restriction`. -/
inductive Restriction where
  | unset
  | entity (resourceName : String)
  | entitySet (resourceName : String) (relationName : String)
  deriving DecidableEq, Repr

/-- policy.proto `SubjectRestriction`. -/
inductive SubjectRestriction where
  | unset
  | restrictionSet (rs : List Restriction)
  | universalSet
  deriving DecidableEq, Repr

/-- policy.proto `Relation`. -/
structure Relation where
  name : String
  description : String := ""
  relationExpression : Option RelationExpression
  subjectRestriction : Option SubjectRestriction
  deriving DecidableEq, Repr

/-- policy.proto `Resource`. -/
structure Resource where
  name : String
  description : String := ""
  relations : List Relation
  deriving DecidableEq, Repr

/-- policy.proto `Policy`.  `attributes` (a Go map) is an association list and is only stored and
returned, never inspected. -/
structure Policy where
  id : String
  name : String := ""
  description : String := ""
  resources : List Resource
  attributes : List (String × String) := []
  deriving DecidableEq, Repr

/-- `bytes` fields. -/
abbrev Bytes := List UInt8

/-- google.protobuf.Timestamp: an opaque clock reading. -/
abbrev Timestamp := Nat

/-- policy.proto `PolicyRecord`.  The `policy` pointer is non-nil in every record the service builds
(/repo/pkg/domain/policy.go:7-13). -/
structure PolicyRecord where
  policy : Policy
  appData : Bytes
  createdAt : Timestamp
  deriving DecidableEq, Repr

/-- relationship.proto `RelationshipRecord`. -/
structure RelationshipRecord where
  policyId : String
  relationship : Relationship
  createdAt : Timestamp
  appData : Bytes
  deriving DecidableEq, Repr

/-- relation_graph.proto `RelationNode` (oneof) with the node messages inlined; the `Option` is the
`object` field, which can be nil. -/
inductive RelationNode where
  | unset
  | entitySet (object : Option Entity) (relation : String)
  | entity (object : Option Entity)
  | wildcard (resource : String)
  deriving DecidableEq, Repr

/-- `Policy.GetResourceByName` — /repo/pkg/domain/policy.go:16-23. -/
def Policy.getResourceByName (p : Policy) (name : String) : Option Resource :=
  p.resources.find? (fun r => r.name == name)

/-- `Resource.GetRelationByName` — /repo/pkg/domain/relationship.go:94-101; the receiver may be nil and is
dereferenced by the `range`. -/
def getRelationByName (r : Option Resource) (name : String) : Res (Option Relation) :=
  match r with
  | none => .panic
  | some r => .ok (r.relations.find? (fun rel => rel.name == name))

/-- `Subject.GetResourceName` — /repo/pkg/domain/relationship.go:82-92.  (For an entity set the code returns
the relation.) -/
def Subject.getResourceName : Subject → String
  | .entity e => e.resource
  | .entitySet _ rel => rel
  | .resourceSet n => n
  | .unset => ""

/-- `RelationNode.IsTerminalNode` — /repo/pkg/domain/relation_graph.go:27-33. -/
def RelationNode.isTerminal : RelationNode → Bool
  | .entitySet _ _ => false
  | _ => true

/-- Bytes fed to the hasher by `RelationNode.Id` — /repo/pkg/domain/relation_graph.go:36-59;
nil `Object` panics. -/
def RelationNode.idPreimage : RelationNode → Res String
  | .entitySet (some o) rel => .ok (o.resource ++ "/" ++ o.id ++ "/" ++ rel)
  | .entitySet none _ => .panic
  | .entity (some o) => .ok (o.resource ++ "/" ++ o.id ++ "/")
  | .entity none => .panic
  | .wildcard r => .ok (r ++ "/" ++ "/")
  | .unset => .ok ""

/-- `RelationNode.Id` — /repo/pkg/domain/relation_graph.go:36-63.  `H` is SHA-256 read as a number; the
base64 step is in Model/Base64 (`RelationNode.idText`), and `C82_id_exact` shows it can be dropped here. -/
def RelationNode.nodeId (H : String → Nat) (n : RelationNode) : Res Nat := do
  let s ← n.idPreimage
  return H s

/-- `RelationNode.PrettyString` — /repo/pkg/domain/relation_graph.go:65-86. -/
def RelationNode.prettyString : RelationNode → Res String
  | .entitySet (some o) rel =>
    .ok (("(" ++ o.resource ++ ":" ++ o.id) ++ (if rel ≠ "" then ", " ++ rel else "") ++ ")")
  | .entitySet none _ => .panic
  | .entity (some o) => .ok (("(" ++ o.resource ++ ":" ++ o.id) ++ ")")
  | .entity none => .panic
  | .wildcard r => .ok (("(" ++ r ++ ":" ++ "*") ++ ")")
  | .unset => .ok (("(" ++ "" ++ ":" ++ "") ++ ")")

/-- `RelationExpressionTree.GetRules`/`getRules` — /repo/pkg/domain/relation_expression_tree.go:73-87, with the
accumulator argument. A nil subtree is dereferenced and panics. -/
def ExprTree.getRulesAcc : ExprTree → List Rule → Res (List Rule)
  | .nil, _ => .panic
  | .unset, acc => .ok acc
  | .rule r, acc => .ok (acc ++ [r])
  | .op l _ r, acc => do
    let acc ← l.getRulesAcc acc
    r.getRulesAcc acc

/-- `GetRules` — /repo/pkg/domain/relation_expression_tree.go:73-76. -/
def ExprTree.getRules (t : ExprTree) : Res (List Rule) := t.getRulesAcc []

end Zanzi
