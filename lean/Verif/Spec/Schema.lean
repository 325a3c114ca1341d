import Verif.Spec.Rpc

/-
The published message formats (C79): the .proto files of /repo/proto as a table, the protobuf encodings of a message of the table as a relation, and the
content of the values of the model by field name.  Nothing here mentions the encoders and decoders of the model.
-/

namespace Zanzi.Spec.Proto

open Wire (Method Request Reply RecordMsg utf8)

/-! ### The wire format -/

/-- A number in groups of seven bits, least significant first; longer forms than needed are allowed. -/
inductive Varint : Nat → Bytes → Prop
  | last {n : Nat} : n < 128 → Varint n [UInt8.ofNat n]
  | more {low n : Nat} {bs : Bytes} : low < 128 → Varint n bs → Varint (low + 128 * n) (UInt8.ofNat (low + 128) :: bs)

/-- A number of 64 bits in at most ten bytes. -/
def Number (n : Nat) (bs : Bytes) : Prop := Varint n bs ∧ bs.length ≤ 10 ∧ n < 2 ^ 64

/-- The content of a field. -/
inductive Content where
  | varint (n : Nat)
  | fixed64 (b : Bytes)
  | len (b : Bytes)
  | fixed32 (b : Bytes)

/-- The bytes of a field: a tag of number and wire type, then the content. -/
inductive FieldBytes : Nat × Content → Bytes → Prop
  | varint {num n : Nat} {tag b : Bytes} : Number (8 * num + 0) tag → Number n b → FieldBytes (num, .varint n) (tag ++ b)
  | fixed64 {num : Nat} {tag b : Bytes} : Number (8 * num + 1) tag → b.length = 8 → FieldBytes (num, .fixed64 b) (tag ++ b)
  | len {num : Nat} {tag l b : Bytes} : Number (8 * num + 2) tag → Number b.length l → FieldBytes (num, .len b) (tag ++ (l ++ b))
  | fixed32 {num : Nat} {tag b : Bytes} : Number (8 * num + 5) tag → b.length = 4 → FieldBytes (num, .fixed32 b) (tag ++ b)

/-- The bytes of a message: its fields one after the other. -/
inductive MessageBytes : List (Nat × Content) → Bytes → Prop
  | nil : MessageBytes [] []
  | cons {f : Nat × Content} {fs : List (Nat × Content)} {b bs : Bytes} : 0 < f.1 → f.1 < 2 ^ 29 → FieldBytes f b → MessageBytes fs bs → MessageBytes (f :: fs) (b ++ bs)

/-! ### The schema -/

/-- The message types. -/
inductive Msg where
  | Timestamp
  -- domain/policy.proto
  | Policy | PolicyAttributesEntry | PolicyRecord | Resource | Relation | SubjectRestriction | EntityRestriction | EntitySetRestriction | UniversalSet
  | SubjectRestrictionSet | SubjectRestrictionSetRestriction | RelationExpression
  -- domain/relation_expression_tree.proto
  | RelationExpressionTree | OpNode | Rule | This | ComputedUserset | TupleToUserset
  -- domain/relation_graph.proto
  | RelationNode | EntitySetNode | EntityNode | WildcardNode | RelationTree | AccessRequest
  -- domain/relationship.proto
  | Entity | Relationship | Subject | ResourceSet | EntitySet | RelationshipRecord
  -- domain/selector.proto
  | RelationshipSelector | ObjectSelector | RelationSelector | SubjectSelector | WildcardSelector
  -- api/policy_service.proto
  | PolicyDefinition | CreatePolicyRequest | UpdatePolicyRequest | CreatePolicyResponse | UpdatePolicyResponse | DeletePolicyRequest | DeletePolicyResponse
  | GetPolicyRequest | GetPolicyResponse | ListPolicyIdsRequest | ListPolicyIdsResponse | ListPolicyIdsResponseRecord | SetRelationshipRequest
  | SetRelationshipResponse | DeleteRelationshipRequest | DeleteRelationshipResponse | GetRelationshipRequest | GetRelationshipResponse
  | FindRelationshipRecordsRequest | FindRelationshipRecordsResponse | DeleteRelationshipsRequest | DeleteRelationshipsResponse | RelationshipRecordSet
  -- api/relation_graph.proto
  | CheckRequest | CheckResponse | CheckResponseResult | ExplainCheckRequest | ExplainCheckResponse | ExpandRequest | ExpandResponse
  | DumpRelationshipsRequest | DumpRelationshipResponse
  -- internal/kv_store/relationship_record.proto
  | StoredRelationshipData | StoredRelationship | StoredRelationNode

/-- The enum types. -/
inductive EnumType where
  | Operator | ExplainFormat | DumpFormat | UpdateStrategy | RelationType

/-- relation_expression_tree.proto:18-22, api/relation_graph.proto:73-77, 122-124, policy_service.proto:70-72, relationship_record.proto:30-35. -/
def EnumType.values : EnumType → List (String × Nat)
  | .Operator => [("UNION", 0), ("INTERSECTION", 1), ("DIFFERENCE", 2)]
  | .ExplainFormat => [("SPEW", 0), ("JSON", 1), ("DOT", 2)]
  | .DumpFormat => [("DOT", 0)]
  | .UpdateStrategy => [("IGNORE_ORPHANS", 0)]
  | .RelationType => [("UNKNOWN", 0), ("OBJECT", 1), ("OBJECT_SET", 2), ("RESOURCE_SET", 3)]

/-- The type of a field. -/
inductive Kind where
  | string
  | bytes
  | int
  | bool
  | enum (e : EnumType)
  | message (m : Msg)

/-- Types whose values are replaced, not merged, when given again. -/
def Kind.Replaced : Kind → Prop
  | .message _ => False
  | _ => True

/-- How a field may occur. -/
inductive Label where
  | plain
  | oneof
  | repeated

/-- The names of fields. -/
inductive Name where
  | seconds | nanos | id | name | description | resources | attributes | key | value | policy | app_data | created_at | relations
  | relation_expression | subject_restriction | restriction_set | universal_set | resource_name | relation_name | restrictions | entity | entity_set
  | expr | tree | op_node | rule | left | operator | right | this | cu | ttu | target_relation | tupleset_relation | computed_userset_relation
  | wildcard | object | relation | resource | node | children | subject | resource_set | policy_id | relationship | object_selector
  | relation_selector | subject_selector | object_spec | resource_spec | subject_spec | policy_yaml | policy_definition | strategy | record | found
  | relationships_removed | records | record_overwritten | selector | result | records_affected | access_request | authorized | format | goal_tree
  | root | dot | relationship_id | source | dest | type
  deriving DecidableEq

/-- A line of a message declaration. -/
structure Field where
  label : Label
  kind : Kind
  name : Name
  num : Nat

/-- The message declarations. -/
def Msg.fields : Msg → List Field
  -- google/protobuf/timestamp.proto
  | .Timestamp => [⟨.plain, .int, .seconds, 1⟩, ⟨.plain, .int, .nanos, 2⟩]
  -- domain/policy.proto:14-134
  | .Policy => [⟨.plain, .string, .id, 1⟩, ⟨.plain, .string, .name, 2⟩, ⟨.plain, .string, .description, 3⟩,
      ⟨.repeated, .message .Resource, .resources, 4⟩, ⟨.repeated, .message .PolicyAttributesEntry, .attributes, 5⟩]
  | .PolicyAttributesEntry => [⟨.plain, .string, .key, 1⟩, ⟨.plain, .string, .value, 2⟩]
  | .PolicyRecord => [⟨.plain, .message .Policy, .policy, 1⟩, ⟨.plain, .bytes, .app_data, 2⟩, ⟨.plain, .message .Timestamp, .created_at, 3⟩]
  | .Resource => [⟨.plain, .string, .name, 1⟩, ⟨.plain, .string, .description, 2⟩, ⟨.repeated, .message .Relation, .relations, 3⟩]
  | .Relation => [⟨.plain, .string, .name, 1⟩, ⟨.plain, .string, .description, 2⟩, ⟨.plain, .message .RelationExpression, .relation_expression, 3⟩,
      ⟨.plain, .message .SubjectRestriction, .subject_restriction, 4⟩]
  | .SubjectRestriction => [⟨.oneof, .message .SubjectRestrictionSet, .restriction_set, 1⟩, ⟨.oneof, .message .UniversalSet, .universal_set, 2⟩]
  | .EntityRestriction => [⟨.plain, .string, .resource_name, 1⟩]
  | .EntitySetRestriction => [⟨.plain, .string, .resource_name, 1⟩, ⟨.plain, .string, .relation_name, 2⟩]
  | .UniversalSet => []
  | .SubjectRestrictionSet => [⟨.repeated, .message .SubjectRestrictionSetRestriction, .restrictions, 1⟩]
  | .SubjectRestrictionSetRestriction => [⟨.oneof, .message .EntityRestriction, .entity, 1⟩, ⟨.oneof, .message .EntitySetRestriction, .entity_set, 2⟩]
  | .RelationExpression => [⟨.oneof, .string, .expr, 1⟩, ⟨.oneof, .message .RelationExpressionTree, .tree, 2⟩]
  -- domain/relation_expression_tree.proto:11-71
  | .RelationExpressionTree => [⟨.oneof, .message .OpNode, .op_node, 1⟩, ⟨.oneof, .message .Rule, .rule, 2⟩]
  | .OpNode => [⟨.plain, .message .RelationExpressionTree, .left, 1⟩, ⟨.plain, .enum .Operator, .operator, 2⟩,
      ⟨.plain, .message .RelationExpressionTree, .right, 3⟩]
  | .Rule => [⟨.oneof, .message .This, .this, 1⟩, ⟨.oneof, .message .ComputedUserset, .cu, 2⟩, ⟨.oneof, .message .TupleToUserset, .ttu, 3⟩]
  | .This => []
  | .ComputedUserset => [⟨.plain, .string, .target_relation, 1⟩]
  | .TupleToUserset => [⟨.plain, .string, .tupleset_relation, 1⟩, ⟨.plain, .string, .computed_userset_relation, 2⟩]
  -- domain/relation_graph.proto:11-47
  | .RelationNode => [⟨.oneof, .message .EntitySetNode, .entity_set, 1⟩, ⟨.oneof, .message .EntityNode, .entity, 2⟩,
      ⟨.oneof, .message .WildcardNode, .wildcard, 3⟩]
  | .EntitySetNode => [⟨.plain, .message .Entity, .object, 1⟩, ⟨.plain, .string, .relation, 2⟩]
  | .EntityNode => [⟨.plain, .message .Entity, .object, 1⟩]
  | .WildcardNode => [⟨.plain, .string, .resource, 1⟩]
  | .RelationTree => [⟨.plain, .message .RelationNode, .node, 1⟩, ⟨.repeated, .message .RelationTree, .children, 2⟩]
  | .AccessRequest => [⟨.plain, .message .Entity, .object, 1⟩, ⟨.plain, .string, .relation, 2⟩, ⟨.plain, .message .Entity, .subject, 3⟩]
  -- domain/relationship.proto:13-76
  | .Entity => [⟨.plain, .string, .resource, 1⟩, ⟨.plain, .string, .id, 2⟩]
  | .Relationship => [⟨.plain, .message .Entity, .object, 1⟩, ⟨.plain, .string, .relation, 2⟩, ⟨.plain, .message .Subject, .subject, 3⟩]
  | .Subject => [⟨.oneof, .message .Entity, .entity, 1⟩, ⟨.oneof, .message .EntitySet, .entity_set, 2⟩, ⟨.oneof, .message .ResourceSet, .resource_set, 3⟩]
  | .ResourceSet => [⟨.plain, .string, .resource_name, 1⟩]
  | .EntitySet => [⟨.plain, .message .Entity, .entity, 1⟩, ⟨.plain, .string, .relation, 2⟩]
  | .RelationshipRecord => [⟨.plain, .string, .policy_id, 1⟩, ⟨.plain, .message .Relationship, .relationship, 2⟩,
      ⟨.plain, .message .Timestamp, .created_at, 3⟩, ⟨.plain, .bytes, .app_data, 4⟩]
  -- domain/selector.proto:15-71
  | .RelationshipSelector => [⟨.plain, .message .ObjectSelector, .object_selector, 1⟩, ⟨.plain, .message .RelationSelector, .relation_selector, 2⟩,
      ⟨.plain, .message .SubjectSelector, .subject_selector, 3⟩]
  | .ObjectSelector => [⟨.oneof, .message .Entity, .object_spec, 1⟩, ⟨.oneof, .message .WildcardSelector, .wildcard, 2⟩,
      ⟨.oneof, .string, .resource_spec, 3⟩]
  | .RelationSelector => [⟨.oneof, .string, .relation_name, 1⟩, ⟨.oneof, .message .WildcardSelector, .wildcard, 2⟩]
  | .SubjectSelector => [⟨.oneof, .message .Subject, .subject_spec, 1⟩, ⟨.oneof, .message .WildcardSelector, .wildcard, 2⟩,
      ⟨.oneof, .string, .resource_spec, 3⟩]
  | .WildcardSelector => []
  -- api/policy_service.proto:52-179
  | .PolicyDefinition => [⟨.oneof, .message .Policy, .policy, 1⟩, ⟨.oneof, .string, .policy_yaml, 2⟩]
  | .CreatePolicyRequest => [⟨.plain, .message .PolicyDefinition, .policy_definition, 1⟩, ⟨.plain, .bytes, .app_data, 2⟩]
  | .UpdatePolicyRequest => [⟨.plain, .message .PolicyDefinition, .policy_definition, 1⟩, ⟨.plain, .bytes, .app_data, 2⟩,
      ⟨.plain, .enum .UpdateStrategy, .strategy, 3⟩]
  | .CreatePolicyResponse => [⟨.plain, .message .PolicyRecord, .record, 1⟩]
  | .UpdatePolicyResponse => []
  | .DeletePolicyRequest => [⟨.plain, .string, .id, 1⟩]
  | .DeletePolicyResponse => [⟨.plain, .bool, .found, 1⟩, ⟨.plain, .int, .relationships_removed, 2⟩]
  | .GetPolicyRequest => [⟨.plain, .string, .id, 1⟩]
  | .GetPolicyResponse => [⟨.plain, .message .PolicyRecord, .record, 1⟩]
  | .ListPolicyIdsRequest => []
  | .ListPolicyIdsResponse => [⟨.repeated, .message .ListPolicyIdsResponseRecord, .records, 1⟩]
  | .ListPolicyIdsResponseRecord => [⟨.plain, .string, .id, 1⟩]
  | .SetRelationshipRequest => [⟨.plain, .string, .policy_id, 1⟩, ⟨.plain, .message .Relationship, .relationship, 2⟩, ⟨.plain, .bytes, .app_data, 3⟩]
  | .SetRelationshipResponse => [⟨.plain, .bool, .record_overwritten, 1⟩]
  | .DeleteRelationshipRequest => [⟨.plain, .string, .policy_id, 1⟩, ⟨.plain, .message .Relationship, .relationship, 2⟩]
  | .DeleteRelationshipResponse => [⟨.plain, .bool, .found, 1⟩]
  | .GetRelationshipRequest => [⟨.plain, .string, .policy_id, 1⟩, ⟨.plain, .message .Relationship, .relationship, 2⟩]
  | .GetRelationshipResponse => [⟨.plain, .message .RelationshipRecord, .record, 1⟩]
  | .FindRelationshipRecordsRequest => [⟨.plain, .string, .policy_id, 1⟩, ⟨.plain, .message .RelationshipSelector, .selector, 2⟩]
  | .FindRelationshipRecordsResponse => [⟨.plain, .message .RelationshipRecordSet, .result, 1⟩]
  | .DeleteRelationshipsRequest => [⟨.plain, .string, .policy_id, 1⟩, ⟨.plain, .message .RelationshipSelector, .selector, 2⟩]
  | .DeleteRelationshipsResponse => [⟨.plain, .int, .records_affected, 1⟩]
  | .RelationshipRecordSet => [⟨.repeated, .message .RelationshipRecord, .records, 1⟩]
  -- api/relation_graph.proto:52-135
  | .CheckRequest => [⟨.plain, .string, .policy_id, 1⟩, ⟨.plain, .message .AccessRequest, .access_request, 2⟩]
  | .CheckResponse => [⟨.plain, .message .CheckResponseResult, .result, 1⟩]
  | .CheckResponseResult => [⟨.plain, .bool, .authorized, 1⟩]
  | .ExplainCheckRequest => [⟨.plain, .string, .policy_id, 1⟩, ⟨.plain, .message .AccessRequest, .access_request, 2⟩,
      ⟨.plain, .enum .ExplainFormat, .format, 3⟩]
  | .ExplainCheckResponse => [⟨.plain, .string, .goal_tree, 1⟩, ⟨.plain, .bool, .authorized, 2⟩, ⟨.plain, .enum .ExplainFormat, .format, 3⟩]
  | .ExpandRequest => [⟨.plain, .string, .policy_id, 1⟩, ⟨.plain, .message .RelationNode, .root, 2⟩, ⟨.plain, .enum .ExplainFormat, .format, 3⟩]
  | .ExpandResponse => [⟨.plain, .string, .goal_tree, 1⟩, ⟨.plain, .enum .ExplainFormat, .format, 2⟩]
  | .DumpRelationshipsRequest => [⟨.plain, .string, .policy_id, 1⟩, ⟨.plain, .enum .DumpFormat, .format, 2⟩]
  | .DumpRelationshipResponse => [⟨.oneof, .message .RelationTree, .tree, 1⟩, ⟨.oneof, .string, .dot, 2⟩]
  -- internal/kv_store/relationship_record.proto:9-28
  | .StoredRelationshipData => [⟨.plain, .bytes, .relationship_id, 1⟩, ⟨.plain, .message .Timestamp, .created_at, 2⟩, ⟨.plain, .bytes, .app_data, 3⟩]
  | .StoredRelationship => [⟨.plain, .message .StoredRelationNode, .source, 1⟩, ⟨.plain, .message .StoredRelationNode, .dest, 2⟩]
  | .StoredRelationNode => [⟨.plain, .string, .resource, 1⟩, ⟨.plain, .string, .id, 2⟩, ⟨.plain, .string, .relation, 3⟩,
      ⟨.plain, .enum .RelationType, .type, 4⟩]

/-! ### Values by field name, and their encodings -/

/-- Values of fields; `other` is an enum number without a name. -/
inductive Value where
  | unset
  | str (s : String)
  | bytes (b : Bytes)
  | num (n : Nat)
  | bool (b : Bool)
  | enum (name : String)
  | other
  | list (vs : List Value)
  | obj (fs : List (Name × Value))

/-- The field of that name. -/
def get (name : Name) : List (Name × Value) → Value
  | [] => .unset
  | (n, v) :: fs => if n = name then v else get name fs

/-- The value a plain field has when it is left out. -/
def isDefault : Kind → Value → Prop
  | .string, .str s => s = ""
  | .bytes, .bytes b => b = []
  | .int, .num n => n = 0
  | .bool, .bool b => b = false
  | .enum e, .enum name => (name, 0) ∈ e.values
  | .enum _, .num n => n = 0
  | _, _ => False

mutual
/-- The encodings of a message: its fields in any order, also among fields the schema does not know. -/
inductive Encodes : Msg → Value → Bytes → Prop
  | message {m : Msg} {fs : List (Name × Value)} {given ws : List (Nat × Content)} {bs : Bytes} :
      (∀ f ∈ m.fields, Occurs f.label f.kind f.num (get f.name fs) (ws.filter (fun w => w.1 = f.num))) → Settles m given ws → MessageBytes given bs →
      Encodes m (.obj fs) bs

/-- A member of the oneof of a message that another member follows does not count. -/
inductive Settles : Msg → List (Nat × Content) → List (Nat × Content) → Prop
  | all {m : Msg} {ws : List (Nat × Content)} : Settles m ws ws
  | drop {m : Msg} {f g : Field} {v w : Value} {c d : Content} {a b ws : List (Nat × Content)} : f ∈ m.fields → f.label = .oneof → ContentOf f.kind v c →
      (∀ x ∈ a, ∀ h ∈ m.fields, h.label = .oneof → x.1 ≠ h.num) →
      g ∈ m.fields → g.label = .oneof → ContentOf g.kind w d → (g.num, d) ∈ b → g.num ≠ f.num →
      Settles m (a ++ b) ws → Settles m (a ++ (f.num, c) :: b) ws

/-- What may be written for a field with the given number and value: of several values the last counts, several messages are merged by reading their
fields one after the other. -/
inductive Occurs : Label → Kind → Nat → Value → List (Nat × Content) → Prop
  | unset {l : Label} {k : Kind} {n : Nat} : Occurs l k n .unset []
  | default {k : Kind} {n : Nat} {v : Value} : isDefault k v → Occurs .plain k n v []
  | plain {k : Kind} {n : Nat} {v : Value} {c : Content} : ContentOf k v c → Occurs .plain k n v [(n, c)]
  | oneof {k : Kind} {n : Nat} {v : Value} {c : Content} : ContentOf k v c → Occurs .oneof k n v [(n, c)]
  | overridden {l : Label} {k : Kind} {n : Nat} {v w : Value} {c : Content} {ws : List (Nat × Content)} : l ≠ .repeated → k.Replaced → ContentOf k w c →
      ws ≠ [] → Occurs l k n v ws → Occurs l k n v ((n, c) :: ws)
  | merged {l : Label} {m : Msg} {n : Nat} {v : Value} {bs : List Bytes} : l ≠ .repeated → bs ≠ [] → (∀ b ∈ bs, ∃ ws, MessageBytes ws b) →
      Encodes m v bs.flatten → Occurs l (.message m) n v (bs.map (fun b => (n, .len b)))
  | nil {k : Kind} {n : Nat} : Occurs .repeated k n (.list []) []
  | cons {k : Kind} {n : Nat} {v : Value} {vs : List Value} {c : Content} {ws : List (Nat × Content)} :
      ContentOf k v c → Occurs .repeated k n (.list vs) ws → Occurs .repeated k n (.list (v :: vs)) ((n, c) :: ws)

/-- The content of a field with the given type and value. -/
inductive ContentOf : Kind → Value → Content → Prop
  | string {s : String} : ContentOf .string (.str s) (.len (utf8 s))
  | bytes {b : Bytes} : ContentOf .bytes (.bytes b) (.len b)
  | int {n : Nat} : ContentOf .int (.num n) (.varint n)
  | false : ContentOf .bool (.bool false) (.varint 0)
  | true {n : Nat} : n ≠ 0 → ContentOf .bool (.bool true) (.varint n)
  | enum {e : EnumType} {name : String} {n : Nat} : (name, n % 2 ^ 32) ∈ e.values → ContentOf (.enum e) (.enum name) (.varint n)
  | other {e : EnumType} {n : Nat} : (∀ name, (name, n % 2 ^ 32) ∉ e.values) → ContentOf (.enum e) .other (.varint n)
  | enumNumber {e : EnumType} {n : Nat} : ContentOf (.enum e) (.num n) (.varint n)
  | message {m : Msg} {v : Value} {b : Bytes} : Encodes m v b → ContentOf (.message m) v (.len b)
end

/-! ### The content of the model's values -/

/-- A message that may be missing. -/
def opt {α : Type} (f : α → Value) : Option α → Value
  | none => .unset
  | some a => f a

def entity (e : Entity) : Value := .obj [(.resource, .str e.resource), (.id, .str e.id)]

def subject : Subject → Value
  | .unset => .obj []
  | .entity e => .obj [(.entity, entity e)]
  | .entitySet e rel => .obj [(.entity_set, .obj [(.entity, opt entity e), (.relation, .str rel)])]
  | .resourceSet res => .obj [(.resource_set, .obj [(.resource_name, .str res)])]

def relationship (r : Relationship) : Value :=
  .obj [(.object, opt entity r.object), (.relation, .str r.relation), (.subject, opt subject r.subject)]

def timestamp (t : Nat) : Value := .obj [(.seconds, .num (t / 1000000000)), (.nanos, .num (t % 1000000000))]

def record (r : RecordMsg) : Value :=
  .obj [(.policy_id, .str r.policyId), (.relationship, opt relationship r.relationship), (.created_at, opt timestamp r.createdAt),
    (.app_data, .bytes r.appData)]

def objectSelector : ObjectSelector → Value
  | .unset => .obj []
  | .objectSpec e => .obj [(.object_spec, entity e)]
  | .wildcard => .obj [(.wildcard, .obj [])]
  | .resourceSpec res => .obj [(.resource_spec, .str res)]

def relationSelector : RelationSelector → Value
  | .unset => .obj []
  | .relationName name => .obj [(.relation_name, .str name)]
  | .wildcard => .obj [(.wildcard, .obj [])]

def subjectSelector : SubjectSelector → Value
  | .unset => .obj []
  | .subjectSpec s => .obj [(.subject_spec, subject s)]
  | .wildcard => .obj [(.wildcard, .obj [])]
  | .resourceSpec res => .obj [(.resource_spec, .str res)]

def selector (s : Selector) : Value :=
  .obj [(.object_selector, opt objectSelector s.object), (.relation_selector, opt relationSelector s.relation),
    (.subject_selector, opt subjectSelector s.subject)]

def access (r : AccessRequest) : Value :=
  .obj [(.object, opt entity r.object), (.relation, .str r.relation), (.subject, opt entity r.subject)]

def node : RelationNode → Value
  | .unset => .obj []
  | .entitySet o rel => .obj [(.entity_set, .obj [(.object, opt entity o), (.relation, .str rel)])]
  | .entity o => .obj [(.entity, .obj [(.object, opt entity o)])]
  | .wildcard res => .obj [(.wildcard, .obj [(.resource, .str res)])]

def format : ExplainFormat → Value
  | .spew => .enum "SPEW"
  | .json => .enum "JSON"
  | .dot => .enum "DOT"
  | .unknown => .other

def dumpFormat : GraphService.DumpFormat → Value
  | .dot => .enum "DOT"
  | .unknown => .other

def operator : Operator → Value
  | .union => .enum "UNION"
  | .intersection => .enum "INTERSECTION"
  | .difference => .enum "DIFFERENCE"
  | .unknown => .other

def rule : Rule → Value
  | .unset => .obj []
  | .this => .obj [(.this, .obj [])]
  | .cu target => .obj [(.cu, .obj [(.target_relation, .str target)])]
  | .ttu tupleset computed => .obj [(.ttu, .obj [(.tupleset_relation, .str tupleset), (.computed_userset_relation, .str computed)])]

def tree : ExprTree → Value
  | .nil => .unset
  | .unset => .obj []
  | .op l o r => .obj [(.op_node, .obj [(.left, tree l), (.operator, operator o), (.right, tree r)])]
  | .rule r => .obj [(.rule, rule r)]

def expression : RelationExpression → Value
  | .unset => .obj []
  | .expr text => .obj [(.expr, .str text)]
  | .tree t => .obj [(.tree, tree t)]

def restriction : Restriction → Value
  | .unset => .obj []
  | .entity res => .obj [(.entity, .obj [(.resource_name, .str res)])]
  | .entitySet res rel => .obj [(.entity_set, .obj [(.resource_name, .str res), (.relation_name, .str rel)])]

def subjectRestriction : SubjectRestriction → Value
  | .unset => .obj []
  | .restrictionSet rs => .obj [(.restriction_set, .obj [(.restrictions, .list (rs.map restriction))])]
  | .universalSet => .obj [(.universal_set, .obj [])]

def relation (r : Relation) : Value :=
  .obj [(.name, .str r.name), (.description, .str r.description), (.relation_expression, opt expression r.relationExpression),
    (.subject_restriction, opt subjectRestriction r.subjectRestriction)]

def resource (r : Resource) : Value :=
  .obj [(.name, .str r.name), (.description, .str r.description), (.relations, .list (r.relations.map relation))]

def attributeEntry (p : String × String) : Value := .obj [(.key, .str p.1), (.value, .str p.2)]

def policy (p : Policy) : Value :=
  .obj [(.id, .str p.id), (.name, .str p.name), (.description, .str p.description), (.resources, .list (p.resources.map resource)),
    (.attributes, .list (p.attributes.map attributeEntry))]

def policyRecord (r : PolicyRecord) : Value :=
  .obj [(.policy, policy r.policy), (.app_data, .bytes r.appData), (.created_at, timestamp r.createdAt)]

def definition : PolicyDefinition → Value
  | .unset => .obj []
  | .policy p => .obj [(.policy, policy p)]
  | .yaml text => .obj [(.policy_yaml, .str text)]

def request : Request → Value
  | .createPolicy d a => .obj [(.policy_definition, opt definition d), (.app_data, .bytes a)]
  | .updatePolicy d a strategy => .obj [(.policy_definition, opt definition d), (.app_data, .bytes a), (.strategy, .num strategy)]
  | .deletePolicy id => .obj [(.id, .str id)]
  | .getPolicy id => .obj [(.id, .str id)]
  | .listPolicyIds => .obj []
  | .setRelationship pid r a => .obj [(.policy_id, .str pid), (.relationship, opt relationship r), (.app_data, .bytes a)]
  | .deleteRelationship pid r => .obj [(.policy_id, .str pid), (.relationship, opt relationship r)]
  | .getRelationship pid r => .obj [(.policy_id, .str pid), (.relationship, opt relationship r)]
  | .findRelationshipRecords pid sel => .obj [(.policy_id, .str pid), (.selector, opt selector sel)]
  | .deleteRelationships pid sel => .obj [(.policy_id, .str pid), (.selector, opt selector sel)]
  | .check pid req => .obj [(.policy_id, .str pid), (.access_request, opt access req)]
  | .explainCheck pid req f => .obj [(.policy_id, .str pid), (.access_request, opt access req), (.format, format f)]
  | .expand pid root f => .obj [(.policy_id, .str pid), (.root, opt node root), (.format, format f)]
  | .dumpRelationships pid f => .obj [(.policy_id, .str pid), (.format, dumpFormat f)]

def reply : Reply → Value
  | .createPolicy rec => .obj [(.record, opt policyRecord rec)]
  | .updatePolicy => .obj []
  | .deletePolicy found removed => .obj [(.found, .bool found), (.relationships_removed, .num removed)]
  | .getPolicy rec => .obj [(.record, opt policyRecord rec)]
  | .listPolicyIds ids => .obj [(.records, .list (ids.map (fun id => .obj [(.id, .str id)])))]
  | .setRelationship b => .obj [(.record_overwritten, .bool b)]
  | .deleteRelationship b => .obj [(.found, .bool b)]
  | .getRelationship rec => .obj [(.record, opt record rec)]
  | .findRelationshipRecords result => .obj [(.result, opt (fun l => .obj [(.records, .list (l.map record))]) result)]
  | .deleteRelationships n => .obj [(.records_affected, .num n)]
  | .check result => .obj [(.result, opt (fun b => .obj [(.authorized, .bool b)]) result)]
  | .explainCheck text b f => .obj [(.goal_tree, .str text), (.authorized, .bool b), (.format, format f)]
  | .expand text f => .obj [(.goal_tree, .str text), (.format, format f)]
  | .dumpRelationships dot => .obj [(.dot, opt .str dot)]

def relType : RelType → Value
  | .unknown => .enum "UNKNOWN"
  | .object => .enum "OBJECT"
  | .objectSet => .enum "OBJECT_SET"
  | .resourceSet => .enum "RESOURCE_SET"

def storedNode (n : INode) : Value :=
  .obj [(.resource, .str n.resource), (.id, .str n.id), (.relation, .str n.relation), (.type, relType n.type)]

def storedRelationship (r : IRel) : Value := .obj [(.source, storedNode r.source), (.dest, storedNode r.dest)]

/-- The number in 32 bytes, most significant first. -/
def Key32 (k : Nat) (b : Bytes) : Prop := b.length = 32 ∧ b.foldl (fun a x => a * 256 + x.toNat) 0 = k

/-- The id of a relationship: the two keys of 32 bytes one after the other. -/
def storedData (d : RelData) (id : Bytes) : Value := .obj [(.relationship_id, .bytes id), (.created_at, timestamp d.createdAt), (.app_data, .bytes d.appData)]

/-! ### The methods -/

/-- The `rpc` lines: service, method, request and response — policy_service.proto:16-49, api/relation_graph.proto:17-36. -/
def rpc : Method → String × String × Msg × Msg
  | .createPolicy => ("PolicyService", "CreatePolicy", .CreatePolicyRequest, .CreatePolicyResponse)
  | .updatePolicy => ("PolicyService", "UpdatePolicy", .UpdatePolicyRequest, .UpdatePolicyResponse)
  | .deletePolicy => ("PolicyService", "DeletePolicy", .DeletePolicyRequest, .DeletePolicyResponse)
  | .getPolicy => ("PolicyService", "GetPolicy", .GetPolicyRequest, .GetPolicyResponse)
  | .listPolicyIds => ("PolicyService", "ListPolicyIds", .ListPolicyIdsRequest, .ListPolicyIdsResponse)
  | .setRelationship => ("PolicyService", "SetRelationship", .SetRelationshipRequest, .SetRelationshipResponse)
  | .deleteRelationship => ("PolicyService", "DeleteRelationship", .DeleteRelationshipRequest, .DeleteRelationshipResponse)
  | .getRelationship => ("PolicyService", "GetRelationship", .GetRelationshipRequest, .GetRelationshipResponse)
  | .deleteRelationships => ("PolicyService", "DeleteRelationships", .DeleteRelationshipsRequest, .DeleteRelationshipsResponse)
  | .findRelationshipRecords => ("PolicyService", "FindRelationshipRecords", .FindRelationshipRecordsRequest, .FindRelationshipRecordsResponse)
  | .check => ("RelationGraph", "Check", .CheckRequest, .CheckResponse)
  | .explainCheck => ("RelationGraph", "ExplainCheck", .ExplainCheckRequest, .ExplainCheckResponse)
  | .expand => ("RelationGraph", "Expand", .ExpandRequest, .ExpandResponse)
  | .dumpRelationships => ("RelationGraph", "DumpRelationships", .DumpRelationshipsRequest, .DumpRelationshipResponse)

/-- The name gRPC gives a method: package, service, method. -/
def fullName (m : Method) : String := "/" ++ "sourcenetwork.zanzi.api" ++ "." ++ (rpc m).1 ++ "/" ++ (rpc m).2.1

/-- The request message of a method. -/
def requestMsg (m : Method) : Msg := (rpc m).2.2.1

/-- The response message of a method. -/
def replyMsg (m : Method) : Msg := (rpc m).2.2.2

/-- The method a reply belongs to. -/
def replyMethod : Reply → Method
  | .createPolicy .. => .createPolicy
  | .updatePolicy => .updatePolicy
  | .deletePolicy .. => .deletePolicy
  | .getPolicy .. => .getPolicy
  | .listPolicyIds .. => .listPolicyIds
  | .setRelationship .. => .setRelationship
  | .deleteRelationship .. => .deleteRelationship
  | .getRelationship .. => .getRelationship
  | .findRelationshipRecords .. => .findRelationshipRecords
  | .deleteRelationships .. => .deleteRelationships
  | .check .. => .check
  | .explainCheck .. => .explainCheck
  | .expand .. => .expand
  | .dumpRelationships .. => .dumpRelationships

/-- The policy in a request can be read, which takes a limit on nesting. -/
def RequestReads (limit : Nat) : Request → Prop
  | .createPolicy d _ | .updatePolicy d _ _ => DefinitionFits limit d
  | _ => True

/-- The policy in a reply can be read. -/
def ReplyReads (limit : Nat) : Reply → Prop
  | .createPolicy rec | .getPolicy rec =>
    ∀ x, rec = some x → WholeTrees x.policy ∧ (x.policy.attributes.map (·.1)).Nodup ∧ Nest.policyRecord x + 1 ≤ limit
  | _ => True

end Zanzi.Spec.Proto
