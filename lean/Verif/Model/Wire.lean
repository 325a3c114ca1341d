import Verif.Model.Store

/-
Model of how records become bytes: `rcdb.ProtoMarshaler` (/repo/internal/store/kv_store/kv_store.go:24,49,61) writes the protobuf encoding of the
messages of /repo/proto/zanzi/zanzi/domain/{policy,relation_expression_tree}.proto and /repo/proto/internal/kv_store/relationship_record.proto.
Field numbers and types are those of the .proto files; the algorithm is that of google.golang.org/protobuf v1.31.0
(not available here): fields in ascending order, zero values of plain fields left out, members of a oneof always written, unknown fields skipped,
varints of at most ten bytes, strings checked to be UTF-8, and at most `limit` messages nested when decoding (10000 in Go).
Simplifications: unknown fields are dropped (Go keeps them beside the message and writes them again; only selectors compare them, see Model/Hidden);
a member of a oneof that another member follows is not checked (Go refuses the message if it does not decode);
a record without policy or without timestamp is not a value of the model's types and does not decode;
messages with groups do not decode (Go skips them as unknown fields).
-/

namespace Zanzi.Wire

/-- The value of a field on the wire. -/
inductive WVal where
  | varint (n : Nat)
  | bytes (b : Bytes)
  deriving DecidableEq

/-- A numbered field. -/
abbrev WField := Nat × WVal

/-- `protowire.AppendVarint`. -/
def encVarint (n : Nat) : Bytes :=
  if n < 128 then [UInt8.ofNat n] else UInt8.ofNat (n % 128 + 128) :: encVarint (n / 128)
termination_by n
decreasing_by omega

/-- `protowire.ConsumeVarint`: the first argument is the number of bytes that may still be read (10 at the start; the tenth may
only be 0 or 1). -/
def decVarint : Nat → Bytes → Option (Nat × Bytes)
  | 0, _ => none
  | _ + 1, [] => none
  | k + 1, b :: bs =>
    if b.toNat < 128 then
      if k = 0 ∧ 1 < b.toNat then none else some (b.toNat, bs)
    else
      match decVarint k bs with
      | none => none
      | some (n, rest) => some (b.toNat - 128 + 128 * n, rest)

/-- A field: tag (number and wire type), then the value, length first for bytes. -/
def encField : WField → Bytes
  | (num, .varint n) => encVarint (num * 8) ++ encVarint n
  | (num, .bytes b) => encVarint (num * 8 + 2) ++ (encVarint b.length ++ b)

/-- A message is the sequence of its fields. -/
def encFields : List WField → Bytes
  | [] => []
  | f :: fs => encField f ++ encFields fs

/-- Splitting a message into fields; the first argument bounds the number of fields. No message has fields of the fixed-width types (1 and 5): these are
unknown fields. Field numbers have 29 bits. -/
def decFieldsN : Nat → Bytes → Option (List WField)
  | _, [] => some []
  | 0, _ :: _ => none
  | k + 1, b :: bs =>
    match decVarint 10 (b :: bs) with
    | none => none
    | some (tag, rest) =>
      if tag / 8 = 0 ∨ 2 ^ 29 ≤ tag / 8 then none
      else if tag % 8 = 0 then
        match decVarint 10 rest with
        | none => none
        | some (n, rest) => (decFieldsN k rest).map (fun fs => (tag / 8, .varint n) :: fs)
      else if tag % 8 = 2 then
        match decVarint 10 rest with
        | none => none
        | some (len, rest) =>
          if rest.length < len then none
          else (decFieldsN k (rest.drop len)).map (fun fs => (tag / 8, .bytes (rest.take len)) :: fs)
      else if tag % 8 = 1 then if rest.length < 8 then none else decFieldsN k (rest.drop 8)
      else if tag % 8 = 5 then if rest.length < 4 then none else decFieldsN k (rest.drop 4)
      else none

/-- Every field takes at least one byte. -/
def decFields (bs : Bytes) : Option (List WField) := decFieldsN bs.length bs

/-- UTF-8. -/
def utf8 (s : String) : Bytes := s.toByteArray.data.toList

/-- UTF-8 with the validity check. -/
def ofUtf8 (b : Bytes) : Option String := String.fromUTF8? ⟨b.toArray⟩

/-! ### Writing fields -/

/-- A plain string field. -/
def strField (n : Nat) (s : String) : List WField := if s = "" then [] else [(n, .bytes (utf8 s))]
/-- A plain bytes field. -/
def bytesField (n : Nat) (b : Bytes) : List WField := if b = [] then [] else [(n, .bytes b)]
/-- A plain number or enum field. -/
def numField (n : Nat) (v : Nat) : List WField := if v = 0 then [] else [(n, .varint v)]
/-- A message field, absent when nil. -/
def msgField {α : Type} (enc : α → Bytes) (n : Nat) : Option α → List WField
  | none => []
  | some a => [(n, .bytes (enc a))]
/-- A repeated message field. -/
def repField {α : Type} (enc : α → Bytes) (n : Nat) (as : List α) : List WField := as.map (fun a => (n, .bytes (enc a)))

/-! ### Reading fields -/

/-- The byte values of a field; a value of another wire type is an unknown field. -/
def blobs (n : Nat) (fs : List WField) : List Bytes :=
  fs.filterMap (fun f => match f with
    | (m, .bytes b) => if m = n then some b else none
    | (_, .varint _) => none)

/-- The numeric values of a field. -/
def nums (n : Nat) (fs : List WField) : List Nat :=
  fs.filterMap (fun f => match f with
    | (m, .varint v) => if m = n then some v else none
    | (_, .bytes _) => none)

/-- All or nothing. -/
def allSome {α β : Type} (f : α → Option β) : List α → Option (List β)
  | [] => some []
  | a :: as =>
    match f a with
    | none => none
    | some b => (allSome f as).map (fun bs => b :: bs)

/-- A plain string field: the last value, empty when absent. -/
def getStr (n : Nat) (fs : List WField) : Option String := (allSome ofUtf8 (blobs n fs)).map (fun l => l.getLast?.getD "")
/-- A plain bytes field. -/
def getBytes (n : Nat) (fs : List WField) : Bytes := (blobs n fs).getLast?.getD []
/-- A plain number field. -/
def getNum (n : Nat) (fs : List WField) : Nat := (nums n fs).getLast?.getD 0
/-- A message given several times is merged, which is to read its parts one after the other; each must be a message by itself (`[0]` is none). -/
def joined : List Bytes → Bytes
  | [b] => b
  | bs => if bs.all (fun b => (decFields b).isSome) then bs.flatten else [0]
/-- A message field. -/
def getMsg {α : Type} (dec : Bytes → Option α) (n : Nat) (fs : List WField) : Option (Option α) :=
  match blobs n fs with
  | [] => some none
  | bs => (dec (joined bs)).map some
/-- A repeated message field. -/
def getRep {α : Type} (dec : Bytes → Option α) (n : Nat) (fs : List WField) : Option (List α) := allSome dec (blobs n fs)

/-- The members of a oneof as they were written. -/
def members (ns : List Nat) (fs : List WField) : List (Nat × Bytes) :=
  fs.filterMap (fun f => match f with
    | (m, .bytes b) => if m ∈ ns then some (m, b) else none
    | (_, .varint _) => none)

/-- The member of a oneof that was written last; a message given several times with no other member between is merged, a text (`texts`) is replaced. -/
def getOneof (ns : List Nat) (fs : List WField) (texts : List Nat := []) : Option (Nat × Bytes) :=
  match (members ns fs).reverse with
  | [] => none
  | (n, b) :: ms => some (n, if n ∈ texts then b else joined ((b :: (ms.takeWhile (fun m => m.1 = n)).map (·.2)).reverse))

/-- Entering a message: uses up one level of nesting. -/
def message {α : Type} (limit : Nat) (bs : Bytes) (k : Nat → List WField → Option α) : Option α :=
  match limit with
  | 0 => none
  | l + 1 =>
    match decFields bs with
    | none => none
    | some fs => k l fs

/-! ### relation_expression_tree.proto -/

/-- relation_expression_tree.proto:18-22; an unknown number is written as it came, here 3. -/
def encOperator : Operator → Nat
  | .union => 0
  | .intersection => 1
  | .difference => 2
  | .unknown => 3

/-- Open enum of 32 bits. -/
def decOperator (n : Nat) : Operator :=
  match n % 4294967296 with
  | 0 => .union
  | 1 => .intersection
  | 2 => .difference
  | _ => .unknown

/-- `Rule` — relation_expression_tree.proto:31-37; `This` 40, `ComputedUserset` 44-47, `TupleToUserset` 63-71. -/
def encRule : Rule → Bytes
  | .unset => []
  | .this => encFields [(1, .bytes [])]
  | .cu target => encFields [(2, .bytes (encFields (strField 1 target)))]
  | .ttu tupleset computed => encFields [(3, .bytes (encFields (strField 1 tupleset ++ strField 2 computed)))]

/-- `Rule`. -/
def decRule (limit : Nat) (bs : Bytes) : Option Rule :=
  message limit bs (fun l fs =>
    match getOneof [1, 2, 3] fs with
    | none => some .unset
    | some (n, b) =>
      if n = 1 then message l b (fun _ _ => some .this)
      else if n = 2 then message l b (fun _ fs => (getStr 1 fs).map .cu)
      else message l b (fun _ fs => do
        let a ← getStr 1 fs
        let c ← getStr 2 fs
        return .ttu a c))

/-- Whether a subtree is absent. -/
def isNil : ExprTree → Bool
  | .nil => true
  | _ => false

/-- `RelationExpressionTree` and `OpNode` — relation_expression_tree.proto:11-16, 24-28; a nil subtree is left out. -/
def encTree : ExprTree → Bytes
  | .nil => []
  | .unset => []
  | .op l o r => encFields [(1, .bytes (encFields (
      (if isNil l then [] else [(1, .bytes (encTree l))]) ++ numField 2 (encOperator o) ++
      (if isNil r then [] else [(3, .bytes (encTree r))]))))]
  | .rule r => encFields [(2, .bytes (encRule r))]

/-- `RelationExpressionTree`. -/
def decTree : Nat → Bytes → Option ExprTree
  | 0, _ => none
  | l + 1, bs =>
    match decFields bs with
    | none => none
    | some fs =>
      match getOneof [1, 2] fs with
      | none => some .unset
      | some (n, b) =>
        if n = 1 then
          match l with
          | 0 => none
          | l + 1 =>
            match decFields b with
            | none => none
            | some fs => do
              let left ← getMsg (decTree l) 1 fs
              let right ← getMsg (decTree l) 3 fs
              return .op (left.getD .nil) (decOperator (getNum 2 fs)) (right.getD .nil)
        else (decRule l b).map .rule

/-! ### policy.proto -/

/-- `RelationExpression` — policy.proto:125-134; the text is written even when empty. -/
def encExpr : RelationExpression → Bytes
  | .unset => []
  | .expr text => encFields [(1, .bytes (utf8 text))]
  | .tree t => encFields [(2, .bytes (encTree t))]

/-- `RelationExpression`. -/
def decExpr (limit : Nat) (bs : Bytes) : Option RelationExpression :=
  message limit bs (fun l fs =>
    match getOneof [1, 2] fs (texts := [1]) with
    | none => some .unset
    | some (n, b) => if n = 1 then (ofUtf8 b).map .expr else (decTree l b).map .tree)

/-- `SubjectRestrictionSet.Restriction` — policy.proto:113-119; `EntityRestriction` 95-98, `EntitySetRestriction` 102-105. -/
def encRestriction : Restriction → Bytes
  | .unset => []
  | .entity res => encFields [(1, .bytes (encFields (strField 1 res)))]
  | .entitySet res rel => encFields [(2, .bytes (encFields (strField 1 res ++ strField 2 rel)))]

/-- `SubjectRestrictionSet.Restriction`. -/
def decRestriction (limit : Nat) (bs : Bytes) : Option Restriction :=
  message limit bs (fun l fs =>
    match getOneof [1, 2] fs with
    | none => some .unset
    | some (n, b) =>
      if n = 1 then message l b (fun _ fs => (getStr 1 fs).map .entity)
      else message l b (fun _ fs => do
        let a ← getStr 1 fs
        let c ← getStr 2 fs
        return .entitySet a c))

/-- `SubjectRestriction` — policy.proto:85-91; `UniversalSet` 109, `SubjectRestrictionSet` 111-122. -/
def encSubjectRestriction : SubjectRestriction → Bytes
  | .unset => []
  | .restrictionSet rs => encFields [(1, .bytes (encFields (repField encRestriction 1 rs)))]
  | .universalSet => encFields [(2, .bytes [])]

/-- `SubjectRestriction`. -/
def decSubjectRestriction (limit : Nat) (bs : Bytes) : Option SubjectRestriction :=
  message limit bs (fun l fs =>
    match getOneof [1, 2] fs with
    | none => some .unset
    | some (n, b) =>
      if n = 1 then message l b (fun l fs => (getRep (decRestriction l) 1 fs).map .restrictionSet)
      else message l b (fun _ _ => some .universalSet))

/-- `Relation` — policy.proto:64-79. -/
def encRelation (r : Relation) : Bytes :=
  encFields (strField 1 r.name ++ strField 2 r.description ++ msgField encExpr 3 r.relationExpression ++
    msgField encSubjectRestriction 4 r.subjectRestriction)

/-- `Relation`. -/
def decRelation (limit : Nat) (bs : Bytes) : Option Relation :=
  message limit bs (fun l fs => do
    let name ← getStr 1 fs
    let description ← getStr 2 fs
    let e ← getMsg (decExpr l) 3 fs
    let s ← getMsg (decSubjectRestriction l) 4 fs
    return ⟨name, description, e, s⟩)

/-- `Resource` — policy.proto:46-57. -/
def encResource (r : Resource) : Bytes :=
  encFields (strField 1 r.name ++ strField 2 r.description ++ repField encRelation 3 r.relations)

/-- `Resource`. -/
def decResource (limit : Nat) (bs : Bytes) : Option Resource :=
  message limit bs (fun l fs => do
    let name ← getStr 1 fs
    let description ← getStr 2 fs
    let rels ← getRep (decRelation l) 3 fs
    return ⟨name, description, rels⟩)

/-- A map entry: key and value are always written. -/
def encEntry (p : String × String) : Bytes := encFields [(1, .bytes (utf8 p.1)), (2, .bytes (utf8 p.2))]

/-- A map entry. -/
def decEntry (bs : Bytes) : Option (String × String) :=
  match decFields bs with
  | none => none
  | some fs => do
    let k ← getStr 1 fs
    let v ← getStr 2 fs
    return (k, v)

/-- `m[k] = v` for every decoded entry. -/
def putAll : List (String × String) → List (String × String) → List (String × String)
  | m, [] => m
  | m, p :: ps => putAll (kvDel m p.1 ++ [p]) ps

/-- `Policy` — policy.proto:14-30.  Map entries are written in iteration order, here that of the list. -/
def encPolicy (p : Policy) : Bytes :=
  encFields (strField 1 p.id ++ strField 2 p.name ++ strField 3 p.description ++ repField encResource 4 p.resources ++
    repField encEntry 5 p.attributes)

/-- `Policy`. -/
def decPolicy (limit : Nat) (bs : Bytes) : Option Policy :=
  message limit bs (fun l fs => do
    let id ← getStr 1 fs
    let name ← getStr 2 fs
    let description ← getStr 3 fs
    let resources ← getRep (decResource l) 4 fs
    let entries ← getRep decEntry 5 fs
    return ⟨id, name, description, resources, putAll [] entries⟩)

/-- google.protobuf.Timestamp: seconds (1) and nanoseconds (2) of a clock reading in nanoseconds after the epoch. -/
def encTimestamp (t : Timestamp) : Bytes := encFields (numField 1 (t / 1000000000) ++ numField 2 (t % 1000000000))

/-- google.protobuf.Timestamp. -/
def decTimestamp (limit : Nat) (bs : Bytes) : Option Timestamp :=
  message limit bs (fun _ fs => some (getNum 1 fs * 1000000000 + getNum 2 fs))

/-- `PolicyRecord` — policy.proto:33-42. -/
def encPolicyRecord (r : PolicyRecord) : Bytes :=
  encFields ([(1, .bytes (encPolicy r.policy))] ++ bytesField 2 r.appData ++ [(3, .bytes (encTimestamp r.createdAt))])

/-- What `Marshal` may write for a record: Go ranges over the attribute map in any order. -/
def PolicyBytes (r : PolicyRecord) (bs : Bytes) : Prop :=
  ∃ attrs, attrs.Perm r.policy.attributes ∧ bs = encPolicyRecord { r with policy := { r.policy with attributes := attrs } }

/-- `PolicyRecord`. -/
def decPolicyRecord (limit : Nat) (bs : Bytes) : Option PolicyRecord :=
  message limit bs (fun l fs =>
    match getMsg (decPolicy l) 1 fs, getMsg (decTimestamp l) 3 fs with
    | some (some p), some (some t) => some ⟨p, getBytes 2 fs, t⟩
    | _, _ => none)

/-! ### relationship_record.proto -/

/-- relationship_record.proto:30-35. -/
def encRelType : RelType → Nat
  | .unknown => 0
  | .object => 1
  | .objectSet => 2
  | .resourceSet => 3

/-- Numbers above 3 are treated by the mapper as `UNKNOWN` is (mapper.go:50-74, 117-143). -/
def decRelType (n : Nat) : RelType :=
  match n % 4294967296 with
  | 1 => .object
  | 2 => .objectSet
  | 3 => .resourceSet
  | _ => .unknown

/-- `RelationNode` — relationship_record.proto:23-28. -/
def encINode (n : INode) : Bytes :=
  encFields (strField 1 n.resource ++ strField 2 n.id ++ strField 3 n.relation ++ numField 4 (encRelType n.type))

/-- `RelationNode`. -/
def decINode (limit : Nat) (bs : Bytes) : Option INode :=
  message limit bs (fun _ fs => do
    let res ← getStr 1 fs
    let id ← getStr 2 fs
    let rel ← getStr 3 fs
    return ⟨res, id, rel, decRelType (getNum 4 fs)⟩)

/-- `Relationship` — relationship_record.proto:18-21. -/
def encIRel (r : IRel) : Bytes := encFields [(1, .bytes (encINode r.source)), (2, .bytes (encINode r.dest))]

/-- `Relationship`. -/
def decIRel (limit : Nat) (bs : Bytes) : Option IRel :=
  message limit bs (fun l fs =>
    match getMsg (decINode l) 1 fs, getMsg (decINode l) 2 fs with
    | some (some s), some (some d) => some ⟨s, d⟩
    | _, _ => none)

/-- A node key: `n` bytes, most significant first (SHA-256: 32) — model.go:24-31. -/
def encKey : Nat → Nat → Bytes
  | 0, _ => []
  | n + 1, k => encKey n (k / 256) ++ [UInt8.ofNat (k % 256)]

/-- Reading a big-endian number. -/
def decKey : Nat → Bytes → Nat
  | acc, [] => acc
  | acc, b :: bs => decKey (acc * 256 + b.toNat) bs

/-- The id of a relationship: the key of the source, then that of the destination — policy_repository.go:19, `rcdb.IderFromNodeKeyer`. -/
def encEdgeKey (k : EdgeKey) : Bytes := encKey 32 k.1 ++ encKey 32 k.2

/-- The two halves. -/
def decEdgeKey (b : Bytes) : EdgeKey := (decKey 0 (b.take 32), decKey 0 (b.drop 32))

/-- `RelationshipData` — relationship_record.proto:9-16. -/
def encRelData (d : RelData) : Bytes :=
  encFields (bytesField 1 (encEdgeKey d.relationshipId) ++ [(2, .bytes (encTimestamp d.createdAt))] ++ bytesField 3 d.appData)

/-- `RelationshipData`. -/
def decRelData (limit : Nat) (bs : Bytes) : Option RelData :=
  message limit bs (fun l fs =>
    match getMsg (decTimestamp l) 2 fs with
    | some (some t) => some ⟨decEdgeKey (getBytes 1 fs), t, getBytes 3 fs⟩
    | _ => none)

end Zanzi.Wire
