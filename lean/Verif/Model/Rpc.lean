import Verif.Model.Exec
import Verif.Model.Wire

/-
The API over gRPC: /repo/pkg/server/server.go:16-74 registers the generated services of /repo/pkg/api/policy_service_grpc.pb.go:235-466 and
/repo/pkg/api/relation_graph_grpc.pb.go:145-246 with a server without interceptors.  A request is a method name and the protobuf encoding of its message
(/repo/proto/zanzi/zanzi/api/{policy_service,relation_graph}.proto; field numbers as in the generated structs); the reply is the encoding of the response.
Reading and writing messages is as in Model/Wire.
Simplifications: connections, deadlines and the size limits of gRPC (4 MB for a request by default) are not modelled; texts of goal trees and drawings
are those of a given printer; the two methods' `tree` reply, never built, reads as no reply.
-/

namespace Zanzi.Wire

/-! ### relationship.proto -/

/-- `Entity` — relationship.proto:13-22. -/
def encEntity (e : Entity) : Bytes := encFields (strField 1 e.resource ++ strField 2 e.id)

/-- `Entity`. -/
def decEntity (limit : Nat) (bs : Bytes) : Option Entity :=
  message limit bs (fun _ fs => do
    let res ← getStr 1 fs
    let id ← getStr 2 fs
    return ⟨res, id⟩)

/-- `Subject` — relationship.proto:37-48; `ResourceSet` 51-54, `EntitySet` 57-61. -/
def encSubject : Subject → Bytes
  | .unset => []
  | .entity e => encFields [(1, .bytes (encEntity e))]
  | .entitySet e rel => encFields [(2, .bytes (encFields (msgField encEntity 1 e ++ strField 2 rel)))]
  | .resourceSet res => encFields [(3, .bytes (encFields (strField 1 res)))]

/-- `Subject`. -/
def decSubject (limit : Nat) (bs : Bytes) : Option Subject :=
  message limit bs (fun l fs =>
    match getOneof [1, 2, 3] fs with
    | none => some .unset
    | some (n, b) =>
      if n = 1 then (decEntity l b).map .entity
      else if n = 2 then message l b (fun l fs => do
        let e ← getMsg (decEntity l) 1 fs
        let rel ← getStr 2 fs
        return .entitySet e rel)
      else message l b (fun _ fs => (getStr 1 fs).map .resourceSet))

/-- `Relationship` — relationship.proto:24-34. -/
def encRelationship (r : Relationship) : Bytes :=
  encFields (msgField encEntity 1 r.object ++ strField 2 r.relation ++ msgField encSubject 3 r.subject)

/-- `Relationship`. -/
def decRelationship (limit : Nat) (bs : Bytes) : Option Relationship :=
  message limit bs (fun l fs => do
    let o ← getMsg (decEntity l) 1 fs
    let rel ← getStr 2 fs
    let s ← getMsg (decSubject l) 3 fs
    return ⟨o, rel, s⟩)

/-- `RelationshipRecord` as a message: its parts may be missing. -/
structure RecordMsg where
  policyId : String
  relationship : Option Relationship
  createdAt : Option Timestamp
  appData : Bytes
  deriving DecidableEq

/-- `RelationshipRecord` — relationship.proto:64-76. -/
def encRecord (r : RecordMsg) : Bytes :=
  encFields (strField 1 r.policyId ++ msgField encRelationship 2 r.relationship ++ msgField encTimestamp 3 r.createdAt ++ bytesField 4 r.appData)

/-- `RelationshipRecord`. -/
def decRecord (limit : Nat) (bs : Bytes) : Option RecordMsg :=
  message limit bs (fun l fs => do
    let pid ← getStr 1 fs
    let r ← getMsg (decRelationship l) 2 fs
    let t ← getMsg (decTimestamp l) 3 fs
    return ⟨pid, r, t, getBytes 4 fs⟩)

/-- How a record is written; a nil record in a list is written as an empty message. -/
def recordMsg : Option RelationshipRecord → RecordMsg
  | none => ⟨"", none, none, []⟩
  | some r => ⟨r.policyId, some r.relationship, some r.createdAt, r.appData⟩

/-! ### selector.proto -/

/-- `ObjectSelector` — selector.proto:31-42; `WildcardSelector` 71. -/
def encObjectSelector : ObjectSelector → Bytes
  | .unset => []
  | .objectSpec e => encFields [(1, .bytes (encEntity e))]
  | .wildcard => encFields [(2, .bytes [])]
  | .resourceSpec res => encFields [(3, .bytes (utf8 res))]

/-- `ObjectSelector`. -/
def decObjectSelector (limit : Nat) (bs : Bytes) : Option ObjectSelector :=
  message limit bs (fun l fs =>
    match getOneof [1, 2, 3] fs (texts := [3]) with
    | none => some .unset
    | some (n, b) =>
      if n = 1 then (decEntity l b).map .objectSpec
      else if n = 2 then message l b (fun _ _ => some .wildcard)
      else (ofUtf8 b).map .resourceSpec)

/-- `RelationSelector` — selector.proto:45-54. -/
def encRelationSelector : RelationSelector → Bytes
  | .unset => []
  | .relationName name => encFields [(1, .bytes (utf8 name))]
  | .wildcard => encFields [(2, .bytes [])]

/-- `RelationSelector`. -/
def decRelationSelector (limit : Nat) (bs : Bytes) : Option RelationSelector :=
  message limit bs (fun l fs =>
    match getOneof [1, 2] fs (texts := [1]) with
    | none => some .unset
    | some (n, b) => if n = 1 then (ofUtf8 b).map .relationName else message l b (fun _ _ => some .wildcard))

/-- `SubjectSelector` — selector.proto:57-68. -/
def encSubjectSelector : SubjectSelector → Bytes
  | .unset => []
  | .subjectSpec s => encFields [(1, .bytes (encSubject s))]
  | .wildcard => encFields [(2, .bytes [])]
  | .resourceSpec res => encFields [(3, .bytes (utf8 res))]

/-- `SubjectSelector`. -/
def decSubjectSelector (limit : Nat) (bs : Bytes) : Option SubjectSelector :=
  message limit bs (fun l fs =>
    match getOneof [1, 2, 3] fs (texts := [3]) with
    | none => some .unset
    | some (n, b) =>
      if n = 1 then (decSubject l b).map .subjectSpec
      else if n = 2 then message l b (fun _ _ => some .wildcard)
      else (ofUtf8 b).map .resourceSpec)

/-- `RelationshipSelector` — selector.proto:15-21. -/
def encSelector (s : Selector) : Bytes :=
  encFields (msgField encObjectSelector 1 s.object ++ msgField encRelationSelector 2 s.relation ++ msgField encSubjectSelector 3 s.subject)

/-- `RelationshipSelector`. -/
def decSelector (limit : Nat) (bs : Bytes) : Option Selector :=
  message limit bs (fun l fs => do
    let o ← getMsg (decObjectSelector l) 1 fs
    let r ← getMsg (decRelationSelector l) 2 fs
    let s ← getMsg (decSubjectSelector l) 3 fs
    return ⟨o, r, s⟩)

/-! ### relation_graph.proto -/

/-- `AccessRequest` — domain/relation_graph.proto:43-47. -/
def encAccess (r : AccessRequest) : Bytes :=
  encFields (msgField encEntity 1 r.object ++ strField 2 r.relation ++ msgField encEntity 3 r.subject)

/-- `AccessRequest`. -/
def decAccess (limit : Nat) (bs : Bytes) : Option AccessRequest :=
  message limit bs (fun l fs => do
    let o ← getMsg (decEntity l) 1 fs
    let rel ← getStr 2 fs
    let s ← getMsg (decEntity l) 3 fs
    return ⟨o, rel, s⟩)

/-- `RelationNode` — domain/relation_graph.proto:11-17; `EntitySetNode` 21-24, `EntityNode` 28-30, `WildcardNode` 34-36. -/
def encNode : RelationNode → Bytes
  | .unset => []
  | .entitySet o rel => encFields [(1, .bytes (encFields (msgField encEntity 1 o ++ strField 2 rel)))]
  | .entity o => encFields [(2, .bytes (encFields (msgField encEntity 1 o)))]
  | .wildcard res => encFields [(3, .bytes (encFields (strField 1 res)))]

/-- `RelationNode`. -/
def decNode (limit : Nat) (bs : Bytes) : Option RelationNode :=
  message limit bs (fun l fs =>
    match getOneof [1, 2, 3] fs with
    | none => some .unset
    | some (n, b) =>
      if n = 1 then message l b (fun l fs => do
        let o ← getMsg (decEntity l) 1 fs
        let rel ← getStr 2 fs
        return .entitySet o rel)
      else if n = 2 then message l b (fun l fs => (getMsg (decEntity l) 1 fs).map .entity)
      else message l b (fun _ fs => (getStr 1 fs).map .wildcard))

/-- `ExplainFormat` — api/relation_graph.proto:73-77; an unknown number is written as it came, here 3. -/
def encFormat : ExplainFormat → Nat
  | .spew => 0
  | .json => 1
  | .dot => 2
  | .unknown => 3

/-- Open enum of 32 bits. -/
def decFormat (n : Nat) : ExplainFormat :=
  match n % 4294967296 with
  | 0 => .spew
  | 1 => .json
  | 2 => .dot
  | _ => .unknown

/-- `DumpFormat` — api/relation_graph.proto:122-124. -/
def encDumpFormat : GraphService.DumpFormat → Nat
  | .dot => 0
  | .unknown => 1

/-- Open enum of 32 bits. -/
def decDumpFormat (n : Nat) : GraphService.DumpFormat :=
  match n % 4294967296 with
  | 0 => .dot
  | _ => .unknown

/-- `PolicyDefinition` — policy_service.proto:52-59. -/
def encDefinition : PolicyDefinition → Bytes
  | .unset => []
  | .policy p => encFields [(1, .bytes (encPolicy p))]
  | .yaml text => encFields [(2, .bytes (utf8 text))]

/-- `PolicyDefinition`. -/
def decDefinition (limit : Nat) (bs : Bytes) : Option PolicyDefinition :=
  message limit bs (fun l fs =>
    match getOneof [1, 2] fs (texts := [2]) with
    | none => some .unset
    | some (n, b) => if n = 1 then (decPolicy l b).map .policy else (ofUtf8 b).map .yaml)

/-! ### Requests -/

/-- The methods of both services. -/
inductive Method where
  | createPolicy | updatePolicy | deletePolicy | getPolicy | listPolicyIds
  | setRelationship | deleteRelationship | getRelationship | deleteRelationships | findRelationshipRecords
  | check | explainCheck | expand | dumpRelationships
  deriving DecidableEq

/-- The handlers registered under their names — server.go:23-32, policy_service_grpc.pb.go:24-33, 419-466, relation_graph_grpc.pb.go:24-27, 221-246. -/
def handlers : List (String × Method) :=
  [("/sourcenetwork.zanzi.api.PolicyService/CreatePolicy", .createPolicy),
   ("/sourcenetwork.zanzi.api.PolicyService/UpdatePolicy", .updatePolicy),
   ("/sourcenetwork.zanzi.api.PolicyService/DeletePolicy", .deletePolicy),
   ("/sourcenetwork.zanzi.api.PolicyService/GetPolicy", .getPolicy),
   ("/sourcenetwork.zanzi.api.PolicyService/ListPolicyIds", .listPolicyIds),
   ("/sourcenetwork.zanzi.api.PolicyService/SetRelationship", .setRelationship),
   ("/sourcenetwork.zanzi.api.PolicyService/DeleteRelationship", .deleteRelationship),
   ("/sourcenetwork.zanzi.api.PolicyService/GetRelationship", .getRelationship),
   ("/sourcenetwork.zanzi.api.PolicyService/DeleteRelationships", .deleteRelationships),
   ("/sourcenetwork.zanzi.api.PolicyService/FindRelationshipRecords", .findRelationshipRecords),
   ("/sourcenetwork.zanzi.api.RelationGraph/Check", .check),
   ("/sourcenetwork.zanzi.api.RelationGraph/ExplainCheck", .explainCheck),
   ("/sourcenetwork.zanzi.api.RelationGraph/Expand", .expand),
   ("/sourcenetwork.zanzi.api.RelationGraph/DumpRelationships", .dumpRelationships)]

/-- The name under which the generated client calls a method — policy_service_grpc.pb.go:71-160, relation_graph_grpc.pb.go:59-94. -/
def Method.path : Method → String
  | .createPolicy => "/sourcenetwork.zanzi.api.PolicyService/CreatePolicy"
  | .updatePolicy => "/sourcenetwork.zanzi.api.PolicyService/UpdatePolicy"
  | .deletePolicy => "/sourcenetwork.zanzi.api.PolicyService/DeletePolicy"
  | .getPolicy => "/sourcenetwork.zanzi.api.PolicyService/GetPolicy"
  | .listPolicyIds => "/sourcenetwork.zanzi.api.PolicyService/ListPolicyIds"
  | .setRelationship => "/sourcenetwork.zanzi.api.PolicyService/SetRelationship"
  | .deleteRelationship => "/sourcenetwork.zanzi.api.PolicyService/DeleteRelationship"
  | .getRelationship => "/sourcenetwork.zanzi.api.PolicyService/GetRelationship"
  | .deleteRelationships => "/sourcenetwork.zanzi.api.PolicyService/DeleteRelationships"
  | .findRelationshipRecords => "/sourcenetwork.zanzi.api.PolicyService/FindRelationshipRecords"
  | .check => "/sourcenetwork.zanzi.api.RelationGraph/Check"
  | .explainCheck => "/sourcenetwork.zanzi.api.RelationGraph/ExplainCheck"
  | .expand => "/sourcenetwork.zanzi.api.RelationGraph/Expand"
  | .dumpRelationships => "/sourcenetwork.zanzi.api.RelationGraph/DumpRelationships"

/-- Request messages. -/
inductive Request where
  | createPolicy (d : Option PolicyDefinition) (appData : Bytes)
  | updatePolicy (d : Option PolicyDefinition) (appData : Bytes) (strategy : Nat)
  | deletePolicy (id : String)
  | getPolicy (id : String)
  | listPolicyIds
  | setRelationship (pid : String) (r : Option Relationship) (appData : Bytes)
  | deleteRelationship (pid : String) (r : Option Relationship)
  | getRelationship (pid : String) (r : Option Relationship)
  | findRelationshipRecords (pid : String) (sel : Option Selector)
  | deleteRelationships (pid : String) (sel : Option Selector)
  | check (pid : String) (req : Option AccessRequest)
  | explainCheck (pid : String) (req : Option AccessRequest) (format : ExplainFormat)
  | expand (pid : String) (root : Option RelationNode) (format : ExplainFormat)
  | dumpRelationships (pid : String) (format : GraphService.DumpFormat)

/-- The method a request message belongs to. -/
def Request.method : Request → Method
  | .createPolicy .. => .createPolicy
  | .updatePolicy .. => .updatePolicy
  | .deletePolicy .. => .deletePolicy
  | .getPolicy .. => .getPolicy
  | .listPolicyIds => .listPolicyIds
  | .setRelationship .. => .setRelationship
  | .deleteRelationship .. => .deleteRelationship
  | .getRelationship .. => .getRelationship
  | .findRelationshipRecords .. => .findRelationshipRecords
  | .deleteRelationships .. => .deleteRelationships
  | .check .. => .check
  | .explainCheck .. => .explainCheck
  | .expand .. => .expand
  | .dumpRelationships .. => .dumpRelationships

/-- What a call takes from its surroundings: the clock, the model's recursion bound, and the iteration order of a map. -/
structure Ambient where
  now : Timestamp
  fuel : Nat
  order : List Nat → List Nat

/-- The call a handler makes with its request message; the update strategy is not looked at (/repo/internal/policy/service.go:66-99). -/
def Request.call (x : Ambient) : Request → Call
  | .createPolicy d a => .createPolicy x.now d a
  | .updatePolicy d a _ => .updatePolicy d a
  | .deletePolicy id => .deletePolicy id
  | .getPolicy id => .getPolicy id
  | .listPolicyIds => .listPolicyIds
  | .setRelationship pid r a => .setRelationship x.now pid r a
  | .deleteRelationship pid r => .deleteRelationship pid r
  | .getRelationship pid r => .getRelationship pid r
  | .findRelationshipRecords pid sel => .findRelationshipRecords pid sel
  | .deleteRelationships pid sel => .deleteRelationships pid sel
  | .check pid req => .check x.fuel pid req
  | .explainCheck pid req f => .explainCheck x.fuel pid req f
  | .expand pid root f => .expand x.fuel pid root f
  | .dumpRelationships pid f => .dumpRelationships x.fuel x.order pid f

/-- Request messages — policy_service.proto:61-81, 90-93, 101-104, 110-112, 122-130, 138-142, 149-152, 158-161, 167-170; relation_graph.proto:52-55, 65-71, 91-95, 121-128. -/
def encRequest : Request → Bytes
  | .createPolicy d a => encFields (msgField encDefinition 1 d ++ bytesField 2 a)
  | .updatePolicy d a strategy => encFields (msgField encDefinition 1 d ++ bytesField 2 a ++ numField 3 strategy)
  | .deletePolicy id => encFields (strField 1 id)
  | .getPolicy id => encFields (strField 1 id)
  | .listPolicyIds => []
  | .setRelationship pid r a => encFields (strField 1 pid ++ msgField encRelationship 2 r ++ bytesField 3 a)
  | .deleteRelationship pid r => encFields (strField 1 pid ++ msgField encRelationship 2 r)
  | .getRelationship pid r => encFields (strField 1 pid ++ msgField encRelationship 2 r)
  | .findRelationshipRecords pid sel => encFields (strField 1 pid ++ msgField encSelector 2 sel)
  | .deleteRelationships pid sel => encFields (strField 1 pid ++ msgField encSelector 2 sel)
  | .check pid req => encFields (strField 1 pid ++ msgField encAccess 2 req)
  | .explainCheck pid req f => encFields (strField 1 pid ++ msgField encAccess 2 req ++ numField 3 (encFormat f))
  | .expand pid root f => encFields (strField 1 pid ++ msgField encNode 2 root ++ numField 3 (encFormat f))
  | .dumpRelationships pid f => encFields (strField 1 pid ++ numField 2 (encDumpFormat f))

/-- Reading a request of a method. -/
def decRequest (limit : Nat) (m : Method) (bs : Bytes) : Option Request :=
  message limit bs (fun l fs =>
    match m with
    | .createPolicy => do
      let d ← getMsg (decDefinition l) 1 fs
      return .createPolicy d (getBytes 2 fs)
    | .updatePolicy => do
      let d ← getMsg (decDefinition l) 1 fs
      return .updatePolicy d (getBytes 2 fs) (getNum 3 fs)
    | .deletePolicy => (getStr 1 fs).map .deletePolicy
    | .getPolicy => (getStr 1 fs).map .getPolicy
    | .listPolicyIds => some .listPolicyIds
    | .setRelationship => do
      let pid ← getStr 1 fs
      let r ← getMsg (decRelationship l) 2 fs
      return .setRelationship pid r (getBytes 3 fs)
    | .deleteRelationship => do
      let pid ← getStr 1 fs
      let r ← getMsg (decRelationship l) 2 fs
      return .deleteRelationship pid r
    | .getRelationship => do
      let pid ← getStr 1 fs
      let r ← getMsg (decRelationship l) 2 fs
      return .getRelationship pid r
    | .findRelationshipRecords => do
      let pid ← getStr 1 fs
      let sel ← getMsg (decSelector l) 2 fs
      return .findRelationshipRecords pid sel
    | .deleteRelationships => do
      let pid ← getStr 1 fs
      let sel ← getMsg (decSelector l) 2 fs
      return .deleteRelationships pid sel
    | .check => do
      let pid ← getStr 1 fs
      let req ← getMsg (decAccess l) 2 fs
      return .check pid req
    | .explainCheck => do
      let pid ← getStr 1 fs
      let req ← getMsg (decAccess l) 2 fs
      return .explainCheck pid req (decFormat (getNum 3 fs))
    | .expand => do
      let pid ← getStr 1 fs
      let root ← getMsg (decNode l) 2 fs
      return .expand pid root (decFormat (getNum 3 fs))
    | .dumpRelationships => do
      let pid ← getStr 1 fs
      return .dumpRelationships pid (decDumpFormat (getNum 2 fs)))

/-! ### Replies -/

/-- Response messages. -/
inductive Reply where
  | createPolicy (rec : Option PolicyRecord)
  | updatePolicy
  | deletePolicy (found : Bool) (removed : Nat)
  | getPolicy (rec : Option PolicyRecord)
  | listPolicyIds (ids : List String)
  | setRelationship (overwritten : Bool)
  | deleteRelationship (found : Bool)
  | getRelationship (rec : Option RecordMsg)
  | findRelationshipRecords (result : Option (List RecordMsg))
  | deleteRelationships (affected : Nat)
  | check (result : Option Bool)
  | explainCheck (text : String) (authorized : Bool) (format : ExplainFormat)
  | expand (text : String) (format : ExplainFormat)
  | dumpRelationships (dot : Option String)
  deriving DecidableEq

/-- The texts the serializers print. -/
structure Printer where
  tree : Serialized → String
  drawing : List DotCall → String

/-- The response message of an answer — internal/policy/service.go and internal/relation_graph/service.go, the `return` of each method. -/
def Answer.reply (pr : Printer) : Answer → Reply
  | .created rec => .createPolicy (some rec)
  | .updated => .updatePolicy
  | .deletedPolicy found removed => .deletePolicy found removed
  | .policy rec => .getPolicy rec
  | .ids l => .listPolicyIds l
  | .overwritten b => .setRelationship b
  | .found b => .deleteRelationship b
  | .relationship r => .getRelationship (r.map (fun r => recordMsg (some r)))
  | .records l => .findRelationshipRecords (some (l.map recordMsg))
  | .affected n => .deleteRelationships n
  | .authorized b => .check (some b)
  | .explained t b f => .explainCheck (pr.tree t) b f
  | .expanded t f => .expand (pr.tree t) f
  | .dumped cs => .dumpRelationships (some (pr.drawing cs))

/-- Booleans on the wire. -/
def encBool (b : Bool) : Nat := if b then 1 else 0

/-- Booleans on the wire. -/
def decBool (n : Nat) : Bool := decide (n ≠ 0)

/-- Response messages — policy_service.proto:83-88, 95-99, 106-108, 114-120, 132-136, 144-147, 154-156, 163-165, 172-179; relation_graph.proto:57-62, 79-88, 97-100, 130-135. -/
def encReply : Reply → Bytes
  | .createPolicy rec => encFields (msgField encPolicyRecord 1 rec)
  | .updatePolicy => []
  | .deletePolicy found removed => encFields (numField 1 (encBool found) ++ numField 2 removed)
  | .getPolicy rec => encFields (msgField encPolicyRecord 1 rec)
  | .listPolicyIds ids => encFields (repField (fun id => encFields (strField 1 id)) 1 ids)
  | .setRelationship b => encFields (numField 1 (encBool b))
  | .deleteRelationship b => encFields (numField 1 (encBool b))
  | .getRelationship rec => encFields (msgField encRecord 1 rec)
  | .findRelationshipRecords result => encFields (msgField (fun l => encFields (repField encRecord 1 l)) 1 result)
  | .deleteRelationships n => encFields (numField 1 n)
  | .check result => encFields (msgField (fun b => encFields (numField 1 (encBool b))) 1 result)
  | .explainCheck text b f => encFields (strField 1 text ++ numField 2 (encBool b) ++ numField 3 (encFormat f))
  | .expand text f => encFields (strField 1 text ++ numField 2 (encFormat f))
  | .dumpRelationships none => []
  | .dumpRelationships (some text) => encFields [(2, .bytes (utf8 text))]

/-- Reading the reply of a method. -/
def decReply (limit : Nat) (m : Method) (bs : Bytes) : Option Reply :=
  message limit bs (fun l fs =>
    match m with
    | .createPolicy => (getMsg (decPolicyRecord l) 1 fs).map .createPolicy
    | .updatePolicy => some .updatePolicy
    | .deletePolicy => some (.deletePolicy (decBool (getNum 1 fs)) (getNum 2 fs))
    | .getPolicy => (getMsg (decPolicyRecord l) 1 fs).map .getPolicy
    | .listPolicyIds => (getRep (fun b => message l b (fun _ fs => getStr 1 fs)) 1 fs).map .listPolicyIds
    | .setRelationship => some (.setRelationship (decBool (getNum 1 fs)))
    | .deleteRelationship => some (.deleteRelationship (decBool (getNum 1 fs)))
    | .getRelationship => (getMsg (decRecord l) 1 fs).map .getRelationship
    | .findRelationshipRecords =>
      (getMsg (fun b => message l b (fun l fs => getRep (decRecord l) 1 fs)) 1 fs).map .findRelationshipRecords
    | .deleteRelationships => some (.deleteRelationships (getNum 1 fs))
    | .check => (getMsg (fun b => message l b (fun _ fs => some (decBool (getNum 1 fs)))) 1 fs).map .check
    | .explainCheck => do
      let text ← getStr 1 fs
      return .explainCheck text (decBool (getNum 2 fs)) (decFormat (getNum 3 fs))
    | .expand => do
      let text ← getStr 1 fs
      return .expand text (decFormat (getNum 2 fs))
    | .dumpRelationships =>
      match getOneof [1, 2] fs (texts := [2]) with
      | some (n, b) => if n = 2 then (ofUtf8 b).map (fun t => .dumpRelationships (some t)) else some (.dumpRelationships none)
      | none => some (.dumpRelationships none))

/-! ### The server -/

/-- What becomes of a remote request. -/
inductive Outcome where
  | unimplemented
  | malformed
  | failed (e : Err)
  | replied (bs : Bytes)
  | crashed
  | fuel
  deriving DecidableEq

/-- What the server makes of the result of a method: a panic ends the process, for no interceptor recovers (server.go:54-62). -/
def outcome (pr : Printer) : Res Answer → Outcome
  | .ok a => .replied (encReply (Answer.reply pr a))
  | .err e => .failed e
  | .panic => .crashed
  | .fuel => .fuel

/-- Serving a remote request with the service `srv`: find the handler, read the message, call the method (policy_service_grpc.pb.go:239-416,
relation_graph_grpc.pb.go:149-218). -/
def remote {σ : Type} (limit : Nat) (pr : Printer) (srv : Call → σ → Res Answer × σ) (x : Ambient) (path : String) (bs : Bytes) (s : σ) : Outcome × σ :=
  match kvGet handlers path with
  | none => (.unimplemented, s)
  | some m =>
    match decRequest limit m bs with
    | none => (.malformed, s)
    | some r =>
      match srv (r.call x) s with
      | (res, s') => (outcome pr res, s')

/-- Serving remote requests one after the other. -/
def remotes {σ : Type} (limit : Nat) (pr : Printer) (srv : Call → σ → Res Answer × σ) : List (Ambient × String × Bytes) → σ → List Outcome × σ
  | [], s => ([], s)
  | (x, path, bs) :: rs, s =>
    match remote limit pr srv x path bs s with
    | (o, s') =>
      match remotes limit pr srv rs s' with
      | (os, s'') => (o :: os, s'')

end Zanzi.Wire
