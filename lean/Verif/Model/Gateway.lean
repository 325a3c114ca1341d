import Verif.Model.Rpc

/-
The HTTP gateway of the two services: /repo/pkg/api/policy_service.pb.gw.go and /repo/pkg/api/relation_graph.pb.gw.go, generated for grpc-gateway v2, whose
`ServeMux` finds the handler of a request by verb and path.  It comes in two forms: in the process of the service (`Register…HandlerServer`) and in front of
a gRPC server (`Register…HandlerClient`).
Simplifications: reading and writing messages as JSON is that of a given marshaler (`runtime.Marshaler`); headers are not modelled, so neither are deadlines, metadata
and the choice among several marshalers; paths are as after unescaping; a panic in the process of the gateway ends the connection, as in net/http.
-/

namespace Zanzi.Gateway

open Wire

/-- What reading the first message from a body gives: nothing is left (`io.EOF`), an error, or a message. -/
inductive Parsed where
  | eof
  | bad
  | msg (r : Request)

/-- `runtime.Marshaler`; a handler reads into the message type of its method. -/
structure Marshaler where
  read : Method → Bytes → Parsed
  write : Reply → Bytes
  typed : ∀ m bs r, read m bs = .msg r → r.method = m

/-- An HTTP request: a body that cannot be received is `none`. -/
structure HttpReq where
  verb : String
  path : List Char
  body : Option Bytes

/-- gRPC status codes met here. -/
inductive Code where
  | invalidArgument
  | unknown
  | internal
  | unimplemented
  | unavailable
  | notFound
  deriving DecidableEq

/-- What the caller gets: a message, an error with a status code, a closed connection. -/
inductive HttpReply where
  | message (bs : Bytes)
  | status (c : Code)
  | aborted
  | fuel
  deriving DecidableEq

/-! ### Routes -/

/-- `runtime.Pattern`: pairs of an operation and its operand, and the texts operands stand for. -/
structure Pattern where
  ops : List (Nat × Nat)
  pool : List String

/-- `strings.Split(path, "/")`. -/
def split : List Char → List (List Char)
  | [] => [[]]
  | c :: cs =>
    if c = '/' then [] :: split cs
    else
      match split cs with
      | [] => [[c]]
      | w :: ws => (c :: w) :: ws

/-- Matching the components of a path.  Operation 2 compares with a text; the patterns of the two services use no other. -/
def matchOps (pool : List String) : List (Nat × Nat) → List (List Char) → Bool
  | [], [] => true
  | (2, i) :: ops, c :: cs => decide (pool[i]?.map String.toList = some c) && matchOps pool ops cs
  | _, _ => false

/-- `runtime.NewPattern(1, []int{2, 0, 2, 1}, []string{service, method}, "")`. -/
def pattern (service method : String) : Pattern := ⟨[(2, 0), (2, 1)], [service, method]⟩

/-- policy_service.pb.gw.go:894-914. -/
def policyPattern : String → Pattern := pattern "sourcenetwork.zanzi.api.PolicyService"

/-- relation_graph.pb.gw.go:408-416. -/
def graphPattern : String → Pattern := pattern "sourcenetwork.zanzi.api.RelationGraph"

/-- The handlers registered in the process of the service, as (verb, pattern, method) — policy_service.pb.gw.go:380-628, relation_graph.pb.gw.go:176-276.  The method stands
for the `local_request_…` function of the handler (policy_service.pb.gw.go:51-66 and after; relation_graph.pb.gw.go:51-66 and after), whose request type and method agree. -/
def serverRoutes : List (String × Pattern × Method) :=
  [("POST", policyPattern "CreatePolicy", .createPolicy), ("POST", policyPattern "UpdatePolicy", .updatePolicy), ("POST", policyPattern "DeletePolicy", .deletePolicy),
   ("POST", policyPattern "GetPolicy", .getPolicy), ("POST", policyPattern "ListPolicyIds", .listPolicyIds), ("POST", policyPattern "SetRelationship", .setRelationship),
   ("POST", policyPattern "DeleteRelationship", .deleteRelationship), ("POST", policyPattern "GetRelationship", .getRelationship),
   ("POST", policyPattern "DeleteRelationships", .deleteRelationships), ("POST", policyPattern "FindRelationshipRecords", .findRelationshipRecords),
   ("POST", graphPattern "Check", .check), ("POST", graphPattern "ExplainCheck", .explainCheck), ("POST", graphPattern "Expand", .expand),
   ("POST", graphPattern "DumpRelationships", .dumpRelationships)]

/-- The handlers registered in front of a server — policy_service.pb.gw.go:671-891, relation_graph.pb.gw.go:317-405; the method stands for the `request_…` function. -/
def clientRoutes : List (String × Pattern × Method) :=
  [("POST", policyPattern "CreatePolicy", .createPolicy), ("POST", policyPattern "UpdatePolicy", .updatePolicy), ("POST", policyPattern "DeletePolicy", .deletePolicy),
   ("POST", policyPattern "GetPolicy", .getPolicy), ("POST", policyPattern "ListPolicyIds", .listPolicyIds), ("POST", policyPattern "SetRelationship", .setRelationship),
   ("POST", policyPattern "DeleteRelationship", .deleteRelationship), ("POST", policyPattern "GetRelationship", .getRelationship),
   ("POST", policyPattern "DeleteRelationships", .deleteRelationships), ("POST", policyPattern "FindRelationshipRecords", .findRelationshipRecords),
   ("POST", graphPattern "Check", .check), ("POST", graphPattern "ExplainCheck", .explainCheck), ("POST", graphPattern "Expand", .expand),
   ("POST", graphPattern "DumpRelationships", .dumpRelationships)]

/-- What the mux makes of a request. -/
inductive Routed where
  | to (m : Method)
  | refused (c : Code)

/-- `ServeMux.ServeHTTP`: the handlers of the verb, the one registered last first; otherwise an error saying whether another verb would have done. -/
def dispatch (routes : List (String × Pattern × Method)) (verb : String) (path : List Char) : Routed :=
  match path with
  | '/' :: rest =>
    match routes.reverse.find? (fun r => decide (r.1 = verb) && matchOps r.2.1.pool r.2.1.ops (split rest)) with
    | some r => .to r.2.2
    | none => if routes.any (fun r => matchOps r.2.1.pool r.2.1.ops (split rest)) then .refused .unimplemented else .refused .notFound
  | _ => .refused .invalidArgument

/-! ### Handlers -/

/-- `var protoReq …Request`: no field set. -/
def zeroRequest : Method → Request
  | .createPolicy => .createPolicy none []
  | .updatePolicy => .updatePolicy none [] 0
  | .deletePolicy => .deletePolicy ""
  | .getPolicy => .getPolicy ""
  | .listPolicyIds => .listPolicyIds
  | .setRelationship => .setRelationship "" none []
  | .deleteRelationship => .deleteRelationship "" none
  | .getRelationship => .getRelationship "" none
  | .deleteRelationships => .deleteRelationships "" none
  | .findRelationshipRecords => .findRelationshipRecords "" none
  | .check => .check "" none
  | .explainCheck => .explainCheck "" none (decFormat 0)
  | .expand => .expand "" none (decFormat 0)
  | .dumpRelationships => .dumpRelationships "" (decDumpFormat 0)

/-- The beginning of each `request_…` and `local_request_…` function: a body without a message leaves the request as it is (policy_service.pb.gw.go:34-44). -/
def readBody (c : Marshaler) (m : Method) : Option Bytes → Option Request
  | none => none
  | some bs =>
    match c.read m bs with
    | .eof => some (zeroRequest m)
    | .bad => none
    | .msg r => some r

/-- `local_request_…` and what its handler does with the result: errors of the service carry no status, which makes them `Unknown` (`runtime.HTTPError`). -/
def handleServer {σ : Type} (pr : Printer) (c : Marshaler) (srv : Call → σ → Res Answer × σ) (x : Ambient) (m : Method) (body : Option Bytes) (s : σ) : HttpReply × σ :=
  match readBody c m body with
  | none => (.status .invalidArgument, s)
  | some r =>
    match srv (r.call x) s with
    | (.ok a, s') => (.message (c.write (Answer.reply pr a)), s')
    | (.err _, s') => (.status .unknown, s')
    | (.panic, s') => (.aborted, s')
    | (.fuel, s') => (.fuel, s')

/-- The status with which a gRPC call ends: errors of the service carry no status, which makes them `Unknown`; a message that cannot be read is `Internal`; a server
that goes down makes it `Unavailable`. -/
def callStatus : Outcome → HttpReply
  | .unimplemented => .status .unimplemented
  | .malformed => .status .internal
  | .failed _ => .status .unknown
  | .replied bs => .message bs
  | .crashed => .status .unavailable
  | .fuel => .fuel

/-- `request_…` and what its handler does with the result. -/
def handleClient {σ : Type} (limit : Nat) (pr : Printer) (c : Marshaler) (srv : Call → σ → Res Answer × σ) (x : Ambient) (m : Method) (body : Option Bytes) (s : σ) :
    HttpReply × σ :=
  match readBody c m body with
  | none => (.status .invalidArgument, s)
  | some r =>
    match remote limit pr srv x m.path (encRequest r) s with
    | (o, s') =>
      match callStatus o with
      | .message bs =>
        match decReply limit m bs with
        | some rep => (.message (c.write rep), s')
        | none => (.status .internal, s')
      | other => (other, s')

/-- An HTTP request to the gateway in the process of the service. -/
def httpServer {σ : Type} (pr : Printer) (c : Marshaler) (srv : Call → σ → Res Answer × σ) (x : Ambient) (q : HttpReq) (s : σ) : HttpReply × σ :=
  match dispatch serverRoutes q.verb q.path with
  | .to m => handleServer pr c srv x m q.body s
  | .refused code => (.status code, s)

/-- An HTTP request to the gateway in front of a server. -/
def httpClient {σ : Type} (limit : Nat) (pr : Printer) (c : Marshaler) (srv : Call → σ → Res Answer × σ) (x : Ambient) (q : HttpReq) (s : σ) : HttpReply × σ :=
  match dispatch clientRoutes q.verb q.path with
  | .to m => handleClient limit pr c srv x m q.body s
  | .refused code => (.status code, s)

/-- Requests one after the other. -/
def https {σ : Type} (h : Ambient → HttpReq → σ → HttpReply × σ) : List (Ambient × HttpReq) → σ → List HttpReply × σ
  | [], s => ([], s)
  | (x, q) :: qs, s =>
    match h x q s with
    | (o, s') =>
      match https h qs s' with
      | (os, s'') => (o :: os, s'')

end Zanzi.Gateway
