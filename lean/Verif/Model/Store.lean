import Verif.Model.Policy

/-
Model of /repo/internal/store/kv_store: stored records, key derivation, mapper, the storage operations and
the repository methods, written as programs over storage operations.

The engine below (raccoondb, not available here) is trusted to implement the operations of `Op`
one at a time as described by `Op.exec`: object stores are maps from id to record, the relationship store of a
policy is a map from (source key, dest key) to the edge, listings are in key order, and a
policy's relationship store is disjoint from every other one (prefix wrapping).
Records are stored as values: marshalling to protobuf and back is the identity on them (Model/Wire, C71), but for policies nested deeper
than the decoder allows, whose reads fail.
-/

namespace Zanzi

/-! ### Stored records -/

/-- relationship_record.proto:30-35 `RelationType`. -/
inductive RelType where
  | unknown
  | object
  | objectSet
  | resourceSet
  deriving DecidableEq, Repr

/-- relationship_record.proto:23-28 `RelationNode`. -/
structure INode where
  resource : String
  id : String
  relation : String
  type : RelType
  deriving DecidableEq, Repr

/-- relationship_record.proto:18-21 `Relationship` (both ends are always set by the mapper). -/
structure IRel where
  source : INode
  dest : INode
  deriving DecidableEq, Repr

/-- Key of an edge: the two node keys.  `rcdb.IderFromNodeKeyer` (policy_repository.go:19) concatenates the two
fixed-length keys, which is the same as the pair. -/
abbrev EdgeKey := Nat × Nat

/-- relationship_record.proto:9-16 `RelationshipData`. -/
structure RelData where
  relationshipId : EdgeKey
  createdAt : Timestamp
  appData : Bytes
  deriving DecidableEq, Repr

/-- `relationNodeKeyer.Key` — model.go:25-31.  `H` is SHA-256 read as a number. -/
def INode.key (H : String → Nat) (n : INode) : Nat := H (n.resource ++ n.id ++ n.relation)

/-- `relationshipIDer.Id` — policy_repository.go:17-25. -/
def IRel.key (H : String → Nat) (r : IRel) : EdgeKey := (r.source.key H, r.dest.key H)

/-! ### Mapper (mapper.go) -/

/-- `ToInternal` — mapper.go:9-44; nil messages are dereferenced. -/
def toInternal (r : Relationship) : Res IRel := do
  let s ← Res.deref r.subject
  let dest ← (match s with
    | .entity e => .ok ⟨e.resource, e.id, "", .object⟩
    | .entitySet e rel => do
      let e ← Res.deref e
      .ok ⟨e.resource, e.id, rel, .objectSet⟩
    | .resourceSet n => .ok ⟨n, "", "", .resourceSet⟩
    | .unset => .ok ⟨"", "", "", .unknown⟩ : Res INode)
  let o ← Res.deref r.object
  return ⟨⟨o.resource, o.id, r.relation, .objectSet⟩, dest⟩

/-- Subject part of `FromInternal` — mapper.go:47-74. -/
def subjectFromInternal (dest : INode) : Subject :=
  match dest.type with
  | .object => .entity ⟨dest.resource, dest.id⟩
  | .objectSet => .entitySet (some ⟨dest.resource, dest.id⟩) dest.relation
  | .resourceSet => .resourceSet dest.resource
  | .unknown => .unset

/-- `FromInternal` — mapper.go:46-83. -/
def fromInternal (r : IRel) : Relationship :=
  { object := some ⟨r.source.resource, r.source.id⟩
    relation := r.source.relation
    subject := some (subjectFromInternal r.dest) }

/-- `FromPublicRelationNode` — mapper.go:85-112. -/
def fromPublicNode : RelationNode → Res INode
  | .entity o => do
    let o ← Res.deref o
    return ⟨o.resource, o.id, "", .object⟩
  | .entitySet o rel => do
    let o ← Res.deref o
    return ⟨o.resource, o.id, rel, .objectSet⟩
  | .wildcard r => .ok ⟨r, "", "", .resourceSet⟩
  | .unset => .ok ⟨"", "", "", .unknown⟩

/-- `ToPublicRelationNode` — mapper.go:114-146. -/
def toPublicNode (n : INode) : RelationNode :=
  match n.type with
  | .object => .entity (some ⟨n.resource, n.id⟩)
  | .objectSet => .entitySet (some ⟨n.resource, n.id⟩) n.relation
  | .resourceSet => .wildcard n.resource
  | .unknown => .unset

/-- `FromInternalRecord` — mapper.go:148-156. -/
def fromInternalRecord (policyId : String) (r : IRel) (d : RelData) : RelationshipRecord :=
  { policyId := policyId, relationship := fromInternal r, createdAt := d.createdAt, appData := d.appData }

/-! ### Store state and storage operations -/

/-- The three stores — kv_store.go:14-65.  The data store is shared by all policies: `getRelationshipDataStore`
(kv_store.go:59-65) ignores its argument. -/
structure Store where
  policies : List (String × PolicyRecord)
  edges : String → List (EdgeKey × IRel)
  data : List (EdgeKey × RelData)

/-- A fresh store. -/
def Store.empty : Store := ⟨[], fun _ => [], []⟩

/-- Key order of strings (policy ids); any fixed order would do. -/
def strLt (a b : String) : Bool := decide (a < b)

/-- Key order of edges: by source key, then dest key (policy_repository.go List and GetSucessors iterate in it). -/
def edgeLt (a b : EdgeKey) : Bool := decide (a.1 < b.1) || (decide (a.1 = b.1) && decide (a.2 < b.2))

/-- Calls made to the storage engine. -/
inductive Op where
  | polHas (id : String)
  | polGet (id : String)
  | polSet (rec : PolicyRecord)
  | polDel (id : String)
  | polList
  | edgeGet (pid : String) (k : EdgeKey)
  | edgeSet (pid : String) (k : EdgeKey) (r : IRel)
  | edgeDel (pid : String) (k : EdgeKey)
  | edgeList (pid : String)
  | edgeSucc (pid : String) (src : Nat)
  | dataGet (k : EdgeKey)
  | dataSet (d : RelData)
  | dataDel (k : EdgeKey)

/-- Result type of a call. -/
def Op.Resp : Op → Type
  | .polHas _ => Bool
  | .polGet _ => Option PolicyRecord
  | .polSet _ => Unit
  | .polDel _ => Unit
  | .polList => List String
  | .edgeGet _ _ => Option IRel
  | .edgeSet _ _ _ => Unit
  | .edgeDel _ _ => Unit
  | .edgeList _ => List IRel
  | .edgeSucc _ _ => List IRel
  | .dataGet _ => Option RelData
  | .dataSet _ => Unit
  | .dataDel _ => Unit

/-- Replace the relationship store of one policy. -/
def Store.setEdges (s : Store) (pid : String) (m : List (EdgeKey × IRel)) : Store :=
  { s with edges := fun q => if q = pid then m else s.edges q }

/-- Effect and answer of a successful call.  `polSet` stores under the id inside the record
(model.go:50-52), `dataSet` under the id inside the data (model.go:56-58). -/
def Op.exec : (op : Op) → Store → op.Resp × Store
  | .polHas id, s => ((kvGet s.policies id).isSome, s)
  | .polGet id, s => (kvGet s.policies id, s)
  | .polSet rec, s => ((), { s with policies := kvPut strLt s.policies rec.policy.id rec })
  | .polDel id, s => ((), { s with policies := kvDel s.policies id })
  | .polList, s => (s.policies.map (·.1), s)
  | .edgeGet pid k, s => (kvGet (s.edges pid) k, s)
  | .edgeSet pid k r, s => ((), s.setEdges pid (kvPut edgeLt (s.edges pid) k r))
  | .edgeDel pid k, s => ((), s.setEdges pid (kvDel (s.edges pid) k))
  | .edgeList pid, s => ((s.edges pid).map (·.2), s)
  | .edgeSucc pid src, s => (((s.edges pid).filter (fun p => decide (p.1.1 = src))).map (·.2), s)
  | .dataGet k, s => (kvGet s.data k, s)
  | .dataSet d, s => ((), { s with data := kvPut edgeLt s.data d.relationshipId d })
  | .dataDel k, s => ((), { s with data := kvDel s.data k })

/-- A request being served: either finished, or about to make a storage call whose answer (`none` = the
call failed) determines the rest. -/
inductive Prog (α : Type) where
  | done (r : Res α)
  | call (op : Op) (k : Option op.Resp → Prog α)

namespace Prog

/-- Sequencing; an error or panic ends the request. -/
def bind {α β : Type} : Prog α → (α → Prog β) → Prog β
  | done (.ok a), k => k a
  | done (.err e), _ => done (.err e)
  | done .panic, _ => done .panic
  | done .fuel, _ => done .fuel
  | call op f, k => call op (fun r => (f r).bind k)

instance : Monad Prog where
  pure a := done (.ok a)
  bind := Prog.bind

/-- A single storage call; its failure is returned to the caller (`if err != nil { return err }`). -/
def op (o : Op) : Prog o.Resp :=
  call o (fun
    | none => done (.err .store)
    | some r => done (.ok r))

/-- `ObjectStore.HasById` on policies. -/
def polHas (id : String) : Prog Bool := op (.polHas id)
/-- `ObjectStore.GetObject` on policies. -/
def polGet (id : String) : Prog (Option PolicyRecord) := op (.polGet id)
/-- `ObjectStore.SetObject` on policies. -/
def polSet (rec : PolicyRecord) : Prog Unit := op (.polSet rec)
/-- `ObjectStore.DeleteById` on policies. -/
def polDel (id : String) : Prog Unit := op (.polDel id)
/-- `ObjectStore.ListIds` on policies. -/
def polList : Prog (List String) := op .polList
/-- `RaccoonStore.Get`. -/
def edgeGet (pid : String) (k : EdgeKey) : Prog (Option IRel) := op (.edgeGet pid k)
/-- `RaccoonStore.Set`. -/
def edgeSet (pid : String) (k : EdgeKey) (r : IRel) : Prog Unit := op (.edgeSet pid k r)
/-- `RaccoonStore.Delete`. -/
def edgeDel (pid : String) (k : EdgeKey) : Prog Unit := op (.edgeDel pid k)
/-- `RaccoonStore.List`. -/
def edgeList (pid : String) : Prog (List IRel) := op (.edgeList pid)
/-- `RaccoonStore.GetSucessors`. -/
def edgeSucc (pid : String) (src : Nat) : Prog (List IRel) := op (.edgeSucc pid src)
/-- `ObjectStore.GetObject` on relationship data. -/
def dataGet (k : EdgeKey) : Prog (Option RelData) := op (.dataGet k)
/-- `ObjectStore.SetObject` on relationship data. -/
def dataSet (d : RelData) : Prog Unit := op (.dataSet d)
/-- `ObjectStore.DeleteById` on relationship data. -/
def dataDel (k : EdgeKey) : Prog Unit := op (.dataDel k)

/-- Pure Go code inside a request. -/
def lift {α : Type} (r : Res α) : Prog α := done r

/-- `utils.MapSliceErr` with a storage-calling function. -/
def mapSlice {α β : Type} (f : α → Prog β) : List α → Prog (List β)
  | [] => done (.ok [])
  | a :: as => do
    let b ← f a
    let bs ← mapSlice f as
    return b :: bs

/-- Serving a request alone, without faults. -/
def run {α : Type} : Prog α → Store → Res α × Store
  | done r, s => (r, s)
  | call op k, s => (k (some (op.exec s).1)).run (op.exec s).2

end Prog

/-! ### Repository methods (policy_repository.go, node_repository.go) -/

namespace Repo

/-- `SetPolicy` — policy_repository.go:33-47. -/
def setPolicy (rec : PolicyRecord) : Prog Bool := do
  let has ← Prog.polHas rec.policy.id
  Prog.polSet rec
  return has

/-- `GetPolicy` — policy_repository.go:49-60. -/
def getPolicy (id : String) : Prog (Option PolicyRecord) := Prog.polGet id

/-- `DeletePolicy` — policy_repository.go:62-78. -/
def deletePolicy (id : String) : Prog Bool := do
  let found ← Prog.polHas id
  if found then do
    Prog.polDel id
    return true
  else return false

/-- `ListPolicyIds` — policy_repository.go:80-90. -/
def listPolicyIds : Prog (List String) := Prog.polList

/-- `SetRelationship` — policy_repository.go:92-121. -/
def setRelationship (H : String → Nat) (rec : RelationshipRecord) : Prog Bool := do
  let r ← Prog.lift (toInternal rec.relationship)
  let opt ← Prog.edgeGet rec.policyId (r.key H)
  let updated := opt.isSome
  Prog.edgeSet rec.policyId (r.key H) r
  Prog.dataSet { relationshipId := r.key H, appData := rec.appData, createdAt := rec.createdAt }
  return updated

/-- `DeleteRelationship` — policy_repository.go:123-148. -/
def deleteRelationship (H : String → Nat) (pid : String) (spec : Option Relationship) : Prog Bool := do
  let spec ← Prog.lift (Res.deref spec)
  let r ← Prog.lift (toInternal spec)
  let opt ← Prog.edgeGet pid (r.key H)
  let found := opt.isSome
  Prog.edgeDel pid (r.key H)
  Prog.dataDel (r.key H)
  return found

/-- `FindRelationships` — policy_repository.go:150-169. -/
def findRelationships (pid : String) (sel : Option Selector) : Prog (List Relationship) := do
  let rels ← Prog.edgeList pid
  let spec ← Prog.lift (newSelectorSpec sel)
  let mapped := rels.map fromInternal
  Prog.lift (filterRes (selectorSatisfies spec) mapped)

/-- `GetRelationship` — policy_repository.go:171-185; only the data store is consulted. -/
def getRelationship (H : String → Nat) (pid : String) (r : Option Relationship) : Prog (Option RelationshipRecord) := do
  let r ← Prog.lift (Res.deref r)
  let i ← Prog.lift (toInternal r)
  let d ← Prog.dataGet (i.key H)
  match d with
  | none => return none
  | some d => return some (fromInternalRecord pid i d)

/-- `FindRelationshipRecords` — policy_repository.go:187-201; a relationship without data yields a nil
record. -/
def findRelationshipRecords (H : String → Nat) (pid : String) (sel : Option Selector) :
    Prog (List (Option RelationshipRecord)) := do
  let rels ← findRelationships pid sel
  Prog.mapSlice (fun r => getRelationship H pid (some r)) rels

/-- `DeleteRelationships` — policy_repository.go:203-218; the count is the number of relationships found by the
selector. -/
def deleteRelationships (H : String → Nat) (pid : String) (sel : Option Selector) : Prog Nat := do
  let rels ← findRelationships pid sel
  let founds ← Prog.mapSlice (fun r => deleteRelationship H pid (some r)) rels
  return founds.length

/-- `GetSucessors` — node_repository.go:26-44. -/
def getSuccessors (H : String → Nat) (pid : String) (o : Option Entity) (rel : String) : Prog (List RelationNode) := do
  let n ← Prog.lift (fromPublicNode (.entitySet o rel))
  let es ← Prog.edgeSucc pid (n.key H)
  return es.map (fun e => toPublicNode e.dest)

/-- `ListEdges` — node_repository.go:46-60. -/
def listEdges (pid : String) : Prog (List (RelationNode × RelationNode)) := do
  let es ← Prog.edgeList pid
  return es.map (fun e => (toPublicNode e.source, toPublicNode e.dest))

end Repo

end Zanzi
