import Verif.Model.Exec
import Verif.Model.Wire

/-
The storage engine below the models of Store and Exec, on bytes: keys and records are byte strings, kept in byte order; reads decode
(/repo/internal/store/kv_store/kv_store.go:22-66, model.go:22-58).  A record that does not decode makes the read fail.
A policy's attributes are written in the order given (Go maps have none; C71 is about every order).
`limit` is the nesting the decoder allows.
-/

namespace Zanzi.Wire

/-- Byte order of keys. -/
def bytesLt : Bytes → Bytes → Bool
  | [], [] => false
  | [], _ :: _ => true
  | _ :: _, [] => false
  | a :: as, b :: bs => decide (a.toNat < b.toNat) || (decide (a = b) && bytesLt as bs)

/-- The three stores — kv_store.go:14-65, as `Store`. -/
structure BStore where
  policies : List (Bytes × Bytes)
  edges : String → List (Bytes × Bytes)
  data : List (Bytes × Bytes)

/-- A fresh store. -/
def BStore.empty : BStore := ⟨[], fun _ => [], []⟩

/-- Replace the relationship store of one policy. -/
def BStore.setEdges (s : BStore) (pid : String) (m : List (Bytes × Bytes)) : BStore :=
  { s with edges := fun q => if q = pid then m else s.edges q }

/-- `ObjectStore.GetObject`, `RaccoonStore.Get`: a missing key is not an error, bytes that do not decode are. -/
def getObject {α : Type} (dec : Bytes → Option α) (m : List (Bytes × Bytes)) (k : Bytes) : Option (Option α) :=
  match kvGet m k with
  | none => some none
  | some b => (dec b).map some

/-- Effect and answer of a storage call (`none`: the call fails) — keys from model.go:26-32, 50-58. -/
def execB (limit : Nat) : (op : Op) → BStore → Option op.Resp × BStore
  | .polHas id, s => (some (kvGet s.policies (utf8 id)).isSome, s)
  | .polGet id, s => (getObject (decPolicyRecord limit) s.policies (utf8 id), s)
  | .polSet rec, s => (some (), { s with policies := kvPut bytesLt s.policies (utf8 rec.policy.id) (encPolicyRecord rec) })
  | .polDel id, s => (some (), { s with policies := kvDel s.policies (utf8 id) })
  | .polList, s => (allSome (fun p => ofUtf8 p.1) s.policies, s)
  | .edgeGet pid k, s => (getObject (decIRel limit) (s.edges pid) (encEdgeKey k), s)
  | .edgeSet pid k r, s => (some (), s.setEdges pid (kvPut bytesLt (s.edges pid) (encEdgeKey k) (encIRel r)))
  | .edgeDel pid k, s => (some (), s.setEdges pid (kvDel (s.edges pid) (encEdgeKey k)))
  | .edgeList pid, s => (allSome (fun p => decIRel limit p.2) (s.edges pid), s)
  | .edgeSucc pid src, s =>
    (allSome (fun p => decIRel limit p.2) ((s.edges pid).filter (fun p => decide (p.1.take 32 = encKey 32 src))), s)
  | .dataGet k, s => (getObject (decRelData limit) s.data (encEdgeKey k), s)
  | .dataSet d, s => (some (), { s with data := kvPut bytesLt s.data (encEdgeKey d.relationshipId) (encRelData d) })
  | .dataDel k, s => (some (), { s with data := kvDel s.data (encEdgeKey k) })

/-- `relationNodeKeyer.MinKey` — model.go:34-37. -/
def minKey : Bytes := List.replicate 32 0

/-- `relationNodeKeyer.MaxKey` — model.go:40-46. -/
def maxKey : Bytes := List.replicate 32 255

/-- A scan over the keys from `lo` to `hi`, with (`true`) or without `hi`. -/
def scan (closed : Bool) (lo hi : Bytes) (m : List (Bytes × Bytes)) : List (Bytes × Bytes) :=
  m.filter (fun p => !bytesLt p.1 lo && (bytesLt p.1 hi || (closed && decide (p.1 = hi))))

/-- Serving a request alone, without faults other than unreadable records. -/
def runB {α : Type} (limit : Nat) : Prog α → BStore → Res α × BStore
  | .done r, s => (r, s)
  | .call op k, s => runB limit (k (execB limit op s).1) (execB limit op s).2

/-- Serving one call. -/
def serveB (limit : Nat) (env : Env) (c : Call) (s : BStore) : Res Answer × BStore := runB limit (c.prog env) s

/-- Serving calls one after the other. -/
def runCallsB (limit : Nat) (env : Env) : List Call → BStore → List (Res Answer) × BStore
  | [], s => ([], s)
  | c :: cs, s =>
    let (r, s') := serveB limit env c s
    let (rs, s'') := runCallsB limit env cs s'
    (r :: rs, s'')

/-- One storage call on bytes, with the faults of `OpStep`. -/
inductive OpStepB (limit : Nat) : (op : Op) → BStore → Option op.Resp → BStore → Prop
  | ok (op : Op) (s : BStore) : OpStepB limit op s (execB limit op s).1 (execB limit op s).2
  | failBefore (op : Op) (s : BStore) : OpStepB limit op s none s
  | failAfter (op : Op) (s : BStore) : OpStepB limit op s none (execB limit op s).2

/-- The server of `Sys.Path` on bytes: schedules from the fresh store in which every arriving request satisfies `A`. -/
inductive PathB (limit : Nat) (env : Env) (A : Call → Prop) : List (Prog Answer) → BStore → Prop
  | init : PathB limit env A [] BStore.empty
  | arrive {ts : List (Prog Answer)} {s : BStore} (c : Call) : A c → PathB limit env A ts s → PathB limit env A (ts ++ [c.prog env]) s
  | op {op : Op} {k : Option op.Resp → Prog Answer} {ts₁ ts₂ : List (Prog Answer)} {s s' : BStore} {resp : Option op.Resp} :
      PathB limit env A (ts₁ ++ .call op k :: ts₂) s → OpStepB limit op s resp s' → PathB limit env A (ts₁ ++ k resp :: ts₂) s'
  | leave {r : Res Answer} {ts₁ ts₂ : List (Prog Answer)} {s : BStore} :
      PathB limit env A (ts₁ ++ .done r :: ts₂) s → PathB limit env A (ts₁ ++ ts₂) s
  | crash {ts : List (Prog Answer)} {s : BStore} : PathB limit env A ts s → PathB limit env A [] s

end Zanzi.Wire
