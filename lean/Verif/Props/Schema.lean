import Verif.Lemmas.SchemaWrite
import Verif.Props.Rpc

/-
C79: messages and records follow the published schema.
-/

namespace Zanzi.Props

open Spec Wire
open Spec.Proto (Encodes RequestReads ReplyReads)

/-- C79 (methods): the server answers to the names of the .proto files and to no others, and the client calls them. -/
theorem C79_method_names (m : Method) : m.path = Proto.fullName m ∧ ∀ path, kvGet handlers path = some m ↔ path = Proto.fullName m := by
  have hp : m.path = Proto.fullName m := by cases m <;> decide +kernel
  refine ⟨hp, fun path => ⟨fun h => ?_, fun h => ?_⟩⟩
  · have hall : ∀ p ∈ handlers, p.1 = p.2.path := by decide +kernel
    rw [← hp]
    exact hall _ (kvGet_mem h)
  · rw [h, ← hp]
    exact handler_of m

/-- C79 (requests): whatever bytes of the schema a client writes for a request, the server makes the call with those contents. -/
theorem C79_requests_understood {σ : Type} (limit : Nat) (hl : 6 ≤ limit) (pr : Printer) (srv : Call → σ → Res Answer × σ) (x : Ambient) (r : Request)
    (hr : RequestReads limit r) (bs : Bytes) (h : Encodes (Proto.requestMsg r.method) (Proto.request r) bs) (s : σ) :
    remote limit pr srv x (Proto.fullName r.method) bs s = (outcome pr (srv (r.call x) s).1, (srv (r.call x) s).2) := by
  unfold remote
  rw [((C79_method_names r.method).2 _).2 rfl]
  dsimp only
  rw [request_of hl hr h]

/-- C79 (requests): the bytes the client writes for a request are of the schema. -/
theorem C79_requests_conform (limit : Nat) (r : Request) (hr : RequestFits limit r) : Encodes (Proto.requestMsg r.method) (Proto.request r) (encRequest r) :=
  request_enc hr

/-- C79 (replies): whatever bytes of the schema stand for a reply, the client reads its contents. -/
theorem C79_replies_understood (limit : Nat) (hl : 7 ≤ limit) (r : Reply) (hr : ReplyReads limit r) (bs : Bytes)
    (h : Encodes (Proto.replyMsg (Proto.replyMethod r)) (Proto.reply r) bs) : decReply limit (Proto.replyMethod r) bs = some r :=
  reply_of hl hr h

/-- C79 (replies): on a server that has served any bytes before, the bytes of the reply to a request written in any way the schema allows
are of the schema, and tell the answer of the local call. -/
theorem C79_replies_conform (limit : Nat) (hl : 9 ≤ limit) (env : Env) (hH : Hash256 env.H) (hy : YamlMaps env) (pr : Printer)
    (rs : List (Ambient × String × Bytes)) (hb : ∀ r ∈ rs, RemoteBounded limit env r.1 r.2.1 r.2.2) (x : Ambient) (r : Request) (hr : RequestReads limit r)
    (hx : Bounded env (r.call x)) (bs out : Bytes) (h : Encodes (Proto.requestMsg r.method) (Proto.request r) bs)
    (ho : (remote limit pr (serveB limit env) x (Proto.fullName r.method) bs (remotes limit pr (serveB limit env) rs BStore.empty).2).1 = .replied out)
    (hlen : out.length < 2 ^ 64) :
    ∃ a, (serve env (r.call x) (remotes limit pr (serve env) rs Store.empty).2).1 = .ok a ∧
      (CountFits a → Encodes (Proto.replyMsg r.method) (Proto.reply (Answer.reply pr a)) out) := by
  obtain ⟨h1, h2⟩ := remotes_sim hH hl hy pr rs hb ⟨empty_fits, empty_fits⟩
  have h1 : remotes limit pr (serveB limit env) rs BStore.empty = _ := h1
  have hfit : BringsFit limit r := by cases r <;> first | trivial | exact hr
  have hcall := call_fits hl hy hfit hx
  rw [h1, C79_requests_understood limit (by omega) pr _ x r hr bs h, (serve_kept hH hl hcall h2).1] at ho
  dsimp only at ho
  generalize (remotes limit pr (serve env) rs Store.empty).2 = s at *
  cases hres : (serve env (r.call x) s).1 with
  | ok a =>
    have he : serve env (r.call x) s = (.ok a, (serve env (r.call x) s).2) := Prod.ext hres rfl
    have hfits := answer_fits _ hcall h2.2 he
    have hm := answer_method rfl he
    refine ⟨a, rfl, fun hc => ?_⟩
    rw [hres] at ho
    cases ho
    rw [← hm, ← reply_method pr a]
    refine reply_enc (reply_writes pr hfits hc) hlen
  | err e => rw [hres] at ho; cases ho
  | panic => rw [hres] at ho; cases ho
  | fuel => rw [hres] at ho; cases ho

/-- C79 (storage): whatever bytes a server has served, what it stores is of the schema: policies under their ids, relationships of every policy, and their data
under the two keys of 32 bytes; and it tells what the store of the local calls holds. -/
theorem C79_store_conforms (limit : Nat) (hl : 9 ≤ limit) (env : Env) (hH : Hash256 env.H) (hy : YamlMaps env) (pr : Printer)
    (rs : List (Ambient × String × Bytes)) (hb : ∀ r ∈ rs, RemoteBounded limit env r.1 r.2.1 r.2.2) :
    (∀ k v, (k, v) ∈ (remotes limit pr (serveB limit env) rs BStore.empty).2.policies → v.length < 2 ^ 64 →
      ∃ pid r, (pid, r) ∈ (remotes limit pr (serve env) rs Store.empty).2.policies ∧ k = utf8 pid ∧ Encodes .PolicyRecord (Proto.policyRecord r) v) ∧
    (∀ pid k v, (k, v) ∈ (remotes limit pr (serveB limit env) rs BStore.empty).2.edges pid → v.length < 2 ^ 64 →
      ∃ key r, (key, r) ∈ (remotes limit pr (serve env) rs Store.empty).2.edges pid ∧ Encodes .StoredRelationship (Proto.storedRelationship r) v) ∧
    (∀ k v, (k, v) ∈ (remotes limit pr (serveB limit env) rs BStore.empty).2.data → v.length < 2 ^ 64 →
      ∃ key d a c, (key, d) ∈ (remotes limit pr (serve env) rs Store.empty).2.data ∧ Proto.Key32 d.relationshipId.1 a ∧ Proto.Key32 d.relationshipId.2 c ∧
        Encodes .StoredRelationshipData (Proto.storedData d (a ++ c)) v) := by
  obtain ⟨h1, h2⟩ := remotes_sim hH hl hy pr rs hb ⟨empty_fits, empty_fits⟩
  have h1 : remotes limit pr (serveB limit env) rs BStore.empty = _ := h1
  rw [h1]
  generalize (remotes limit pr (serve env) rs Store.empty).2 = s at *
  refine ⟨fun k v hkv hv => ?_, fun pid k v hkv hv => ?_, fun k v hkv hv => ?_⟩
  · obtain ⟨p, hp, he⟩ := List.mem_map.1 hkv
    cases he
    obtain ⟨q1, q2⟩ := h2.1.pol p hp
    exact ⟨_, _, hp, rfl, policyRecord_enc (decPolicyRecord_whole q1) q2 hv⟩
  · obtain ⟨p, hp, he⟩ := List.mem_map.1 hkv
    obtain ⟨-, rfl⟩ := Prod.mk.inj he
    exact ⟨_, _, hp, storedRelationship_enc hv⟩
  · obtain ⟨p, hp, he⟩ := List.mem_map.1 hkv
    obtain ⟨-, rfl⟩ := Prod.mk.inj he
    obtain ⟨-, q1, q2⟩ := h2.1.data p hp
    obtain ⟨k1, k2⟩ := stored_keys q1 q2 hv
    exact ⟨_, _, _, _, hp, key32_enc k1, key32_enc k2, storedData_enc q2 hv⟩

/-- C79 (storage): whatever bytes of the schema stand for a stored record, the server reads its contents. -/
theorem C79_store_understood (limit : Nat) (bs : Bytes) :
    (∀ r : PolicyRecord, WholeTrees r.policy → (r.policy.attributes.map (·.1)).Nodup → Nest.policyRecord r ≤ limit →
      Encodes .PolicyRecord (Proto.policyRecord r) bs → decPolicyRecord limit bs = some r) ∧
    (∀ r : IRel, 2 ≤ limit → Encodes .StoredRelationship (Proto.storedRelationship r) bs → decIRel limit bs = some r) ∧
    (∀ (d : RelData) (a c : Bytes), 2 ≤ limit → Proto.Key32 d.relationshipId.1 a → Proto.Key32 d.relationshipId.2 c →
      Encodes .StoredRelationshipData (Proto.storedData d (a ++ c)) bs → decRelData limit bs = some d) :=
  ⟨fun _ h1 h2 h3 h => policyRecord_of h1 h2 h h3, fun _ hl h => storedRelationship_of h hl, fun _ _ _ hl ha hc h => storedData_of ha hc h hl⟩

/-- C79: no bytes are two different requests of a method by the schema. -/
theorem C79_unambiguous (limit : Nat) (hl : 6 ≤ limit) (r r' : Request) (hm : r.method = r'.method) (hr : RequestReads limit r) (hr' : RequestReads limit r')
    (bs : Bytes) (h : Encodes (Proto.requestMsg r.method) (Proto.request r) bs) (h' : Encodes (Proto.requestMsg r'.method) (Proto.request r') bs) : r = r' := by
  have h1 := request_of hl hr h
  rw [hm, request_of hl hr' h'] at h1
  exact (Option.some.inj h1).symm

/-- A small number in one byte. -/
theorem oneByte (n : Nat) (h : n < 128) : Proto.Number n [UInt8.ofNat n] := ⟨.last h, by simp, by omega⟩

/-- A short field. -/
theorem shortField (num : Nat) (b : Bytes) (hn : 8 * num + 2 < 128) (hb : b.length < 128) :
    Proto.FieldBytes (num, .len b) (UInt8.ofNat (8 * num + 2) :: UInt8.ofNat b.length :: b) := .len (oneByte _ hn) (oneByte _ hb)

/-- A request written in an unusual way: the fields in the opposite order, an unknown field between them, an empty text written out, a length
in two bytes, a policy id that is replaced, the access request in two parts. -/
theorem oddRequest : Encodes (Proto.requestMsg .check) (Proto.request (.check "p" (some ⟨some ⟨"d", ""⟩, "r", none⟩)))
    [18, 135, 0, 10, 5, 10, 1, 100, 18, 0, 61, 1, 2, 3, 4, 10, 1, 113, 18, 3, 18, 1, 114, 10, 1, 112] := by
  have hp : utf8 "p" = [112] := by decide +kernel
  have hq : utf8 "q" = [113] := by decide +kernel
  have hd : utf8 "d" = [100] := by decide +kernel
  have hr : utf8 "r" = [114] := by decide +kernel
  have h0 : utf8 "" = [] := by decide +kernel
  have hent : Encodes .Entity (Proto.entity ⟨"d", ""⟩) [10, 1, 100, 18, 0] := by
    refine .message (ws := [(1, .len [100]), (2, .len [])]) ?_ .all
      (.cons (b := [10, 1, 100]) (by decide) (by decide) (shortField 1 [100] (by decide) (by decide))
        (.cons (b := [18, 0]) (by decide) (by decide) (shortField 2 [] (by decide) (by decide)) .nil))
    simp only [Proto.Msg.fields, List.forall_mem_cons, List.not_mem_nil, false_implies, implies_true, and_true]
    exact ⟨.plain (hd ▸ .string), .plain (h0 ▸ .string)⟩
  have h1 : Proto.MessageBytes [(1, .len [10, 1, 100, 18, 0])] [10, 5, 10, 1, 100, 18, 0] :=
    .cons (b := [10, 5, 10, 1, 100, 18, 0]) (by decide) (by decide) (shortField 1 [10, 1, 100, 18, 0] (by decide) (by decide)) .nil
  have h2 : Proto.MessageBytes [(2, .len [114])] [18, 1, 114] :=
    .cons (b := [18, 1, 114]) (by decide) (by decide) (shortField 2 [114] (by decide) (by decide)) .nil
  have hacc : Encodes .AccessRequest (Proto.access ⟨some ⟨"d", ""⟩, "r", none⟩) [10, 5, 10, 1, 100, 18, 0, 18, 1, 114] := by
    refine .message (ws := [(1, .len [10, 1, 100, 18, 0]), (2, .len [114])]) ?_ .all
      (.cons (b := [10, 5, 10, 1, 100, 18, 0]) (by decide) (by decide) (shortField 1 [10, 1, 100, 18, 0] (by decide) (by decide)) h2)
    simp only [Proto.Msg.fields, List.forall_mem_cons, List.not_mem_nil, false_implies, implies_true, and_true]
    exact ⟨.plain (.message hent), .plain (hr ▸ .string), .unset⟩
  refine .message (ws := [(2, .len [10, 5, 10, 1, 100, 18, 0]), (7, .fixed32 [1, 2, 3, 4]), (1, .len [113]), (2, .len [18, 1, 114]), (1, .len [112])])
    ?_ .all
    (.cons (b := [18, 135, 0, 10, 5, 10, 1, 100, 18, 0]) (by decide) (by decide)
      (.len (b := [10, 5, 10, 1, 100, 18, 0]) (tag := [18]) (oneByte 18 (by decide)) (l := [135, 0])
        ⟨.more (low := 7) (by decide) (.last (n := 0) (by decide)), by decide, by decide⟩)
      (.cons (b := [61, 1, 2, 3, 4]) (by decide) (by decide) (.fixed32 (tag := [61]) (b := [1, 2, 3, 4]) (oneByte 61 (by decide)) rfl)
        (.cons (b := [10, 1, 113]) (by decide) (by decide) (shortField 1 [113] (by decide) (by decide))
          (.cons (b := [18, 3, 18, 1, 114]) (by decide) (by decide) (shortField 2 [18, 1, 114] (by decide) (by decide))
            (.cons (b := [10, 1, 112]) (by decide) (by decide) (shortField 1 [112] (by decide) (by decide)) .nil)))))
  simp only [Proto.requestMsg, Proto.rpc, Proto.Msg.fields, List.forall_mem_cons, List.not_mem_nil, false_implies, implies_true, and_true]
  refine ⟨.overridden (w := .str "q") (c := .len [113]) (by simp) trivial (hq ▸ .string) (by simp) (.plain (hp ▸ .string)),
    .merged (bs := [[10, 5, 10, 1, 100, 18, 0], [18, 1, 114]]) (by simp) (by simp) (fun b hb => ?_) hacc⟩
  simp only [List.mem_cons, List.not_mem_nil, or_false] at hb
  rcases hb with rfl | rfl
  · exact ⟨_, h1⟩
  · exact ⟨_, h2⟩

-- A subject given first as a resource set, then as an entity, is the entity.
example : Encodes .Subject (Proto.subject (.entity ⟨"d", ""⟩)) [26, 0, 10, 3, 10, 1, 100] ∧ decSubject 100 [26, 0, 10, 3, 10, 1, 100] = some (.entity ⟨"d", ""⟩) := by
  have hd : utf8 "d" = [100] := by decide +kernel
  have hent : Encodes .Entity (Proto.entity ⟨"d", ""⟩) [10, 1, 100] := by
    refine .message (ws := [(1, .len [100])]) ?_ .all
      (.cons (b := [10, 1, 100]) (by decide) (by decide) (shortField 1 [100] (by decide) (by decide)) .nil)
    simp only [Proto.Msg.fields, List.forall_mem_cons, List.not_mem_nil, false_implies, implies_true, and_true]
    exact ⟨.plain (hd ▸ .string), .default rfl⟩
  have hset : Encodes .ResourceSet (.obj [(.resource_name, .str "")]) [] := by
    refine .message (ws := []) ?_ .all .nil
    simp only [Proto.Msg.fields, List.forall_mem_cons, List.not_mem_nil, false_implies, implies_true, and_true]
    exact .default rfl
  have h : Encodes .Subject (Proto.subject (.entity ⟨"d", ""⟩)) [26, 0, 10, 3, 10, 1, 100] := by
    refine .message (ws := [(1, .len [10, 1, 100])]) ?_
      (.drop (a := []) (f := ⟨.oneof, .message .ResourceSet, .resource_set, 3⟩) (g := ⟨.oneof, .message .Entity, .entity, 1⟩) (c := .len []) (d := .len [10, 1, 100])
        (by simp [Proto.Msg.fields]) rfl (.message hset) (by simp) (by simp [Proto.Msg.fields]) rfl (.message hent) (by simp) (by simp) .all)
      (.cons (b := [26, 0]) (by decide) (by decide) (shortField 3 [] (by decide) (by decide))
        (.cons (b := [10, 3, 10, 1, 100]) (by decide) (by decide) (shortField 1 [10, 1, 100] (by decide) (by decide)) .nil))
    simp only [Proto.Msg.fields, List.forall_mem_cons, List.not_mem_nil, false_implies, implies_true, and_true]
    exact ⟨.oneof (.message hent), .unset, .unset⟩
  exact ⟨h, subject_of h (by decide)⟩

-- It is understood, though no client of this code writes it.
example : RequestReads 10000 (.check "p" (some ⟨some ⟨"d", ""⟩, "r", none⟩)) ∧
    encRequest (.check "p" (some ⟨some ⟨"d", ""⟩, "r", none⟩)) ≠ [18, 135, 0, 10, 5, 10, 1, 100, 18, 0, 61, 1, 2, 3, 4, 10, 1, 113, 18, 3, 18, 1, 114, 10, 1, 112] ∧
    remote 10000 rpcPrinter (serve byteEnv) ⟨0, 10, id⟩ "/sourcenetwork.zanzi.api.RelationGraph/Check"
      [18, 135, 0, 10, 5, 10, 1, 100, 18, 0, 61, 1, 2, 3, 4, 10, 1, 113, 18, 3, 18, 1, 114, 10, 1, 112] Store.empty = (.failed .policyNotFound, Store.empty) :=
  ⟨trivial, by decide +kernel, by
    have := C79_requests_understood 10000 (by decide) rpcPrinter (serve byteEnv) ⟨0, 10, id⟩ (.check "p" (some ⟨some ⟨"d", ""⟩, "r", none⟩)) trivial _
      oddRequest Store.empty
    rw [show Proto.fullName (Request.method (.check "p" (some ⟨some ⟨"d", ""⟩, "r", none⟩))) = "/sourcenetwork.zanzi.api.RelationGraph/Check" by decide +kernel] at this
    rw [this]
    rfl⟩

-- The requests of a client that writes, asks and deletes conform, and the server has stored something after the first two.
example : (∀ r ∈ rpcRequests, Encodes (Proto.requestMsg r.2.method) (Proto.request r.2) (encRequest r.2)) ∧
    (∀ r ∈ rpcRequests.map (fun r => (r.1, r.2.method.path, encRequest r.2)), RemoteBounded 10000 byteEnv r.1 r.2.1 r.2.2) ∧
    (runCalls byteEnv ((rpcRequests.take 2).map (fun r => r.2.call r.1)) Store.empty).2.data.length = 1 := by
  refine ⟨fun r hr => C79_requests_conform 10000 _ (rpcRequests_fit r hr).1, fun r hr => ?_, by decide +kernel⟩
  obtain ⟨q, hq, rfl⟩ := List.mem_map.1 hr
  exact request_bounded (by decide) (rpcRequests_fit q hq).1 (rpcRequests_fit q hq).2

end Zanzi.Props
