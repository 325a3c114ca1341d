import Verif.Lemmas.Rpc
import Verif.Lemmas.Witness
import Verif.Props.ByteStore

/-
C73: a remote caller gets what a local caller gets.
-/

namespace Zanzi.Props

open Spec Wire

/-- C73 (requests): the server answers the request a client sends as it answers the local call with the same contents, whatever service it runs. -/
theorem C73_requests_arrive {σ : Type} (limit : Nat) (hl : 6 ≤ limit) (pr : Printer) (srv : Call → σ → Res Answer × σ) (x : Ambient) (r : Request)
    (hr : RequestFits limit r) (s : σ) :
    remote limit pr srv x r.method.path (encRequest r) s = (outcome pr (srv (r.call x) s).1, (srv (r.call x) s).2) :=
  remote_request hl pr srv x hr s

/-- C73 (requests): no two requests of a method are sent as the same bytes. -/
theorem C73_request_bytes_injective (limit : Nat) (hl : 6 ≤ limit) (r r' : Request) (hr : RequestFits limit r) (hr' : RequestFits limit r')
    (hm : r.method.path = r'.method.path) (h : encRequest r = encRequest r') : r = r' := by
  have hm' : r.method = r'.method := by
    have h1 := handler_of r.method
    rw [hm, handler_of] at h1
    exact (Option.some.inj h1).symm
  have h1 := decRequest_enc r hl hr
  rw [h, hm', decRequest_enc r' hl hr'] at h1
  exact (Option.some.inj h1).symm

/-- C73 (histories): every history of remote requests to the server working on bytes leaves the bytes of the store that the same calls leave when made
locally on values, and every caller reads the response of the local call. -/
theorem C73_remote_histories (limit : Nat) (hl : 9 ≤ limit) (env : Env) (hH : Hash256 env.H) (hy : YamlMaps env) (pr : Printer) (rs : List (Ambient × Request))
    (hr : ∀ r ∈ rs, RequestFits limit r.2 ∧ Bounded env (r.2.call r.1)) :
    ∃ os, remotes limit pr (serveB limit env) (rs.map (fun r => (r.1, r.2.method.path, encRequest r.2))) BStore.empty =
        (os, encStore (runCalls env (rs.map (fun r => r.2.call r.1)) Store.empty).2) ∧
      Pairwise3 (fun r o res => Sees limit pr r.2.method o res) rs os (runCalls env (rs.map (fun r => r.2.call r.1)) Store.empty).1 := by
  suffices h : ∀ s, Kept limit s → ∃ os, remotes limit pr (serveB limit env) (rs.map (fun r => (r.1, r.2.method.path, encRequest r.2))) (encStore s) =
        (os, encStore (runCalls env (rs.map (fun r => r.2.call r.1)) s).2) ∧
      Pairwise3 (fun r o res => Sees limit pr r.2.method o res) rs os (runCalls env (rs.map (fun r => r.2.call r.1)) s).1 from
    h Store.empty ⟨empty_fits, empty_fits⟩
  induction rs with
  | nil => exact fun s _ => ⟨[], rfl, .nil⟩
  | cons r rs ih =>
    intro s hs
    obtain ⟨x, r⟩ := r
    obtain ⟨h1, h2⟩ := hr _ (List.mem_cons_self ..)
    obtain ⟨h3, h4⟩ := serve_kept hH hl (call_fits hl hy (request_definition h1) h2) hs
    obtain ⟨os, h5, h6⟩ := ih (fun r hx => hr r (List.mem_cons_of_mem _ hx)) _ h4
    refine ⟨outcome pr (serve env (r.call x) s).1 :: os, ?_, .cons (sees hl hy pr h1 h2 hs) h6⟩
    rw [List.map_cons, remotes, remote_request (by omega) pr _ x h1]
    dsimp only
    rw [h3]
    dsimp only
    rw [h5]
    rfl

/-- C73 (any bytes): whatever bytes arrive under whatever names, the server on bytes does what the server on values does. -/
theorem C73_any_bytes (limit : Nat) (hl : 9 ≤ limit) (env : Env) (hH : Hash256 env.H) (hy : YamlMaps env) (pr : Printer) (rs : List (Ambient × String × Bytes))
    (hb : ∀ r ∈ rs, RemoteBounded limit env r.1 r.2.1 r.2.2) :
    remotes limit pr (serveB limit env) rs BStore.empty =
      ((remotes limit pr (serve env) rs Store.empty).1, encStore (remotes limit pr (serve env) rs Store.empty).2) :=
  (remotes_sim hH hl hy pr rs hb ⟨empty_fits, empty_fits⟩).1

/-- C73 (any bytes): after them, every further request is answered as the local call, and the client can read the response. -/
theorem C73_after_any_bytes (limit : Nat) (hl : 9 ≤ limit) (env : Env) (hH : Hash256 env.H) (hy : YamlMaps env) (pr : Printer)
    (rs : List (Ambient × String × Bytes)) (hb : ∀ r ∈ rs, RemoteBounded limit env r.1 r.2.1 r.2.2) (x : Ambient) (r : Request) (hr : RequestFits limit r)
    (hx : Bounded env (r.call x)) :
    Sees limit pr r.method (remote limit pr (serveB limit env) x r.method.path (encRequest r) (remotes limit pr (serveB limit env) rs BStore.empty).2).1
      (serve env (r.call x) (remotes limit pr (serve env) rs Store.empty).2).1 := by
  obtain ⟨h1, h2⟩ := remotes_sim hH hl hy pr rs hb ⟨empty_fits, empty_fits⟩
  have h1 : remotes limit pr (serveB limit env) rs BStore.empty = _ := h1
  rw [h1, remote_request (by omega) pr _ x hr, (serve_kept hH hl (call_fits hl hy (request_definition hr) hx) h2).1]
  exact sees hl hy pr hr hx h2

/-- C73 (no locked policies): a policy that came over the wire can be fetched again, unlike one given by a local caller (C72_deep_policy_locked). -/
theorem C73_policies_fetched (limit : Nat) (hl : 9 ≤ limit) (env : Env) (hH : Hash256 env.H) (hy : YamlMaps env) (pr : Printer)
    (rs : List (Ambient × String × Bytes)) (hb : ∀ r ∈ rs, RemoteBounded limit env r.1 r.2.1 r.2.2) (pid : String) (hp : (utf8 pid).length < 2 ^ 60)
    (x : Ambient) :
    ∃ bs, remote limit pr (serveB limit env) x "/sourcenetwork.zanzi.api.PolicyService/GetPolicy" (encRequest (.getPolicy pid))
        (remotes limit pr (serveB limit env) rs BStore.empty).2 = (.replied bs, (remotes limit pr (serveB limit env) rs BStore.empty).2) ∧
      (bs.length < 2 ^ 64 →
        decReply limit .getPolicy bs = some (.getPolicy (kvGet (remotes limit pr (serve env) rs Store.empty).2.policies pid))) := by
  obtain ⟨h1, h2⟩ := remotes_sim hH hl hy pr rs hb ⟨empty_fits, empty_fits⟩
  have h1 : remotes limit pr (serveB limit env) rs BStore.empty = _ := h1
  have hr : RequestFits limit (.getPolicy pid) := by
    refine ⟨?_, trivial⟩
    have := one_len (n := 1) (by omega) (utf8 pid) (by omega)
    show (encFields (strField 1 pid)).length < _
    unfold strField
    split
    · simp [encFields]
    · omega
  have hsee := sees hl hy pr hr (x := x) (env := env) trivial h2
  have hsv : serve env (.getPolicy pid) (remotes limit pr (serve env) rs Store.empty).2 =
      (.ok (.policy (kvGet (remotes limit pr (serve env) rs Store.empty).2.policies pid)), (remotes limit pr (serve env) rs Store.empty).2) := rfl
  have hrm := remote_request (by omega) pr (serveB limit env) x hr (remotes limit pr (serveB limit env) rs BStore.empty).2
  rw [h1] at hrm
  dsimp only [Request.call] at hrm
  rw [(serve_kept hH hl (c := .getPolicy pid) trivial h2).1, hsv] at hrm
  rw [show (Request.getPolicy pid).call x = .getPolicy pid from rfl, hsv] at hsee
  obtain ⟨bs, hbs, hdec⟩ := hsee
  rw [h1]
  refine ⟨_, hrm, fun hlen => ?_⟩
  cases hbs
  exact hdec hlen trivial

/-- C73 (other requests): a name that is no method of the two services is refused, and so are bytes that are no message; neither changes anything. -/
theorem C73_refused {σ : Type} (limit : Nat) (pr : Printer) (srv : Call → σ → Res Answer × σ) (x : Ambient) (path : String) (bs : Bytes) (s : σ) :
    ((∀ m : Method, path ≠ m.path) → remote limit pr srv x path bs s = (.unimplemented, s)) ∧
    (∀ m : Method, path = m.path → decFields bs = none → remote limit pr srv x path bs s = (.malformed, s)) := by
  refine ⟨fun h => ?_, fun m hm hd => ?_⟩
  · have : kvGet handlers path = none := by
      cases hk : kvGet handlers path with
      | none => rfl
      | some m =>
        exfalso
        have hmem := kvGet_mem hk
        have hall : ∀ p ∈ handlers, p.1 = p.2.path := by decide +kernel
        exact h m (hall _ hmem)
    unfold remote
    rw [this]
  · subst hm
    unfold remote
    rw [handler_of]
    have : decRequest limit m bs = none := by
      unfold decRequest message
      cases limit with
      | zero => rfl
      | succ l => dsimp only; rw [hd]
    dsimp only
    rw [this]

/-- C73 is violated as to availability: five methods crash the server on the empty message, whatever it holds. -/
theorem C73_empty_message_crashes (limit : Nat) (hl : 1 ≤ limit) (pr : Printer) (env : Env) (x : Ambient) (s : Store) (m : Method)
    (hm : m ∈ [.createPolicy, .updatePolicy, .getRelationship, .deleteRelationship, .deleteRelationships]) :
    remote limit pr (serve env) x m.path [] s = (.crashed, s) := by
  obtain ⟨l, rfl⟩ : ∃ l, limit = l + 1 := ⟨limit - 1, by omega⟩
  unfold remote
  rw [handler_of]
  simp only [List.mem_cons, List.not_mem_nil, or_false] at hm
  rcases hm with rfl | rfl | rfl | rfl | rfl <;> rfl

/-- What the example prints. -/
def rpcPrinter : Printer := ⟨fun _ => "tree", fun _ => "dot"⟩

/-- A remote history that writes, asks and deletes. -/
def rpcRequests : List (Ambient × Request) :=
  [(⟨1500000000000000001, 0, id⟩, .createPolicy (some (.policy (docPolicy "p"))) [7]), (⟨2, 0, id⟩, .setRelationship "p" (some rA) [9]),
    (⟨3, 0, id⟩, .getRelationship "p" (some rA)), (⟨4, 20, id⟩, .check "p" none), (⟨5, 0, id⟩, .deletePolicy "p")]

theorem byteEnv_yaml : YamlMaps byteEnv := by
  intro text d h
  cases h

theorem docPolicy_fits : DefinitionFits 10000 (some (.policy (docPolicy "p"))) := by
  intro p h
  cases h
  refine ⟨?_, by decide, show Nest.policy (docPolicy "p") + 2 ≤ 10000 by decide +kernel⟩
  intro res hres rel hrel
  have : ∀ res ∈ (docPolicy "p").resources, ∀ rel ∈ res.relations, (rel.relationExpression matches some (.expr _)) = true := by decide
  have := this res hres rel hrel
  intro h
  rw [h] at this
  cases this

theorem rpcRequests_fit : ∀ r ∈ rpcRequests, RequestFits 10000 r.2 ∧ Bounded byteEnv (r.2.call r.1) := by
  intro r hr
  simp only [rpcRequests, List.mem_cons, List.not_mem_nil, or_false] at hr
  rcases hr with rfl | rfl | rfl | rfl | rfl
  · refine ⟨⟨by decide +kernel, docPolicy_fits⟩, by show ClockOK _; unfold ClockOK; decide, by decide, fun p hp => ?_⟩
    cases hp
    decide +kernel
  · exact ⟨⟨by decide +kernel, trivial⟩, byteCalls_fit (.setRelationship 2 "p" (some rA) [9]) (by simp [byteCalls])⟩
  · exact ⟨⟨by decide +kernel, trivial⟩, trivial⟩
  · exact ⟨⟨by decide +kernel, trivial⟩, trivial⟩
  · exact ⟨⟨by decide +kernel, trivial⟩, trivial⟩

example : Hash256 byteEnv.H ∧ YamlMaps byteEnv ∧ (∀ r ∈ rpcRequests, RequestFits 10000 r.2 ∧ Bounded byteEnv (r.2.call r.1)) ∧
    (runCalls byteEnv (rpcRequests.map (fun r => r.2.call r.1)) Store.empty).1 =
      [.ok (.created ⟨docPolicy "p", [7], 1500000000000000001⟩), .ok (.overwritten false), .ok (.relationship (some ⟨"p", rA, 2, [9]⟩)), .panic,
        .ok (.deletedPolicy true 1)] :=
  ⟨byteEnv_hash, byteEnv_yaml, rpcRequests_fit, rfl⟩

-- Bytes no client sends: a message given in two parts is merged, an unknown field is skipped.
example : decRequest 10000 .createPolicy [10, 4, 10, 2, 34, 0, 13, 1, 2, 3, 4, 10, 4, 10, 2, 34, 0] =
    some (.createPolicy (some (.policy ⟨"", "", "", [⟨"", "", []⟩, ⟨"", "", []⟩], []⟩)) []) := rfl

-- Names no method has.
example : ∀ m : Method, "/sourcenetwork.zanzi.api.PolicyService/Admin" ≠ m.path := by intro m; cases m <;> decide

-- A message refused.
example : decFields [10, 5, 1] = none := by decide +kernel

end Zanzi.Props
