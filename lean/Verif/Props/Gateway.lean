import Verif.Lemmas.Gateway
import Verif.Props.Rpc
import Verif.Props.Errors

/-
Properties C106 and C107: the HTTP gateway, and status codes.
-/

namespace Zanzi.Props

open Zanzi Wire Gateway Spec

section
variable {σ : Type} {limit : Nat} {pr : Printer} {c : Marshaler} {srv : Call → σ → Res Answer × σ} {x : Ambient} {q : HttpReq} {s : σ}

/-- C106 (in the process of the service): a request to the path of a method whose body holds a request message makes exactly that call; the caller gets its result. -/
theorem C106_server_calls {m : Method} {r : Request} (hq : IsFor q m) (hr : Holds c m q.body r) :
    (httpServer pr c srv x q s).2 = (srv (r.call x) s).2 ∧ Gets pr c (srv (r.call x) s).1 (httpServer pr c srv x q s).1 := by
  unfold httpServer
  rw [(dispatch_iff routes_complete.1 q m).2 hq]
  dsimp only
  unfold handleServer
  rw [(readBody_iff c m q.body r).2 hr]
  dsimp only
  rcases srv (r.call x) s with ⟨res, s'⟩
  cases res
  · exact ⟨rfl, rfl⟩
  · exact ⟨rfl, _, rfl⟩
  · exact ⟨rfl, .inl rfl⟩
  · exact ⟨rfl, rfl⟩

/-- C106 (in front of a server): the call is the one a gRPC client makes with the same message.  The reply is the message read by it, if it can be read, and
otherwise an error. -/
theorem C106_client_calls {m : Method} {r : Request} (hq : IsFor q m) (hr : Holds c m q.body r) :
    (httpClient limit pr c srv x q s).2 = (remote limit pr srv x m.path (encRequest r) s).2 ∧
    (∀ bs rep, (remote limit pr srv x m.path (encRequest r) s).1 = .replied bs → decReply limit m bs = some rep →
      (httpClient limit pr c srv x q s).1 = .message (c.write rep)) ∧
    (∀ bs, (remote limit pr srv x m.path (encRequest r) s).1 = .replied bs → decReply limit m bs = none → ∃ code, (httpClient limit pr c srv x q s).1 = .status code) ∧
    ((∀ bs, (remote limit pr srv x m.path (encRequest r) s).1 ≠ .replied bs) → (remote limit pr srv x m.path (encRequest r) s).1 ≠ .fuel →
      ∃ code, (httpClient limit pr c srv x q s).1 = .status code) := by
  unfold httpClient
  rw [(dispatch_iff routes_complete.2 q m).2 hq]
  dsimp only
  unfold handleClient
  rw [(readBody_iff c m q.body r).2 hr]
  dsimp only
  rcases remote limit pr srv x m.path (encRequest r) s with ⟨o, s'⟩
  refine ⟨?_, ?_, ?_, ?_⟩
  · cases o <;> try rfl
    simp only [callStatus]
    split <;> rfl
  · rintro bs rep rfl hrep
    dsimp only [callStatus]
    rw [hrep]
  · rintro bs rfl hrep
    dsimp only [callStatus]
    rw [hrep]
    exact ⟨_, rfl⟩
  · intro h1 h2
    cases o with
    | replied bs => exact absurd rfl (h1 bs)
    | fuel => exact absurd rfl h2
    | unimplemented => exact ⟨_, rfl⟩
    | malformed => exact ⟨_, rfl⟩
    | failed e => exact ⟨_, rfl⟩
    | crashed => exact ⟨_, rfl⟩

/-- C106 (anything else): a request that is for no method, or whose body holds no request message, is refused and reaches neither the service nor a server. -/
theorem C106_refused (hq : ∀ m r, IsFor q m → ¬ Holds c m q.body r) :
    (∃ code, httpServer pr c srv x q s = (.status code, s)) ∧ ∃ code, httpClient limit pr c srv x q s = (.status code, s) := by
  have hb : ∀ m, IsFor q m → readBody c m q.body = none := by
    intro m hm
    cases h : readBody c m q.body with
    | none => rfl
    | some r => exact absurd ((readBody_iff c m q.body r).1 h) (hq m r hm)
  constructor
  · unfold httpServer
    cases hd : dispatch serverRoutes q.verb q.path with
    | refused code => exact ⟨code, rfl⟩
    | to m =>
      dsimp only
      unfold handleServer
      rw [hb m ((dispatch_iff routes_complete.1 q m).1 hd)]
      exact ⟨_, rfl⟩
  · unfold httpClient
    cases hd : dispatch clientRoutes q.verb q.path with
    | refused code => exact ⟨code, rfl⟩
    | to m =>
      dsimp only
      unfold handleClient
      rw [hb m ((dispatch_iff routes_complete.2 q m).1 hd)]
      exact ⟨_, rfl⟩

/-- C106 (empty bodies): a body without a message is the request no field of which is set, as the empty message is over gRPC. -/
theorem C106_empty_body {m : Method} {bs : Bytes} (hl : 6 ≤ limit) (hq : IsFor q m) (hb : q.body = some bs) (he : c.read m bs = .eof) :
    (httpServer pr c srv x q s).2 = (remote limit pr srv x m.path [] s).2 ∧
    ∃ r, Holds c m q.body r ∧ decRequest limit m [] = some r := by
  have hz := zero_method m
  have hr : Holds c m q.body (zeroRequest m) := ⟨bs, hb, .inr ⟨he, hz⟩⟩
  have hf : RequestFits limit (zeroRequest m) := by
    refine ⟨by rw [hz.2]; decide, ?_⟩
    cases m <;> simp [zeroRequest, DefinitionFits]
  have h1 := remote_request hl pr srv x hf s
  rw [hz.1, hz.2] at h1
  have h2 := decRequest_enc _ hl hf
  rw [hz.1, hz.2] at h2
  exact ⟨by rw [(C106_server_calls hq hr).1, h1], _, hr, h2⟩

end

/-- The gateways agree request by request: whatever the requests, the store is the same afterwards, kept as values or as bytes, and so are the replies. -/
theorem C106_histories (limit : Nat) (hl : 9 ≤ limit) (env : Env) (hH : Hash256 env.H) (hy : YamlMaps env) (pr : Printer) (c : Marshaler)
    (qs : List (Ambient × HttpReq)) (hq : ∀ q ∈ qs, HttpBounded limit env c q.1 q.2) :
    (https (httpClient limit pr c (serveB limit env)) qs BStore.empty).2 = encStore (https (httpServer pr c (serve env)) qs Store.empty).2 ∧
    Pairwise3 (fun _ l o => Alike pr c l o) qs (https (httpServer pr c (serve env)) qs Store.empty).1
      (https (httpClient limit pr c (serveB limit env)) qs BStore.empty).1 := by
  suffices h : ∀ s, Kept limit s → (https (httpClient limit pr c (serveB limit env)) qs (encStore s)).2 = encStore (https (httpServer pr c (serve env)) qs s).2 ∧
      Pairwise3 (fun _ l o => Alike pr c l o) qs (https (httpServer pr c (serve env)) qs s).1 (https (httpClient limit pr c (serveB limit env)) qs (encStore s)).1 from
    h Store.empty ⟨empty_fits, empty_fits⟩
  induction qs with
  | nil => exact fun s _ => ⟨rfl, .nil⟩
  | cons q qs ih =>
    intro s hs
    obtain ⟨x, q⟩ := q
    have step : (httpClient limit pr c (serveB limit env) x q (encStore s)).2 = encStore (httpServer pr c (serve env) x q s).2 ∧
        Kept limit (httpServer pr c (serve env) x q s).2 ∧
        Alike pr c (httpServer pr c (serve env) x q s).1 (httpClient limit pr c (serveB limit env) x q (encStore s)).1 := by
      by_cases hr : ∃ m r, IsFor q m ∧ Holds c m q.body r
      · obtain ⟨m, r, hm, hr⟩ := hr
        obtain ⟨hf, hbd⟩ := hq (x, q) (List.mem_cons_self ..) m r hm hr
        have hrm : r.method = m := by
          obtain ⟨bs, _, h | h⟩ := hr
          · exact c.typed m bs r h
          · exact h.2.1
        obtain ⟨h3, h4⟩ := serve_kept hH hl (call_fits hl hy (request_definition hf) hbd) hs
        have h5 := sees hl hy pr hf hbd hs
        have h6 := remote_request (by omega : 6 ≤ limit) pr (serveB limit env) x hf (encStore s)
        rw [hrm, h3] at h6
        rw [hrm] at h5
        unfold httpServer httpClient
        rw [(dispatch_iff routes_complete.1 q m).2 hm, (dispatch_iff routes_complete.2 q m).2 hm]
        dsimp only
        unfold handleServer handleClient
        rw [(readBody_iff c m q.body r).2 hr]
        dsimp only
        rw [h6]
        rcases hsv : serve env (r.call x) s with ⟨res, s'⟩
        rw [hsv] at h4 h5
        cases res with
        | ok a =>
          obtain ⟨bs, hbs, hdec⟩ := h5
          cases hbs
          dsimp only [outcome, callStatus]
          by_cases hsm : (encReply (Answer.reply pr a)).length < 2 ^ 64 ∧ CountFits a
          · rw [hdec hsm.1 hsm.2]
            exact ⟨rfl, h4, .inl rfl⟩
          · split
            · exact ⟨rfl, h4, .inr (.inr ⟨a, rfl, hsm⟩)⟩
            · exact ⟨rfl, h4, .inr (.inr ⟨a, rfl, hsm⟩)⟩
        | err e => exact ⟨rfl, h4, .inl rfl⟩
        | panic => exact ⟨rfl, h4, .inr (.inl ⟨rfl, rfl⟩)⟩
        | fuel => exact ⟨rfl, h4, .inl rfl⟩
      · have hn : ∀ m r, IsFor q m → ¬ Holds c m q.body r := fun m r h1 h2 => hr ⟨m, r, h1, h2⟩
        have hrd : ∀ m, IsFor q m → readBody c m q.body = none := by
          intro m hm
          cases h : readBody c m q.body with
          | none => rfl
          | some r => exact absurd ((readBody_iff c m q.body r).1 h) (hn m r hm)
        unfold httpServer httpClient
        have hroutes : clientRoutes = serverRoutes := rfl
        rw [hroutes]
        cases hd : dispatch serverRoutes q.verb q.path with
        | refused code => exact ⟨rfl, hs, .inl rfl⟩
        | to m =>
          dsimp only
          unfold handleServer handleClient
          rw [hrd m ((dispatch_iff routes_complete.1 q m).1 hd)]
          exact ⟨rfl, hs, .inl rfl⟩
    obtain ⟨h1, h2, h3⟩ := step
    obtain ⟨h4, h5⟩ := ih (fun q hx => hq q (List.mem_cons_of_mem _ hx)) _ h2
    have e1 : https (httpServer pr c (serve env)) ((x, q) :: qs) s = ((httpServer pr c (serve env) x q s).1 ::
        (https (httpServer pr c (serve env)) qs (httpServer pr c (serve env) x q s).2).1, (https (httpServer pr c (serve env)) qs (httpServer pr c (serve env) x q s).2).2) := rfl
    have e2 : https (httpClient limit pr c (serveB limit env)) ((x, q) :: qs) (encStore s) = ((httpClient limit pr c (serveB limit env) x q (encStore s)).1 ::
        (https (httpClient limit pr c (serveB limit env)) qs (httpClient limit pr c (serveB limit env) x q (encStore s)).2).1,
        (https (httpClient limit pr c (serveB limit env)) qs (httpClient limit pr c (serveB limit env) x q (encStore s)).2).2) := rfl
    rw [e1, e2, h1]
    exact ⟨h4, .cons h3 h5⟩

/-! ### C107: status codes -/

section
variable {σ : Type} {limit : Nat} {pr : Printer} {c : Marshaler} {srv : Call → σ → Res Answer × σ} {x : Ambient} {q : HttpReq} {s : σ}

/-- C107, what holds over HTTP: code `Unknown` says that the service was called and returned an error, every other code that it was not called. -/
theorem C107_http_codes_partial (code : Code) (h : (httpServer pr c srv x q s).1 = .status code) :
    (code = .unknown ↔ ∃ m r e, IsFor q m ∧ Holds c m q.body r ∧ (srv (r.call x) s).1 = .err e) ∧
    (code ≠ .unknown → (httpServer pr c srv x q s).2 = s ∧ ∀ m r, IsFor q m → ¬ Holds c m q.body r) := by
  unfold httpServer at h ⊢
  have uniq : ∀ m m', IsFor q m → IsFor q m' → m = m' := fun m m' h1 h2 => by
    have h1 := (dispatch_iff routes_complete.1 q m).2 h1
    have h2 := (dispatch_iff routes_complete.1 q m').2 h2
    rw [h1] at h2
    cases h2
    rfl
  cases hd : dispatch serverRoutes q.verb q.path with
  | refused code' =>
    rw [hd] at h
    cases h
    have hno : ∀ m, ¬ IsFor q m := fun m hm => by rw [(dispatch_iff routes_complete.1 q m).2 hm] at hd; cases hd
    refine ⟨⟨?_, fun ⟨m, _, _, hm, _⟩ => absurd hm (hno m)⟩, fun _ => ⟨rfl, fun m _ hm => absurd hm (hno m)⟩⟩
    rintro rfl
    unfold dispatch at hd
    split at hd
    · split at hd
      · cases hd
      · split at hd <;> cases hd
    · cases hd
  | to m =>
    rw [hd] at h
    have hm := (dispatch_iff routes_complete.1 q m).1 hd
    dsimp only at h ⊢
    unfold handleServer at h ⊢
    cases hr : readBody c m q.body with
    | none =>
      rw [hr] at h
      cases h
      have hno : ∀ m' r, IsFor q m' → ¬ Holds c m' q.body r := fun m' r h1 h2 => by
        cases uniq m m' hm h1
        rw [(readBody_iff c m q.body r).2 h2] at hr
        cases hr
      exact ⟨⟨nofun, fun ⟨m, r, _, h1, h2, _⟩ => absurd h2 (hno m r h1)⟩, fun _ => ⟨rfl, hno⟩⟩
    | some r =>
      rw [hr] at h
      dsimp only at h ⊢
      rcases hsv : srv (r.call x) s with ⟨res, s'⟩
      rw [hsv] at h
      cases res with
      | err e =>
        cases h
        exact ⟨⟨fun _ => ⟨m, r, e, hm, (readBody_iff c m q.body r).1 hr, by rw [hsv]⟩, fun _ => rfl⟩, fun h => absurd rfl h⟩
      | ok a => cases h
      | panic => cases h
      | fuel => cases h

/-- C107, what holds over gRPC: code `Unknown` says that the method returned an error; `Unimplemented` and `Internal`, that it was not called; only
errors of methods look alike. -/
theorem C107_grpc_codes_partial (limit : Nat) (path : String) (bs : Bytes) :
    (∀ code, callStatus (remote limit pr srv x path bs s).1 = .status code → code = .unimplemented ∨ code = .internal → (remote limit pr srv x path bs s).2 = s) ∧
    (callStatus (remote limit pr srv x path bs s).1 = .status .unknown ↔
      ∃ m r e, kvGet handlers path = some m ∧ decRequest limit m bs = some r ∧ (srv (r.call x) s).1 = .err e) ∧
    (∀ o o' : Outcome, callStatus o = callStatus o' → o = o' ∨ ∃ e e', o = .failed e ∧ o' = .failed e') := by
  refine ⟨fun code h hc => ?_, ⟨fun h => ?_, fun ⟨m, r, e, hm, hr, he⟩ => ?_⟩, fun o o' h => ?_⟩
  · unfold remote at h ⊢
    split at h
    · rfl
    · split at h
      · rfl
      · next m hm _ r hr =>
        exfalso
        rcases hsv : srv (r.call x) s with ⟨res, s'⟩
        rw [hsv] at h
        cases res <;> cases h <;> simp at hc
  · unfold remote at h
    split at h
    · cases h
    · split at h
      · cases h
      · next m hm _ r hr =>
        rcases hsv : srv (r.call x) s with ⟨res, s'⟩
        rw [hsv] at h
        cases res with
        | err e => exact ⟨m, r, e, hm, hr, by rw [hsv]⟩
        | ok a => cases h
        | panic => cases h
        | fuel => cases h
  · unfold remote
    rw [hm]
    dsimp only
    rw [hr]
    dsimp only
    rcases hsv : srv (r.call x) s with ⟨res, s'⟩
    rw [hsv] at he
    cases he
    rfl
  · cases o <;> cases o' <;> first
      | exact .inl rfl
      | exact .inr ⟨_, _, rfl, rfl⟩
      | (cases h; exact .inl rfl)
      | cases h

/-- C107 is false: whatever the service complains of, the code is `Unknown`, over gRPC as over HTTP. -/
theorem C107_codes_violated {m : Method} {r : Request} (hq : IsFor q m) (hr : Holds c m q.body r) (e : Err) (he : (srv (r.call x) s).1 = .err e) :
    (httpServer pr c srv x q s).1 = .status .unknown ∧ callStatus (outcome pr (srv (r.call x) s).1) = .status .unknown := by
  refine ⟨?_, by rw [he]; rfl⟩
  unfold httpServer
  rw [(dispatch_iff routes_complete.1 q m).2 hq]
  dsimp only
  unfold handleServer
  rw [(readBody_iff c m q.body r).2 hr]
  dsimp only
  rcases hsv : srv (r.call x) s with ⟨res, s'⟩
  rw [hsv] at he
  cases he
  rfl

end

/-! ### Examples -/

/-- A marshaler that reads and writes the protobuf encoding. -/
def protoMarshaler : Marshaler where
  read m bs := if bs = [] then .eof else
    match decRequest 10000 m bs with
    | none => .bad
    | some r => if r.method = m then .msg r else .bad
  write := encReply
  typed m bs r h := by
    split at h
    · cases h
    · split at h
      · cases h
      · split at h
        · next hm => cases h; exact hm
        · cases h

/-- A request sent to the path of its method. -/
def post (r : Request) : HttpReq := ⟨"POST", r.method.path.toList, some (encRequest r)⟩

/-- Requests of all kinds: create, write, check, an empty body, an unknown path, another verb, a broken body. -/
def gwRequests : List (Ambient × HttpReq) :=
  rpcRequests.map (fun r => (r.1, post r.2)) ++
    [(⟨6, 20, id⟩, ⟨"POST", Method.listPolicyIds.path.toList, some []⟩), (⟨7, 20, id⟩, ⟨"POST", "/CreatePolicy".toList, some []⟩),
     (⟨8, 20, id⟩, ⟨"GET", Method.listPolicyIds.path.toList, some []⟩), (⟨9, 20, id⟩, ⟨"POST", Method.getPolicy.path.toList, none⟩)]

theorem proto_holds {m : Method} {body : Option Bytes} {r : Request} (h : Holds protoMarshaler m body r) :
    ∃ bs, body = some bs ∧ decRequest 10000 m bs = some r := by
  obtain ⟨bs, rfl, h | ⟨h1, rfl, h3⟩⟩ := h
  · refine ⟨bs, rfl, ?_⟩
    simp only [protoMarshaler] at h
    split at h
    · cases h
    · split at h
      · cases h
      · next hd => split at h
                   · cases h; exact hd
                   · cases h
  · refine ⟨bs, rfl, ?_⟩
    simp only [protoMarshaler] at h1
    split at h1
    · next hb =>
      subst hb
      have hf : RequestFits 10000 r := by
        refine ⟨by rw [h3]; decide, ?_⟩
        rw [encRequest_nil h3]
        cases r.method <;> simp [zeroRequest, DefinitionFits]
      have := decRequest_enc r (by omega : 6 ≤ 10000) hf
      rwa [h3] at this
    · split at h1
      · cases h1
      · split at h1 <;> cases h1

/-- The hypotheses of `C106_histories` hold for these requests: all kinds of replies are given. -/
example : (∀ q ∈ gwRequests, HttpBounded 10000 byteEnv protoMarshaler q.1 q.2) ∧
    (https (httpServer rpcPrinter protoMarshaler (serve byteEnv)) gwRequests Store.empty).1.map (fun o => match o with | .message _ => none | o => some o) =
      [none, none, none, some .aborted, none, none, some (.status .notFound), some (.status .unimplemented), some (.status .invalidArgument)] := by
  refine ⟨fun q hq m r hm hr => ?_, by decide +kernel⟩
  obtain ⟨bs, hb, hd⟩ := proto_holds hr
  rcases List.mem_append.1 hq with hq | hq
  · obtain ⟨⟨x, r0⟩, h0, rfl⟩ := List.mem_map.1 hq
    have hm' : m = r0.method := by
      have h1 := handler_of m
      rw [← String.toList_injective hm.2, handler_of] at h1
      exact (Option.some.inj h1).symm
    subst hm'
    cases hb
    have hf := rpcRequests_fit _ h0
    rw [decRequest_enc r0 (by omega) hf.1] at hd
    cases hd
    exact hf
  · simp only [List.mem_cons, List.not_mem_nil, or_false] at hq
    rcases hq with rfl | rfl | rfl | rfl
    · have hm' : m = .listPolicyIds := by
        have h1 := handler_of m
        rw [← String.toList_injective hm.2, handler_of] at h1
        exact (Option.some.inj h1).symm
      subst hm'
      cases hb
      cases hd
      exact ⟨⟨by decide +kernel, trivial⟩, trivial⟩
    · exact absurd hm.2 (by cases m <;> decide +kernel)
    · exact absurd hm.1 (by decide)
    · cases hb

/-- The hypotheses of `C106_empty_body` and `C107_codes_violated` hold: an empty body, and a policy that is not there.  To a local caller the latter is another
error than failing storage (`C87_blame_right`). -/
example : IsFor ⟨"POST", Method.listPolicyIds.path.toList, some []⟩ .listPolicyIds ∧ protoMarshaler.read .listPolicyIds [] = .eof ∧
    IsFor (post (.check "q" (ask ⟨doc1, "a"⟩ usr))) .check ∧ Holds protoMarshaler .check (post (.check "q" (ask ⟨doc1, "a"⟩ usr))).body (.check "q" (ask ⟨doc1, "a"⟩ usr)) ∧
    (serve gEnv (.check 10 "q" (ask ⟨doc1, "a"⟩ usr)) abStore).1 = .err .policyNotFound ∧
    ∃ s', RunF ((Call.check 10 "p" (ask ⟨doc1, "a"⟩ usr)).progE gEnv) abStore true (.ok (.error ⟨.store, [.internal]⟩)) s' := by
  refine ⟨⟨rfl, rfl⟩, rfl, ⟨rfl, rfl⟩, ⟨_, rfl, .inl ?_⟩, ?_, faults_of 0 (by decide +kernel) (by decide +kernel)⟩
  · have hd := decRequest_enc (limit := 10000) (.check "q" (ask ⟨doc1, "a"⟩ usr)) (by omega) ⟨by decide +kernel, trivial⟩
    have hne : encRequest (.check "q" (ask ⟨doc1, "a"⟩ usr)) ≠ [] := by decide +kernel
    simp only [protoMarshaler]
    rw [if_neg hne]
    rw [show Request.method (.check "q" (ask ⟨doc1, "a"⟩ usr)) = .check from rfl] at hd
    rw [hd]
    rfl
  · have : ((serve gEnv (.check 10 "q" (ask ⟨doc1, "a"⟩ usr)) abStore).1 matches .err .policyNotFound) = true := by decide +kernel
    split at this
    · next h => exact h
    · cases this

end Zanzi.Props
