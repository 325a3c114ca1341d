import Verif.Lemmas.ByteServe
import Verif.Lemmas.Witness

/-
C72: the server working on bytes behaves as the server working on values.
-/

namespace Zanzi.Props

open Spec Wire

/-- C72 (one request after the other): on bytes, every history of requests that fit gets the answers it gets on values, and leaves the bytes of
the same store. -/
theorem C72_histories_on_bytes (limit : Nat) (hl : 2 ≤ limit) (env : Env) (hH : Hash256 env.H) (cs : List Call)
    (hc : ∀ c ∈ cs, CallFits limit env c) :
    runCallsB limit env cs BStore.empty = ((runCalls env cs Store.empty).1, encStore (runCalls env cs Store.empty).2) :=
  runCalls_sim hH hl cs hc empty_fits

/-- C72 (any schedule): with requests interleaving, storage calls failing and the process crashing, the server on bytes reaches exactly the
states the server on values reaches, encoded. -/
theorem C72_schedules_on_bytes (limit : Nat) (hl : 2 ≤ limit) (env : Env) (hH : Hash256 env.H) (ts : List (Prog Answer)) (b : BStore) :
    PathB limit env (CallFits limit env) ts b ↔ ∃ s, Sys.Path env (CallFits limit env) ⟨[], Store.empty⟩ ⟨ts, s⟩ ∧ b = encStore s :=
  ⟨path_ofB hH hl, fun ⟨_, h, hb⟩ => hb ▸ path_toB hH hl h⟩

/-- C72: no two stores the server reaches are held by the same bytes. -/
theorem C72_bytes_determine_store (limit : Nat) (hl : 2 ≤ limit) (env : Env) (hH : Hash256 env.H) (x y : Sys)
    (hx : Sys.Path env (CallFits limit env) ⟨[], Store.empty⟩ x) (hy : Sys.Path env (CallFits limit env) ⟨[], Store.empty⟩ y)
    (h : encStore x.store = encStore y.store) : x.store = y.store :=
  encStore_inj (path_fits hH hl hx).1 (path_fits hH hl hy).1 h

/-- C72 (successors): the keys between a node's key followed by `MinKey` and by `MaxKey` are exactly the edges from that node, whatever else is stored; but for
a scan that leaves out its end, which misses the edge to a node whose hash is all ones. -/
theorem C72_successor_scan (limit : Nat) (hl : 2 ≤ limit) (env : Env) (hH : Hash256 env.H) (x : Sys)
    (hx : Sys.Path env (CallFits limit env) ⟨[], Store.empty⟩ x) (pid name : String) (closed : Bool)
    (hc : closed = true ∨ ∀ p ∈ x.store.edges pid, p.1.2 ≠ 2 ^ 256 - 1) :
    allSome (fun p => decIRel limit p.2) (scan closed (encKey 32 (env.H name) ++ minKey) (encKey 32 (env.H name) ++ maxKey) ((encStore x.store).edges pid)) =
      some (((x.store.edges pid).filter (fun p => decide (p.1.1 = env.H name))).map (·.2)) := by
  have hs := (path_fits hH hl hx).1
  have hmin : minKey = encKey 32 0 := by decide +kernel
  have hmax : maxKey = encKey 32 (2 ^ 256 - 1) := by decide +kernel
  have hn : env.H name < 2 ^ 256 := hH name
  have lo : encKey 32 (env.H name) ++ minKey = encEdgeKey (env.H name, 0) := by rw [hmin, encEdgeKey]
  have hi : encKey 32 (env.H name) ++ maxKey = encEdgeKey (env.H name, 2 ^ 256 - 1) := by rw [hmax, encEdgeKey]
  have fl : KeyFits (env.H name, 0) := ⟨hn, show 0 < 2 ^ 256 by decide⟩
  have fh : KeyFits (env.H name, 2 ^ 256 - 1) := ⟨hn, show 2 ^ 256 - 1 < 2 ^ 256 by decide⟩
  rw [lo, hi, scan, show (encStore x.store).edges pid = encMap encEdgeKey encIRel (x.store.edges pid) from rfl, encMap, List.filter_map,
    List.filter_congr (q := fun p => decide (p.1.1 = env.H name)), allSome_map (h := (·.2))]
  · intro p hp
    exact (hs.edge pid p (List.mem_filter.1 hp).1).2
  · intro p hp
    have hk := (hs.edge pid p hp).1
    have h2 := hk.2
    dsimp only [Function.comp]
    rw [encEdgeKey_lt hk fl, encEdgeKey_lt hk fh]
    have he : (encEdgeKey p.1 = encEdgeKey (env.H name, 2 ^ 256 - 1)) ↔ p.1 = (env.H name, 2 ^ 256 - 1) :=
      ⟨encEdgeKey_inj hk fh, fun h => by rw [h]⟩
    rw [Bool.eq_iff_iff]
    simp only [edgeLt, he, Bool.and_eq_true, Bool.or_eq_true, Bool.not_eq_true', decide_eq_true_eq, Bool.or_eq_false_iff, Bool.and_eq_false_iff,
      decide_eq_false_iff_not, Prod.ext_iff]
    constructor
    · rintro ⟨⟨h, -⟩, h' | ⟨-, h', -⟩⟩ <;> omega
    · intro h
      refine ⟨⟨by omega, .inr (by omega)⟩, ?_⟩
      by_cases hm : p.1.2 = 2 ^ 256 - 1
      · rcases hc with hc | hc
        · exact .inr ⟨hc, h, hm⟩
        · exact absurd hm (hc p hp)
      · exact .inl (.inr ⟨h, by omega⟩)

/-- C72 (records that do not decode): requests that need the policy fail with the storage error and change nothing. -/
theorem C72_unreadable_policy (limit : Nat) (env : Env) (s : BStore) (pid : String) (bs : Bytes) (hb : kvGet s.policies (utf8 pid) = some bs)
    (hd : decPolicyRecord limit bs = none) (c : Call) (hc : NeedsPolicy env pid c) : serveB limit env c s = (.err .store, s) := by
  have hg : (execB limit (.polGet pid) s) = (none, s) := by
    simp only [execB, getObject, hb, hd, Option.map_none]
    rfl
  have hr : ∀ {α : Type} (k : Option PolicyRecord → Prog α), runB limit (Repo.getPolicy pid >>= k) s = (.err .store, s) := by
    intro α k
    show runB limit (.call (.polGet pid) _) s = _
    rw [runB, hg]
    rfl
  have hr' : ∀ {α β : Type} (k : Option PolicyRecord → Prog α) (k' : α → Prog β), runB limit ((Repo.getPolicy pid >>= k) >>= k') s = (.err .store, s) := by
    intro α β k k'
    rw [Prog.bind_assoc]
    exact hr _
  cases c <;> simp only [NeedsPolicy] at hc <;> unfold serveB <;> simp only [Call.prog]
  case createPolicy now d a =>
    obtain ⟨p, hp, rfl⟩ := hc
    unfold Service.createPolicy
    rw [hp, lift_ok_bind]
    exact hr' _ _
  case updatePolicy d a =>
    obtain ⟨p, hp, rfl⟩ := hc
    unfold Service.updatePolicy
    rw [hp, lift_ok_bind]
    exact hr' _ _
  case getPolicy q => subst hc; exact hr _
  case setRelationship now q r a => subst hc; exact hr' _ _
  case findRelationshipRecords q sel => subst hc; exact hr' _ _
  case check fuel q req =>
    subst hc
    unfold GraphService.check GraphService.getPolicy
    rw [Prog.bind_assoc, Prog.bind_assoc]
    exact hr _
  case explainCheck fuel q req f =>
    obtain ⟨rfl, hf⟩ := hc
    have : serializerFactory f = .ok () := by cases f <;> first | rfl | exact absurd rfl hf
    unfold GraphService.explainCheck GraphService.getPolicy
    rw [this, lift_ok_bind, Prog.bind_assoc, Prog.bind_assoc]
    exact hr _
  case expand fuel q root f =>
    obtain ⟨rfl, hf⟩ := hc
    have : serializerFactory f = .ok () := by cases f <;> first | rfl | exact absurd rfl hf
    unfold GraphService.expand GraphService.getPolicy
    rw [this, lift_ok_bind, Prog.bind_assoc, Prog.bind_assoc]
    exact hr _
  case dumpRelationships fuel order q f =>
    subst hc
    unfold GraphService.dumpRelationships GraphService.getPolicy
    rw [Prog.bind_assoc, Prog.bind_assoc]
    exact hr _

/-- C72 (records that do not decode): whatever bytes stand for policy `pid`, DeletePolicy removes it with its relationships, as if they were
those of any record of that policy. -/
theorem C72_unreadable_policy_deleted (limit : Nat) (hl : 2 ≤ limit) (env : Env) (hH : Hash256 env.H) (x : Sys)
    (hx : Sys.Path env (CallFits limit env) ⟨[], Store.empty⟩ x) (pid : String) (bs : Bytes) (rec : PolicyRecord) (hr : rec.policy.id = pid) :
    serveB limit env (.deletePolicy pid) { encStore x.store with policies := kvPut bytesLt (encStore x.store).policies (utf8 pid) bs } =
      ((serve env (.deletePolicy pid) (x.store.putPolicy rec)).1, encStore (serve env (.deletePolicy pid) (x.store.putPolicy rec)).2) :=
  delete_unreadable hH (path_fits hH hl hx).1 pid bs rec hr

/-- C72 (the bound on nesting is needed): whatever the limit, a policy that CreatePolicy accepts makes every later request that needs it fail, until
it is deleted. -/
theorem C72_deep_policy_locked (env : Env) (hH : Hash256 env.H) (limit : Nat) (hl : limit < 2 ^ 40) :
    ∃ now d a r s, serveB limit env (.createPolicy now d a) BStore.empty = (.ok (.created r), s) ∧
      (∀ c, NeedsPolicy env r.policy.id c → serveB limit env c s = (.err .store, s)) ∧
      serveB limit env .listPolicyIds s = (.ok (.ids [r.policy.id]), s) ∧
      serveB limit env (.deletePolicy r.policy.id) s = (.ok (.deletedPolicy true 0), BStore.empty) := by
  have hv := deep_valid env.U limit
  refine ⟨0, some (.policy (deepPolicy limit)), [], ⟨deepPolicy limit, [], 0⟩,
    { BStore.empty with policies := [(utf8 "deep", encPolicyRecord ⟨deepPolicy limit, [], 0⟩)] }, ?_, ?_, ?_, ?_⟩
  · show runB limit ((Prog.lift (verifyPolicy env.U (deepPolicy limit)) >>= _) >>= _) BStore.empty = _
    rw [(C09_validation_exact env.U _).2 hv]
    rfl
  · intro c hc
    refine C72_unreadable_policy limit env _ "deep" (encPolicyRecord ⟨deepPolicy limit, [], 0⟩) ?_ ?_ c hc
    · simp [kvGet]
    · exact (C71_policy_records_partial (U := env.U) ⟨deepPolicy limit, [], 0⟩ hv (by simp [deepPolicy]) (show 0 / 1000000000 < 2 ^ 63 by decide) limit _
        ⟨[], .nil, rfl⟩ (deep_small limit hl)).2 (by rw [nest_deep]; omega)
  · show runB limit (.call .polList _) _ = _
    rw [runB]
    simp only [execB, allSome, ofUtf8_utf8]
    rfl
  · have h := delete_unreadable (limit := limit) hH empty_fits "deep"
      (encPolicyRecord ⟨deepPolicy limit, [], 0⟩) ⟨deepPolicy limit, [], 0⟩ rfl
    rw [serve_deletePolicy] at h
    have hp : (kvGet (Store.empty.putPolicy ⟨deepPolicy limit, [], 0⟩).policies "deep").isSome = true := rfl
    rw [if_pos hp] at h
    refine h.trans (Prod.ext rfl ?_)
    show encStore (Store.delRels { policies := kvDel [("deep", _)] "deep", edges := fun _ => [], data := [] } "deep" []) = BStore.empty
    have hk : kvDel [("deep", (⟨deepPolicy limit, [], 0⟩ : PolicyRecord))] "deep" = [] := by simp [kvDel]
    rw [hk]
    simp [Store.delRels, encStore, BStore.empty]


/-- An environment whose hashes are 32 bytes long. -/
def byteEnv : Env := wEnv (fun x => Hx x % 2 ^ 256)

/-- A history that writes, reads and deletes. -/
def byteCalls : List Call :=
  [.createPolicy 1500000000000000001 (some (.policy (docPolicy "p"))) [7], .setRelationship 2 "p" (some rA) [9], .getPolicy "p", .getRelationship "p" (some rA),
    .updatePolicy (some (.policy (docPolicy "p"))) [], .deletePolicy "p", .listPolicyIds]

theorem byteEnv_hash : Hash256 byteEnv.H := fun x => Nat.mod_lt _ (by decide)

theorem byteCalls_fit : ∀ c ∈ byteCalls, CallFits 10000 byteEnv c := by
  have hp : ∀ a : Bytes, a.length < 2 ^ 60 → ∀ p, getPolicyFromDefinition byteEnv (some (.policy (docPolicy "p"))) = .ok p → PolicyFits 10000 p a := by
    intro a ha p h
    cases h
    exact ⟨by decide, show Nest.policyRecord ⟨docPolicy "p", [], 0⟩ ≤ 10000 by decide +kernel, by decide +kernel, ha⟩
  intro c hc
  simp only [byteCalls, List.mem_cons, List.not_mem_nil, or_false] at hc
  rcases hc with rfl | rfl | rfl | rfl | rfl | rfl | rfl
  · exact ⟨by unfold ClockOK; decide, hp _ (by decide)⟩
  · refine ⟨by unfold ClockOK; decide, by decide, fun x hx => ?_⟩
    cases hx
    refine ⟨by unfold NameFits; decide +kernel, fun o ho => ?_, fun o ho => ?_, nofun, nofun⟩
    · cases ho; exact ⟨by unfold NameFits; decide +kernel, by unfold NameFits; decide +kernel⟩
    · cases ho; exact ⟨by unfold NameFits; decide +kernel, by unfold NameFits; decide +kernel⟩
  · trivial
  · trivial
  · exact hp _ (by decide)
  · trivial
  · trivial

example : Hash256 byteEnv.H ∧ (∀ c ∈ byteCalls, CallFits 10000 byteEnv c) ∧
    (runCalls byteEnv byteCalls Store.empty).1 =
      [.ok (.created ⟨docPolicy "p", [7], 1500000000000000001⟩), .ok (.overwritten false), .ok (.policy (some ⟨docPolicy "p", [7], 1500000000000000001⟩)),
        .ok (.relationship (some ⟨"p", rA, 2, [9]⟩)), .ok .updated, .ok (.deletedPolicy true 1), .ok (.ids [])] :=
  ⟨byteEnv_hash, byteCalls_fit, rfl⟩

-- A schedule with a request in flight.
example : ∃ x : Sys, Sys.Path byteEnv (CallFits 10000 byteEnv) ⟨[], Store.empty⟩ x ∧ x.threads.length = 1 := by
  refine ⟨_, .arrive (.getPolicy "p") trivial .refl, rfl⟩

-- Bytes that do not decode, and a request that needs them.
example : kvGet [(utf8 "p", ([255] : Bytes))] (utf8 "p") = some [255] ∧ decPolicyRecord 10000 [255] = none ∧
    NeedsPolicy byteEnv "p" (.updatePolicy (some (.policy (docPolicy "p"))) []) ∧ NeedsPolicy byteEnv "p" (.check 5 "p" none) :=
  ⟨by decide +kernel, by decide +kernel, ⟨docPolicy "p", rfl, rfl⟩, rfl⟩

end Zanzi.Props
