import Verif.Lemmas.Wire
import Verif.Lemmas.Serve
import Verif.Props.Policy

/-
C71: what is written to storage can be read back, and is what was written.
-/

namespace Zanzi.Props

open Spec Wire

theorem valid_wholeTrees {U : Unicode} {p : Policy} (h : ValidPolicy U p) : WholeTrees p := by
  intro res hres rel hrel he
  obtain ⟨t, ht, hn, -⟩ := h.2.2 res hres rel hrel
  rcases ht with ht | ⟨x, y, hx, -⟩
  · rw [he] at ht
    cases ht
    exact hn
  · rw [he] at hx
    cases hx

/-- C71 (policies): the bytes written for an accepted policy decode to the record written, whatever the order of the attributes,
if its messages are nested at most `limit` deep; and do not decode at all if they are deeper. -/
theorem C71_policy_records_partial {U : Unicode} (r : PolicyRecord) (hv : ValidPolicy U r.policy)
    (hk : (r.policy.attributes.map (·.1)).Nodup) (ht : r.createdAt / 1000000000 < 2 ^ 63) (limit : Nat) (bs : Bytes)
    (hb : PolicyBytes r bs) (hs : bs.length < 2 ^ 64) :
    (Nest.policyRecord r ≤ limit → ∃ r', decPolicyRecord limit bs = some r' ∧ SameRecord r' r) ∧
    (limit < Nest.policyRecord r → decPolicyRecord limit bs = none) := by
  obtain ⟨attrs, hp, rfl⟩ := hb
  have hw : WholeTrees r.policy := valid_wholeTrees hv
  have := decPolicyRecord_enc { r with policy := { r.policy with attributes := attrs } } hw
    ((hp.map (·.1)).nodup_iff.2 hk) ht limit hs
  rw [this]
  constructor
  · intro h
    exact ⟨_, if_pos h, rfl, rfl, rfl, rfl, rfl, rfl, hp⟩
  · intro h
    exact if_neg (Nat.not_le.2 h)

/-- C71 (policies): every accepted policy whose expressions are text, or trees at most `d` operators deep, is read back.  With Go's limit of 10000
that is every tree of depth up to 4996. -/
theorem C71_shallow_policies {U : Unicode} (r : PolicyRecord) (hv : ValidPolicy U r.policy)
    (hk : (r.policy.attributes.map (·.1)).Nodup) (ht : r.createdAt / 1000000000 < 2 ^ 63) (bs : Bytes)
    (hb : PolicyBytes r bs) (hs : bs.length < 2 ^ 64) (d limit : Nat) (hd : TreesWithin d r.policy) (hl : 2 * d + 8 ≤ limit) :
    ∃ r', decPolicyRecord limit bs = some r' ∧ SameRecord r' r :=
  (C71_policy_records_partial r hv hk ht limit bs hb hs).1 (Nat.le_trans (nest_policyRecord_le hd) hl)

/-- C71 (policies): two accepted policies written as the same bytes are the same. -/
theorem C71_policy_bytes_injective {U : Unicode} (r r' : PolicyRecord) (hv : ValidPolicy U r.policy) (hv' : ValidPolicy U r'.policy)
    (hk : (r.policy.attributes.map (·.1)).Nodup) (hk' : (r'.policy.attributes.map (·.1)).Nodup)
    (ht : r.createdAt / 1000000000 < 2 ^ 63) (ht' : r'.createdAt / 1000000000 < 2 ^ 63) (bs : Bytes)
    (hb : PolicyBytes r bs) (hb' : PolicyBytes r' bs) (hs : bs.length < 2 ^ 64) : SameRecord r r' := by
  obtain ⟨x, hx, a1, a2, a3, a4, a5, a6, a7⟩ :=
    (C71_policy_records_partial r hv hk ht (max (Nest.policyRecord r) (Nest.policyRecord r')) bs hb hs).1 (by omega)
  obtain ⟨y, hy, b1, b2, b3, b4, b5, b6, b7⟩ :=
    (C71_policy_records_partial r' hv' hk' ht' (max (Nest.policyRecord r) (Nest.policyRecord r')) bs hb' hs).1 (by omega)
  obtain rfl : x = y := Option.some.inj (hx.symm.trans hy)
  exact ⟨a1.symm.trans b1, a2.symm.trans b2, a3.symm.trans b3, a4.symm.trans b4, a5.symm.trans b5, a6.symm.trans b6, a7.symm.trans b7⟩

theorem deep_valid (U : Unicode) (limit : Nat) : ValidPolicy U (deepPolicy limit) := by
  refine ⟨⟨by simp [deepPolicy], by simp [deepPolicy]⟩, ?_, ?_⟩
  · intro r hr d hd sr hsr
    simp only [deepPolicy, List.mem_singleton] at hr
    subst hr
    simp only [List.mem_singleton] at hd
    subst hd
    cases hsr
    trivial
  · intro r hr d hd
    simp only [deepPolicy, List.mem_singleton] at hr
    subst hr
    simp only [List.mem_singleton] at hd
    subst hd
    refine ⟨_, .inl rfl, noNil_chain _, ?_⟩
    intro x hx
    rw [leaves_chain _ x hx]
    trivial

/-- C71 (policies), negated in general: whatever the limit on nesting, CreatePolicy accepts and stores a policy whose bytes do not decode. -/
theorem C71_deep_violated (env : Env) (limit : Nat) (hl : limit < 2 ^ 40) :
    ∃ d now a r s, serve env (.createPolicy now d a) Store.empty = (.ok (.created r), s) ∧ policyAt s r.policy.id = some r ∧
      ∀ bs, PolicyBytes r bs → decPolicyRecord limit bs = none := by
  have hv := deep_valid env.U limit
  refine ⟨some (.policy (deepPolicy limit)), 0, [], ⟨deepPolicy limit, [], 0⟩, Store.empty.putPolicy ⟨deepPolicy limit, [], 0⟩, ?_, ?_, ?_⟩
  · rw [serve_create, show getPolicyFromDefinition env (some (.policy (deepPolicy limit))) = .ok (deepPolicy limit) from rfl]
    dsimp only
    rw [show kvGet Store.empty.policies (deepPolicy limit).id = none from rfl, (C09_validation_exact env.U _).2 hv]
  · rfl
  · rintro bs ⟨attrs, hp, rfl⟩
    rw [show (deepPolicy limit).attributes = [] from rfl] at hp
    obtain rfl := hp.eq_nil
    exact (C71_policy_records_partial (U := env.U) ⟨deepPolicy limit, [], 0⟩ hv (by simp [deepPolicy]) (show 0 / 1000000000 < 2 ^ 63 by decide) limit _ ⟨[], .nil, rfl⟩
      (deep_small limit hl)).2 (by rw [nest_deep]; omega)

/-- C71 (relationships): what is written for an edge decodes to that edge. -/
theorem C71_relationships (r : IRel) (limit : Nat) (hl : 2 ≤ limit) (hs : (encIRel r).length < 2 ^ 64) :
    decIRel limit (encIRel r) = some r := by
  rw [decIRel_enc r limit hs, if_pos hl]

/-- C71 (relationships): and different edges are written differently. -/
theorem C71_relationship_bytes_injective (r r' : IRel) (hs : (encIRel r).length < 2 ^ 64) (h : encIRel r = encIRel r') : r = r' := by
  have h1 := C71_relationships r 2 (by omega) hs
  have h2 := C71_relationships r' 2 (by omega) (h ▸ hs)
  rw [h, h2] at h1
  exact (Option.some.inj h1).symm

/-- C71 (relationship data): the application data and creation time of a relationship are read back as written. -/
theorem C71_relationship_data (d : RelData) (h1 : d.relationshipId.1 < 2 ^ 256) (h2 : d.relationshipId.2 < 2 ^ 256)
    (ht : d.createdAt / 1000000000 < 2 ^ 63) (limit : Nat) (hl : 2 ≤ limit) (hs : (encRelData d).length < 2 ^ 64) :
    decRelData limit (encRelData d) = some d := by
  rw [decRelData_enc d h1 h2 ht limit hs, if_pos hl]

/-- A record with two attributes, some application data and a creation time. -/
def wireRecord : PolicyRecord := ⟨{ exPolicy with name := "files", attributes := [("k", "v"), ("", "x")] }, [1, 0], 1500000000000000001⟩

example : ValidPolicy U0 wireRecord.policy ∧ (wireRecord.policy.attributes.map (·.1)).Nodup ∧ wireRecord.createdAt / 1000000000 < 2 ^ 63 ∧
    Nest.policyRecord wireRecord = 8 ∧
    PolicyBytes wireRecord (encPolicyRecord { wireRecord with policy := { wireRecord.policy with attributes := [("", "x"), ("k", "v")] } }) := by
  refine ⟨?_, by decide, by decide, by decide, _, List.Perm.swap .., rfl⟩
  exact (C09_validation_exact U0 _).1 (by decide +kernel)

example : TreesWithin 0 exPolicy ∧ TreesWithin 3 (deepPolicy 3) ∧ ¬ TreesWithin 2 (deepPolicy 3) := by
  simp [TreesWithin, exPolicy, deepPolicy, chain, opDepth]

-- the bytes of one edge, as protobuf writes them
example : encIRel ⟨⟨"doc", "1", "own", .objectSet⟩, ⟨"user", "b", "", .object⟩⟩ =
    [10, 15, 10, 3, 100, 111, 99, 18, 1, 49, 26, 3, 111, 119, 110, 32, 2, 18, 11, 10, 4, 117, 115, 101, 114, 18, 1, 98, 32, 1] := by decide +kernel

end Zanzi.Props
