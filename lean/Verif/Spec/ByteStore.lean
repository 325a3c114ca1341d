import Verif.Model.ByteStore
import Verif.Spec.Wire
import Verif.Spec.Sched

/-
When the engine's bytes hold a store, and which requests bring only what fits into it (C72).
-/

namespace Zanzi.Spec

open Wire

/-- The bytes hold the store: the same keys and records, encoded, in the same order. -/
def encStore (s : Store) : BStore :=
  ⟨s.policies.map (fun p => (utf8 p.1, encPolicyRecord p.2)),
   fun pid => (s.edges pid).map (fun p => (encEdgeKey p.1, encIRel p.2)),
   s.data.map (fun p => (encEdgeKey p.1, encRelData p.2))⟩

/-- A clock reading a protobuf timestamp can hold. -/
def ClockOK (t : Nat) : Prop := t / 1000000000 < 2 ^ 63

/-- The policy fits: its attributes are a map, its messages are nested no deeper than the decoder reads, and it is not larger than any memory. -/
def PolicyFits (limit : Nat) (p : Policy) (a : Bytes) : Prop :=
  (p.attributes.map (·.1)).Nodup ∧ Nest.policyRecord ⟨p, a, 0⟩ ≤ limit ∧ (encPolicy p).length < 2 ^ 60 ∧ a.length < 2 ^ 60

/-- A name not larger than any memory. -/
def NameFits (s : String) : Prop := (utf8 s).length < 2 ^ 56

/-- The names in the relationship fit. -/
def RelFits (x : Relationship) : Prop :=
  NameFits x.relation ∧ (∀ o, x.object = some o → NameFits o.resource ∧ NameFits o.id) ∧
  (∀ o, x.subject = some (.entity o) → NameFits o.resource ∧ NameFits o.id) ∧
  (∀ o rel, x.subject = some (.entitySet (some o) rel) → NameFits o.resource ∧ NameFits o.id ∧ NameFits rel) ∧
  (∀ n, x.subject = some (.resourceSet n) → NameFits n)

/-- The request brings only what fits. -/
def CallFits (limit : Nat) (env : Env) : Call → Prop
  | .createPolicy now d a => ClockOK now ∧ ∀ p, getPolicyFromDefinition env d = .ok p → PolicyFits limit p a
  | .updatePolicy d a => ∀ p, getPolicyFromDefinition env d = .ok p → PolicyFits limit p a
  | .setRelationship now _ r a => ClockOK now ∧ a.length < 2 ^ 60 ∧ ∀ x, r = some x → RelFits x
  | _ => True

/-- The request needs the stored policy `pid`. -/
def NeedsPolicy (env : Env) (pid : String) : Call → Prop
  | .createPolicy _ d _ | .updatePolicy d _ => ∃ p, getPolicyFromDefinition env d = .ok p ∧ p.id = pid
  | .getPolicy q | .setRelationship _ q _ _ | .findRelationshipRecords q _ | .check _ q _ | .dumpRelationships _ _ q _ => q = pid
  | .explainCheck _ q _ f | .expand _ q _ f => q = pid ∧ f ≠ .unknown
  | _ => False

/-- Hashes are 32 bytes long. -/
def Hash256 (H : String → Nat) : Prop := ∀ x, H x < 2 ^ 256

end Zanzi.Spec
