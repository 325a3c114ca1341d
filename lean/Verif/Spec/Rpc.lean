import Verif.Model.Rpc
import Verif.Spec.ByteStore

/-
What a remote caller should see (C73).
-/

namespace Zanzi.Spec

open Wire

/-- A policy in a request can be written: its trees have roots, its attributes are a map, and the messages of the request are nested no deeper than the
decoder reads. -/
def DefinitionFits (limit : Nat) (d : Option PolicyDefinition) : Prop :=
  ∀ p, d = some (.policy p) → WholeTrees p ∧ (p.attributes.map (·.1)).Nodup ∧ Nest.policy p + 2 ≤ limit

/-- The request can be written, and is not larger than any memory. -/
def RequestFits (limit : Nat) (r : Request) : Prop :=
  (encRequest r).length < 2 ^ 64 ∧
  match r with
  | .createPolicy d _ => DefinitionFits limit d
  | .updatePolicy d _ strategy => DefinitionFits limit d ∧ strategy < 2 ^ 64
  | _ => True

/-- Counts fit into 64 bits. -/
def CountFits : Answer → Prop
  | .deletedPolicy _ n | .affected n => n < 2 ^ 64
  | _ => True

/-- What the caller of a method sees agrees with the result of the call: it reads the response, unless that is larger than any memory. -/
def Sees (limit : Nat) (pr : Printer) (m : Method) (o : Outcome) : Res Answer → Prop
  | .ok a => ∃ bs, o = .replied bs ∧ (bs.length < 2 ^ 64 → CountFits a → decReply limit m bs = some (Answer.reply pr a))
  | .err e => o = .failed e
  | .panic => o = .crashed
  | .fuel => o = .fuel

/-- Two lists agree item by item. -/
inductive Pairwise3 {α β γ : Type} (P : α → β → γ → Prop) : List α → List β → List γ → Prop
  | nil : Pairwise3 P [] [] []
  | cons {a : α} {b : β} {c : γ} {as : List α} {bs : List β} {cs : List γ} : P a b c → Pairwise3 P as bs cs → Pairwise3 P (a :: as) (b :: bs) (c :: cs)

/-- What the call brings is not larger than any memory. -/
def Bounded (env : Env) : Call → Prop
  | .createPolicy now d a => ClockOK now ∧ a.length < 2 ^ 60 ∧ ∀ p, getPolicyFromDefinition env d = .ok p → (encPolicy p).length < 2 ^ 60
  | .updatePolicy d a => a.length < 2 ^ 60 ∧ ∀ p, getPolicyFromDefinition env d = .ok p → (encPolicy p).length < 2 ^ 60
  | .setRelationship now _ r a => ClockOK now ∧ a.length < 2 ^ 60 ∧ ∀ x, r = some x → RelFits x
  | _ => True

/-- What the request bytes bring, if they are a request at all, is not larger than any memory. -/
def RemoteBounded (limit : Nat) (env : Env) (x : Ambient) (path : String) (bs : Bytes) : Prop :=
  ∀ m r, kvGet handlers path = some m → decRequest limit m bs = some r → Bounded env (r.call x)

/-- YAML decoding gives attributes as a map. -/
def YamlMaps (env : Env) : Prop := ∀ text d, env.decode text = .ok d → (d.attributes.map (·.1)).Nodup

end Zanzi.Spec
