import Verif.Lemmas.Serve
import Verif.Props.Parser

/-
A concrete server, used by counterexamples and by the examples that show hypotheses are satisfiable.
-/

namespace Zanzi

open Spec

/-! ### A concrete server -/

/-- A document policy: relations owner and super_owner, subjects are users. -/
def docPolicy (id : String) : Policy :=
  { id := id
    resources := [
      { name := "user", relations := [] },
      { name := "doc", relations := [
        { name := "owner", relationExpression := some (.expr "_this"),
          subjectRestriction := some (.restrictionSet [.entity "user"]) },
        { name := "super_owner", relationExpression := some (.expr "_this"),
          subjectRestriction := some (.restrictionSet [.entity "user"]) }] }] }

/-- Iterate in list order. -/
def listOrder : RangeOrder := ⟨fun l => l, fun l => List.Perm.refl l⟩

/-- ASCII identifiers, any hash, no YAML. -/
def wEnv (H : String → Nat) : Env := ⟨U0, H, fun _ => .err .yaml, listOrder, fun _ => listOrder⟩

/-- Policies "p" and "q" have been created. -/
def wStore : Store := (Store.empty.putPolicy ⟨docPolicy "p", [], 0⟩).putPolicy ⟨docPolicy "q", [], 0⟩

/-- doc:1 # super_owner @ user:u -/
def rA : Relationship := ⟨some ⟨"doc", "1"⟩, "super_owner", some (.entity ⟨"user", "u"⟩)⟩
/-- doc:1super_ # owner @ user:u -/
def rB : Relationship := ⟨some ⟨"doc", "1super_"⟩, "owner", some (.entity ⟨"user", "u"⟩)⟩
/-- stored form of `rA` -/
def eA : IRel := ⟨⟨"doc", "1", "super_owner", .objectSet⟩, ⟨"user", "u", "", .object⟩⟩
/-- stored form of `rB` -/
def eB : IRel := ⟨⟨"doc", "1super_", "owner", .objectSet⟩, ⟨"user", "u", "", .object⟩⟩

theorem eA_of : toInternal rA = .ok eA := rfl
theorem eB_of : toInternal rB = .ok eB := rfl

theorem key_alias (H : String → Nat) : eA.key H = eB.key H := by
  unfold IRel.key INode.key
  have : eA.source.resource ++ eA.source.id ++ eA.source.relation = eB.source.resource ++ eB.source.id ++ eB.source.relation := by
    decide +kernel
  rw [this]
  rfl

theorem wStore_reached (H : String → Nat) :
    runCalls (wEnv H) [.createPolicy 0 (some (.policy (docPolicy "p"))) [], .createPolicy 0 (some (.policy (docPolicy "q"))) []]
      Store.empty = ([.ok (.created ⟨docPolicy "p", [], 0⟩), .ok (.created ⟨docPolicy "q", [], 0⟩)], wStore) := by
  have hp : verifyPolicy U0 (docPolicy "p") = .ok () := by decide +kernel
  have hq : verifyPolicy U0 (docPolicy "q") = .ok () := by decide +kernel
  have h1 : serve (wEnv H) (.createPolicy 0 (some (.policy (docPolicy "p"))) []) Store.empty =
      (.ok (.created ⟨docPolicy "p", [], 0⟩), Store.empty.putPolicy ⟨docPolicy "p", [], 0⟩) := by
    rw [serve_create]
    simp only [getPolicyFromDefinition, Res.deref_some, Res.bind_ok, Store.empty, kvGet, wEnv, hp]
  have h2 : serve (wEnv H) (.createPolicy 0 (some (.policy (docPolicy "q"))) []) (Store.empty.putPolicy ⟨docPolicy "p", [], 0⟩) =
      (.ok (.created ⟨docPolicy "q", [], 0⟩), wStore) := by
    rw [serve_create]
    have : kvGet (Store.empty.putPolicy ⟨docPolicy "p", [], 0⟩).policies (docPolicy "q").id = none := by
      simp [Store.putPolicy, Store.empty, kvGet_put, docPolicy, kvGet]
    simp only [getPolicyFromDefinition, Res.deref_some, Res.bind_ok, this, wEnv, hq]
    rfl
  rw [runCalls_cons, h1, runCalls_cons, h2, runCalls_nil]

theorem wStore_wf (H : String → Nat) : WF (wEnv H) wStore := by
  have := (WF.empty (wEnv H)).runCalls [.createPolicy 0 (some (.policy (docPolicy "p"))) [],
    .createPolicy 0 (some (.policy (docPolicy "q"))) []]
  rw [wStore_reached] at this
  exact this

theorem wStore_pol (pid : String) (h : pid = "p" ∨ pid = "q") : kvGet wStore.policies pid = some ⟨docPolicy pid, [], 0⟩ := by
  rcases h with rfl | rfl <;> decide +kernel

theorem w_set (H : String → Nat) {s : Store} (hs : s.policies = wStore.policies) {pid : String} (h : pid = "p" ∨ pid = "q")
    {r : Relationship} {e : IRel} (hr : (r = rA ∧ e = eA) ∨ (r = rB ∧ e = eB)) (now : Timestamp) (a : Bytes) :
    serve (wEnv H) (.setRelationship now pid (some r) a) s =
      (.ok (.overwritten (kvGet (s.edges pid) (e.key H)).isSome), s.putRel H pid e a now) := by
  refine serve_set_ok (env := wEnv H) (by rw [hs]; exact wStore_pol pid h) ?_ ?_
  · rcases h with rfl | rfl <;> rcases hr with ⟨rfl, rfl⟩ | ⟨rfl, rfl⟩ <;> decide +kernel
  · rcases hr with ⟨rfl, rfl⟩ | ⟨rfl, rfl⟩ <;> rfl

/-- Stores of `wEnv H` reached by requests after the two creations. -/
theorem w_reach (H : String → Nat) (cs : List Call) :
    (runCalls (wEnv H) ([.createPolicy 0 (some (.policy (docPolicy "p"))) [], .createPolicy 0 (some (.policy (docPolicy "q"))) []] ++ cs)
      Store.empty).2 = (runCalls (wEnv H) cs wStore).2 := by
  rw [runCalls_append, wStore_reached]

/-- `wStore` after SetRelationship of `rA` in "p". -/
def w1Store (H : String → Nat) : Store := wStore.putRel H "p" eA [] 0

theorem w1_set (H : String → Nat) : serve (wEnv H) (.setRelationship 0 "p" (some rA) []) wStore = (.ok (.overwritten false), w1Store H) := by
  rw [w_set H rfl (.inl rfl) (.inl ⟨rfl, rfl⟩)]
  rfl

theorem w1_wf (H : String → Nat) : WF (wEnv H) (w1Store H) := by
  have := (wStore_wf H).run (.setRelationship 0 "p" (some rA) [])
  rw [show Prog.run _ wStore = _ from w1_set H] at this
  exact this

theorem w1_relationships (H : String → Nat) : relationships (w1Store H) "p" = [rA] := by
  unfold relationships
  have : (w1Store H).edges "p" = [(eA.key H, eA)] := by
    simp [w1Store, Store.putRel, wStore, Store.putPolicy, Store.empty, kvPut, kvGet, kvInsert]
  rw [this]
  rfl

theorem w1_get (H : String → Nat) :
    serve (wEnv H) (.getRelationship "p" (some rA)) (w1Store H) = (.ok (.relationship (some ⟨"p", rA, 0, []⟩)), w1Store H) := by
  rw [serve_get eA_of]
  have : kvGet (w1Store H).data (eA.key H) = some ⟨eA.key H, 0, []⟩ := by simp [w1Store, Store.putRel, kvGet_put]
  show (Res.ok (Answer.relationship ((kvGet (w1Store H).data (eA.key H)).map _)), w1Store H) = _
  rw [this]
  rfl

end Zanzi
