import Verif.Lemmas.Rpc
import Verif.Spec.Gateway

/-
Routes of the gateway.
-/

namespace Zanzi.Gateway

open Wire Spec

/-- Components joined with slashes. -/
def join : List (List Char) → List Char
  | [] => []
  | [w] => w
  | w :: ws => w ++ '/' :: join ws

theorem split_ne_nil (l : List Char) : split l ≠ [] := by
  cases l with
  | nil => simp [split]
  | cons c cs =>
    unfold split
    split
    · simp
    · split <;> simp

theorem join_split (l : List Char) : join (split l) = l := by
  induction l with
  | nil => rfl
  | cons c cs ih =>
    unfold split
    split
    · next h =>
      cases hs : split cs with
      | nil => exact absurd hs (split_ne_nil cs)
      | cons w ws => rw [hs] at ih; simp [join, ih, h]
    · split
      · next hs => exact absurd hs (split_ne_nil cs)
      · next w ws hs =>
        rw [hs] at ih
        cases ws with
        | nil => simpa [join] using ih
        | cons w' ws => simpa [join] using ih

theorem matchOps_pattern (a b : String) (cs : List (List Char)) :
    matchOps (pattern a b).pool (pattern a b).ops cs = true ↔ cs = [a.toList, b.toList] := by
  constructor
  · intro h
    match cs with
    | [] => cases h
    | [_] => simp [pattern, matchOps] at h
    | [x, y] =>
      simp only [pattern, matchOps, Bool.and_eq_true, decide_eq_true_eq, and_true] at h
      obtain ⟨h1, h2⟩ := h
      simp at h1 h2
      rw [h1, h2]
    | _ :: _ :: _ :: _ => simp [pattern, matchOps] at h
  · rintro rfl
    simp [pattern, matchOps]

/-- Service and name of a method. -/
def svc : Method → String
  | .check | .explainCheck | .expand | .dumpRelationships => "sourcenetwork.zanzi.api.RelationGraph"
  | _ => "sourcenetwork.zanzi.api.PolicyService"

/-- Name of a method. -/
def nm : Method → String
  | .createPolicy => "CreatePolicy"
  | .updatePolicy => "UpdatePolicy"
  | .deletePolicy => "DeletePolicy"
  | .getPolicy => "GetPolicy"
  | .listPolicyIds => "ListPolicyIds"
  | .setRelationship => "SetRelationship"
  | .deleteRelationship => "DeleteRelationship"
  | .getRelationship => "GetRelationship"
  | .deleteRelationships => "DeleteRelationships"
  | .findRelationshipRecords => "FindRelationshipRecords"
  | .check => "Check"
  | .explainCheck => "ExplainCheck"
  | .expand => "Expand"
  | .dumpRelationships => "DumpRelationships"

theorem split_path (m : Method) : m.path.toList = '/' :: join [(svc m).toList, (nm m).toList] ∧
    split (join [(svc m).toList, (nm m).toList]) = [(svc m).toList, (nm m).toList] := by
  cases m <;> exact ⟨by decide +kernel, by decide +kernel⟩

theorem names_inj : ∀ m m' : Method, [(svc m).toList, (nm m).toList] = [(svc m').toList, (nm m').toList] → m = m' := by
  intro m m' h
  have h1 := (split_path m).1
  rw [h, ← (split_path m').1] at h1
  have h2 := handler_of m
  rw [String.toList_injective h1, handler_of] at h2
  exact (Option.some.inj h2).symm

/-- Every method has its route and no other. -/
def Complete (routes : List (String × Pattern × Method)) : Prop :=
  (∀ r ∈ routes, r.1 = "POST" ∧ r.2.1 = pattern (svc r.2.2) (nm r.2.2)) ∧ ∀ m, ∃ r ∈ routes, r.2.2 = m

theorem routes_complete : Complete serverRoutes ∧ Complete clientRoutes := by
  refine ⟨⟨?_, fun m => ?_⟩, ?_, fun m => ?_⟩
  · intro r hr
    simp only [serverRoutes, List.mem_cons, List.not_mem_nil, or_false] at hr
    rcases hr with rfl | rfl | rfl | rfl | rfl | rfl | rfl | rfl | rfl | rfl | rfl | rfl | rfl | rfl <;> exact ⟨rfl, rfl⟩
  · cases m <;> simp [serverRoutes]
  · intro r hr
    simp only [clientRoutes, List.mem_cons, List.not_mem_nil, or_false] at hr
    rcases hr with rfl | rfl | rfl | rfl | rfl | rfl | rfl | rfl | rfl | rfl | rfl | rfl | rfl | rfl <;> exact ⟨rfl, rfl⟩
  · cases m <;> simp [clientRoutes]

theorem dispatch_iff {routes : List (String × Pattern × Method)} (h : Complete routes) (q : HttpReq) (m : Method) :
    dispatch routes q.verb q.path = .to m ↔ IsFor q m := by
  obtain ⟨verb, path, body⟩ := q
  show dispatch routes verb path = .to m ↔ verb = "POST" ∧ path = m.path.toList
  have hm : ∀ r ∈ routes, ∀ rest, matchOps r.2.1.pool r.2.1.ops (split rest) = true ↔ '/' :: rest = r.2.2.path.toList := by
    intro r hr rest
    rw [(h.1 r hr).2, matchOps_pattern, (split_path r.2.2).1]
    constructor
    · intro he
      rw [← he, join_split]
    · intro he
      rw [(List.cons.inj he).2, (split_path r.2.2).2]
  constructor
  · intro hd
    unfold dispatch at hd
    split at hd
    · next rest =>
      split at hd
      · next r hf =>
        cases hd
        have hr := List.mem_reverse.1 (List.mem_of_find?_eq_some hf)
        have hp := List.find?_some hf
        simp only [Bool.and_eq_true, decide_eq_true_eq] at hp
        exact ⟨hp.1 ▸ (h.1 r hr).1, (hm r hr rest).1 hp.2⟩
      · split at hd <;> cases hd
    · cases hd
  · rintro ⟨rfl, rfl⟩
    rw [(split_path m).1]
    obtain ⟨r, hr, rfl⟩ := h.2 m
    show (match routes.reverse.find? (fun r' => decide (r'.1 = "POST") && matchOps r'.2.1.pool r'.2.1.ops (split (join [(svc r.2.2).toList, (nm r.2.2).toList]))) with
      | some r => Routed.to r.2.2
      | none => if routes.any (fun r' => matchOps r'.2.1.pool r'.2.1.ops (split (join [(svc r.2.2).toList, (nm r.2.2).toList]))) then Routed.refused .unimplemented
        else Routed.refused .notFound) = _
    split
    · next r' hf =>
      have hr' := List.mem_reverse.1 (List.mem_of_find?_eq_some hf)
      have hp := List.find?_some hf
      simp only [Bool.and_eq_true, decide_eq_true_eq] at hp
      have := (hm r' hr' _).1 hp.2
      rw [← (split_path _).1] at this
      have h2 := handler_of r.2.2
      rw [String.toList_injective this, handler_of] at h2
      rw [Option.some.inj h2]
    · next hf =>
      have := List.find?_eq_none.1 hf r (List.mem_reverse.2 hr)
      exact absurd (by simp only [Bool.and_eq_true, decide_eq_true_eq]; exact ⟨(h.1 r hr).1, (hm r hr _).2 (split_path _).1.symm⟩) this

theorem dispatch_refused {routes : List (String × Pattern × Method)} (h : Complete routes) {q : HttpReq} (hq : ∀ m, ¬ IsFor q m) :
    ∃ c, dispatch routes q.verb q.path = .refused c := by
  cases hd : dispatch routes q.verb q.path with
  | to m => exact absurd ((dispatch_iff h q m).1 hd) (hq m)
  | refused c => exact ⟨c, rfl⟩

theorem zero_method (m : Method) : (zeroRequest m).method = m ∧ encRequest (zeroRequest m) = [] := by
  cases m <;> exact ⟨rfl, by decide +kernel⟩

theorem encVarint_ne_nil (n : Nat) : encVarint n ≠ [] := by
  unfold encVarint
  split <;> simp

theorem encFields_nil {l : List WField} : encFields l = [] ↔ l = [] := by
  cases l with
  | nil => simp [encFields]
  | cons f fs =>
    obtain ⟨n, v⟩ := f
    cases v <;> simp [encFields, encField, encVarint_ne_nil]

theorem strField_nil {n : Nat} {s : String} : strField n s = [] ↔ s = "" := by unfold strField; split <;> simp_all
theorem bytesField_nil {n : Nat} {b : Bytes} : bytesField n b = [] ↔ b = [] := by unfold bytesField; split <;> simp_all
theorem numField_nil {n v : Nat} : numField n v = [] ↔ v = 0 := by unfold numField; split <;> simp_all
theorem msgField_nil {α : Type} {enc : α → Bytes} {n : Nat} {o : Option α} : msgField enc n o = [] ↔ o = none := by cases o <;> simp [msgField]

theorem encRequest_nil {r : Request} (h : encRequest r = []) : r = zeroRequest r.method := by
  cases r <;> simp only [encRequest, encFields_nil, List.append_eq_nil_iff, strField_nil, bytesField_nil, numField_nil, msgField_nil] at h
  case explainCheck pid req f => obtain ⟨⟨rfl, rfl⟩, h⟩ := h; cases f <;> cases h; rfl
  case expand pid req f => obtain ⟨⟨rfl, rfl⟩, h⟩ := h; cases f <;> cases h; rfl
  case dumpRelationships pid f => obtain ⟨rfl, h⟩ := h; cases f <;> cases h; rfl
  case deletePolicy => subst h; rfl
  case getPolicy => subst h; rfl
  case listPolicyIds => rfl
  case updatePolicy => obtain ⟨⟨rfl, rfl⟩, rfl⟩ := h; rfl
  case setRelationship => obtain ⟨⟨rfl, rfl⟩, rfl⟩ := h; rfl
  all_goals obtain ⟨rfl, rfl⟩ := h; rfl

theorem readBody_iff (c : Marshaler) (m : Method) (body : Option Bytes) (r : Request) : readBody c m body = some r ↔ Holds c m body r := by
  unfold Holds
  cases body with
  | none => simp [readBody]
  | some bs =>
    simp only [readBody, Option.some.injEq, exists_eq_left']
    cases hr : c.read m bs with
    | eof =>
      simp only [reduceCtorEq, false_or, true_and, Option.some.injEq]
      constructor
      · rintro rfl; exact zero_method m
      · rintro ⟨rfl, h⟩; exact (encRequest_nil h).symm
    | bad => simp
    | msg r' => simp

end Zanzi.Gateway
