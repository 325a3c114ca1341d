import Verif.Lemmas.TreeSize
import Verif.Lemmas.Ways
import Verif.Lemmas.Abstract
import Verif.Props.Dump
import Verif.Props.Interference
import Verif.Props.Explain

/-
Property C84: what requests cost.
-/

namespace Zanzi

open Spec

section
variable {env : Env} {s : Store} {pid : String} {rec : PolicyRecord} {x : USet}

/-- Check, ExplainCheck and Expand read the policy once, and then look every userset up at most once, however often it is met: the usersets are defined by
the policy and over the object asked about or objects some relationship points to.  They make exactly these lookups if they succeed, and no other storage
calls. -/
theorem C84_each_once (hs : WF env s) (hp : policyAt s pid = some rec) {c : Call} (hc : asks c = some (pid, x)) :
    (∀ o ∈ calls (c.prog env) s, o = .polGet pid ∨ ∃ k, o = .edgeSucc pid k) ∧
    ∃ L : List (USet × ExprTree), (L.map (·.1)).Nodup ∧ (∀ e ∈ L, DefinedBy env.U rec.policy e.1 e.2 ∧ Met (Present s pid) x e.1.object) ∧
      (calls (c.prog env) s).length ≤ 1 + lookupsOf L ∧ ∀ a, (serve env c s).1 = .ok a → (calls (c.prog env) s).length = 1 + lookupsOf L := by
  have hid : rec.policy.id = pid := hs.policy_id hp
  obtain ⟨fuel, goal, pre, fin, he, _⟩ := asks_prog env hc
  have hget : (GraphService.getPolicy pid).run s = (.ok rec, s) := getPolicy_yields hp
  have hcalls : ∀ {α : Type} (k : PolicyRecord → Prog α), calls (GraphService.getPolicy pid >>= k) s = .polGet pid :: calls (k rec) s := by
    intro α k
    rw [calls_bind, hget]
    show calls (GraphService.getPolicy pid) s ++ calls (k rec) s = _
    rw [show calls (GraphService.getPolicy pid) s = [.polGet pid] by
      show _ :: calls (match kvGet s.policies pid with | none => Prog.lift (.err .policyNotFound) | some rec => pure rec : Prog PolicyRecord) s = _
      cases kvGet s.policies pid <;> rfl]
    rfl
  obtain ⟨L, h1, h2, h3, h4⟩ := (searchGoal_pays (env := env) (pol := rec.policy) (s := s) (E := Met (Present s pid) x) (goal := goal)
    (fun r sub o hr h h' => .inr ⟨r, sub, hid ▸ hr, h, h'⟩) fuel (x := x) (.inl rfl)).bind_lift (k := fin)
  have hops : ∀ o ∈ calls (searchGoal env fuel rec.policy (some x.node) goal >>= fun t => Prog.lift (fin t)) s, ∃ k, o = .edgeSucc pid k :=
    calls_allOps (Prog.AllOps.bind (searchGoal_ops (P := fun o => ∃ k, o = .edgeSucc pid k) (fun n => ⟨_, by rw [hid]⟩) _ _ _) (fun _ => .done _)) s
  rw [serve, he]
  cases pre with
  | ok u =>
    rw [lift_ok_bind, hcalls]
    refine ⟨fun o ho => ?_, L, h1, h2, by rw [List.length_cons]; omega, fun a ha => ?_⟩
    · rcases List.mem_cons.1 ho with h | h
      · exact .inl h
      · exact .inr (hops o h)
    · rw [Prog.run_bind, hget] at ha
      rw [List.length_cons, h4 a ha]
      omega
  | _ => exact ⟨nofun, [], .nil, nofun, Nat.zero_le _, nofun⟩

/-- There are at most as many usersets to look up as pairs of a relation of the policy and an object met. -/
theorem met_count {L : List (USet × ExprTree)} (h1 : (L.map (·.1)).Nodup) (h2 : ∀ e ∈ L, DefinedBy env.U rec.policy e.1 e.2 ∧ Met (Present s pid) x e.1.object) :
    L.length ≤ ((relationships s pid).length + 1) * (rec.policy.resources.flatMap (·.relations)).length := by
  have hsub : L.map (·.1) ⊆ (x.object :: (relationships s pid).filterMap (fun r => r.subject.bind pointsTo)).flatMap
      (fun o => (rec.policy.resources.flatMap (·.relations)).map (fun d => (⟨o, d.name⟩ : USet))) := by
    intro y hy
    obtain ⟨e, he, rfl⟩ := List.mem_map.1 hy
    obtain ⟨⟨d, ⟨r, hr, _, hd, hn⟩, _⟩, hm⟩ := h2 e he
    refine List.mem_flatMap.2 ⟨e.1.object, ?_, List.mem_map.2 ⟨d, List.mem_flatMap.2 ⟨r, hr, hd⟩, by rw [hn]⟩⟩
    rcases hm with h | ⟨r, sub, h1, h2, h3⟩
    · rw [h]; exact List.mem_cons_self
    · exact List.mem_cons_of_mem _ (List.mem_filterMap.2 ⟨r, h1, by rw [h2]; exact h3⟩)
  have hlen := h1.length_le_of_subset hsub
  rw [List.length_map] at hlen
  refine Nat.le_trans hlen ?_
  rw [List.length_flatMap]
  simp only [List.length_map]
  rw [List.map_const', List.sum_replicate_nat]
  refine Nat.mul_le_mul_right _ ?_
  rw [List.length_cons]
  exact Nat.succ_le_succ (List.length_filterMap_le _ _)

/-- The storage calls of Check, ExplainCheck and Expand are at most one, plus the lookups of the policy's widest expression for every pair of a relation of
the policy and an object: the one asked about, or one of those relationships point to. -/
theorem C84_query_calls (hs : WF env s) (hp : policyAt s pid = some rec) {c : Call} (hc : asks c = some (pid, x)) {k : Nat}
    (hk : ∀ y t, DefinedBy env.U rec.policy y t → lookups t ≤ k) :
    (calls (c.prog env) s).length ≤ 1 + ((relationships s pid).length + 1) * (rec.policy.resources.flatMap (·.relations)).length * k := by
  obtain ⟨_, L, h1, h2, h3, _⟩ := C84_each_once hs hp hc
  refine Nat.le_trans h3 (Nat.add_le_add_left ?_ _)
  have hcost : ∀ L : List (USet × ExprTree), (∀ e ∈ L, DefinedBy env.U rec.policy e.1 e.2) → lookupsOf L ≤ L.length * k := by
    intro L
    induction L with
    | nil => exact fun _ => Nat.zero_le _
    | cons e L ih =>
      intro h
      have h1 := hk e.1 e.2 (h e List.mem_cons_self)
      have h2 := ih (fun e he => h e (List.mem_cons_of_mem _ he))
      rw [show e :: L = [e] ++ L from rfl, lookupsOf_append, lookupsOf_singleton, List.length_append, Nat.add_mul]
      simp only [List.length_singleton, Nat.one_mul]
      omega
  exact Nat.le_trans (hcost L (fun e he => (h2 e he).1)) (Nat.mul_le_mul_right _ (met_count h1 h2))

/-- What ExplainCheck and Expand answer, in whatever format, is bounded as well: the tree has the node of the request and, for each of some pairwise different usersets,
at most the nodes its expression unfolds to; a drawing has two parts for each node. -/
theorem C84_answer_size (hs : WF env s) (hp : policyAt s pid = some rec) {c : Call} (hc : asks c = some (pid, x)) {a : Answer} (ha : (serve env c s).1 = .ok a)
    {d : Serialized} (hd : drawn a = some d) :
    (∃ L : List (USet × ExprTree), (L.map (·.1)).Nodup ∧ (∀ e ∈ L, DefinedBy env.U rec.policy e.1 e.2 ∧ Met (Present s pid) x e.1.object) ∧
      drawnSize d ≤ 3 + 2 * expanseOf (relationships s pid).length L) ∧
    ∀ k, (∀ y t, DefinedBy env.U rec.policy y t → expanse (relationships s pid).length t ≤ k) →
      drawnSize d ≤ 3 + 2 * (((relationships s pid).length + 1) * (rec.policy.resources.flatMap (·.relations)).length * k) := by
  have hid : rec.policy.id = pid := hs.policy_id hp
  obtain ⟨fuel, goal, pre, fin, he, hfin⟩ := asks_prog env hc
  have hget : (GraphService.getPolicy pid).run s = (.ok rec, s) := getPolicy_yields hp
  have hsearch : (searchGoal env fuel rec.policy (some x.node) goal).run s = (pSearch env rec.policy s fuel (some x.node) goal, s) := searchGoal_yields env fuel rec.policy _ goal s
  have key : ∃ L : List (USet × ExprTree), (L.map (·.1)).Nodup ∧ (∀ e ∈ L, DefinedBy env.U rec.policy e.1 e.2 ∧ Met (Present s pid) x e.1.object) ∧
      drawnSize d ≤ 3 + 2 * expanseOf (relationships s pid).length L := by
    rw [serve, he] at ha
    cases pre with
    | ok u =>
      rw [lift_ok_bind, Prog.run_bind, hget] at ha
      replace ha : ((searchGoal env fuel rec.policy (some x.node) goal >>= fun t => Prog.lift (fin t)).run s).1 = .ok a := ha
      rw [Prog.run_bind, hsearch] at ha
      cases hq : pSearch env rec.policy s fuel (some x.node) goal with
      | ok t =>
        rw [hq] at ha
        obtain ⟨L, h1, h2, h3⟩ := pSearch_nodes (E := Met (Present s pid) x) (fun r sub o hr h h' => .inr ⟨r, sub, hid ▸ hr, h, h'⟩) (.inl rfl) hq
        have := hfin t a d ha hd
        rw [hid] at h3
        exact ⟨L, h1, h2, by omega⟩
      | err e => rw [hq] at ha; cases ha
      | panic => rw [hq] at ha; cases ha
      | fuel => rw [hq] at ha; cases ha
    | err e => cases ha
    | panic => cases ha
    | fuel => cases ha
  refine ⟨key, fun k hk => ?_⟩
  obtain ⟨L, h1, h2, h3⟩ := key
  have hcost : ∀ L : List (USet × ExprTree), (∀ e ∈ L, DefinedBy env.U rec.policy e.1 e.2) → expanseOf (relationships s pid).length L ≤ L.length * k := by
    intro L
    induction L with
    | nil => exact fun _ => Nat.zero_le _
    | cons e L ih =>
      intro h
      have h1 := hk e.1 e.2 (h e List.mem_cons_self)
      have h2 := ih (fun e he => h e (List.mem_cons_of_mem _ he))
      rw [show e :: L = [e] ++ L from rfl, expanseOf_append, expanseOf_singleton, List.length_append, Nat.add_mul]
      simp only [List.length_singleton, Nat.one_mul]
      omega
  have h4 := Nat.le_trans (hcost L (fun e he => (h2 e he).1)) (Nat.mul_le_mul_right _ (met_count h1 h2))
  omega

/-- The storage calls of every other request: a fixed number, or one or three for every relationship of the policy.  No hypothesis: any store. -/
theorem C84_other_calls (env : Env) (s : Store) (c : Call) {n : Nat} (hn : allowance s c = some n) : (calls (c.prog env) s).length ≤ n := by
  have hget : ∀ {α : Type} (p : Prog α) (f : α → Answer) {m : Nat}, (calls p s).length ≤ m → (calls (p >>= fun a => (pure (f a) : Prog Answer)) s).length ≤ m := by
    intro α p f m h
    exact calls_length_bind (n := 0) h (fun _ _ _ => Nat.le_refl _)
  cases c with
  | createPolicy now d a =>
    cases hn
    refine hget _ _ (calls_lift_bind (fun p _ => calls_polGet (m := 2) (fun o => ?_)))
    cases o with
    | some _ => exact Nat.zero_le _
    | none => exact calls_lift_bind (fun _ _ => Nat.le_refl _)
  | updatePolicy d a =>
    cases hn
    refine hget _ _ (calls_lift_bind (fun p _ => calls_polGet (m := 2) (fun o => ?_)))
    cases o with
    | none => exact Nat.zero_le _
    | some _ => exact calls_lift_bind (fun _ _ => Nat.le_refl _)
  | deletePolicy id =>
    cases hn
    refine hget _ _ ?_
    show (calls (Repo.deletePolicy id >>= fun found => if found then
      (Repo.deleteRelationships env.H id (some allSelector) >>= fun count => pure (true, count)) else pure (false, 0)) s).length ≤ _
    rw [Nat.add_comm 3, show 3 * (relationships s id).length + 3 = 2 + (1 + 3 * (relationships s id).length) by omega]
    refine calls_length_bind ?_ (fun b s' hr => ?_)
    · refine calls_length_bind (p := Prog.polHas id) (m := 1) (n := 1) (Nat.le_refl _) (fun b s' _ => ?_)
      cases b
      · exact Nat.zero_le _
      · exact Nat.le_refl _
    · have he : relationships s' id = relationships s id := by
        have : s'.edges = s.edges := by
          unfold Repo.deletePolicy at hr
          rw [Prog.run_bind] at hr
          have h0 : (Prog.polHas id).run s = (.ok (kvGet s.policies id).isSome, s) := rfl
          rw [h0] at hr
          cases h : (kvGet s.policies id).isSome <;> rw [h] at hr <;> cases hr <;> rfl
        unfold relationships
        rw [this]
      cases b
      · exact Nat.zero_le _
      · rw [← he]
        exact calls_length_bind (n := 0) (calls_repoDeleteAll _ _ _ _) (fun _ _ _ => Nat.le_refl _)
  | getPolicy id => cases hn; exact Nat.le_refl _
  | listPolicyIds => cases hn; exact Nat.le_refl _
  | setRelationship now pid r a =>
    cases hn
    refine hget _ _ (calls_polGet (m := 3) (fun o => ?_))
    cases o with
    | none => exact Nat.zero_le _
    | some _ => exact calls_lift_bind (fun _ _ => calls_lift_bind (fun _ _ => calls_lift_bind (fun _ _ => Nat.le_refl _)))
  | deleteRelationship pid r => cases hn; exact hget _ _ (calls_repoDelete _ _ _ _)
  | getRelationship pid r => cases hn; exact hget _ _ (calls_repoGet _ _ _ _)
  | findRelationshipRecords pid sel =>
    cases hn
    refine hget _ _ ?_
    rw [show 2 + (relationships s pid).length = 1 + (1 + (relationships s pid).length) by omega]
    refine calls_polGet (fun o => ?_)
    cases o with
    | none => exact Nat.zero_le _
    | some _ => exact calls_lift_bind (fun _ _ => calls_repoFindAll _ _ _ _)
  | deleteRelationships pid sel => cases hn; exact hget _ _ (calls_repoDeleteAll _ _ _ _)
  | dumpRelationships fuel order pid f =>
    cases hn
    refine hget _ _ (calls_length_bind (m := 1) (n := 1) ?_ (fun rec s' _ => ?_))
    · refine calls_polGet (m := 0) (fun o => ?_)
      cases o <;> exact Nat.le_refl _
    · refine calls_length_bind (p := Repo.listEdges _) (m := 1) (n := 0) (Nat.le_refl _) (fun es s'' _ => calls_lift_bind (fun _ _ => ?_))
      cases f <;> exact Nat.le_refl _
  | _ => cases hn

end

/-! ### The drawing -/

theorem concatRes_ge {α β : Type} [DecidableEq α] {g : α → Res (List β)} : ∀ {l : List α} {bs : List β}, concatRes g l = .ok bs → ∀ {a b : α} {x : List β},
    a ∈ l → g a = .ok x → x.length ≤ bs.length ∧ ∀ y, b ∈ l → a ≠ b → g b = .ok y → x.length + y.length ≤ bs.length := by
  intro l
  induction l with
  | nil => intro bs _ a b x ha; cases ha
  | cons c l ih =>
    intro bs h a b x ha hx
    rw [concatRes] at h
    obtain ⟨z, hz, h⟩ := Res.bind_eq_ok.1 h
    obtain ⟨zs, hzs, h⟩ := Res.bind_eq_ok.1 h
    cases h
    rw [List.length_append]
    rcases List.mem_cons.1 ha with rfl | ha
    · rw [hz] at hx
      cases hx
      refine ⟨by omega, fun y hb hab hy => ?_⟩
      rcases List.mem_cons.1 hb with rfl | hb
      · exact absurd rfl hab
      · have := (ih hzs (b := b) hb hy).1
        omega
    · obtain ⟨h1, h2⟩ := ih hzs (b := b) ha hx
      refine ⟨by omega, fun y hb hab hy => ?_⟩
      rcases List.mem_cons.1 hb with rfl | hb
      · rw [hz] at hy
        cases hy
        omega
      · have := h2 y hb hab hy
        omega

/-- group:aa…a. -/
def nth (k : Nat) : Entity := ⟨"group", String.ofList (List.replicate k 'a')⟩

/-- The members of a group are members of another. -/
def nested (i j : Nat) : Relationship := ⟨some (nth i), "member", some (.entitySet (some (nth j)) "member")⟩

/-- A chain of `n` diamonds: from one group to the next there are two ways. -/
def diamonds : Nat → List Relationship
  | 0 => []
  | n + 1 => diamonds n ++ [nested (3 * n) (3 * n + 1), nested (3 * n) (3 * n + 2), nested (3 * n + 1) (3 * n + 3), nested (3 * n + 2) (3 * n + 3)]

theorem diamonds_length (n : Nat) : (diamonds n).length = 4 * n := by
  induction n with
  | zero => rfl
  | succ n ih => rw [diamonds, List.length_append, ih]; simp only [List.length_cons, List.length_nil]; omega

theorem mem_diamonds {n : Nat} {r : Relationship} : r ∈ diamonds n ↔ ∃ i < n, r = nested (3 * i) (3 * i + 1) ∨ r = nested (3 * i) (3 * i + 2) ∨
    r = nested (3 * i + 1) (3 * i + 3) ∨ r = nested (3 * i + 2) (3 * i + 3) := by
  induction n with
  | zero => simp [diamonds]
  | succ n ih =>
    rw [diamonds, List.mem_append, ih]
    simp only [List.mem_cons, List.not_mem_nil, or_false]
    constructor
    · rintro (⟨i, hi, h⟩ | h)
      · exact ⟨i, by omega, h⟩
      · exact ⟨n, by omega, h⟩
    · rintro ⟨i, hi, h⟩
      by_cases hin : i = n
      · subst hin; exact .inr h
      · exact .inl ⟨i, by omega, h⟩

theorem nth_inj {i j : Nat} (h : nth i = nth j) : i = j := by
  have := congrArg (fun e => e.id.length) h
  simpa [nth] using this

theorem nested_inj {i j i' j' : Nat} (h : nested i j = nested i' j') : i = i' ∧ j = j' := by
  unfold nested at h
  injection h with h1 _ h2
  injection h1 with h1
  injection h2 with h2
  injection h2 with h2
  injection h2 with h2
  exact ⟨nth_inj h1, nth_inj h2⟩

theorem nested_key {i j i' j' : Nat} (h : relKey gEnv.H (nested i j) = relKey gEnv.H (nested i' j')) : nested i j = nested i' j' := by
  obtain ⟨h1, h2⟩ := Prod.mk.inj h
  have h1 := congrArg String.length (Hx_inj h1)
  have h2 := congrArg String.length (Hx_inj h2)
  simp [nth, String.length_append] at h1 h2
  have h1 : "group".length + i + "member".length = "group".length + i' + "member".length := h1
  rw [show i = i' by omega, h2]

theorem kvInsert_length {K V : Type} (lt : K → K → Bool) (m : List (K × V)) (k : K) (v : V) : (kvInsert lt m k v).length ≤ m.length + 1 := by
  induction m with
  | nil => exact Nat.le_refl _
  | cons p m ih =>
    obtain ⟨a, b⟩ := p
    rw [kvInsert]
    split
    · exact Nat.le_refl _
    · simp only [List.length_cons]; omega

theorem kvPut_length {K V : Type} [DecidableEq K] (lt : K → K → Bool) (m : List (K × V)) (k : K) (v : V) : (kvPut lt m k v).length ≤ m.length + 1 := by
  unfold kvPut
  split
  · rw [List.length_map]; omega
  · exact kvInsert_length lt m k v

/-- Storing relationships of the form `nested`. -/
theorem nested_stored {rec : PolicyRecord} (hpol : rec.policy = gPolicy []) (rs : List Relationship) (hrs : ∀ r ∈ rs, ∃ i j, r = nested i j) : ∀ {s : Store}, WF gEnv s →
    kvGet s.policies "p" = some rec → (∀ r, Present s "p" r → ∃ i j, r = nested i j) →
    kvGet (runCalls gEnv (rs.map (fun r => .setRelationship 0 "p" (some r) [])) s).2.policies "p" = some rec ∧
    (relationships (runCalls gEnv (rs.map (fun r => .setRelationship 0 "p" (some r) [])) s).2 "p").length ≤ (relationships s "p").length + rs.length ∧
    ∀ r, Present (runCalls gEnv (rs.map (fun r => .setRelationship 0 "p" (some r) [])) s).2 "p" r ↔ Present s "p" r ∨ r ∈ rs := by
  induction rs with
  | nil => intro s _ hp _; exact ⟨hp, Nat.le_refl _, fun r => by simp [runCalls]⟩
  | cons r rs ih =>
    intro s hs hp hall
    obtain ⟨i, j, rfl⟩ := hrs r List.mem_cons_self
    have hset := serve_set_ok (env := gEnv) (s := s) (now := 0) (a := []) (r := nested i j) hp (by rw [hpol]; rfl) rfl
    have hpres := present_putRel hs (pid := "p") (r := nested i j) (e := ⟨⟨"group", (nth i).id, "member", .objectSet⟩, ⟨"group", (nth j).id, "member", .objectSet⟩⟩) rfl (by simp [nested]) [] 0 "p"
    have hs' : WF gEnv (serve gEnv (.setRelationship 0 "p" (some (nested i j)) []) s).2 := hs.run _
    rw [hset] at hs'
    have hiff : ∀ x, Present (s.putRel gEnv.H "p" ⟨⟨"group", (nth i).id, "member", .objectSet⟩, ⟨"group", (nth j).id, "member", .objectSet⟩⟩ [] 0) "p" x ↔ Present s "p" x ∨ x = nested i j := by
      intro x
      rw [hpres x]
      constructor
      · rintro (⟨_, h⟩ | ⟨h, _⟩)
        · exact .inr h
        · exact .inl h
      · rintro (h | h)
        · by_cases hx : x = nested i j
          · exact .inl ⟨rfl, hx⟩
          · refine .inr ⟨h, fun ⟨_, hk⟩ => hx ?_⟩
            obtain ⟨i', j', rfl⟩ := hall x h
            exact nested_key hk
        · exact .inl ⟨rfl, h⟩
    obtain ⟨h1, h2, h3⟩ := ih (fun r hr => hrs r (List.mem_cons_of_mem _ hr)) hs' hp
      (fun x hx => ((hiff x).1 hx).elim (hall x) (fun h => ⟨i, j, h⟩))
    have hrun : (runCalls gEnv ((nested i j :: rs).map (fun r => .setRelationship 0 "p" (some r) [])) s).2 =
        (runCalls gEnv (rs.map (fun r => .setRelationship 0 "p" (some r) [])) (serve gEnv (.setRelationship 0 "p" (some (nested i j)) []) s).2).2 := rfl
    rw [hrun, hset]
    refine ⟨h1, Nat.le_trans h2 ?_, fun x => ?_⟩
    · have : (relationships (s.putRel gEnv.H "p" ⟨⟨"group", (nth i).id, "member", .objectSet⟩, ⟨"group", (nth j).id, "member", .objectSet⟩⟩ [] 0) "p").length ≤ (relationships s "p").length + 1 := by
        unfold relationships
        rw [List.length_map, List.length_map]
        simp only [Store.putRel, if_true]
        exact kvPut_length _ _ _ _
      have h4 := this
      rw [List.length_cons]
      refine Nat.le_trans (Nat.add_le_add_right h4 _) ?_
      omega
    · exact (h3 x).trans ((or_congr_left (hiff x)).trans (by rw [List.mem_cons, or_assoc]))

/-- The store with a chain of diamonds. -/
def diamondStore (n : Nat) : Store := gStore gEnv [] (diamonds n)

theorem diamondStore_facts (n : Nat) : policyAt (diamondStore n) "p" = some ⟨gPolicy [], [], 0⟩ ∧ (relationships (diamondStore n) "p").length ≤ 4 * n ∧
    ∀ r, Present (diamondStore n) "p" r ↔ r ∈ diamonds n := by
  have h0 : kvGet (gStore gEnv [] []).policies "p" = some ⟨gPolicy [], [], 0⟩ := by decide +kernel
  have h1 : relationships (gStore gEnv [] []) "p" = [] := by decide +kernel
  obtain ⟨h2, h3, h4⟩ := nested_stored (rec := ⟨gPolicy [], [], 0⟩) rfl (diamonds n)
    (fun r hr => by obtain ⟨i, _, h | h | h | h⟩ := mem_diamonds.1 hr <;> exact ⟨_, _, h⟩) (gStore_wf gEnv [] []) h0 (fun r hr => by rw [Present, h1] at hr; cases hr)
  have hrun : diamondStore n = (runCalls gEnv ((diamonds n).map (fun r => .setRelationship 0 "p" (some r) [])) (gStore gEnv [] [])).2 := rfl
  rw [hrun]
  refine ⟨by rw [policyAt_eq]; exact h2, ?_, fun r => ?_⟩
  · rw [h1, diamonds_length] at h3
    simpa using h3
  · rw [h4, Present, h1]
    simp

/-- The node of a group's members. -/
def nthNode (i : Nat) : RelationNode := .entitySet (some (nth i)) "member"

/-- Its identifier. -/
def nthId (i : Nat) : Nat := Hx ("group" ++ "/" ++ (nth i).id ++ "/" ++ "member")

theorem nthNode_id (i : Nat) : (nthNode i).nodeId gEnv.H = .ok (nthId i) := rfl

theorem nthId_inj {i j : Nat} (h : nthId i = nthId j) : i = j := by
  have h := congrArg String.length (Hx_inj h)
  simp [nth, String.length_append] at h
  exact h

theorem diamond_edge {n : Nat} {a b : RelationNode} : Edge (Present (diamondStore n) "p") a b ↔ ∃ i j, a = nthNode i ∧ b = nthNode j ∧ nested i j ∈ diamonds n := by
  constructor
  · rintro ⟨o, rel, sub, h, rfl, rfl⟩
    have h := ((diamondStore_facts n).2.2 _).1 h
    have : ∃ i j, (⟨some o, rel, some sub⟩ : Relationship) = nested i j := by
      obtain ⟨i, _, h | h | h | h⟩ := mem_diamonds.1 h <;> exact ⟨_, _, h⟩
    obtain ⟨i, j, he⟩ := this
    refine ⟨i, j, ?_, ?_, he ▸ h⟩ <;> cases he <;> rfl
  · rintro ⟨i, j, rfl, rfl, h⟩
    exact ⟨nth i, "member", .entitySet (some (nth j)) "member", ((diamondStore_facts n).2.2 _).2 h, rfl, rfl⟩

theorem diamond_lt {n i j : Nat} (h : nested i j ∈ diamonds n) : i < j := by
  obtain ⟨k, _, h | h | h | h⟩ := mem_diamonds.1 h <;> obtain ⟨rfl, rfl⟩ := nested_inj h <;> omega

theorem diamond_ids (n : Nat) : EdgeIdsClear gEnv.H (Present (diamondStore n) "p") := by
  have hall : ∀ m, OnEdge (Present (diamondStore n) "p") m → ∃ i, m = nthNode i := by
    rintro m ⟨k, h | h⟩ <;> obtain ⟨i, j, h1, h2, _⟩ := diamond_edge.1 h
    · exact ⟨j, h2⟩
    · exact ⟨i, h1⟩
  intro a b id ha hb h1 h2
  obtain ⟨i, rfl⟩ := hall a ha
  obtain ⟨j, rfl⟩ := hall b hb
  rw [nthNode_id] at h1 h2
  rw [nthId_inj (Res.ok.inj (h1.trans h2.symm))]

theorem diamond_acyclic (n : Nat) : Acyclic (Present (diamondStore n) "p") := by
  have hlt : ∀ a b, Leads (Present (diamondStore n) "p") a b → ∃ i j, a = nthNode i ∧ b = nthNode j ∧ i < j := by
    intro a b h
    induction h with
    | edge h =>
      obtain ⟨i, j, h1, h2, h3⟩ := diamond_edge.1 h
      exact ⟨i, j, h1, h2, diamond_lt h3⟩
    | more _ h ih =>
      obtain ⟨i, j, h1, h2, h3⟩ := ih
      obtain ⟨j', k, h4, h5, h6⟩ := diamond_edge.1 h
      have := diamond_lt h6
      have hj : j = j' := by
        rw [h2] at h4
        unfold nthNode at h4
        injection h4 with h4
        injection h4 with h4
        exact nth_inj h4
      exact ⟨i, k, h1, h5, by omega⟩
  intro a h
  obtain ⟨i, j, h1, h2, h3⟩ := hlt a a h
  rw [h1] at h2
  unfold nthNode at h2
  injection h2 with h2
  injection h2 with h2
  have := nth_inj h2
  omega

/-- A chain of diamonds is drawn once for every way through it. -/
theorem diamond_drawing {n : Nat} {f : Forest} (hc : ∀ i j, nested i j ∈ diamonds n → (nthId i, nthId j) ∈ f.children) :
    ∀ (d i : Nat), i + d = n → ∀ {fuel : Nat} {parent : DotId} {cs : List DotCall}, dumpNode f fuel parent (nthId (3 * i)) = .ok cs → 2 ^ d ≤ cs.length := by
  have step : ∀ {fuel : Nat} {parent : DotId} {id : Nat} {cs : List DotCall}, dumpNode f fuel parent id = .ok cs →
      ∃ m cs', concatRes (dumpNode f m (.num id)) (f.childrenOf id) = .ok cs' ∧ cs.length = cs'.length + 2 := by
    intro fuel parent id cs h
    cases fuel with
    | zero => cases h
    | succ m =>
      rw [dumpNode] at h
      split at h
      · cases h
      · obtain ⟨_, _, h⟩ := Res.bind_eq_ok.1 h
        obtain ⟨cs', h1, h⟩ := Res.bind_eq_ok.1 h
        cases h
        exact ⟨m, cs', h1, by simp⟩
  intro d
  induction d with
  | zero =>
    intro i _ fuel parent cs h
    obtain ⟨_, _, _, h⟩ := step h
    rw [h]
    exact Nat.succ_le_of_lt (by omega)
  | succ d ih =>
    intro i hi fuel parent cs h
    have hin : i < n := by omega
    have mem : ∀ a b, (nested a b = nested (3 * i) (3 * i + 1) ∨ nested a b = nested (3 * i) (3 * i + 2) ∨ nested a b = nested (3 * i + 1) (3 * i + 3) ∨
        nested a b = nested (3 * i + 2) (3 * i + 3)) → nthId b ∈ f.childrenOf (nthId a) :=
      fun a b hab => mem_childrenOf.2 (hc _ _ (mem_diamonds.2 ⟨i, hin, hab⟩))
    obtain ⟨m, cs', h1, h2⟩ := step h
    have way : ∀ k, nthId (3 * i + 3) ∈ f.childrenOf (nthId k) → ∀ bs, dumpNode f m (.num (nthId (3 * i))) (nthId k) = .ok bs → 2 ^ d ≤ bs.length := by
      intro k hk bs hb
      obtain ⟨m', bs', h3, h4⟩ := step hb
      obtain ⟨b, hb⟩ := (concatRes_mem h3).1 _ hk
      have h5 := ih (i + 1) (by omega) hb
      have h6 := (concatRes_ge h3 (b := 0) hk hb).1
      omega
    have hy := mem (3 * i) (3 * i + 1) (.inl rfl)
    have hz := mem (3 * i) (3 * i + 2) (.inr (.inl rfl))
    obtain ⟨y, hy'⟩ := (concatRes_mem h1).1 _ hy
    obtain ⟨z, hz'⟩ := (concatRes_mem h1).1 _ hz
    have h3 := way _ (mem (3 * i + 1) (3 * i + 3) (.inr (.inr (.inl rfl)))) y hy'
    have h4 := way _ (mem (3 * i + 2) (3 * i + 3) (.inr (.inr (.inr rfl)))) z hz'
    have h5 := (concatRes_ge h1 (b := nthId (3 * i + 2)) hy hy').2 z hz (fun he => by have := nthId_inj he; omega) hz'
    rw [Nat.pow_succ]
    omega

/-- The answer to DumpRelationships is not bounded by the data: for every n there is a store of at most 4n relationships, reached by requests, whose
dump is answered, and draws at least 2ⁿ lines. -/
theorem C84_dump_violated (n : Nat) : Sys.Reachable gEnv ⟨[], diamondStore n⟩ ∧ (relationships (diamondStore n) "p").length ≤ 4 * n ∧
    ∀ order : List Nat → List Nat, (∀ l, (order l).Perm l) →
      (∃ fuel cs, (serve gEnv (.dumpRelationships fuel order "p" .dot) (diamondStore n)).1 = .ok (.dumped cs)) ∧
      ∀ fuel cs, (serve gEnv (.dumpRelationships fuel order "p" .dot) (diamondStore n)).1 = .ok (.dumped cs) → 2 ^ n ≤ cs.length := by
  obtain ⟨hp, hl, hr⟩ := diamondStore_facts n
  have hs : WF gEnv (diamondStore n) := gStore_wf _ _ _
  refine ⟨gStore_reachable _ _ _, hl, fun order ho => ⟨?_, fun fuel cs h => ?_⟩⟩
  · obtain ⟨N, h⟩ := C50_dump_partial hs hp (diamond_ids n) (diamond_acyclic n)
    obtain ⟨cs, h, _⟩ := h N (Nat.le_refl _) order ho
    exact ⟨N, cs, h⟩
  · obtain ⟨f, hw, hf⟩ := forest_of hs "p"
    rw [serve_dump hs hp fuel order hw] at h
    obtain ⟨cs', h0, h⟩ := Res.bind_eq_ok.1 h
    cases h
    obtain ⟨cs', h1, h⟩ := Res.bind_eq_ok.1 h0
    cases h
    by_cases hn : n = 0
    · subst hn; exact Nat.succ_le_succ (Nat.zero_le _)
    have hroot : nthId (3 * 0) ∈ f.orphans := by
      refine (hf.orphan hs (diamond_ids n)).2 ⟨nthNode 0, ⟨⟨nthNode 1, diamond_edge.2 ⟨0, 1, rfl, rfl, mem_diamonds.2 ⟨0, by omega, .inl rfl⟩⟩⟩, fun m hm => ?_⟩, rfl⟩
      obtain ⟨i, j, _, h2, h3⟩ := diamond_edge.1 hm
      have := diamond_lt h3
      unfold nthNode at h2
      injection h2 with h2
      injection h2 with h2
      have := nth_inj h2
      omega
    have hmem := (ho f.orphans).mem_iff.2 hroot
    obtain ⟨b, hb⟩ := (concatRes_mem h1).1 _ hmem
    have h2 := diamond_drawing (n := n) (fun i j hij => (hf.child hs).2 ⟨nthNode i, nthNode j, diamond_edge.2 ⟨i, j, rfl, rfl, hij⟩, rfl, rfl⟩) n 0 (by omega) hb
    have h3 := (concatRes_ge h1 (b := 0) hmem hb).1
    rw [List.length_cons]
    omega

/-- What the drawing of DumpRelationships costs in general: two parts for each way from a root, that is for each sequence of relationships each starting
where the one before leads, and the drawing's root. -/
theorem C84_dump_ways {env : Env} {s : Store} {pid : String} {rec : PolicyRecord} (hs : WF env s) (hp : policyAt s pid = some rec)
    (hc : EdgeIdsClear env.H (Present s pid)) {order : List Nat → List Nat} (ho : ∀ l, (order l).Perm l) {fuel : Nat} {cs : List DotCall}
    (h : (serve env (.dumpRelationships fuel order pid .dot) s).1 = .ok (.dumped cs)) :
    ∃ W : List (List RelationNode), W.Nodup ∧ (∀ w, w ∈ W ↔ ∃ r, Root (Present s pid) r ∧ Way (Present s pid) r w) ∧ cs.length = 1 + 2 * W.length := by
  obtain ⟨f, hw, hf⟩ := forest_of hs pid
  rw [serve_dump hs hp fuel order hw] at h
  obtain ⟨cs', h1, h⟩ := Res.bind_eq_ok.1 h
  cases h
  obtain ⟨hn1, hn2⟩ := forest_nodup hs hc hw
  obtain ⟨cs', h2, h⟩ := Res.bind_eq_ok.1 h1
  cases h
  obtain ⟨W, k1, k2, k3⟩ := concat_ways (f := f) (fun i cs h => dumpNode_ways hn1 fuel .root i cs h) ((ho _).nodup_iff.2 hn2) h2
  have hback : ∀ w ∈ W, ∃ r, Root (Present s pid) r ∧ Way (Present s pid) r (w.map (nodeOf f)) ∧ (w.map (nodeOf f)).map (idOf env.H) = w := by
    intro w hw
    obtain ⟨i, hi, hd⟩ := (k2 w).1 hw
    obtain ⟨r, hr, hri⟩ := (hf.orphan hs hc).1 ((ho _).mem_iff.1 hi)
    exact ⟨r, hr, down_way hs hc hf hd (Hangs.onEdge (.inl hr)) hri⟩
  refine ⟨W.map (List.map (nodeOf f)), ?_, fun w => ⟨fun hw => ?_, ?_⟩, ?_⟩
  · refine List.Pairwise.map (R := fun a b : List Nat => a.map (nodeOf f) ≠ b.map (nodeOf f)) _ (fun a b h => h) (k1.imp_of_mem (fun {a b} ha hb hab h => hab ?_))
    obtain ⟨_, _, _, h3⟩ := hback a ha
    obtain ⟨_, _, _, h4⟩ := hback b hb
    rw [← h3, h, h4]
  · obtain ⟨w', hw', rfl⟩ := List.mem_map.1 hw
    obtain ⟨r, hr, h3, _⟩ := hback w' hw'
    exact ⟨r, hr, h3⟩
  · rintro ⟨r, hr, hw⟩
    have hre : OnEdge (Present s pid) r := Hangs.onEdge (.inl hr)
    obtain ⟨i, hi⟩ := proper_id (H := env.H) (OnEdge.proper hs hre)
    obtain ⟨h3, h4⟩ := way_down hs hc hf hw hre hi
    exact List.mem_map.2 ⟨_, (k2 _).2 ⟨i, (ho _).mem_iff.2 ((hf.orphan hs hc).2 ⟨r, hr, hi⟩), h3⟩, h4⟩
  · rw [List.length_cons, k3, List.length_map]
    omega

/-! ### Concrete cases -/

/-- Seven groups in two diamonds: four ways lead through them, and Expand looks every group up once. -/
example : WF gEnv (diamondStore 2) ∧ policyAt (diamondStore 2) "p" = some ⟨gPolicy [], [], 0⟩ ∧ asks (.expand 10 "p" (some (nthNode 0)) .spew) = some ("p", ⟨nth 0, "member"⟩) ∧
    (relationships (diamondStore 2) "p").length = 8 ∧ (calls ((Call.expand 10 "p" (some (nthNode 0)) .spew).prog gEnv) (diamondStore 2)).length = 1 + 7 :=
  ⟨gStore_wf _ _ _, (diamondStore_facts 2).1, rfl, by decide +kernel, by decide +kernel⟩

/-- The lookups of `gPolicy []`: one for every expression. -/
example : ∀ y t, DefinedBy U0 (gPolicy []) y t → lookups t ≤ 1 := by
  rintro y t ⟨d, ⟨r, hr, _, hd, _⟩, ht⟩
  have : d = rel "member" "_this" := by
    simp [gPolicy] at hr
    rcases hr with rfl | rfl | rfl <;> simp at hd
    exact hd
  subst this
  have h : getExpressionTree U0 (rel "member" "_this") = .ok (.rule .this) := by decide +kernel
  have h2 := (getExpressionTree_ok_iff _ _ _).2 ht
  rw [h] at h2
  cases h2
  exact Nat.le_refl _

/-- The tree Expand answers there: each group unfolds once, the eight relationships give eight nodes, and the group reached a second time is left folded. -/
example : ∃ t, Expands gEnv (diamondStore 2) 10 "p" (nthNode 0) t ∧ treeNodes t = 16 ∧ expanse 8 (.rule .this) = 9 := by
  obtain ⟨t, h1, h2⟩ := expands_of (env := gEnv) (s := diamondStore 2) (pid := "p") (root := nthNode 0) (fuel := 10) (f := fun t => treeNodes t == 16) (by decide +kernel)
  exact ⟨t, h1, by simpa using h2, rfl⟩

/-- The eight relationships give thirteen ways from the only root. -/
example : EdgeIdsClear gEnv.H (Present (diamondStore 2) "p") ∧
    ∃ cs, (serve gEnv (.dumpRelationships 10 id "p" .dot) (diamondStore 2)).1 = .ok (.dumped cs) ∧ cs.length = 1 + 2 * 13 := by
  refine ⟨diamond_ids 2, ?_⟩
  have h : (match (serve gEnv (.dumpRelationships 10 id "p" .dot) (diamondStore 2)).1 with | .ok (.dumped cs) => cs.length == 27 | _ => false) = true := by decide +kernel
  split at h
  · next cs h1 => exact ⟨cs, h1, by simpa using h⟩
  · cases h

/-- Deleting a policy with two relationships uses up its allowance. -/
example : (calls ((Call.deletePolicy "p").prog gEnv) abStore).length = 3 + 3 * (relationships abStore "p").length := by decide +kernel

end Zanzi
