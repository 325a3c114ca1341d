import Verif.Lemmas.Term
import Verif.Lemmas.Explain
import Verif.Props.Grants

/-
Properties C40, C49 and the graph part of C14: searches return, and when they return an answer.
-/

namespace Zanzi

open Spec

/-! ### C40: termination -/

theorem getPolicy_yields_none {s : Store} {pid : String} (hp : policyAt s pid = none) : (GraphService.getPolicy pid).Yields s (.err .policyNotFound) := by
  rw [policyAt_eq] at hp
  unfold GraphService.getPolicy Prog.Yields
  rw [Prog.run_bind]
  have : (Repo.getPolicy pid).run s = (.ok (kvGet s.policies pid), s) := rfl
  rw [this, andThen_ok, hp]
  rfl

/-- Outcome of reading the policy. -/
def policyRes (s : Store) (pid : String) : Res PolicyRecord :=
  match policyAt s pid with
  | none => .err .policyNotFound
  | some rec => .ok rec

theorem getPolicy_yields' (s : Store) (pid : String) : (GraphService.getPolicy pid).Yields s (policyRes s pid) := by
  unfold policyRes
  cases hp : policyAt s pid with
  | none => exact getPolicy_yields_none hp
  | some rec => exact getPolicy_yields hp

theorem checkTree_yields' (env : Env) (fuel : Nat) (pol : Policy) (req : Option AccessRequest) (s : Store) :
    (GraphService.checkTree env fuel pol req).Yields s
      (Res.deref req >>= fun r => pSearch env pol s fuel (some (.entitySet r.object r.relation)) (some (.entity r.subject))) :=
  (Prog.Yields.lift _ _).bind (fun _ => searchGoal_yields _ _ _ _ _ _)

theorem check_yields' (env : Env) (fuel : Nat) (pid : String) (req : Option AccessRequest) (s : Store) :
    ((Call.check fuel pid req).prog env).Yields s ((policyRes s pid >>= fun rec =>
      (Res.deref req >>= fun r => pSearch env rec.policy s fuel (some (.entitySet r.object r.relation)) (some (.entity r.subject))) >>= fun t =>
        pure (decide (t.result = .success))) >>= fun b => pure (.authorized b)) :=
  ((getPolicy_yields' s pid).bind (fun rec => (checkTree_yields' env fuel rec.policy req s).bind (fun _ => .pure _ _))).bind (fun _ => .pure _ _)

theorem explainCheck_yields' (env : Env) (fuel : Nat) (pid : String) (req : Option AccessRequest) (f : ExplainFormat) (s : Store) :
    ((Call.explainCheck fuel pid req f).prog env).Yields s ((serializerFactory f >>= fun _ => policyRes s pid >>= fun rec =>
      (Res.deref req >>= fun r => pSearch env rec.policy s fuel (some (.entitySet r.object r.relation)) (some (.entity r.subject))) >>= fun t =>
        serialize f t >>= fun o => pure (o, decide (t.result = .success), ExplainFormat.spew)) >>= fun x => pure (Answer.explained x.1 x.2.1 x.2.2)) :=
  ((Prog.Yields.lift _ _).bind (fun _ => (getPolicy_yields' s pid).bind (fun rec => (checkTree_yields' env fuel rec.policy req s).bind (fun _ =>
    (Prog.Yields.lift _ _).bind (fun _ => .pure _ _))))).bind (fun _ => .pure _ _)

theorem expand_yields' (env : Env) (fuel : Nat) (pid : String) (root : Option RelationNode) (f : ExplainFormat) (s : Store) :
    ((Call.expand fuel pid root f).prog env).Yields s ((serializerFactory f >>= fun _ => policyRes s pid >>= fun rec =>
      pSearch env rec.policy s fuel root none >>= fun t => serialize f t >>= fun o => pure (o, f)) >>= fun x => pure (Answer.expanded x.1 x.2)) :=
  ((Prog.Yields.lift _ _).bind (fun _ => (getPolicy_yields' s pid).bind (fun rec => (searchGoal_yields env fuel rec.policy root none s).bind (fun _ =>
    (Prog.Yields.lift _ _).bind (fun _ => .pure _ _))))).bind (fun _ => .pure _ _)

theorem Res.bind_ne_fuel {α β : Type} {r : Res α} {k : α → Res β} (h : r ≠ .fuel) (hk : ∀ a, k a ≠ .fuel) : (r >>= k) ≠ .fuel := by
  cases r with
  | ok a => exact hk a
  | fuel => exact absurd rfl h
  | _ => nofun

theorem prettyString_ne_fuel (n : RelationNode) : n.prettyString ≠ .fuel := by
  unfold RelationNode.prettyString
  split <;> nofun

mutual
theorem dotTree_ne_fuel (parent : DotId) (t : GoalTree) (c : Nat) : dotTree parent t c ≠ .fuel := by
  match t with
  | .leaf r n reason => rw [dotTree]; exact Res.bind_ne_fuel (prettyString_ne_fuel n) (fun _ => nofun)
  | .path r n reason child =>
    rw [dotTree]
    exact Res.bind_ne_fuel (prettyString_ne_fuel n) (fun _ => Res.bind_ne_fuel (dotTree_ne_fuel _ child _) (fun _ => nofun))
  | .or r ps => rw [dotTree]; exact Res.bind_ne_fuel (dotList_ne_fuel _ ps _) (fun _ => nofun)
  | .and r ps => rw [dotTree]; exact Res.bind_ne_fuel (dotList_ne_fuel _ ps _) (fun _ => nofun)
  | .diff r a b =>
    rw [dotTree]
    exact Res.bind_ne_fuel (dotTree_ne_fuel _ a _) (fun _ => Res.bind_ne_fuel (dotTree_ne_fuel _ b _) (fun _ => nofun))
theorem dotList_ne_fuel (parent : DotId) (ts : List GoalTree) (c : Nat) : dotList parent ts c ≠ .fuel := by
  match ts with
  | [] => rw [dotList]; nofun
  | t :: ts =>
    rw [dotList]
    exact Res.bind_ne_fuel (dotTree_ne_fuel _ t _) (fun _ => Res.bind_ne_fuel (dotList_ne_fuel _ ts _) (fun _ => nofun))
end

theorem serialize_ne_fuel (f : ExplainFormat) (t : GoalTree) : serialize f t ≠ .fuel := by
  cases f with
  | spew => nofun
  | json =>
    intro h
    simp only [serialize, jsonSerialize] at h
    split at h <;> cases h
  | dot => exact Res.bind_ne_fuel (Res.bind_ne_fuel (dotTree_ne_fuel _ _ _) (fun _ => nofun)) (fun _ => nofun)
  | unknown => nofun

theorem policyRes_ne_fuel (s : Store) (pid : String) : policyRes s pid ≠ .fuel := by
  unfold policyRes
  split <;> nofun

/-- C40: on every store, for every policy and request (well formed or not), Check, ExplainCheck and Expand return, and what they return
does not depend on the bound the model puts on the recursion. -/
theorem C40_search_returns (env : Env) (s : Store) (pid : String) :
    (∀ req, ∃ n, ∀ fuel, n ≤ fuel →
      (serve env (.check fuel pid req) s).1 ≠ .fuel ∧ serve env (.check fuel pid req) s = serve env (.check n pid req) s) ∧
    (∀ req f, ∃ n, ∀ fuel, n ≤ fuel →
      (serve env (.explainCheck fuel pid req f) s).1 ≠ .fuel ∧ serve env (.explainCheck fuel pid req f) s = serve env (.explainCheck n pid req f) s) ∧
    (∀ root f, ∃ n, ∀ fuel, n ≤ fuel →
      (serve env (.expand fuel pid root f) s).1 ≠ .fuel ∧ serve env (.expand fuel pid root f) s = serve env (.expand n pid root f) s) := by
  have hd : ∀ {α : Type} (o : Option α), Res.deref o ≠ .fuel := by intro α o; cases o <;> nofun
  have hfac : ∀ f, serializerFactory f ≠ .fuel := by intro f; cases f <;> nofun
  refine ⟨fun req => ?_, fun req f => ?_, fun root f => ?_⟩
  · let n := match policyAt s pid, req with
      | some rec, some r => searchBound env rec.policy s (some (.entitySet r.object r.relation))
      | _, _ => 0
    have key : ∀ fuel, n ≤ fuel → ∀ rec, policyRes s pid = .ok rec → ∀ r, Res.deref req = .ok r →
        pSearch env rec.policy s fuel (some (.entitySet r.object r.relation)) (some (.entity r.subject)) ≠ .fuel ∧
        pSearch env rec.policy s fuel (some (.entitySet r.object r.relation)) (some (.entity r.subject)) =
          pSearch env rec.policy s n (some (.entitySet r.object r.relation)) (some (.entity r.subject)) := by
      intro fuel hf rec hrec r hr
      have hn : n = searchBound env rec.policy s (some (.entitySet r.object r.relation)) := by
        unfold policyRes at hrec
        cases req with
        | none => cases hr
        | some r' =>
          cases hr
          show (match policyAt s pid, some r with
            | some rec, some r => searchBound env rec.policy s (some (.entitySet r.object r.relation))
            | _, _ => 0) = _
          cases hp : policyAt s pid with
          | none => rw [hp] at hrec; cases hrec
          | some rec' => rw [hp] at hrec; cases hrec; rfl
      have := pSearch_stable env rec.policy s (some (.entitySet r.object r.relation)) (some (.entity r.subject)) fuel (hn ▸ hf)
      exact ⟨this.2, by rw [hn]; exact this.1⟩
    refine ⟨n, fun fuel hf => ?_⟩
    rw [show serve env (.check fuel pid req) s = _ from check_yields' env fuel pid req s,
      show serve env (.check n pid req) s = _ from check_yields' env n pid req s]
    cases hp : policyRes s pid with
    | fuel => exact absurd hp (policyRes_ne_fuel _ _)
    | ok rec =>
      cases hr : Res.deref req with
      | fuel => exact absurd hr (hd req)
      | ok r =>
        obtain ⟨k1, k2⟩ := key fuel hf rec hp r hr
        simp only [Res.bind_ok]
        rw [← k2]
        exact ⟨Res.bind_ne_fuel (Res.bind_ne_fuel k1 (fun _ => nofun)) (fun _ => nofun), rfl⟩
      | _ => exact ⟨nofun, rfl⟩
    | _ => exact ⟨nofun, rfl⟩
  · let n := match policyAt s pid, req with
      | some rec, some r => searchBound env rec.policy s (some (.entitySet r.object r.relation))
      | _, _ => 0
    have key : ∀ fuel, n ≤ fuel → ∀ rec, policyRes s pid = .ok rec → ∀ r, Res.deref req = .ok r →
        pSearch env rec.policy s fuel (some (.entitySet r.object r.relation)) (some (.entity r.subject)) ≠ .fuel ∧
        pSearch env rec.policy s fuel (some (.entitySet r.object r.relation)) (some (.entity r.subject)) =
          pSearch env rec.policy s n (some (.entitySet r.object r.relation)) (some (.entity r.subject)) := by
      intro fuel hf rec hrec r hr
      have hn : n = searchBound env rec.policy s (some (.entitySet r.object r.relation)) := by
        unfold policyRes at hrec
        cases req with
        | none => cases hr
        | some r' =>
          cases hr
          show (match policyAt s pid, some r with
            | some rec, some r => searchBound env rec.policy s (some (.entitySet r.object r.relation))
            | _, _ => 0) = _
          cases hp : policyAt s pid with
          | none => rw [hp] at hrec; cases hrec
          | some rec' => rw [hp] at hrec; cases hrec; rfl
      have := pSearch_stable env rec.policy s (some (.entitySet r.object r.relation)) (some (.entity r.subject)) fuel (hn ▸ hf)
      exact ⟨this.2, by rw [hn]; exact this.1⟩
    refine ⟨n, fun fuel hf => ?_⟩
    rw [show serve env (.explainCheck fuel pid req f) s = _ from explainCheck_yields' env fuel pid req f s,
      show serve env (.explainCheck n pid req f) s = _ from explainCheck_yields' env n pid req f s]
    cases hfa : serializerFactory f with
    | fuel => exact absurd hfa (hfac f)
    | ok _ =>
      cases hp : policyRes s pid with
      | fuel => exact absurd hp (policyRes_ne_fuel _ _)
      | ok rec =>
        cases hr : Res.deref req with
        | fuel => exact absurd hr (hd req)
        | ok r =>
          obtain ⟨k1, k2⟩ := key fuel hf rec hp r hr
          simp only [Res.bind_ok]
          rw [← k2]
          exact ⟨Res.bind_ne_fuel (Res.bind_ne_fuel k1 (fun _ => Res.bind_ne_fuel (serialize_ne_fuel _ _) (fun _ => nofun))) (fun _ => nofun), rfl⟩
        | _ => exact ⟨nofun, rfl⟩
      | _ => exact ⟨nofun, rfl⟩
    | _ => exact ⟨nofun, rfl⟩
  · let n := match policyAt s pid with
      | some rec => searchBound env rec.policy s root
      | none => 0
    have key : ∀ fuel, n ≤ fuel → ∀ rec, policyRes s pid = .ok rec →
        pSearch env rec.policy s fuel root none ≠ .fuel ∧
        pSearch env rec.policy s fuel root none = pSearch env rec.policy s n root none := by
      intro fuel hf rec hrec
      have hn : n = searchBound env rec.policy s root := by
        unfold policyRes at hrec
        show (match policyAt s pid with
            | some rec => searchBound env rec.policy s root
            | none => 0) = _
        cases hp : policyAt s pid with
        | none => rw [hp] at hrec; cases hrec
        | some rec' => rw [hp] at hrec; cases hrec; rfl
      have := pSearch_stable env rec.policy s root none fuel (hn ▸ hf)
      exact ⟨this.2, by rw [hn]; exact this.1⟩
    refine ⟨n, fun fuel hf => ?_⟩
    rw [show serve env (.expand fuel pid root f) s = _ from expand_yields' env fuel pid root f s,
      show serve env (.expand n pid root f) s = _ from expand_yields' env n pid root f s]
    cases hfa : serializerFactory f with
    | fuel => exact absurd hfa (hfac f)
    | ok _ =>
      cases hp : policyRes s pid with
      | fuel => exact absurd hp (policyRes_ne_fuel _ _)
      | ok rec =>
        obtain ⟨k1, k2⟩ := key fuel hf rec hp
        simp only [Res.bind_ok]
        rw [← k2]
        exact ⟨Res.bind_ne_fuel (Res.bind_ne_fuel k1 (fun _ => Res.bind_ne_fuel (serialize_ne_fuel _ _) (fun _ => nofun))) (fun _ => nofun), rfl⟩
      | _ => exact ⟨nofun, rfl⟩
    | _ => exact ⟨nofun, rfl⟩

/-- A relation that refers to itself, and usersets in a cycle. -/
example : Checks gEnv (gStore gEnv [rel "a" "a + b", rel "b" "_this + a"]
    [⟨some doc1, "b", some (.entitySet (some ⟨"doc", "2"⟩) "a")⟩, ⟨some ⟨"doc", "2"⟩, "b", some (.entitySet (some doc1) "a")⟩])
    10 "p" ⟨doc1, "a"⟩ usr false := checks_of (by decide +kernel)

/-! ### C49: errors -/

mutual
theorem pTree_outcome {d : Descend} {P : RelationNode → Prop} {E : Prop}
    (h : ∀ n r seen, P n → d n r seen = .fuel ∨ (∃ p, d n r seen = .ok p ∧ ∀ m ∈ mentions p.1, P m) ∨ (E ∧ ∃ e, d n r seen = .err e)) (t : GoalTree) (seen : List Nat)
    (ht : ∀ n ∈ mentions t, P n) : pTree d t seen = .fuel ∨ (∃ p, pTree d t seen = .ok p ∧ ∀ m ∈ mentions p.1, P m) ∨ (E ∧ ∃ e, pTree d t seen = .err e) := by
  match t with
  | .or _ ps =>
    rw [pTree]
    rcases pOr_outcome h ps seen (by simpa [mentions] using ht) with h1 | ⟨p, h1, hm⟩ | ⟨hE, e, h1⟩ <;> rw [h1]
    · exact .inl rfl
    · exact .inr (.inl ⟨_, rfl, by simpa [mentions] using hm⟩)
    · exact .inr (.inr ⟨hE, e, rfl⟩)
  | .and _ ps =>
    rw [pTree]
    rcases pAnd_outcome h ps seen (by simpa [mentions] using ht) with h1 | ⟨p, h1, hm⟩ | ⟨hE, e, h1⟩ <;> rw [h1]
    · exact .inl rfl
    · exact .inr (.inl ⟨_, rfl, by simpa [mentions] using hm⟩)
    · exact .inr (.inr ⟨hE, e, rfl⟩)
  | .diff _ l r =>
    have hl : ∀ n ∈ mentions l, P n := fun n hn => ht n (by simp [mentions, hn])
    have hr : ∀ n ∈ mentions r, P n := fun n hn => ht n (by simp [mentions, hn])
    rw [pTree]
    rcases pTree_outcome h l seen hl with h1 | ⟨p, h1, hm1⟩ | ⟨hE, e, h1⟩ <;> rw [h1]
    · exact .inl rfl
    · simp only [Res.bind_ok]
      rcases pTree_outcome h r p.2 hr with h2 | ⟨q, h2, hm2⟩ | ⟨hE, e, h2⟩ <;> rw [h2]
      · exact .inl rfl
      · refine .inr (.inl ⟨_, rfl, fun m hm => ?_⟩)
        simp only [mentions, List.mem_append] at hm
        exact hm.elim (hm1 m) (hm2 m)
      · exact .inr (.inr ⟨hE, e, rfl⟩)
    · exact .inr (.inr ⟨hE, e, rfl⟩)
  | .leaf _ n r => rw [pTree]; exact h n r seen (ht n (by simp [mentions]))
  | .path _ n r _ => rw [pTree]; exact h n r seen (ht n (by simp [mentions]))

theorem pOr_outcome {d : Descend} {P : RelationNode → Prop} {E : Prop}
    (h : ∀ n r seen, P n → d n r seen = .fuel ∨ (∃ p, d n r seen = .ok p ∧ ∀ m ∈ mentions p.1, P m) ∨ (E ∧ ∃ e, d n r seen = .err e)) (ts : List GoalTree) (seen : List Nat)
    (ht : ∀ n ∈ mentionsList ts, P n) : pOr d ts seen = .fuel ∨ (∃ p, pOr d ts seen = .ok p ∧ ∀ m ∈ mentionsList p.1, P m) ∨ (E ∧ ∃ e, pOr d ts seen = .err e) := by
  match ts with
  | [] => rw [pOr]; exact .inr (.inl ⟨_, rfl, ht⟩)
  | t :: ts =>
    have hl : ∀ n ∈ mentions t, P n := fun n hn => ht n (by simp [mentionsList, hn])
    have hr : ∀ n ∈ mentionsList ts, P n := fun n hn => ht n (by simp [mentionsList, hn])
    rw [pOr]
    rcases pTree_outcome h t seen hl with h1 | ⟨p, h1, hm1⟩ | ⟨hE, e, h1⟩ <;> rw [h1]
    · exact .inl rfl
    · simp only [Res.bind_ok]
      split
      · refine .inr (.inl ⟨_, rfl, fun m hm => ?_⟩)
        simp only [mentionsList, List.mem_append] at hm
        exact hm.elim (hm1 m) (hr m)
      · rcases pOr_outcome h ts p.2 hr with h2 | ⟨q, h2, hm2⟩ | ⟨hE, e, h2⟩ <;> rw [h2]
        · exact .inl rfl
        · refine .inr (.inl ⟨_, rfl, fun m hm => ?_⟩)
          simp only [mentionsList, List.mem_append] at hm
          exact hm.elim (hm1 m) (hm2 m)
        · exact .inr (.inr ⟨hE, e, rfl⟩)
    · exact .inr (.inr ⟨hE, e, rfl⟩)

theorem pAnd_outcome {d : Descend} {P : RelationNode → Prop} {E : Prop}
    (h : ∀ n r seen, P n → d n r seen = .fuel ∨ (∃ p, d n r seen = .ok p ∧ ∀ m ∈ mentions p.1, P m) ∨ (E ∧ ∃ e, d n r seen = .err e)) (ts : List GoalTree) (seen : List Nat)
    (ht : ∀ n ∈ mentionsList ts, P n) : pAnd d ts seen = .fuel ∨ (∃ p, pAnd d ts seen = .ok p ∧ ∀ m ∈ mentionsList p.1, P m) ∨ (E ∧ ∃ e, pAnd d ts seen = .err e) := by
  match ts with
  | [] => rw [pAnd]; exact .inr (.inl ⟨_, rfl, ht⟩)
  | t :: ts =>
    have hl : ∀ n ∈ mentions t, P n := fun n hn => ht n (by simp [mentionsList, hn])
    have hr : ∀ n ∈ mentionsList ts, P n := fun n hn => ht n (by simp [mentionsList, hn])
    rw [pAnd]
    rcases pTree_outcome h t seen hl with h1 | ⟨p, h1, hm1⟩ | ⟨hE, e, h1⟩ <;> rw [h1]
    · exact .inl rfl
    · simp only [Res.bind_ok]
      split
      · refine .inr (.inl ⟨_, rfl, fun m hm => ?_⟩)
        simp only [mentionsList, List.mem_append] at hm
        exact hm.elim (hm1 m) (hr m)
      · rcases pAnd_outcome h ts p.2 hr with h2 | ⟨q, h2, hm2⟩ | ⟨hE, e, h2⟩ <;> rw [h2]
        · exact .inl rfl
        · refine .inr (.inl ⟨_, rfl, fun m hm => ?_⟩)
          simp only [mentionsList, List.mem_append] at hm
          exact hm.elim (hm1 m) (hm2 m)
        · exact .inr (.inr ⟨hE, e, rfl⟩)
    · exact .inr (.inr ⟨hE, e, rfl⟩)
end

theorem pPath_outcome {H : String → Nat} {build : RelationNode → Res GoalTree} {goal : Option RelationNode} {P : RelationNode → Prop} {E : Prop}
    (hn : ∀ n, P n → (∃ id, n.nodeId H = .ok id) ∧ ∃ b, goalFound n goal = .ok b)
    (hb : ∀ n, P n → n.isTerminal = false → (∃ t, build n = .ok t ∧ ∀ m ∈ mentions t, P m) ∨ (E ∧ ∃ e, build n = .err e)) (fuel : Nat) :
    ∀ n r seen, P n → pPath H build goal fuel n r seen = .fuel ∨ (∃ p, pPath H build goal fuel n r seen = .ok p ∧ ∀ m ∈ mentions p.1, P m) ∨
      (E ∧ ∃ e, pPath H build goal fuel n r seen = .err e) := by
  induction fuel with
  | zero => intro n r seen _; exact .inl rfl
  | succ k ih =>
    intro n r seen hP
    obtain ⟨⟨id, hid⟩, b, hg⟩ := hn n hP
    unfold pPath
    simp only [hid, hg, Res.bind_ok]
    split
    · exact .inr (.inl ⟨_, rfl, by simpa [mentions] using hP⟩)
    · split
      · exact .inr (.inl ⟨_, rfl, by simpa [mentions] using hP⟩)
      · next hterm =>
        rcases hb n hP (by simp at hterm; exact hterm.2) with ⟨t, h1, h2⟩ | ⟨hE, e, h1⟩
        · simp only [h1, Res.bind_ok]
          rcases pTree_outcome ih t (id :: seen) h2 with h3 | ⟨p, h3, hm⟩ | ⟨hE, e, h3⟩ <;> rw [h3]
          · exact .inl rfl
          · refine .inr (.inl ⟨_, rfl, fun m h => ?_⟩)
            simp only [mentions, List.mem_cons] at h
            rcases h with rfl | h
            · exact hP
            · exact hm m h
          · exact .inr (.inr ⟨hE, e, rfl⟩)
        · simp only [h1]
          exact .inr (.inr ⟨hE, e, rfl⟩)

section
variable {env : Env} {s : Store} {pid : String} {rec : PolicyRecord} {x : USet} {u : Entity}

/-- Nodes with all parts set. -/
def Proper : RelationNode → Prop
  | .entitySet (some _) _ => True
  | .entity (some _) => True
  | .wildcard _ => True
  | _ => False

theorem WF.subject_proper (hs : WF env s) {r : Relationship} (hr : Present s pid r) : ∃ sub, r.subject = some sub ∧ Proper (subjectNode sub) := by
  obtain ⟨⟨k, e⟩, hm, rfl⟩ := List.mem_map.1 hr
  have hn := hs.edgeNorm _ _ _ hm
  obtain ⟨r, h1, h2⟩ := hn
  have hback := fromInternal_toInternal h1
  rw [hback]
  cases hsub : r.subject with
  | none =>
    have : (fromInternal e).subject = none := by rw [hback, hsub]
    cases this
  | some sub =>
    refine ⟨sub, rfl, ?_⟩
    cases sub with
    | unset => exact absurd hsub h2
    | entity _ => trivial
    | resourceSet _ => trivial
    | entitySet o rel =>
      cases o with
      | some _ => trivial
      | none =>
        have h3 : (fromInternal e).subject = some (.entitySet none rel) := by rw [hback, hsub]
        simp only [fromInternal, Option.some.injEq] at h3
        unfold subjectFromInternal at h3
        split at h3 <;> cases h3

theorem Reaches_proper (hs : WF env s) {n : RelationNode} {p : Policy} (h : Reaches env.U p (Present s pid) x n) : Proper n := by
  induction h with
  | start => trivial
  | step _ hw _ =>
    cases hw with
    | this _ _ hr =>
      obtain ⟨sub', h1, h2⟩ := hs.subject_proper hr
      cases h1
      exact h2
    | cu _ _ => trivial
    | arrow _ _ _ _ => trivial

/-- Goals the service searches for. -/
def GoalOK : Option RelationNode → Prop
  | none => True
  | some (.entity (some _)) => True
  | _ => False

theorem proper_known {H : String → Nat} {n : RelationNode} (h : Proper n) {goal : Option RelationNode} (hg : GoalOK goal) :
    (∃ id, n.nodeId H = .ok id) ∧ ∃ b, goalFound n goal = .ok b := by
  rcases goal with _ | g
  · cases n with
    | unset => exact h.elim
    | entitySet o rel => cases o with | none => exact h.elim | some o => exact ⟨⟨_, rfl⟩, _, rfl⟩
    | entity o => cases o with | none => exact h.elim | some o => exact ⟨⟨_, rfl⟩, _, rfl⟩
    | wildcard r => exact ⟨⟨_, rfl⟩, _, rfl⟩
  · cases g with
    | entity g =>
      cases g with
      | none => exact hg.elim
      | some g =>
        cases n with
        | unset => exact h.elim
        | entitySet o rel => cases o with | none => exact h.elim | some o => exact ⟨⟨_, rfl⟩, _, rfl⟩
        | entity o => cases o with | none => exact h.elim | some o => exact ⟨⟨_, rfl⟩, _, rfl⟩
        | wildcard r => exact ⟨⟨_, rfl⟩, _, rfl⟩
    | _ => exact hg.elim

/-- Without wildcards in tuplesets, trees are built and lead only to reachable nodes, or building fails with an error. -/
theorem build_outcome (hs : WF env s) (hp : policyAt s pid = some rec) (hk : KeysClear env.U env.H rec.policy (Present s pid) x)
    (hw : TuplesetsConcrete env.U rec.policy (Present s pid) x) {y : USet} (hy : Reaches env.U rec.policy (Present s pid) x y.node) :
    (∃ t, bld env rec.policy s y.node = .ok t ∧ ∀ m ∈ mentions t, Reaches env.U rec.policy (Present s pid) x m) ∨
    ((¬ ∃ e, DefinedBy env.U rec.policy y e ∧ Whole e) ∧ ∃ e, bld env rec.policy s y.node = .err e) := by
  have hv := hs.policy_valid hp
  have hid := hs.policy_id hp
  cases hl : (newLut rec.policy).getRelation y.object.resource y.relation with
  | none =>
    refine .inr ⟨?_, .relationNotFound, by rw [bld_set, hl]⟩
    rintro ⟨e, ⟨d, hd, _⟩, _⟩
    exact ((C11_lookup_exact _ hv.1 _ _).2.1.1 hl) ⟨d, hd⟩
  | some d =>
    have hdec := ((C11_lookup_exact _ hv.1 _ _).1 d).1 hl
    obtain ⟨r, hr, h1, h2, h3⟩ := hdec
    obtain ⟨e, he, hnn, hok⟩ := hv.2.2 r hr d h2
    have hde : DefinedBy env.U rec.policy y e := ⟨d, ⟨r, hr, h1, h2, h3⟩, he⟩
    have hbe : bld env rec.policy s y.node = pBuild env.H s pid y e := by
      rw [bld_set, hl]
      simp only [(getExpressionTree_ok_iff _ _ _).2 he, Res.bind_ok, hid]
    have key : ∀ e', (∀ r ∈ leaves e', r ∈ leaves e) → NoNil e' →
        (∃ t, pBuild env.H s pid y e' = .ok t ∧ ∀ m ∈ mentions t, Reaches env.U rec.policy (Present s pid) x m) ∨
        (¬ Whole e' ∧ ∃ er, pBuild env.H s pid y e' = .err er) := by
      intro e'
      induction e' with
      | nil => intro _ h; exact h.elim
      | unset => intro _ _; exact .inr ⟨fun h => h, _, rfl⟩
      | rule r =>
        intro hsub _
        have hrl : r ∈ leaves e := hsub r (by simp [leaves])
        have k1 : KeyClear env.H (Present s pid) y := hk y y hy (.inl rfl)
        have k2 : ∀ a b, r = .ttu a b → KeyClear env.H (Present s pid) ⟨y.object, a⟩ :=
          fun a b h => hk y ⟨y.object, a⟩ hy (.inr ⟨e, a, b, hde, h ▸ hrl, rfl⟩)
        have hns : ∃ ns, ruleNodes env.H s pid y r = .ok ns := by
          cases r with
          | unset => exact (hok _ hrl).elim
          | this => exact ⟨_, rfl⟩
          | cu _ => exact ⟨_, rfl⟩
          | ttu a b =>
            have : ∀ l : List RelationNode, (∀ n ∈ l, n ≠ .unset) → ∃ ns, mapSliceErr (buildTtuNode b) l = .ok ns := by
              intro l
              induction l with
              | nil => intro _; exact ⟨_, rfl⟩
              | cons n l ih =>
                intro h
                obtain ⟨ns, hns⟩ := ih (fun m hm => h m (List.mem_cons_of_mem _ hm))
                have hn := h n List.mem_cons_self
                unfold mapSliceErr
                cases n with
                | unset => exact absurd rfl hn
                | _ => rw [hns]; exact ⟨_, rfl⟩
            refine this _ (fun n hn hun => ?_)
            obtain ⟨sub, h1, h2⟩ := (mem_succs hs (k2 a b rfl)).1 hn
            obtain ⟨sub', h3, h4⟩ := hs.subject_proper h1
            cases h3
            rw [← h2, hun] at h4
            exact h4
        obtain ⟨ns, hns⟩ := hns
        refine .inl ⟨.or .unknown (ns.map (fun n => .leaf .unknown n (reasonBuilder r))), by unfold pBuild; rw [hns]; rfl, fun m hm => ?_⟩
        rw [mentions, mem_mentionsList] at hm
        obtain ⟨t, ht, hm⟩ := hm
        obtain ⟨n, hn, rfl⟩ := List.mem_map.1 ht
        simp only [mentions, List.mem_singleton] at hm
        subst hm
        rcases (mem_ruleNodes hs k1 k2 hns m).1 hn with ⟨rfl, sub, hpr, rfl⟩ | ⟨c, rfl, rfl⟩ | ⟨a, b, sub, rfl, hpr, rfl⟩
        · exact .step hy (.this hde hrl hpr)
        · exact .step hy (.cu hde hrl)
        · have hpt : ∃ o, pointsTo sub = some o := by
            obtain ⟨sub', h3, h4⟩ := hs.subject_proper hpr
            cases h3
            cases sub with
            | unset => exact h4.elim
            | entity o => exact ⟨o, rfl⟩
            | entitySet o rel => cases o with | none => exact h4.elim | some o => exact ⟨o, rfl⟩
            | resourceSet n => exact absurd hpr (hw y e a b n hy hde hrl)
          obtain ⟨o, ho⟩ := hpt
          rw [ho]
          exact .step hy (.arrow hde hrl hpr ho)
      | op l o r ihl ihr =>
        intro hsub hnn
        unfold pBuild
        rcases ihl (fun r h => hsub r (by simp [leaves, h])) hnn.1 with ⟨a, ha, hta⟩ | ⟨hwh, er, ha⟩
        · rcases ihr (fun r h => hsub r (by simp [leaves, h])) hnn.2 with ⟨b, hb, htb⟩ | ⟨hwh, er, hb⟩
          · simp only [ha, hb, Res.bind_ok]
            cases o with
            | unknown => exact .inr ⟨fun h => h.1 rfl, _, rfl⟩
            | _ =>
              refine .inl ⟨_, rfl, fun m hm => ?_⟩
              simp only [mentions, mentionsList, List.append_nil, List.mem_append] at hm
              exact hm.elim (hta m) (htb m)
          · simp only [ha, hb, Res.bind_ok]
            exact .inr ⟨fun h => hwh h.2.2, er, rfl⟩
        · simp only [ha]
          exact .inr ⟨fun h => hwh h.2.1, er, rfl⟩
    rw [hbe]
    rcases key e (fun _ h => h) hnn with h | ⟨h4, h5⟩
    · exact .inl h
    · refine .inr ⟨?_, h5⟩
      rintro ⟨e', hd', hw'⟩
      obtain rfl := DefinedBy.unique hv.1 hde hd'
      exact h4 hw'

/-- Outcome of a search: the bound, a tree of reachable nodes, or an error. -/
theorem search_outcome (hs : WF env s) (hp : policyAt s pid = some rec) (hk : KeysClear env.U env.H rec.policy (Present s pid) x)
    (hw : TuplesetsConcrete env.U rec.policy (Present s pid) x) {goal : Option RelationNode} (hg : GoalOK goal) {E : Prop}
    (hE : ∀ y : USet, Reaches env.U rec.policy (Present s pid) x y.node → (¬ ∃ e, DefinedBy env.U rec.policy y e ∧ Whole e) → E) (fuel : Nat) :
    pSearch env rec.policy s fuel (some x.node) goal = .fuel ∨
    (∃ t, pSearch env rec.policy s fuel (some x.node) goal = .ok t ∧ ∀ m ∈ mentions t, Reaches env.U rec.policy (Present s pid) x m) ∨
    (E ∧ ∃ e, pSearch env rec.policy s fuel (some x.node) goal = .err e) := by
  have := pPath_outcome (H := env.H) (build := bld env rec.policy s) (goal := goal) (E := E)
    (P := Reaches env.U rec.policy (Present s pid) x) (fun n hn => proper_known (Reaches_proper hs hn) hg)
    (fun n hn ht => by
      obtain ⟨o, rel, rfl⟩ := isTerminal_false ht
      cases o with
      | none => exact (Reaches_proper hs hn).elim
      | some o => exact (build_outcome hs hp hk hw (y := ⟨o, rel⟩) hn).imp id (fun h => ⟨hE ⟨o, rel⟩ hn h.1, h.2⟩)) fuel x.node "Request" [] .start
  have hsearch : pSearch env rec.policy s fuel (some x.node) goal =
      (pPath env.H (bld env rec.policy s) goal fuel x.node "Request" [] >>= fun p => pure p.1) := by
    rcases goal with _ | g
    · rfl
    · cases g with
      | entity _ => rfl
      | _ => exact hg.elim
  rw [hsearch]
  rcases this with h | ⟨q, h, hm⟩ | ⟨hE, e, h⟩ <;> rw [h]
  · exact .inl rfl
  · exact .inr (.inl ⟨_, rfl, hm⟩)
  · exact .inr (.inr ⟨hE, e, rfl⟩)

theorem proper_pretty {n : RelationNode} (h : Proper n) : ∃ str, n.prettyString = .ok str := by
  cases n with
  | unset => exact h.elim
  | entitySet o rel => cases o with | none => exact h.elim | some o => exact ⟨_, rfl⟩
  | entity o => cases o with | none => exact h.elim | some o => exact ⟨_, rfl⟩
  | wildcard r => exact ⟨_, rfl⟩

mutual
theorem dotTree_ok (parent : DotId) (t : GoalTree) (c : Nat) (h : ∀ m ∈ mentions t, Proper m) : ∃ r, dotTree parent t c = .ok r := by
  match t with
  | .leaf r n reason =>
    obtain ⟨str, hstr⟩ := proper_pretty (h n (by simp [mentions]))
    rw [dotTree, hstr]
    exact ⟨_, rfl⟩
  | .path r n reason child =>
    obtain ⟨str, hstr⟩ := proper_pretty (h n (by simp [mentions]))
    obtain ⟨q, hq⟩ := dotTree_ok (.num c) child (c + 1) (fun m hm => h m (by simp [mentions, hm]))
    rw [dotTree, hstr, Res.bind_ok, hq]
    exact ⟨_, rfl⟩
  | .or r ps =>
    obtain ⟨q, hq⟩ := dotList_ok (.num c) ps (c + 1) (by simpa [mentions] using h)
    rw [dotTree, hq]
    exact ⟨_, rfl⟩
  | .and r ps =>
    obtain ⟨q, hq⟩ := dotList_ok (.num c) ps (c + 1) (by simpa [mentions] using h)
    rw [dotTree, hq]
    exact ⟨_, rfl⟩
  | .diff r a b =>
    obtain ⟨q, hq⟩ := dotTree_ok (.num c) a (c + 1) (fun m hm => h m (by simp [mentions, hm]))
    obtain ⟨q', hq'⟩ := dotTree_ok (.num c) b q.2 (fun m hm => h m (by simp [mentions, hm]))
    rw [dotTree, hq, Res.bind_ok]
    dsimp only
    rw [hq']
    exact ⟨_, rfl⟩
theorem dotList_ok (parent : DotId) (ts : List GoalTree) (c : Nat) (h : ∀ m ∈ mentionsList ts, Proper m) : ∃ r, dotList parent ts c = .ok r := by
  match ts with
  | [] => rw [dotList]; exact ⟨_, rfl⟩
  | t :: ts =>
    obtain ⟨q, hq⟩ := dotTree_ok parent t c (fun m hm => h m (by simp [mentionsList, hm]))
    obtain ⟨q', hq'⟩ := dotList_ok parent ts q.2 (fun m hm => h m (by simp [mentionsList, hm]))
    rw [dotList, hq, Res.bind_ok]
    dsimp only
    rw [hq']
    exact ⟨_, rfl⟩
end

theorem serialize_ne_panic {f : ExplainFormat} {t : GoalTree} (h : ∀ m ∈ mentions t, Proper m) : serialize f t ≠ .panic := by
  cases f with
  | spew => nofun
  | json =>
    intro h
    simp only [serialize, jsonSerialize] at h
    split at h <;> cases h
  | dot =>
    obtain ⟨q, hq⟩ := dotTree_ok .root t 0 h
    simp only [serialize, dotSerialize, hq, Res.bind_ok]
    nofun
  | unknown => nofun

theorem bind_ne_panic {α β : Type} {r : Res α} {k : α → Res β} (h : r ≠ .panic) (hk : ∀ a, k a ≠ .panic) : (r >>= k) ≠ .panic := by
  cases r with
  | ok a => exact hk a
  | panic => exact absurd rfl h
  | _ => nofun

/-- Arrow `parent->owner`; users have no relation owner. -/
def arrowRels : List Relation := [rel "parent" "_this", rel "owner" "_this", rel "viewer" "owner + parent->owner"]

/-- doc:1#parent@doc:2, doc:2#owner@user:u -/
def arrowGood : List Relationship := [⟨some doc1, "parent", some (.entity ⟨"doc", "2"⟩)⟩, ⟨some ⟨"doc", "2"⟩, "owner", some (.entity usr)⟩]

/-- Whether every call was answered. -/
def allAnswered (rs : List (Res Answer)) : Bool := rs.all (fun r => match r with | .ok _ => true | _ => false)

def isPanic {α : Type} : Res α → Bool
  | .panic => true
  | _ => false

theorem eq_panic {α : Type} {r : Res α} (h : isPanic r = true) : r = .panic := by
  cases r <;> simp [isPanic] at h; rfl

/-- C14 is violated by the graph service: a missing access request, an access request without object and an Expand without root panic on every store that has the policy; and after an accepted policy
and an accepted relationship with a wildcard in a tupleset, a complete Check panics. -/
theorem C14_graph_violated :
    (∀ (env : Env) (s : Store) (pid : String) (rec : PolicyRecord) (fuel : Nat), policyAt s pid = some rec →
      (serve env (.check fuel pid none) s).1 = .panic ∧
      (serve env (.check (fuel + 1) pid (some ⟨none, "r", some usr⟩)) s).1 = .panic ∧
      (serve env (.expand fuel pid none .spew) s).1 = .panic) ∧
    allAnswered (runCalls gEnv (setup arrowRels [⟨some doc1, "parent", some (.resourceSet "user")⟩]) Store.empty).1 = true ∧
    (serve gEnv (.check 10 "p" (ask ⟨doc1, "viewer"⟩ usr)) (gStore gEnv arrowRels [⟨some doc1, "parent", some (.resourceSet "user")⟩])).1 = .panic := by
  refine ⟨fun env s pid rec fuel hp => ⟨?_, ?_, ?_⟩, by decide +kernel, eq_panic (by decide +kernel)⟩
  · rw [show serve env (.check fuel pid none) s = _ from check_yields' env fuel pid none s, policyRes, hp]
    rfl
  · rw [show serve env (.check (fuel + 1) pid (some ⟨none, "r", some usr⟩)) s = _ from check_yields' env (fuel + 1) pid _ s, policyRes, hp]
    rfl
  · rw [show serve env (.expand fuel pid none .spew) s = _ from expand_yields' env fuel pid none .spew s, policyRes, hp]
    rfl

/-- C14 for the graph service: complete requests to Check, ExplainCheck and Expand never panic, when no wildcard is stored in a tupleset the request
consults.  Missing: incomplete requests, wildcards in tuplesets (`C14_graph_violated`), storage key collisions. -/
theorem C14_graph_partial (hs : WF env s) (hp : policyAt s pid = some rec) (hk : KeysClear env.U env.H rec.policy (Present s pid) x)
    (hw : TuplesetsConcrete env.U rec.policy (Present s pid) x) (fuel : Nat) (f : ExplainFormat) :
    (serve env (.check fuel pid (ask x u)) s).1 ≠ .panic ∧ (serve env (.explainCheck fuel pid (ask x u) f) s).1 ≠ .panic ∧
    (serve env (.expand fuel pid (some x.node) f) s).1 ≠ .panic := by
  have h1 := search_outcome hs hp hk hw (goal := userGoal u) trivial (E := True) (fun _ _ _ => trivial) fuel
  have h2 := search_outcome hs hp hk hw (goal := none) trivial (E := True) (fun _ _ _ => trivial) fuel
  refine ⟨?_, ?_, ?_⟩
  · rw [serve_check hp]
    rcases h1 with h | ⟨t, h, _⟩ | ⟨_, e, h⟩ <;> rw [h] <;> nofun
  · rw [serve_explainCheck hp]
    cases f with
    | unknown => nofun
    | _ =>
      simp only [serializerFactory, Res.bind_ok]
      rcases h1 with h | ⟨t, h, hm⟩ | ⟨_, e, h⟩ <;> rw [h]
      · nofun
      · simp only [Res.bind_ok]
        exact bind_ne_panic (serialize_ne_panic (fun m h => Reaches_proper hs (hm m h))) (fun _ => nofun)
      · nofun
  · rw [serve_expand hp]
    cases f with
    | unknown => nofun
    | _ =>
      simp only [serializerFactory, Res.bind_ok]
      rcases h2 with h | ⟨t, h, hm⟩ | ⟨_, e, h⟩ <;> rw [h]
      · nofun
      · simp only [Res.bind_ok]
        exact bind_ne_panic (serialize_ne_panic (fun m h => Reaches_proper hs (hm m h))) (fun _ => nofun)
      · nofun

/-- C49 is false.  Each policy is accepted, each stored relationship was accepted, and the relation asked about is declared; yet Check answers with an error when
an arrow meets an object whose resource lacks the relation, and when the expression is a tree with an unset node; and it panics (`C14_graph_violated`) on a wildcard in a
tupleset. -/
theorem C49_errors_violated :
    (allAnswered (runCalls gEnv (setup arrowRels [⟨some doc1, "parent", some (.entity usr)⟩]) Store.empty).1 = true ∧
      HasRelation (gPolicy arrowRels) "doc" "viewer" ∧
      (serve gEnv (.check 10 "p" (ask ⟨doc1, "viewer"⟩ usr)) (gStore gEnv arrowRels [⟨some doc1, "parent", some (.entity usr)⟩])).1 = .err .relationNotFound) ∧
    (allAnswered (runCalls gEnv (setup [⟨"a", "", some (.tree .unset), some .universalSet⟩] []) Store.empty).1 = true ∧
      HasRelation (gPolicy [⟨"a", "", some (.tree .unset), some .universalSet⟩]) "doc" "a" ∧
      (serve gEnv (.check 10 "p" (ask ⟨doc1, "a"⟩ usr)) (gStore gEnv [⟨"a", "", some (.tree .unset), some .universalSet⟩] [])).1 = .err .invalidVariant) := by
  refine ⟨⟨by decide +kernel, ?_, errOf_some (by decide +kernel)⟩, ⟨by decide +kernel, ?_, errOf_some (by decide +kernel)⟩⟩
  · exact ⟨rel "viewer" "owner + parent->owner", _, by simp [gPolicy]; exact .inr (.inr rfl), rfl, by simp [arrowRels], rfl⟩
  · exact ⟨⟨"a", "", some (.tree .unset), some .universalSet⟩, _, by simp [gPolicy]; exact .inr (.inr rfl), rfl, by simp, rfl⟩

/-- C49: Check on a declared relation answers, when arrow targets are declared, expressions are whole, stored relationships are admitted by the policy and
no wildcard is stored in a tupleset.  Missing: the cases of `C49_errors_violated`, and storage key collisions. -/
theorem C49_answers_partial (hs : WF env s) (hp : policyAt s pid = some rec) (hk : KeysClear env.U env.H rec.policy (Present s pid) x)
    (hx : HasRelation rec.policy x.object.resource x.relation) (harr : ArrowsOK env.U.isIdent whiteSpace rec.policy)
    (hwhole : ∀ y e, DefinedBy env.U rec.policy y e → Whole e) (hadm : ∀ r, Present s pid r → Admissible rec.policy r)
    (hw : TuplesetsConcrete env.U rec.policy (Present s pid) x) : ∃ n b, ∀ fuel, n ≤ fuel → Checks env s fuel pid x u b := by
  have hv := hs.policy_valid hp
  have hdef : ∀ z : USet, HasRelation rec.policy z.object.resource z.relation → ∃ e, DefinedBy env.U rec.policy z e ∧ ∀ r ∈ leaves e, RuleOK rec.policy z.object.resource r := by
    rintro z ⟨d, r, hr, h1, h2, h3⟩
    obtain ⟨e, he, _, hok⟩ := hv.2.2 r hr d h2
    exact ⟨e, ⟨d, ⟨r, hr, h1, h2, h3⟩, he⟩, h1 ▸ hok⟩
  have hdecl : ∀ n, Reaches env.U rec.policy (Present s pid) x n → ∀ z : USet, n = z.node → HasRelation rec.policy z.object.resource z.relation := by
    intro n hn
    induction hn with
    | start => rintro ⟨o, rel⟩ hz; cases x; cases hz; exact hx
    | @step y n hy hrw ih =>
      rintro ⟨o, rel⟩ hz
      have hyd := ih y rfl
      obtain ⟨e, hde, hok⟩ := hdef y hyd
      cases hrw with
      | @this t sub hd hl hr =>
        obtain ⟨⟨_, sub', _, hsub, _, _, hkn⟩, _⟩ := hadm _ hr
        cases hsub
        cases sub with
        | entitySet o' rel' => cases hz; exact hkn
        | entity _ => cases hz
        | resourceSet _ => cases hz
        | unset => cases hz
      | cu hd hl =>
        cases hz
        obtain rfl := DefinedBy.unique hv.1 hde hd
        exact hok _ hl
      | @arrow t a c sub e' hd hl hr hpt =>
        cases hz
        obtain rfl := DefinedBy.unique hv.1 hde hd
        obtain ⟨⟨_, sub', _, hsub, _, _, hkn⟩, o', sub'', d', sr, ho', hsub', hdec', hsr, hperm⟩ := hadm _ hr
        cases hsub
        cases hsub'
        cases ho'
        obtain ⟨d, ⟨r, hr1, hr2, hr3, hr4⟩, hden⟩ := hde
        refine harr r hr1 d hr3 _ hden a rel hl d' (by rw [hr2]; exact hdec') o.resource ?_
        have hres : HasResource rec.policy o.resource := by
          cases sub with
          | entity e => cases hpt; exact hkn
          | entitySet o rel =>
            cases hpt
            obtain ⟨_, r, h1, h2, _⟩ := hkn
            exact ⟨r, h1, h2⟩
          | resourceSet _ => cases hpt
          | unset => cases hpt
        cases hperm with
        | universal => exact .inl ⟨hsr, hres⟩
        | entity hm => cases hpt; exact .inr ⟨_, hsr, .inl hm⟩
        | entitySet hm => cases hpt; exact .inr ⟨_, hsr, .inr ⟨_, hm⟩⟩
        | all hm => cases hpt
  have hst := fun fuel hf => pSearch_stable env rec.policy s (some x.node) (userGoal u) fuel hf
  rcases search_outcome hs hp hk hw (goal := userGoal u) trivial (E := False)
    (fun y hy hno => by
      obtain ⟨e, hde, _⟩ := hdef y (hdecl _ hy y rfl)
      exact hno ⟨e, hde, hwhole _ _ hde⟩) (searchBound env rec.policy s (some x.node)) with h | ⟨t, h, _⟩ | ⟨hE, _⟩
  · exact absurd h (hst _ (Nat.le_refl _)).2
  · refine ⟨searchBound env rec.policy s (some x.node), decide (t.result = .success), fun fuel hf => ?_⟩
    show (serve env (.check fuel pid (ask x u)) s).1 = _
    rw [serve_check hp, (hst fuel hf).1, h]
    rfl
  · exact hE.elim

/-- `arrowRels` with a restriction: parents are documents. -/
def parentRels : List Relation :=
  [⟨"parent", "", some (.expr "_this"), some (.restrictionSet [.entity "doc"])⟩, rel "owner" "_this", rel "viewer" "owner + parent->owner"]

def parentStore : Store := gStore gEnv parentRels arrowGood

theorem parentStore_rels : relationships parentStore "p" = arrowGood.reverse := by decide +kernel

theorem parentStore_pol : policyAt parentStore "p" = some ⟨gPolicy parentRels, [], 0⟩ := by decide +kernel

theorem parent_names : NamesUnique (gPolicy parentRels) := by simp [NamesUnique, gPolicy, parentRels, rel]

theorem parent_exprs {r : Resource} (hr : r ∈ (gPolicy parentRels).resources) {d : Relation} (hd : d ∈ r.relations) {t : ExprTree}
    (h : Denotes U0.isIdent whiteSpace d t) :
    (t = .rule .this) ∨ (r.name = "doc" ∧ t = .op (.rule (.cu "owner")) .union (.rule (.ttu "parent" "owner"))) := by
  have h := (getExpressionTree_ok_iff U0 d t).2 h
  simp only [gPolicy, List.mem_cons, List.not_mem_nil, or_false] at hr
  rcases hr with rfl | rfl | rfl
  · cases hd
  · simp only [List.mem_cons, List.not_mem_nil, or_false] at hd
    subst hd
    have h' : getExpressionTree U0 (rel "member" "_this") = .ok (.rule .this) := by decide +kernel
    rw [h'] at h
    cases h
    exact .inl rfl
  · simp only [parentRels, List.mem_cons, List.not_mem_nil, or_false] at hd
    rcases hd with rfl | rfl | rfl
    · have h' : getExpressionTree U0 ⟨"parent", "", some (.expr "_this"), some (.restrictionSet [.entity "doc"])⟩ = .ok (.rule .this) := by decide +kernel
      rw [h'] at h
      cases h
      exact .inl rfl
    · have h' : getExpressionTree U0 (rel "owner" "_this") = .ok (.rule .this) := by decide +kernel
      rw [h'] at h
      cases h
      exact .inl rfl
    · have h' : getExpressionTree U0 (rel "viewer" "owner + parent->owner") = .ok (.op (.rule (.cu "owner")) .union (.rule (.ttu "parent" "owner"))) := by
        decide +kernel
      rw [h'] at h
      cases h
      exact .inr ⟨rfl, rfl⟩

/-- The hypotheses of `C49_answers_partial` and `C14_graph_partial` hold for the arrow example. -/
example : KeysClear U0 Hx (gPolicy parentRels) (Present parentStore "p") ⟨doc1, "viewer"⟩ ∧
    HasRelation (gPolicy parentRels) "doc" "viewer" ∧ ArrowsOK U0.isIdent whiteSpace (gPolicy parentRels) ∧
    (∀ y e, DefinedBy U0 (gPolicy parentRels) y e → Whole e) ∧
    (∀ r, Present parentStore "p" r → Admissible (gPolicy parentRels) r) ∧
    TuplesetsConcrete U0 (gPolicy parentRels) (Present parentStore "p") ⟨doc1, "viewer"⟩ ∧
    Checks gEnv parentStore 10 "p" ⟨doc1, "viewer"⟩ usr true := by
  have hall : ∀ {r}, Present parentStore "p" r → r ∈ arrowGood := by
    intro r hr
    unfold Present at hr
    rw [parentStore_rels] at hr
    exact List.mem_reverse.1 hr
  refine ⟨(clear_of (env := gEnv) (gStore_wf _ _ _) parentStore_pol (x := ⟨doc1, "viewer"⟩)
    (L := [.entitySet (some doc1) "viewer", .entitySet (some doc1) "owner", .entitySet (some ⟨"doc", "2"⟩) "owner", .entity (some usr)])
    (by simp [USet.node]) (by decide +kernel)).1,
    ⟨rel "viewer" "owner + parent->owner", _, by simp [gPolicy]; exact .inr (.inr rfl), rfl, by simp [parentRels], rfl⟩, ?_, ?_, ?_, ?_, checks_of (by decide +kernel)⟩
  · intro r hr d hd t ht a b hl d' hd' res hm
    rcases parent_exprs hr hd ht with rfl | ⟨hdoc, rfl⟩
    · simp [leaves] at hl
    · simp only [leaves, List.mem_append, List.mem_singleton, reduceCtorEq, false_or, Rule.ttu.injEq] at hl
      obtain ⟨rfl, rfl⟩ := hl
      rw [hdoc] at hd'
      have hres : res = "doc" := by
        have h1 : (newLut (gPolicy parentRels)).getRelation "doc" "parent" = some d' :=
          ((C11_lookup_exact _ parent_names _ _).1 d').2 hd'
        have h2 : (newLut (gPolicy parentRels)).getRelation "doc" "parent" =
          some ⟨"parent", "", some (.expr "_this"), some (.restrictionSet [.entity "doc"])⟩ := by decide +kernel
        rw [h2] at h1
        cases h1
        simpa [MayPointTo] using hm
      subst hres
      exact ⟨rel "owner" "_this", _, by simp [gPolicy]; exact .inr (.inr rfl), rfl, by simp [parentRels], rfl⟩
  · rintro y e ⟨d, ⟨r, hr, _, hd, _⟩, hden⟩
    rcases parent_exprs hr hd hden with rfl | ⟨_, rfl⟩
    · trivial
    · exact ⟨nofun, trivial, trivial⟩
  · intro r hr
    have hr := hall hr
    refine (C12_admission_exact _ parent_names r).1 ?_
    simp only [arrowGood, List.mem_cons, List.not_mem_nil, or_false] at hr
    rcases hr with rfl | rfl <;> decide +kernel
  · intro y t a b n _ _ _ hr
    have hr := hall hr
    simp [arrowGood] at hr

end

end Zanzi
