import Verif.Lemmas.SearchSem
import Verif.Lemmas.Frame

/-
Graph requests as searches.
-/

namespace Zanzi

open Spec Prog

/-- The node of a user. -/
def userGoal (u : Entity) : Option RelationNode := some (.entity (some u))

section
variable {env : Env} {s : Store} {pid : String} {rec : PolicyRecord} {x : USet} {u : Entity}

theorem getPolicy_yields (hp : policyAt s pid = some rec) : (GraphService.getPolicy pid).Yields s (.ok rec) := by
  rw [policyAt_eq] at hp
  unfold GraphService.getPolicy Prog.Yields
  rw [run_bind]
  have : (Repo.getPolicy pid).run s = (.ok (kvGet s.policies pid), s) := rfl
  rw [this, andThen_ok, hp]
  rfl

theorem checkTree_yields (fuel : Nat) (pol : Policy) (x : USet) (u : Entity) (s : Store) :
    (GraphService.checkTree env fuel pol (ask x u)).Yields s (pSearch env pol s fuel (some x.node) (userGoal u)) :=
  searchGoal_yields env fuel pol (some x.node) (userGoal u) s

/-- A check is the search. -/
theorem serve_check (hp : policyAt s pid = some rec) (fuel : Nat) (x : USet) (u : Entity) :
    serve env (.check fuel pid (ask x u)) s =
      ((pSearch env rec.policy s fuel (some x.node) (userGoal u)) >>= fun t => .ok (.authorized (decide (t.result = .success))), s) := by
  have h : ((Call.check fuel pid (ask x u)).prog env).Yields s ((((.ok rec : Res PolicyRecord) >>= fun rec =>
      pSearch env rec.policy s fuel (some x.node) (userGoal u) >>= fun t => Pure.pure (decide (t.result = .success)))) >>= fun b => Pure.pure (.authorized b)) :=
    ((getPolicy_yields hp).bind (fun rec => (checkTree_yields fuel rec.policy x u s).bind (fun _ => .pure _ _))).bind (fun _ => .pure _ _)
  refine Eq.trans h ?_
  rw [Res.bind_ok]
  cases pSearch env rec.policy s fuel (some x.node) (userGoal u) <;> rfl

/-- A check that answers comes from a completed search. -/
theorem check_ev (hp : policyAt s pid = some rec) {fuel : Nat} {b : Bool} (h : Checks env s fuel pid x u b) :
    ∃ t seen, pSearch env rec.policy s fuel (some x.node) (userGoal u) = .ok t ∧
      Ev env.H (Builds (bld env rec.policy s)) (userGoal u) (.path x.node "Request") [] (.tree t) seen ∧ b = decide (t.result = .success) := by
  have h1 : (serve env (.check fuel pid (ask x u)) s).1 = _ := h
  rw [serve_check hp] at h1
  obtain ⟨t, h2, h3⟩ := Res.bind_eq_ok.1 h1
  cases h3
  obtain ⟨o, seen, h4, h5⟩ := pSearch_ev h2
  cases h4
  exact ⟨t, seen, h2, h5, rfl⟩

theorem serve_explainCheck (hp : policyAt s pid = some rec) (fuel : Nat) (x : USet) (u : Entity) (f : ExplainFormat) :
    serve env (.explainCheck fuel pid (ask x u) f) s =
      ((serializerFactory f >>= fun _ => pSearch env rec.policy s fuel (some x.node) (userGoal u) >>= fun t =>
        serialize f t >>= fun o => .ok (.explained o (decide (t.result = .success)) .spew)), s) := by
  have h : ((Call.explainCheck fuel pid (ask x u) f).prog env).Yields s ((serializerFactory f >>= fun _ => (.ok rec : Res PolicyRecord) >>= fun rec =>
      pSearch env rec.policy s fuel (some x.node) (userGoal u) >>= fun t => serialize f t >>= fun o =>
        Pure.pure (o, decide (t.result = .success), ExplainFormat.spew)) >>= fun x => Pure.pure (Answer.explained x.1 x.2.1 x.2.2)) :=
    ((Prog.Yields.lift _ _).bind (fun _ => (getPolicy_yields hp).bind (fun rec => (checkTree_yields fuel rec.policy x u s).bind (fun _ =>
      (Prog.Yields.lift _ _).bind (fun _ => .pure _ _))))).bind (fun _ => .pure _ _)
  refine Eq.trans h ?_
  simp only [Res.bind_ok]
  cases serializerFactory f with
  | ok a =>
    simp only [Res.bind_ok]
    cases pSearch env rec.policy s fuel (some x.node) (userGoal u) with
    | ok t => simp only [Res.bind_ok]; cases serialize f t <;> rfl
    | _ => rfl
  | _ => rfl

/-- An explanation comes from a completed search. -/
theorem explain_ev (hp : policyAt s pid = some rec) {fuel : Nat} {t : GoalTree} {b : Bool} (h : Explains env s fuel pid x u t b) :
    ∃ seen, pSearch env rec.policy s fuel (some x.node) (userGoal u) = .ok t ∧
      Ev env.H (Builds (bld env rec.policy s)) (userGoal u) (.path x.node "Request") [] (.tree t) seen ∧ b = decide (t.result = .success) := by
  have h1 : (serve env (.explainCheck fuel pid (ask x u) .spew) s).1 = _ := h
  rw [serve_explainCheck hp] at h1
  obtain ⟨_, h0, h1⟩ := Res.bind_eq_ok.1 h1
  obtain ⟨t', h2, h3⟩ := Res.bind_eq_ok.1 h1
  cases h3
  obtain ⟨o, seen, h4, h5⟩ := pSearch_ev h2
  cases h4
  exact ⟨seen, h2, h5, rfl⟩

theorem serve_expand (hp : policyAt s pid = some rec) (fuel : Nat) (root : Option RelationNode) (f : ExplainFormat) :
    serve env (.expand fuel pid root f) s =
      ((serializerFactory f >>= fun _ => pSearch env rec.policy s fuel root none >>= fun t =>
        serialize f t >>= fun o => .ok (.expanded o f)), s) := by
  have h : ((Call.expand fuel pid root f).prog env).Yields s ((serializerFactory f >>= fun _ => (.ok rec : Res PolicyRecord) >>= fun rec =>
      pSearch env rec.policy s fuel root none >>= fun t => serialize f t >>= fun o =>
        Pure.pure (o, f)) >>= fun x => Pure.pure (Answer.expanded x.1 x.2)) :=
    ((Prog.Yields.lift _ _).bind (fun _ => (getPolicy_yields hp).bind (fun rec => (searchGoal_yields env fuel rec.policy root none s).bind (fun _ =>
      (Prog.Yields.lift _ _).bind (fun _ => .pure _ _))))).bind (fun _ => .pure _ _)
  refine Eq.trans h ?_
  simp only [Res.bind_ok]
  cases serializerFactory f with
  | ok a =>
    simp only [Res.bind_ok]
    cases pSearch env rec.policy s fuel root none with
    | ok t => simp only [Res.bind_ok]; cases serialize f t <;> rfl
    | _ => rfl
  | _ => rfl

/-! ### What the search expands -/

theorem WF.policy_id (hs : WF env s) (hp : policyAt s pid = some rec) : rec.policy.id = pid := by
  rw [policyAt_eq] at hp
  exact hs.polKey _ _ (kvGet_mem hp)

theorem WF.policy_valid (hs : WF env s) (hp : policyAt s pid = some rec) : ValidPolicy env.U rec.policy := by
  rw [policyAt_eq] at hp
  exact (C09_validation_exact env.U rec.policy).1 (hs.polValid _ _ (kvGet_mem hp))

theorem isTerminal_false {n : RelationNode} (h : n.isTerminal = false) : ∃ o rel, n = .entitySet o rel := by
  cases n with
  | entitySet o rel => exact ⟨o, rel, rfl⟩
  | _ => cases h

/-- Expanding a reachable userset. -/
theorem expand_facts (hs : WF env s) (hp : policyAt s pid = some rec) (hk : KeysClear env.U env.H rec.policy (Present s pid) x)
    {n : RelationNode} {t : GoalTree} (hr : Reaches env.U rec.policy (Present s pid) x n) (ht : n.isTerminal = false)
    (hb : bld env rec.policy s n = .ok t) :
    ∃ y e, n = y.node ∧ DefinedBy env.U rec.policy y e ∧ pBuild env.H s pid y e = .ok t ∧ KeyClear env.H (Present s pid) y ∧
      (∀ a b, .ttu a b ∈ leaves e → KeyClear env.H (Present s pid) ⟨y.object, a⟩) ∧ t.Formed ∧
      (∀ m ∈ t.tops, Ok env.H (Reaches env.U rec.policy (Present s pid) x) m) := by
  obtain ⟨o, rel, rfl⟩ := isTerminal_false ht
  cases o with
  | none => cases hb
  | some o =>
    have hid := hs.policy_id hp
    obtain ⟨e, h1, h2⟩ := bld_ok (x := ⟨o, rel⟩) (hs.policy_valid hp).1 hb
    rw [hid] at h2
    have k1 : KeyClear env.H (Present s pid) ⟨o, rel⟩ := hk ⟨o, rel⟩ ⟨o, rel⟩ hr (.inl rfl)
    have k2 : ∀ a b, .ttu a b ∈ leaves e → KeyClear env.H (Present s pid) ⟨o, a⟩ :=
      fun a b hab => hk ⟨o, rel⟩ ⟨o, a⟩ hr (.inr ⟨e, a, b, h1, hab, rfl⟩)
    refine ⟨⟨o, rel⟩, e, rfl, h1, h2, k1, k2, (pBuild_formed h2).1, fun m hm id hid => ?_⟩
    rcases pBuild_tops hs h1 k1 (fun _ h => h) k2 h2 m hm with hw | ⟨c, rfl⟩
    · exact .step (y := ⟨o, rel⟩) hr hw
    · cases hid

/-- The goal is found exactly at the nodes that contain the user. -/
theorem goalFound_user {V : USet → Prop} {n : RelationNode} {b : Bool} (h : goalFound n (userGoal u) = .ok b)
    (ht : (b || n.isTerminal) = true) : NodeIn V u n ↔ b = true := by
  cases n with
  | unset => cases h; exact ⟨False.elim, nofun⟩
  | entitySet o rel => cases h; cases ht
  | wildcard r =>
    cases h
    simp only [NodeIn, decide_eq_true_eq]
    exact eq_comm
  | entity o =>
    cases o with
    | none => cases h
    | some e =>
      cases h
      obtain ⟨e1, e2⟩ := e
      obtain ⟨u1, u2⟩ := u
      simp only [NodeIn, Entity.mk.injEq, Bool.and_eq_true, decide_eq_true_eq]
      exact ⟨fun h => ⟨h.1.symm, h.2.symm⟩, fun h => ⟨h.1.symm, h.2.symm⟩⟩

end

end Zanzi
