import Verif.Lemmas.CheckSem
import Verif.Lemmas.Sched

/-
Requests among others: what a request can answer when each of its storage calls sees some store satisfying an invariant.
-/

namespace Zanzi

open Spec

/-- The program can answer `r` when every storage call fails or is answered from a store satisfying `I`. -/
inductive Prog.Reads {α : Type} (I : Store → Prop) : Prog α → Res α → Prop
  | done {r : Res α} : Reads I (.done r) r
  | ok {o : Op} {k : Option o.Resp → Prog α} {s : Store} {r : Res α} : I s → Reads I (k (some (o.exec s).1)) r → Reads I (.call o k) r
  | fail {o : Op} {k : Option o.Resp → Prog α} {r : Res α} : Reads I (k none) r → Reads I (.call o k) r

namespace Prog

variable {I : Store → Prop}

theorem Reads.bind_ok {α β : Type} {p : Prog α} {k : α → Prog β} {c : β} (h : (p >>= k).Reads I (.ok c)) :
    ∃ a, p.Reads I (.ok a) ∧ (k a).Reads I (.ok c) := by
  replace h : (p.bind k).Reads I (.ok c) := h
  induction p with
  | done r =>
    cases r with
    | ok a => exact ⟨a, .done, h⟩
    | err e => cases h
    | panic => cases h
    | fuel => cases h
  | call o f ih =>
    cases h with
    | ok hs hr =>
      obtain ⟨a, h1, h2⟩ := ih _ hr
      exact ⟨a, .ok hs h1, h2⟩
    | fail hr =>
      obtain ⟨a, h1, h2⟩ := ih _ hr
      exact ⟨a, .fail h1, h2⟩

theorem Reads.lift {α : Type} {r r' : Res α} (h : (Prog.lift r).Reads I r') : r = r' := by cases h; rfl

theorem Reads.pure {α : Type} {a : α} {r : Res α} (h : (Pure.pure a : Prog α).Reads I r) : r = .ok a := by cases h; rfl

theorem Reads.op_ok {o : Op} {a : o.Resp} (h : (Prog.op o).Reads I (.ok a)) : ∃ s, I s ∧ a = (o.exec s).1 := by
  cases h with
  | @ok _ _ s _ hs hr => cases hr; exact ⟨s, hs, rfl⟩
  | fail hr => cases hr

theorem Reads.map_ok {α : Type} {p : Prog α} {f : α → Answer} {c : Answer} (h : (p >>= fun a => Pure.pure (f a)).Reads I (.ok c)) :
    ∃ a, p.Reads I (.ok a) ∧ c = f a := by
  obtain ⟨a, h1, h2⟩ := h.bind_ok
  exact ⟨a, h1, Res.ok.inj h2.pure⟩

theorem Reads.mono {α : Type} {J : Store → Prop} (hij : ∀ s, I s → J s) {p : Prog α} {r : Res α} (h : p.Reads I r) : p.Reads J r := by
  induction h with
  | done => exact .done
  | ok hs _ ih => exact .ok (hij _ hs) ih
  | fail _ ih => exact .fail ih

/-- Running alone is one way of answering. -/
theorem Reads.of_run {α : Type} {p : Prog α} (hp : p.ReadOnly) {s : Store} (hs : I s) : p.Reads I (p.run s).1 := by
  induction hp with
  | done r => exact .done
  | @call o k ho _ ih =>
    have he : (o.exec s).2 = s := read_exec ho s
    refine .ok hs ?_
    have := ih (some (o.exec s).1)
    have h2 : ((Prog.call o k).run s).1 = ((k (some (o.exec s).1)).run s).1 := by
      show ((k (some (o.exec s).1)).run (o.exec s).2).1 = _
      rw [he]
    rw [h2]
    exact this

/-- When all stores give the answers of `s`, a request answers as if alone, or reports a storage fault. -/
theorem Reads.const {α : Type} {P : Op → Prop} {s : Store} (hP : ∀ o, P o → o.isRead = true ∧ ∀ s', I s' → (o.exec s').1 = (o.exec s).1)
    {p : Prog α} (hp : p.AllOps P) (hf : p.FailStop) {r : Res α} (h : p.Reads I r) : r = (p.run s).1 ∨ r = .err .store := by
  induction h with
  | done => exact .inl rfl
  | @ok o k s' r hs hr ih =>
    cases hp with
    | call ho hk =>
      cases hf with
      | call hn hfk =>
        obtain ⟨h1, h2⟩ := hP _ ho
        have he : (o.exec s).2 = s := read_exec h1 s
        have h3 : ((Prog.call o k).run s).1 = ((k (some (o.exec s).1)).run s).1 := by
          show ((k (some (o.exec s).1)).run (o.exec s).2).1 = _
          rw [he]
        rw [h3, ← h2 _ hs]
        exact ih (hk _) (hfk _)
  | fail hr ih =>
    cases hf with
    | call hn hfk =>
      rw [hn] at hr
      cases hr
      exact .inr rfl

end Prog

namespace Sys.Flight

variable {env : Env} {A : Call → Prop} {x : Sys} {c : Call}

/-- The tracked request is one of the requests of a schedule. -/
theorem path {hist : List Store} {y : Sys} {t : Prog Answer} (h : Flight env A x c hist y t) :
    ∃ ts₁ ts₂, y.threads = ts₁ ++ ts₂ ∧ Path env (fun d => A d ∨ d = c) x ⟨ts₁ ++ t :: ts₂, y.store⟩ := by
  have mono : ∀ {y}, Path env A x y → Path env (fun d => A d ∨ d = c) x y := by
    intro y h
    induction h with
    | refl => exact .refl
    | arrive c hc _ ih => exact .arrive c (.inl hc) ih
    | op _ hs ih => exact .op ih hs
    | leave _ ih => exact .leave ih
    | crash _ ih => exact .crash ih
  induction h with
  | @start y hp => exact ⟨y.threads, [], by simp, .arrive c (.inr rfl) (mono hp)⟩
  | own _ hs ih =>
    obtain ⟨ts₁, ts₂, h1, h2⟩ := ih
    exact ⟨ts₁, ts₂, h1, .op h2 hs⟩
  | arrive c' hc _ ih =>
    obtain ⟨ts₁, ts₂, h1, h2⟩ := ih
    refine ⟨ts₁, ts₂ ++ [c'.prog env], by rw [← List.append_assoc, ← h1], ?_⟩
    have := Path.arrive c' (.inl hc) h2
    simpa using this
  | @op o k hist us₁ us₂ s s' t resp b _ hs ih =>
    obtain ⟨ts₁, ts₂, h1, h2⟩ := ih
    replace h1 : us₁ ++ .call o k :: us₂ = ts₁ ++ ts₂ := h1
    rcases List.append_eq_append_iff.1 h1 with ⟨a, ha, hb⟩ | ⟨a, ha, hb⟩
    · cases a with
      | nil =>
        simp only [List.append_nil, List.nil_append] at ha hb
        subst ha hb
        refine ⟨ts₁, k resp :: us₂, rfl, ?_⟩
        have : Path env (fun d => A d ∨ d = c) x ⟨(ts₁ ++ [t]) ++ .call o k :: us₂, s⟩ := by simpa using h2
        simpa using Path.op this hs
      | cons b a =>
        obtain ⟨rfl, rfl⟩ := List.cons.inj hb
        subst ha
        refine ⟨us₁ ++ k resp :: a, ts₂, by simp, ?_⟩
        have : Path env (fun d => A d ∨ d = c) x ⟨us₁ ++ .call o k :: (a ++ t :: ts₂), s⟩ := by simpa using h2
        simpa using Path.op this hs
    · subst ha hb
      refine ⟨ts₁, a ++ k resp :: us₂, by simp, ?_⟩
      have : Path env (fun d => A d ∨ d = c) x ⟨(ts₁ ++ t :: a) ++ .call o k :: us₂, s⟩ := by simpa using h2
      simpa using Path.op this hs
  | @leave r hist us₁ us₂ s t _ ih =>
    obtain ⟨ts₁, ts₂, h1, h2⟩ := ih
    replace h1 : us₁ ++ .done r :: us₂ = ts₁ ++ ts₂ := h1
    rcases List.append_eq_append_iff.1 h1 with ⟨a, ha, hb⟩ | ⟨a, ha, hb⟩
    · cases a with
      | nil =>
        simp only [List.append_nil, List.nil_append] at ha hb
        subst ha hb
        refine ⟨ts₁, us₂, rfl, ?_⟩
        have : Path env (fun d => A d ∨ d = c) x ⟨(ts₁ ++ [t]) ++ .done r :: us₂, s⟩ := by simpa using h2
        simpa using Path.leave this
      | cons b a =>
        obtain ⟨rfl, rfl⟩ := List.cons.inj hb
        subst ha
        refine ⟨us₁ ++ a, ts₂, by simp, ?_⟩
        have : Path env (fun d => A d ∨ d = c) x ⟨us₁ ++ .done r :: (a ++ t :: ts₂), s⟩ := by simpa using h2
        simpa using Path.leave this
    · subst ha hb
      refine ⟨ts₁, a ++ us₂, by simp, ?_⟩
      have : Path env (fun d => A d ∨ d = c) x ⟨(ts₁ ++ t :: a) ++ .done r :: us₂, s⟩ := by simpa using h2
      simpa using Path.leave this

/-- The current store is in the history, and the history consists of stores of schedules. -/
theorem hist {hist : List Store} {y : Sys} {t : Prog Answer} (h : Flight env A x c hist y t) :
    y.store ∈ hist ∧ ∀ s ∈ hist, ∃ z, Path env (fun d => A d ∨ d = c) x z ∧ z.store = s := by
  induction h with
  | @start y hp =>
    refine ⟨List.mem_singleton.2 rfl, fun s hs => ?_⟩
    rw [List.mem_singleton.1 hs]
    obtain ⟨_, _, _, h⟩ := path (.start (c := c) hp)
    exact ⟨_, h, rfl⟩
  | own hf hs ih =>
    refine ⟨List.mem_cons_self, fun s hmem => ?_⟩
    rcases List.mem_cons.1 hmem with rfl | hmem
    · obtain ⟨_, _, _, h⟩ := path (.own hf hs)
      exact ⟨_, h, rfl⟩
    · exact ih.2 s hmem
  | arrive _ _ _ ih => exact ih
  | op hf hs ih =>
    refine ⟨List.mem_cons_self, fun s hmem => ?_⟩
    rcases List.mem_cons.1 hmem with rfl | hmem
    · obtain ⟨_, _, _, h⟩ := path (.op hf hs)
      exact ⟨_, h, rfl⟩
    · exact ih.2 s hmem
  | leave _ ih => exact ih

/-- A request in flight only learns from the stores passed meanwhile. -/
theorem reads {I : Store → Prop} {hist : List Store} {y : Sys} {t : Prog Answer} (h : Flight env A x c hist y t)
    (hI : ∀ s ∈ hist, I s) {r : Res Answer} (hr : t.Reads I r) : (c.prog env).Reads I r := by
  induction h generalizing r with
  | start => exact hr
  | @own o k hist ts s s' resp b hfl hs ih =>
    apply ih (fun s hs => hI s (List.mem_cons_of_mem _ hs))
    cases hs with
    | ok => exact .ok (hI _ (List.mem_cons_of_mem _ hfl.hist.1)) hr
    | failBefore => exact .fail hr
    | failAfter => exact .fail hr
  | arrive _ _ _ ih => exact ih hI hr
  | op _ _ ih => exact ih (fun s hs => hI s (List.mem_cons_of_mem _ hs)) hr
  | leave _ ih => exact ih hI hr

end Sys.Flight

/-! ### Searches among other requests -/

/-- Trees that can be built for a node. -/
def RBuilds (env : Env) (pol : Policy) (I : Store → Prop) (n : RelationNode) (t : GoalTree) : Prop := (buildTree env pol n).Reads I (.ok t)

section toEv
variable {env : Env} {pol : Policy} {I : Store → Prop} {goal : Option RelationNode} {d : RelationNode → String → List Nat → Prog (GoalTree × List Nat)}

mutual
theorem searchTree_ev (hd : ∀ n r seen t seen', (d n r seen).Reads I (.ok (t, seen')) → Ev env.H (RBuilds env pol I) goal (.path n r) seen (.tree t) seen')
    (t : GoalTree) (seen : List Nat) (t' : GoalTree) (seen' : List Nat) (h : (searchTree d t seen).Reads I (.ok (t', seen'))) :
    Ev env.H (RBuilds env pol I) goal (.tree t) seen (.tree t') seen' := by
  match t with
  | .or _ ps =>
    unfold searchTree at h
    obtain ⟨⟨a, b, c⟩, h1, h2⟩ := h.bind_ok
    cases h2.pure
    exact .or (searchOr_ev hd _ _ _ _ _ h1)
  | .and _ ps =>
    unfold searchTree at h
    obtain ⟨⟨a, b, c⟩, h1, h2⟩ := h.bind_ok
    cases h2.pure
    exact .and (searchAnd_ev hd _ _ _ _ _ h1)
  | .diff _ l r =>
    unfold searchTree at h
    obtain ⟨⟨a, b⟩, h1, h2⟩ := h.bind_ok
    obtain ⟨⟨c, e⟩, h3, h4⟩ := h2.bind_ok
    cases h4.pure
    exact .diff (searchTree_ev hd _ _ _ _ h1) (searchTree_ev hd _ _ _ _ h3)
  | .leaf _ _ _ =>
    unfold searchTree at h
    exact .leaf (hd _ _ _ _ _ h)
  | .path _ _ _ _ =>
    unfold searchTree at h
    exact .inner (hd _ _ _ _ _ h)

theorem searchOr_ev (hd : ∀ n r seen t seen', (d n r seen).Reads I (.ok (t, seen')) → Ev env.H (RBuilds env pol I) goal (.path n r) seen (.tree t) seen')
    (ts : List GoalTree) (seen : List Nat) (ts' : List GoalTree) (b : Bool) (seen' : List Nat) (h : (searchOr d ts seen).Reads I (.ok (ts', b, seen'))) :
    Ev env.H (RBuilds env pol I) goal (.or ts) seen (.list ts' b) seen' := by
  match ts with
  | [] =>
    unfold searchOr at h
    cases h.lift
    exact .orNil
  | t :: ts =>
    unfold searchOr at h
    obtain ⟨⟨a, b⟩, h1, h2⟩ := h.bind_ok
    dsimp only at h2
    split at h2
    · next hr =>
      cases h2.pure
      exact .orStop (searchTree_ev hd _ _ _ _ h1) hr
    · next hr =>
      obtain ⟨⟨c, e, f⟩, h3, h4⟩ := h2.bind_ok
      cases h4.pure
      exact .orGo (searchTree_ev hd _ _ _ _ h1) hr (searchOr_ev hd _ _ _ _ _ h3)

theorem searchAnd_ev (hd : ∀ n r seen t seen', (d n r seen).Reads I (.ok (t, seen')) → Ev env.H (RBuilds env pol I) goal (.path n r) seen (.tree t) seen')
    (ts : List GoalTree) (seen : List Nat) (ts' : List GoalTree) (b : Bool) (seen' : List Nat) (h : (searchAnd d ts seen).Reads I (.ok (ts', b, seen'))) :
    Ev env.H (RBuilds env pol I) goal (.and ts) seen (.list ts' b) seen' := by
  match ts with
  | [] =>
    unfold searchAnd at h
    cases h.lift
    exact .andNil
  | t :: ts =>
    unfold searchAnd at h
    obtain ⟨⟨a, b⟩, h1, h2⟩ := h.bind_ok
    dsimp only at h2
    split at h2
    · next hr =>
      cases h2.pure
      exact .andStop (searchTree_ev hd _ _ _ _ h1) hr
    · next hr =>
      obtain ⟨⟨c, e, f⟩, h3, h4⟩ := h2.bind_ok
      cases h4.pure
      exact .andGo (searchTree_ev hd _ _ _ _ h1) hr (searchAnd_ev hd _ _ _ _ _ h3)
end

theorem searchPath_ev (n : Nat) : ∀ node reason seen t seen', (searchPath env pol goal n node reason seen).Reads I (.ok (t, seen')) →
    Ev env.H (RBuilds env pol I) goal (.path node reason) seen (.tree t) seen' := by
  induction n with
  | zero => intro _ _ _ _ _ h; cases h.lift
  | succ n ih =>
    intro node reason seen t seen' h
    unfold searchPath at h
    obtain ⟨id, h1, h⟩ := h.bind_ok
    split at h
    · next hin =>
      cases h.pure
      exact .repeated h1.lift hin
    · next hout =>
      obtain ⟨b, h2, h⟩ := h.bind_ok
      split at h
      · next hb =>
        cases h.pure
        exact .ended h1.lift hout h2.lift hb
      · next hb =>
        obtain ⟨tr, h3, h⟩ := h.bind_ok
        obtain ⟨⟨tr', seen''⟩, h4, h⟩ := h.bind_ok
        cases h.pure
        exact .expanded h1.lift hout h2.lift (by simpa using hb) h3 (searchTree_ev ih _ _ _ _ h4)

theorem searchGoal_ev {fuel : Nat} {origin : Option RelationNode} {t : GoalTree} (h : (searchGoal env fuel pol origin goal).Reads I (.ok t)) :
    ∃ o seen, origin = some o ∧ Ev env.H (RBuilds env pol I) goal (.path o "Request") [] (.tree t) seen := by
  unfold searchGoal at h
  split at h
  · cases h.lift
  · obtain ⟨o, h1, h⟩ := h.bind_ok
    obtain ⟨⟨tr, seen⟩, h2, h⟩ := h.bind_ok
    cases h.pure
    replace h1 := h1.lift
    cases origin with
    | none => cases h1
    | some o' =>
      cases h1
      exact ⟨_, seen, rfl, searchPath_ev _ _ _ _ _ _ h2⟩

end toEv

/-- The policy a graph request works on. -/
theorem getPolicy_reads {I : Store → Prop} {pid : String} {rec : PolicyRecord} (h : (GraphService.getPolicy pid).Reads I (.ok rec)) :
    ∃ s, I s ∧ policyAt s pid = some rec := by
  unfold GraphService.getPolicy at h
  obtain ⟨a, h1, h2⟩ := h.bind_ok
  obtain ⟨s, hs, rfl⟩ := Prog.Reads.op_ok (o := .polGet pid) h1
  refine ⟨s, hs, ?_⟩
  rw [policyAt_eq]
  replace h2 : Prog.Reads I (match kvGet s.policies pid with | none => Prog.lift (.err .policyNotFound) | some r => Pure.pure r) (.ok rec) := h2
  cases hk : kvGet s.policies pid with
  | none => rw [hk] at h2; cases h2.lift
  | some r => rw [hk] at h2; cases h2.pure; rfl

/-- An authorizing check among other requests. -/
theorem check_reads {env : Env} {I : Store → Prop} {fuel : Nat} {pid : String} {req : Option AccessRequest} {b : Bool}
    (h : ((Call.check fuel pid req).prog env).Reads I (.ok (.authorized b))) :
    ∃ s rec q t seen, I s ∧ policyAt s pid = some rec ∧ req = some q ∧
      Ev env.H (RBuilds env rec.policy I) (some (.entity q.subject)) (.path (.entitySet q.object q.relation) "Request") [] (.tree t) seen ∧
      b = decide (t.result = .success) := by
  obtain ⟨b', h1, h2⟩ := h.map_ok
  cases h2
  obtain ⟨rec, h2, h3⟩ := Prog.Reads.bind_ok h1
  obtain ⟨s, hs, hrec⟩ := getPolicy_reads h2
  obtain ⟨t, h4, h5⟩ := h3.bind_ok
  cases h5.pure
  obtain ⟨q, h6, h7⟩ := Prog.Reads.bind_ok h4
  replace h6 := h6.lift
  cases req with
  | none => cases h6
  | some q' =>
    cases h6
    obtain ⟨o, seen, ho, hev⟩ := searchGoal_ev h7
    cases ho
    exact ⟨s, rec, _, t, seen, hs, hrec, rfl, hev, rfl⟩

/-- The same for an explained check. -/
theorem explain_reads {env : Env} {I : Store → Prop} {fuel : Nat} {pid : String} {req : Option AccessRequest} {f : ExplainFormat} {x : Serialized} {b : Bool}
    (h : ((Call.explainCheck fuel pid req f).prog env).Reads I (.ok (.explained x b g))) :
    ∃ s rec q t seen, I s ∧ policyAt s pid = some rec ∧ req = some q ∧
      Ev env.H (RBuilds env rec.policy I) (some (.entity q.subject)) (.path (.entitySet q.object q.relation) "Request") [] (.tree t) seen ∧
      b = decide (t.result = .success) := by
  obtain ⟨b', h1, h2⟩ := Prog.Reads.map_ok (p := GraphService.explainCheck env fuel pid req f) (f := fun x => .explained x.1 x.2.1 x.2.2) h
  obtain ⟨_, _, h1⟩ := Prog.Reads.bind_ok h1
  obtain ⟨rec, h2', h3⟩ := h1.bind_ok
  obtain ⟨s, hs, hrec⟩ := getPolicy_reads h2'
  obtain ⟨t, h4, h5⟩ := h3.bind_ok
  obtain ⟨_, _, h5⟩ := h5.bind_ok
  cases h5.pure
  cases h2
  obtain ⟨q, h6, h7⟩ := Prog.Reads.bind_ok h4
  replace h6 := h6.lift
  cases req with
  | none => cases h6
  | some q' =>
    cases h6
    obtain ⟨o, seen, ho, hev⟩ := searchGoal_ev h7
    cases ho
    exact ⟨s, rec, _, t, seen, hs, hrec, rfl, hev, rfl⟩

end Zanzi
