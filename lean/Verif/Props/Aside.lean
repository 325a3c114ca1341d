import Verif.Lemmas.Aside
import Verif.Props.Interference

/-
Property C115: those who leave alone what a request comes across cannot change its answer.
Specification: Spec/Aside.lean.
-/

namespace Zanzi

open Spec Prog

/-- Whatever stores of `I` it reads, the program answers `r`, or reports a storage fault. -/
def Prog.Settled {α : Type} (I : Store → Prop) (r : Res α) (p : Prog α) : Prop := ∀ r', p.Reads I r' → r' = r ∨ r' = .err .store

section
variable {I : Store → Prop}

theorem Prog.Settled.bind {α β : Type} {p : Prog α} {k : α → Prog β} {r : Res α} {g : α → Res β} (hp : p.Settled I r) (hk : ∀ a, r = .ok a → (k a).Settled I (g a)) :
    (p >>= k).Settled I (r >>= g) := by
  intro r' h
  obtain ⟨r1, h1, h2⟩ := h.bind
  rcases hp _ h1 with rfl | rfl
  · rcases h2 with ⟨a, rfl, h2⟩ | ⟨e, rfl, rfl⟩ | ⟨rfl, rfl⟩ | ⟨rfl, rfl⟩
    · exact hk a rfl _ h2
    · exact .inl rfl
    · exact .inl rfl
    · exact .inl rfl
  · rcases h2 with ⟨a, h', _⟩ | ⟨e, h', h2⟩ | ⟨h', _⟩ | ⟨h', _⟩
    · cases h'
    · cases h'; exact .inr h2
    · cases h'
    · cases h'

theorem Prog.Settled.lift {α : Type} (r : Res α) : (Prog.lift r).Settled I r := fun _ h => .inl h.lift.symm
theorem Prog.Settled.pure {α : Type} (a : α) : (Pure.pure a : Prog α).Settled I (.ok a) := fun _ h => .inl h.pure

theorem Prog.Settled.getPolicy {β : Type} {pid : String} {k : PolicyRecord → Prog β} {r : Res β} (hp : ∀ z, I z → ∃ rec, kvGet z.policies pid = some rec)
    (hk : ∀ z rec, I z → policyAt z pid = some rec → (k rec).Settled I r) : (GraphService.getPolicy pid >>= k).Settled I r := by
  intro r' h
  obtain ⟨r1, h1, h2⟩ := h.bind
  rcases h2 with ⟨a, rfl, h2⟩ | h2
  · obtain ⟨z, hz, hrec⟩ := getPolicy_reads h1
    exact hk z a hz hrec _ h2
  · have key : (∃ a, r1 = .ok a) ∨ r1 = .err .store := by
      unfold GraphService.getPolicy at h1
      obtain ⟨r2, h3, h4⟩ := h1.bind
      have h5 : (∃ z, I z ∧ r2 = .ok (kvGet z.policies pid)) ∨ r2 = .err .store := by
        cases h3 with
        | ok hs hr => cases hr; exact .inl ⟨_, hs, rfl⟩
        | fail hr => cases hr; exact .inr rfl
      rcases h5 with ⟨z, hz, rfl⟩ | rfl
      · obtain ⟨rec, hrec⟩ := hp z hz
        rw [hrec] at h4
        rcases h4 with ⟨a, ha, h4⟩ | ⟨e, h', _⟩ | ⟨h', _⟩ | ⟨h', _⟩
        · cases ha
          cases h4.pure
          exact .inl ⟨_, rfl⟩
        · cases h'
        · cases h'
        · cases h'
      · rcases h4 with ⟨a, h', _⟩ | ⟨e, h', h4⟩ | ⟨h', _⟩ | ⟨h', _⟩
        · cases h'
        · cases h'; exact .inr h4
        · cases h'
        · cases h'
    rcases key with ⟨a, rfl⟩ | rfl
    · rcases h2 with ⟨e, h', _⟩ | ⟨h', _⟩ | ⟨h', _⟩ <;> cases h'
    · rcases h2 with ⟨e, h', h2⟩ | ⟨h', _⟩ | ⟨h', _⟩
      · cases h'; exact .inr h2
      · cases h'
      · cases h'

end

section
variable {env : Env} {s : Store} {pid : String} {rec : PolicyRecord} {x : USet}

/-- The stores the others can bring about. -/
abbrev AsideStores (env : Env) (s : Store) (pid : String) (p : Policy) (x : USet) : Store → Prop :=
  AsideInv s pid (readKeys env p (Present s pid) x) (fun p' => AlikeFrom env.U env.H p p' (Present s pid) x)

/-- Requests about `x` that read stores brought about by the others. -/
theorem about_settled {I : Store → Prop} (hs : WF env s) (hp : policyAt s pid = some rec) (hwf : ∀ z, I z → WF env z) (hI : ∀ z, I z → AsideStores env s pid rec.policy x z)
    {c : Call} (hc : c.about pid x) : (c.prog env).Settled I (serve env c s).1 := by
  have hpol : ∀ z, I z → ∃ rec, kvGet z.policies pid = some rec := fun z hz => by
    obtain ⟨⟨r, h, _⟩, _⟩ := hI z hz
    exact ⟨r, h⟩
  have hsearch : ∀ z rec', I z → policyAt z pid = some rec' → ∀ fuel g,
      (searchGoal env fuel rec'.policy (some x.node) g).Settled I (pSearch env rec.policy s fuel (some x.node) g) := by
    intro z rec' hz hrec fuel g
    have hal : AlikeFrom env.U env.H rec.policy rec'.policy (Present s pid) x := by
      obtain ⟨⟨r, h, ha⟩, _⟩ := hI z hz
      rw [policyAt_eq, h] at hrec
      cases hrec
      exact ha
    have hid := (hwf z hz).policy_id hrec
    have hv := (hwf z hz).policy_valid hrec
    have hconst : (searchGoal env fuel rec'.policy (some x.node) g).Const I s := searchGoal_const hs hid hv (fun y w hy hw =>
      steady_of hs hwf hI ⟨y, w, reaches_alike hal hy, consulted_alike hal (reaches_alike hal hy) hw, rfl⟩) fuel g
    intro r hr
    have he : ((searchGoal env fuel rec'.policy (some x.node) g).run s).1 = pSearch env rec.policy s fuel (some x.node) g := by
      rw [show (searchGoal env fuel rec'.policy (some x.node) g).run s = _ from searchGoal_yields env fuel rec'.policy (some x.node) g s]
      exact (pSearch_alike hs hs (hs.policy_id hp) hid (hs.policy_valid hp) hv hal (fun _ _ _ _ _ _ _ _ => Iff.rfl) fuel g).symm
    exact he ▸ hconst r hr
  cases c <;> try exact hc.elim
  case check fuel q req =>
    obtain ⟨rfl, u, rfl⟩ := hc
    rw [serve_check hp]
    have := Settled.bind (p := GraphService.check env fuel q (ask x u)) (k := fun b => Pure.pure (Answer.authorized b)) (g := fun b => .ok (.authorized b)) (I := I)
      (r := pSearch env rec.policy s fuel (some x.node) (userGoal u) >>= fun t => .ok (decide (t.result = .success)))
      (Settled.getPolicy hpol (fun z rec' hz hrec => Settled.bind (hsearch z rec' hz hrec fuel (userGoal u)) (fun _ _ => .pure _))) (fun _ _ => .pure _)
    rw [Res.bind_assoc] at this
    exact this
  case explainCheck fuel q req f =>
    obtain ⟨rfl, u, rfl⟩ := hc
    rw [serve_explainCheck hp]
    have := Settled.bind (p := GraphService.explainCheck env fuel q (ask x u) f) (k := fun y => Pure.pure (Answer.explained y.1 y.2.1 y.2.2)) (g := fun y => .ok (.explained y.1 y.2.1 y.2.2)) (I := I)
      (r := serializerFactory f >>= fun _ => pSearch env rec.policy s fuel (some x.node) (userGoal u) >>= fun t => serialize f t >>= fun o => .ok (o, decide (t.result = .success), ExplainFormat.spew))
      (Settled.bind (.lift _) (fun _ _ => Settled.getPolicy hpol (fun z rec' hz hrec => Settled.bind (hsearch z rec' hz hrec fuel (userGoal u)) (fun _ _ =>
        Settled.bind (.lift _) (fun _ _ => .pure _))))) (fun _ _ => .pure _)
    simp only [Res.bind_assoc, Res.bind_ok] at this
    exact this
  case expand fuel q root f =>
    obtain ⟨rfl, rfl⟩ := hc
    rw [serve_expand hp]
    have := Settled.bind (p := GraphService.expand env fuel q (some x.node) f) (k := fun y => Pure.pure (Answer.expanded y.1 y.2)) (g := fun y => .ok (.expanded y.1 y.2)) (I := I)
      (r := serializerFactory f >>= fun _ => pSearch env rec.policy s fuel (some x.node) none >>= fun t => serialize f t >>= fun o => .ok (o, f))
      (Settled.bind (.lift _) (fun _ _ => Settled.getPolicy hpol (fun z rec' hz hrec => Settled.bind (hsearch z rec' hz hrec fuel none) (fun _ _ =>
        Settled.bind (.lift _) (fun _ _ => .pure _))))) (fun _ _ => .pure _)
    simp only [Res.bind_assoc, Res.bind_ok] at this
    exact this

theorem asideStores_start (hp : policyAt s pid = some rec) : AsideStores env s pid rec.policy x s :=
  ⟨⟨rec, by rw [← policyAt_eq]; exact hp, fun _ _ _ => Iff.rfl⟩, fun _ _ => Iff.rfl⟩

/-- C115 while the request runs: a Check, ExplainCheck or Expand of `x` that is served among any number of requests which leave alone what it comes across — relationships under other keys, other
parts of the policy, other policies — answers exactly as on the store as it was, or reports that a storage call failed. -/
theorem C115_undisturbed (hs : Sys.Reachable env ⟨[], s⟩) (hp : policyAt s pid = some rec) {c : Call} (hc : c.about pid x) {hist : List Store} {y : Sys} {r : Res Answer}
    (h : Sys.Flight env (Call.Aside env pid rec.policy (Present s pid) x) ⟨[], s⟩ c hist y (.done r)) : r = (serve env c s).1 ∨ r = .err .store := by
  have hr : (c.prog env).ReadOnly := Call.prog_read env (by cases c <;> first | rfl | exact hc.elim)
  have hk := h.keeps (I := AsideStores env s pid rec.policy x)
    (P := asideOp pid (readKeys env rec.policy (Present s pid) x) (fun p' => AlikeFrom env.U env.H rec.policy p' (Present s pid) x))
    (fun o z ho hz => asideOp_exec ho hz) (fun d hd => prog_aside hd) (hr.mono (fun o ho => by cases o <;> first | trivial | cases ho)) (asideStores_start hp) (by simp)
  exact about_settled (I := (· ∈ hist)) hs.wf.1 hp (h.wf hs) hk hc _ (h.reads (fun _ h => h) .done)

/-- C115 afterwards: whatever requests came, ran, failed or were cut short, if all leave alone what requests about `x` come across, the answers are the same, errors and explanations included. -/
theorem C115_unchanged (hs : Sys.Reachable env ⟨[], s⟩) (hp : policyAt s pid = some rec) {y : Sys}
    (h : Sys.Path env (Call.Aside env pid rec.policy (Present s pid) x) ⟨[], s⟩ y) : SameAnswers env s y.store pid x := by
  have hk := (h.keeps (I := AsideStores env s pid rec.policy x)
    (P := asideOp pid (readKeys env rec.policy (Present s pid) x) (fun p' => AlikeFrom env.U env.H rec.policy p' (Present s pid) x))
    (fun o z ho hz => asideOp_exec ho hz) (fun d hd => prog_aside hd) (asideStores_start hp) (by simp)).1
  have hy : WF env y.store := (h.reachable hs).wf.1
  obtain ⟨⟨rec', hp', ha⟩, he⟩ := hk
  rw [← policyAt_eq] at hp'
  refine C113_elsewhere hs.wf.1 hy hp hp' ha (fun v w r o hv hw ho hkey => ?_)
  have hm : ∀ {z z' : Store}, WF env z → (∀ p : EdgeKey × IRel, p.1.1 = srcKey env.H w.object w.relation → p ∈ z.edges pid → p ∈ z'.edges pid) → Present z pid r → Present z' pid r := by
    intro z z' hz hsub hr
    obtain ⟨⟨k, e⟩, hp, rfl⟩ := List.mem_map.1 (show r ∈ (z.edges pid).map _ from hr)
    cases ho
    refine List.mem_map.2 ⟨(k, e), hsub _ ?_ hp, rfl⟩
    rw [hz.edgeKey _ _ _ hp]
    exact hkey
  exact ⟨hm hs.wf.1 (fun p hp' hm => (he p (hp' ▸ ⟨v, w, hv, hw, rfl⟩)).2 hm), hm hy (fun p hp' hm => (he p (hp' ▸ ⟨v, w, hv, hw, rfl⟩)).1 hm)⟩

end

/-! ### Concrete requests -/

/-- Giving user:v relation a of another document. -/
def setOther : Call := .setRelationship 0 "p" (some ⟨some ⟨"doc", "2"⟩, "a", some (.entity ⟨"user", "v"⟩)⟩) []
/-- Taking away relation c of the document from user:u, which nothing of `any` depends on. -/
def delC : Call := .deleteRelationship "p" (some ⟨some doc1, "c", some (.entity usr)⟩)
/-- Redefining `only` and dropping `both`. -/
def redefine : Call := .updatePolicy (some (.policy (gPolicy onlyRels))) []

theorem ab_readFrom {r : Relationship} (h : ReadFrom U0 Hx (gPolicy opRels) (Present abStore "p") ⟨doc1, "any"⟩ r) :
    ∃ o, r.object = some o ∧ (o.resource ++ o.id ++ r.relation = "doc1any" ∨ o.resource ++ o.id ++ r.relation = "doc1a" ∨ o.resource ++ o.id ++ r.relation = "doc1b") := by
  obtain ⟨y, z, o, hy, hz, ho, hk⟩ := h
  refine ⟨o, ho, ?_⟩
  have hm := reaches_list (env := gEnv) (s := abStore) (rec := ⟨gPolicy opRels, [], 0⟩) (L := abNodes "any") (gStore_wf _ _ _) abStore_pol
    (by simp [abNodes, USet.node]) (by decide +kernel) (reaches_looked (env := gEnv) (ab_clear "any" (.inr (.inr rfl))).1 hy)
  have hz' : z = y := by
    rcases hz with rfl | ⟨t, a, b, h1, h2, _⟩
    · rfl
    · rcases op_defined h1 with ⟨_, _, rfl⟩ | ⟨_, ⟨_, rfl⟩ | ⟨_, rfl⟩ | ⟨_, rfl⟩ | ⟨_, rfl⟩ | ⟨_, rfl⟩⟩ <;> simp [leaves] at h2
  subst hz'
  have hk' := Hx_inj hk
  rw [hk']
  obtain ⟨o', rl⟩ := z
  simp only [abNodes, USet.node, List.mem_cons, List.not_mem_nil, or_false, RelationNode.entitySet.injEq, Option.some.injEq, reduceCtorEq] at hm
  rcases hm with ⟨rfl, rfl⟩ | ⟨rfl, rfl⟩ | ⟨rfl, rfl⟩
  · exact .inl (by decide)
  · exact .inr (.inl (by decide))
  · exact .inr (.inr (by decide))

theorem setOther_aside : setOther.Aside gEnv "p" (gPolicy opRels) (Present abStore "p") ⟨doc1, "any"⟩ := by
  refine ⟨fun now r a he hr => ?_, fun r h => h.elim, fun p h => h.elim⟩
  cases he
  obtain ⟨o, ho, h⟩ := ab_readFrom hr
  cases ho
  exact absurd h (by decide)

theorem delC_aside : delC.Aside gEnv "p" (gPolicy opRels) (Present abStore "p") ⟨doc1, "any"⟩ := by
  refine ⟨(fun now r a he => nomatch he), fun r hd hr => ?_, fun p h => h.elim⟩
  cases hd.2
  obtain ⟨o, ho, h⟩ := ab_readFrom hr
  cases ho
  exact absurd h (by decide)

theorem redefine_aside : redefine.Aside gEnv "p" (gPolicy opRels) (Present abStore "p") ⟨doc1, "any"⟩ := by
  refine ⟨(fun now r a he => nomatch he), fun r h => h.elim, fun p h _ => ?_⟩
  rcases h with h | ⟨text, h, _⟩
  · cases h
    exact only_alike
  · cases h

/-- The hypotheses of `C115_undisturbed`: a check of `any` among requests that redefine `only` and write relationships of other usersets; the check can only answer true, or report a storage fault. -/
example : Sys.Reachable gEnv ⟨[], abStore⟩ ∧ (Call.check 10 "p" (ask ⟨doc1, "any"⟩ usr)).about "p" ⟨doc1, "any"⟩ ∧
    ∃ hist y, Sys.Flight gEnv (Call.Aside gEnv "p" (gPolicy opRels) (Present abStore "p") ⟨doc1, "any"⟩) ⟨[], abStore⟩ (.check 10 "p" (ask ⟨doc1, "any"⟩ usr)) hist y
      (.done (.ok (.authorized true))) := by
  refine ⟨gStore_reachable _ _ _, ⟨rfl, _, rfl⟩, ?_⟩
  obtain ⟨h1, f1⟩ := Sys.Flight.served (.start (c := .check 10 "p" (ask ⟨doc1, "any"⟩ usr)) (.refl (env := gEnv) (x := ⟨[], abStore⟩)
    (A := Call.Aside gEnv "p" (gPolicy opRels) (Present abStore "p") ⟨doc1, "any"⟩))) setOther setOther_aside
  obtain ⟨h2, f2⟩ := f1.served redefine redefine_aside
  obtain ⟨h3, f3⟩ := f2.served delC delC_aside
  obtain ⟨h4, f4⟩ := f3.own_run
  have he : (((Call.check 10 "p" (ask ⟨doc1, "any"⟩ usr)).prog gEnv).run (serve gEnv delC (serve gEnv redefine (serve gEnv setOther abStore).2).2).2).1 = .ok (.authorized true) :=
    checks_of (by decide +kernel)
  rw [he] at f4
  exact ⟨h4, _, f4⟩

/-- The hypotheses of `C115_unchanged`; the requests do take effect: user:u loses `only`, user:v gets relation a of doc:2. -/
example : SameAnswers gEnv abStore (serve gEnv redefine (serve gEnv setOther abStore).2).2 "p" ⟨doc1, "any"⟩ ∧
    Checks gEnv abStore 10 "p" ⟨doc1, "only"⟩ usr true ∧ Checks gEnv (serve gEnv redefine (serve gEnv setOther abStore).2).2 10 "p" ⟨doc1, "only"⟩ usr false ∧
    Checks gEnv abStore 10 "p" ⟨⟨"doc", "2"⟩, "a"⟩ ⟨"user", "v"⟩ false ∧ Checks gEnv (serve gEnv redefine (serve gEnv setOther abStore).2).2 10 "p" ⟨⟨"doc", "2"⟩, "a"⟩ ⟨"user", "v"⟩ true :=
  ⟨C115_unchanged (env := gEnv) (s := abStore) (rec := ⟨gPolicy opRels, [], 0⟩) (y := ⟨[], _⟩) (gStore_reachable _ _ _) abStore_pol
    ((Sys.Path.refl.serve setOther setOther_aside).serve redefine redefine_aside),
    checks_of (by decide +kernel), checks_of (by decide +kernel), checks_of (by decide +kernel), checks_of (by decide +kernel)⟩

end Zanzi
