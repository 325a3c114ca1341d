import Verif.Lemmas.Abstract
import Verif.Props.Isolation

/-
C26: the policy service refines an abstract store; C15 over histories; C14 for the policy service.
-/

namespace Zanzi

open Spec Classical

/-! ### C14 -/

/-- Message shapes for which the policy service is shown not to crash: no missing sub-message, and no selector with a relation name
but any object. -/
def CallComplete (env : Env) : Call → Prop
  | .createPolicy _ d _ | .updatePolicy d _ =>
    (getPolicyFromDefinition env d).Normal ∧ ∀ p, Defines env d p → ExpressionsPresent p
  | .setRelationship _ _ r _ | .deleteRelationship _ r | .getRelationship _ r => ∃ x, r = some x ∧ RelationshipComplete x
  | .findRelationshipRecords _ sel => ∃ x, sel = some x ∧ SelectorComplete x ∧ (x.object = some .wildcard → x.relation = some .wildcard)
  | .deleteRelationships _ sel => ∃ x, sel = some x ∧ SelectorComplete x
  | .deletePolicy _ | .getPolicy _ | .listPolicyIds => True
  | _ => False

theorem newSelectorSpec_normal {x : Selector} (h : SelectorComplete x) : (newSelectorSpec (some x)).Normal := by
  obtain ⟨o, rl, sb⟩ := x
  obtain ⟨h1, h2, h3⟩ := h
  unfold newSelectorSpec
  cases o with
  | none => exact absurd rfl h1
  | some o =>
  cases rl with
  | none => exact absurd rfl h2
  | some rl =>
  cases sb with
  | none => exact absurd rfl h3
  | some sb =>
  simp only [Res.deref_some, Res.bind_ok]
  split
  · trivial
  · split
    · trivial
    · split <;> trivial

/-- Full claim: no request makes a service method panic.  Proved for the policy service, for requests without missing sub-messages and without
any-object + relation-name selectors, on stores whose policies have a subject restriction on every relation. -/
theorem C14_policy_service_partial (env : Env) (s : Store) (c : Call) (hs : WF env s) (hc : CallComplete env c)
    (hr : ∀ id rec, policyAt s id = some rec → RestrictionsPresent rec.policy) : (serve env c s).1.Normal := by
  simp only [policyAt_eq] at hr
  cases c with
  | createPolicy now d a =>
    obtain ⟨h1, h2⟩ := hc
    rw [serve_create]
    cases hd : getPolicyFromDefinition env d with
    | ok p =>
      dsimp only
      split
      · trivial
      · have := verifyPolicy_normal env.U (h2 p (getPolicyFromDefinition_ok_iff.1 hd))
        cases hv : verifyPolicy env.U p with
        | ok => trivial
        | err => trivial
        | panic => rw [hv] at this; exact this
        | fuel => rw [hv] at this; exact this
    | err => trivial
    | panic => rw [hd] at h1; exact h1
    | fuel => rw [hd] at h1; exact h1
  | updatePolicy d a =>
    obtain ⟨h1, h2⟩ := hc
    rw [serve_update]
    cases hd : getPolicyFromDefinition env d with
    | ok p =>
      dsimp only
      split
      · trivial
      · have := verifyPolicy_normal env.U (h2 p (getPolicyFromDefinition_ok_iff.1 hd))
        cases hv : verifyPolicy env.U p with
        | ok => trivial
        | err => trivial
        | panic => rw [hv] at this; exact this
        | fuel => rw [hv] at this; exact this
    | err => trivial
    | panic => rw [hd] at h1; exact h1
    | fuel => rw [hd] at h1; exact h1
  | deletePolicy id => rw [serve_deletePolicy]; split <;> trivial
  | getPolicy id => trivial
  | listPolicyIds => trivial
  | setRelationship now pid r a =>
    obtain ⟨x, rfl, hx⟩ := hc
    obtain ⟨e, he⟩ := toInternal_complete.2 hx
    cases hp : kvGet s.policies pid with
    | none => rw [serve_set, hp]; trivial
    | some rec =>
      have hu : NamesUnique rec.policy := ((C09_validation_exact env.U rec.policy).1 (hs.polValid pid rec (kvGet_mem hp))).1
      have := allowed_normal hu (hr pid rec hp) hx
      cases ha : allowedRelationship (some x) (newLut rec.policy) with
      | ok u => rw [serve_set_ok hp ha he]; trivial
      | err => rw [serve_set, hp]; simp only [ha]; trivial
      | panic => rw [ha] at this; exact this.elim
      | fuel => rw [ha] at this; exact this.elim
  | deleteRelationship pid r =>
    obtain ⟨x, rfl, hx⟩ := hc
    obtain ⟨e, he⟩ := toInternal_complete.2 hx
    rw [serve_delete he]; trivial
  | getRelationship pid r =>
    obtain ⟨x, rfl, hx⟩ := hc
    obtain ⟨e, he⟩ := toInternal_complete.2 hx
    rw [serve_get he]; trivial
  | findRelationshipRecords pid sel =>
    obtain ⟨x, rfl, hx, hw⟩ := hc
    by_cases hset : SelectorSet x
    · rw [serve_find hx hset]
      cases hp : kvGet s.policies pid with
      | none => trivial
      | some rec =>
        dsimp only
        have := validSelector_normal (p := rec.policy) hx hw
        cases hv : validSelector (some x) rec.policy with
        | ok => trivial
        | err => trivial
        | panic => rw [hv] at this; exact this
        | fuel => rw [hv] at this; exact this
    · show (Prog.run (do let y ← Service.findRelationshipRecords env pid (some x); return Answer.records y) s).1.Normal
      rw [run_map]
      unfold Service.findRelationshipRecords
      rw [Prog.run_bind]
      have : (Repo.getPolicy pid).run s = (.ok (kvGet s.policies pid), s) := rfl
      rw [this, andThen_ok]
      cases hp : kvGet s.policies pid with
      | none => trivial
      | some rec =>
        dsimp only
        have := validSelector_normal (p := rec.policy) hx hw
        cases hv : validSelector (some x) rec.policy with
        | err => trivial
        | panic => rw [hv] at this; exact this
        | fuel => rw [hv] at this; exact this
        | ok =>
          rw [lift_ok_bind]
          have hn := newSelectorSpec_normal hx
          unfold Repo.findRelationshipRecords Repo.findRelationships
          cases hns : newSelectorSpec (some x) with
          | ok sp =>
            obtain ⟨y, hy, _, h2⟩ := newSelectorSpec_complete hns
            cases hy
            exact absurd h2 hset
          | err => simp [Prog.run_bind, Prog.run_done, hns, Res.Normal]
          | panic => rw [hns] at hn; exact hn.elim
          | fuel => rw [hns] at hn; exact hn.elim
  | deleteRelationships pid sel =>
    obtain ⟨x, rfl, hx⟩ := hc
    by_cases hset : SelectorSet x
    · rw [serve_deleteMatching hx hset]; trivial
    · show (Prog.run (do let y ← Repo.deleteRelationships env.H pid (some x); return Answer.affected y) s).1.Normal
      rw [run_map]
      have hn := newSelectorSpec_normal hx
      unfold Repo.deleteRelationships Repo.findRelationships
      cases hns : newSelectorSpec (some x) with
      | ok sp =>
        obtain ⟨y, hy, _, h2⟩ := newSelectorSpec_complete hns
        cases hy
        exact absurd h2 hset
      | err => simp [Prog.run_bind, Prog.run_done, hns, Res.Normal]
      | panic => rw [hns] at hn; exact hn.elim
      | fuel => rw [hns] at hn; exact hn.elim
  | check => exact hc.elim
  | explainCheck => exact hc.elim
  | expand => exact hc.elim
  | dumpRelationships => exact hc.elim

/-- `docPolicy` with a relation that has no subject restriction. -/
def openPolicy : Policy :=
  { id := "o"
    resources := [{ name := "doc", relations := [
      { name := "owner", relationExpression := some (.expr "_this"), subjectRestriction := none }] }] }

/-- C14 is violated: on any store, a missing relationship or selector message panics; a policy
with a relation that has no subject restriction is accepted, and setting a relationship of that relation panics; so does finding with any object and a relation name, and creating a policy whose relation has
no expression. -/
theorem C14_panics_violated (H : String → Nat) :
    (∀ s pid, (serve (wEnv H) (.deleteRelationship pid none) s).1 = .panic) ∧
    (∀ s pid, (serve (wEnv H) (.getRelationship pid none) s).1 = .panic) ∧
    (∀ s pid, (serve (wEnv H) (.deleteRelationships pid none) s).1 = .panic) ∧
    (∀ s, (serve (wEnv H) (.createPolicy 0 none []) s).1 = .panic) ∧
    (serve (wEnv H) (.createPolicy 0 (some (.policy { id := "x", resources := [{ name := "doc", relations := [
      { name := "owner", relationExpression := none, subjectRestriction := none }] }] })) []) Store.empty).1 = .panic ∧
    (serve (wEnv H) (.findRelationshipRecords "p" (some ⟨some .wildcard, some (.relationName "owner"), some .wildcard⟩)) wStore).1 = .panic ∧
    (∃ s, serve (wEnv H) (.createPolicy 0 (some (.policy openPolicy)) []) Store.empty = (.ok (.created ⟨openPolicy, [], 0⟩), s) ∧
      (serve (wEnv H) (.setRelationship 0 "o" (some ⟨some ⟨"doc", "1"⟩, "owner", some (.entity ⟨"doc", "2"⟩)⟩) []) s).1 = .panic) := by
  refine ⟨fun _ _ => rfl, fun _ _ => rfl, fun _ _ => rfl, fun _ => rfl, ?_, ?_, ?_⟩
  · rw [serve_create]
    have h : verifyPolicy U0 { id := "x", resources := [{ name := "doc", relations := [
      { name := "owner", relationExpression := none, subjectRestriction := none }] }] } = .panic := by decide +kernel
    simp only [getPolicyFromDefinition, Res.deref_some, Res.bind_ok, Store.empty, kvGet, wEnv, h]
  · rw [serve_find (by simp [SelectorComplete]) (by simp [SelectorSet]), wStore_pol "p" (.inl rfl)]
    have h : validSelector (some ⟨some .wildcard, some (.relationName "owner"), some .wildcard⟩) (docPolicy "p") = .panic := by
      decide +kernel
    simp only [h]
  · have hv : verifyPolicy U0 openPolicy = .ok () := by decide +kernel
    refine ⟨Store.empty.putPolicy ⟨openPolicy, [], 0⟩, ?_, ?_⟩
    · rw [serve_create]
      simp only [getPolicyFromDefinition, Res.deref_some, Res.bind_ok, Store.empty, kvGet, wEnv, hv]
    · rw [serve_set]
      have : kvGet (Store.empty.putPolicy ⟨openPolicy, [], 0⟩).policies "o" = some ⟨openPolicy, [], 0⟩ := by decide +kernel
      rw [this]
      have h : allowedRelationship (some ⟨some ⟨"doc", "1"⟩, "owner", some (.entity ⟨"doc", "2"⟩)⟩) (newLut openPolicy) = .panic := by
        decide +kernel
      simp only [h]

example : CallComplete (wEnv (fun _ => 0)) (.setRelationship 0 "p" (some rA) []) ∧ RestrictionsPresent (docPolicy "p") := by
  refine ⟨⟨rA, rfl, by simp [RelationshipComplete, rA]⟩, ?_⟩
  simp [RestrictionsPresent, docPolicy]

/-! ### C26 -/

/-- Calls covered by the refinement: policy-service calls without missing sub-messages, naming relationships in `W`, with policies that carry expressions and
restrictions, and with selectors that C55 covers. -/
def CallOK (env : Env) (W : String → Relationship → Prop) : Call → Prop
  | .createPolicy _ d _ | .updatePolicy d _ => ∃ p, Defines env d p ∧ ExpressionsPresent p ∧ RestrictionsPresent p
  | .setRelationship _ pid r _ | .deleteRelationship pid r | .getRelationship pid r => ∃ x, r = some x ∧ W pid x
  | .findRelationshipRecords _ sel => ∃ x, sel = some x ∧ SelectorComplete x ∧ SelectorSet x ∧
      (x.object = some .wildcard → x.relation = some .wildcard) ∧
      (∀ sub, x.subject = some (.subjectSpec sub) → (∃ e, sub = .entity e) ∨ ∃ n, sub = .resourceSet n)
  | .deleteRelationships _ sel => ∃ x, sel = some x ∧ SelectorComplete x ∧ SelectorSet x
  | .deletePolicy _ | .getPolicy _ | .listPolicyIds => True
  | _ => False

theorem abs_putPolicy {env : Env} {W : String → Relationship → Prop} {s : Store} (hg : Good env W s) (rec : PolicyRecord)
    (hv : verifyPolicy env.U rec.policy = .ok ()) (hr : RestrictionsPresent rec.policy) :
    Good env W (s.putPolicy rec) ∧
    absOf env (s.putPolicy rec) = { absOf env s with pols := upd (absOf env s).pols rec.policy.id (some rec) } := by
  refine ⟨⟨WF.exec (.polSet rec) s hv hg.wf, ?_, hg.inW, hg.data, hg.edge⟩, ?_⟩
  · intro id r h
    simp only [Store.putPolicy, kvGet_put] at h
    split at h
    · cases h; exact hr
    · exact hg.restr id r h
  · unfold absOf
    congr 1
    funext id
    simp only [Store.putPolicy, kvGet_put, upd]

theorem getPolicyFromDefinition_of {env : Env} {d : Option PolicyDefinition} {p : Policy} (h : Defines env d p) :
    getPolicyFromDefinition env d = .ok p := getPolicyFromDefinition_ok_iff.2 h

theorem not_valid_err {env : Env} {p : Policy} (he : ExpressionsPresent p) (hv : ∀ u, verifyPolicy env.U p ≠ .ok u) :
    ∃ e, verifyPolicy env.U p = .err e := by
  rcases Res.normal_iff.1 (verifyPolicy_normal env.U he) with ⟨a, h⟩ | h
  · exact absurd h (hv a)
  · exact h

theorem sim_step {env : Env} {W : String → Relationship → Prop} (hS : Sep env.H W) {s : Store} (hg : Good env W s) (c : Call)
    (hc : CallOK env W c) :
    AStep env c (absOf env s) (serve env c s).1 (absOf env (serve env c s).2) ∧ Good env W (serve env c s).2 := by
  cases c with
  | createPolicy now d a =>
    obtain ⟨p, hd, hp, hrs⟩ := hc
    rw [serve_create, getPolicyFromDefinition_of hd]
    dsimp only
    cases hk : kvGet s.policies p.id with
    | some rec => exact ⟨AStep.createExists hd hk, hg⟩
    | none =>
      dsimp only
      cases hv : verifyPolicy env.U p with
      | ok u =>
        obtain ⟨h1, h2⟩ := abs_putPolicy hg ⟨p, a, now⟩ hv hrs
        refine ⟨?_, h1⟩
        rw [h2]
        exact AStep.create hd hk ((C09_validation_exact env.U p).1 hv)
      | err e =>
        refine ⟨AStep.createInvalid hd hk ?_, hg⟩
        intro hval
        rw [(C09_validation_exact env.U p).2 hval] at hv
        cases hv
      | panic => have := verifyPolicy_normal env.U hp; rw [hv] at this; exact this.elim
      | fuel => have := verifyPolicy_normal env.U hp; rw [hv] at this; exact this.elim
  | updatePolicy d a =>
    obtain ⟨p, hd, hp, hrs⟩ := hc
    rw [serve_update, getPolicyFromDefinition_of hd]
    dsimp only
    cases hk : kvGet s.policies p.id with
    | none => exact ⟨AStep.updateMissing hd hk, hg⟩
    | some rec =>
      dsimp only
      cases hv : verifyPolicy env.U p with
      | ok u =>
        obtain ⟨h1, h2⟩ := abs_putPolicy hg ⟨p, a, rec.createdAt⟩ hv hrs
        refine ⟨?_, h1⟩
        rw [h2]
        exact AStep.update hd hk ((C09_validation_exact env.U p).1 hv)
      | err e =>
        refine ⟨AStep.updateInvalid hd hk ?_, hg⟩
        intro hval
        rw [(C09_validation_exact env.U p).2 hval] at hv
        cases hv
      | panic => have := verifyPolicy_normal env.U hp; rw [hv] at this; exact this.elim
      | fuel => have := verifyPolicy_normal env.U hp; rw [hv] at this; exact this.elim
  | deletePolicy id =>
    rw [serve_deletePolicy]
    cases hk : kvGet s.policies id with
    | none => exact ⟨AStep.deletePolicyMissing hk, hg⟩
    | some rec =>
      simp only [Option.isSome_some, if_true]
      let s1 : Store := { s with policies := kvDel s.policies id }
      have hg1 : Good env W s1 := by
        refine ⟨WF.exec (.polDel id) s trivial hg.wf, ?_, hg.inW, hg.data, hg.edge⟩
        intro q r h
        simp only [s1, kvGet_del] at h
        split at h
        · cases h
        · exact hg.restr q r h
      have hrun : serve env (.deleteRelationships id (some allSelector)) s1 =
          (.ok (.affected (relationships s id).length), s1.delRels id ((relationships s id).map (relKey env.H))) := by
        rw [serve_deleteMatching allSelector_complete.1 allSelector_complete.2, matching_all]
        rfl
      have hwf : WF env (s1.delRels id ((relationships s id).map (relKey env.H))) := by
        have := hg1.wf.run (.deleteRelationships id (some allSelector))
        rw [show Prog.run _ s1 = _ from hrun] at this
        exact this
      obtain ⟨h1, h2⟩ := abs_delRels hS hg1 id (relationships s id) (fun r hr => hg1.inW id r hr) hwf
      refine ⟨?_, h1⟩
      have habs : absOf env (s1.delRels id ((relationships s id).map (relKey env.H))) =
          ⟨upd (absOf env s).pols id none, upd (absOf env s).rels id (fun _ => none)⟩ := by
        rw [h2]
        have e1 : (absOf env s1).pols = upd (absOf env s).pols id none := by
          funext q
          simp only [absOf, s1, kvGet_del, upd]
        have e2 : (absOf env s1).rels = (absOf env s).rels := rfl
        have e3 : (fun r => if r ∈ relationships s id then none else (absOf env s).rels id r) =
            (fun _ => none : Relationship → Option (Bytes × Timestamp)) := by
          funext x
          split
          · rfl
          · next hx => simp [absOf, Present, hx]
        rw [e2, ← e1, e3]
      rw [habs]
      exact AStep.deletePolicy hk (hg.wf.relationships_nodup id) (fun r => (hg.isSome_rels id r).symm) rfl
  | getPolicy id =>
    rw [serve_getPolicy]
    exact ⟨AStep.getPolicy, hg⟩
  | listPolicyIds =>
    obtain ⟨l, h1, h2, h3⟩ := C22_list_state env s hg.wf
    rw [h1]
    refine ⟨AStep.listPolicyIds h2 (fun id => ?_), hg⟩
    rw [h3, policyAt_eq]
    rfl
  | setRelationship now pid r a =>
    obtain ⟨x, rfl, hw⟩ := hc
    have hcomp := hS.complete pid x hw
    obtain ⟨e, he⟩ := toInternal_complete.2 hcomp
    cases hk : kvGet s.policies pid with
    | none =>
      rw [serve_set, hk]
      exact ⟨AStep.setMissing hk, hg⟩
    | some rec =>
      have hu := hg.pol_unique hk
      have hn := allowed_normal hu (hg.restr pid rec hk) hcomp
      cases ha : allowedRelationship (some x) (newLut rec.policy) with
      | ok u =>
        rw [serve_set_ok hk ha he]
        obtain ⟨h1, h2⟩ := abs_putRel hS hg hw he (allowed_subject_set ha) a now
        refine ⟨?_, h1⟩
        rw [h2]
        have hb : (kvGet (s.edges pid) (e.key env.H)).isSome = ((absOf env s).rels pid x).isSome := by
          rw [Bool.eq_iff_iff, edge_isSome_iff hg.wf he (hg.noAlias hS hw), hg.isSome_rels]
        rw [hb]
        exact AStep.set hk ((C12_admission_exact rec.policy hu x).1 ha)
      | err er =>
        rw [serve_set, hk]
        simp only [ha]
        refine ⟨AStep.setRejected hk ?_, hg⟩
        intro hadm
        rw [(C12_admission_exact rec.policy hu x).2 hadm] at ha
        cases ha
      | panic => rw [ha] at hn; exact hn.elim
      | fuel => rw [ha] at hn; exact hn.elim
  | deleteRelationship pid r =>
    obtain ⟨x, rfl, hw⟩ := hc
    have hcomp := hS.complete pid x hw
    obtain ⟨e, he⟩ := toInternal_complete.2 hcomp
    have hwf := hg.wf.run (.deleteRelationship pid (some x))
    rw [show Prog.run _ s = _ from serve_delete he] at hwf
    rw [serve_delete he]
    have hl : [e.key env.H] = [x].map (relKey env.H) := by simp [relKey_of he]
    rw [hl] at hwf ⊢
    obtain ⟨h1, h2⟩ := abs_delRels hS hg pid [x] (by simpa using hw) hwf
    refine ⟨?_, h1⟩
    rw [h2]
    have hb : (kvGet (s.edges pid) (e.key env.H)).isSome = ((absOf env s).rels pid x).isSome := by
      rw [Bool.eq_iff_iff, edge_isSome_iff hg.wf he (hg.noAlias hS hw), hg.isSome_rels]
    rw [hb]
    have : (fun r => if r ∈ [x] then none else (absOf env s).rels pid r) = upd ((absOf env s).rels pid) x none := by
      funext r
      unfold upd
      simp only [List.mem_singleton]
    rw [this]
    exact AStep.delete
  | getRelationship pid r =>
    obtain ⟨x, rfl, hw⟩ := hc
    have hcomp := hS.complete pid x hw
    obtain ⟨e, he⟩ := toInternal_complete.2 hcomp
    rw [serve_get he]
    refine ⟨?_, hg⟩
    have hb : (kvGet s.data (e.key env.H)).map (fun d => (⟨pid, x, d.createdAt, d.appData⟩ : RelationshipRecord)) =
        ((absOf env s).rels pid x).map (fun d => ⟨pid, x, d.2, d.1⟩) := by
      simp only [absOf, relKey_of he]
      cases hd : kvGet s.data (e.key env.H) with
      | none => simp
      | some d =>
        obtain ⟨q, y, hy, hyk⟩ := hg.edge _ d hd
        rw [← relKey_of he] at hyk
        obtain ⟨rfl, rfl⟩ := hS.inj q y pid x (hg.inW q y hy) hw hyk
        simp [hy]
    rw [hb]
    exact AStep.get
  | findRelationshipRecords pid sel =>
    obtain ⟨x, rfl, hsc, hss, hsw, hsub⟩ := hc
    rw [serve_find hsc hss]
    cases hk : kvGet s.policies pid with
    | none => exact ⟨AStep.findMissing hk, hg⟩
    | some rec =>
      have hu := hg.pol_unique hk
      obtain ⟨hn, hiff⟩ := C55_selector_validation_partial rec.policy hu x hsc hss hsw hsub
      dsimp only
      cases hv : validSelector (some x) rec.policy with
      | ok u =>
        refine ⟨?_, hg⟩
        let g : Relationship → RelationshipRecord := fun r =>
          match kvGet s.data (relKey env.H r) with
          | some d => ⟨pid, r, d.createdAt, d.appData⟩
          | none => ⟨pid, r, 0, []⟩
        have hgr : ∀ r, (g r).relationship = r := by intro r; simp only [g]; split <;> rfl
        have hl : (matching s pid x).map (fun r => (kvGet s.data (relKey env.H r)).map
            (fun d => ({ policyId := pid, relationship := r, createdAt := d.createdAt, appData := d.appData } : RelationshipRecord))) =
            ((matching s pid x).map g).map some := by
          rw [List.map_map]
          apply List.map_congr_left
          intro r hr
          obtain ⟨d, hd⟩ := Option.isSome_iff_exists.1 (hg.data pid r (mem_matching.1 hr).1)
          simp [g, hd]
        dsimp only
        rw [hl]
        refine AStep.find hk (hiff.1 hv) ?_ ?_
        · have hnd := hg.wf.matching_nodup pid x
          refine List.Pairwise.map g ?_ hnd
          intro a b hab h
          apply hab
          rw [← hgr a, ← hgr b, h]
        · intro y
          constructor
          · intro hy
            obtain ⟨r, hr, rfl⟩ := List.mem_map.1 hy
            obtain ⟨hp, hm⟩ := mem_matching.1 hr
            obtain ⟨d, hd⟩ := Option.isSome_iff_exists.1 (hg.data pid r hp)
            refine ⟨r, (d.appData, d.createdAt), ?_, hm, ?_⟩
            · simp [absOf, hp, hd]
            · simp [g, hd]
          · rintro ⟨r, d, hd, hm, rfl⟩
            simp only [absOf] at hd
            split at hd
            · next hp =>
              obtain ⟨d', hd'⟩ := Option.isSome_iff_exists.1 (hg.data pid r hp)
              rw [hd'] at hd
              simp only [Option.map_some, Option.some.injEq] at hd
              subst hd
              refine List.mem_map.2 ⟨r, mem_matching.2 ⟨hp, hm⟩, ?_⟩
              simp [g, hd']
            · cases hd
      | err e =>
        refine ⟨AStep.findRejected hk ?_, hg⟩
        intro hkn
        rw [hiff.2 hkn] at hv
        cases hv
      | panic => rw [hv] at hn; exact hn.elim
      | fuel => rw [hv] at hn; exact hn.elim
  | deleteRelationships pid sel =>
    obtain ⟨x, rfl, hsc, hss⟩ := hc
    have hwf := hg.wf.run (.deleteRelationships pid (some x))
    rw [show Prog.run _ s = _ from serve_deleteMatching hsc hss pid] at hwf
    rw [serve_deleteMatching hsc hss]
    obtain ⟨h1, h2⟩ := abs_delRels hS hg pid (matching s pid x) (fun r hr => hg.inW pid r (mem_matching.1 hr).1) hwf
    refine ⟨?_, h1⟩
    rw [h2]
    have : (fun r => if r ∈ matching s pid x then none else (absOf env s).rels pid r) =
        fun r => if Matches x r then none else (absOf env s).rels pid r := by
      funext r
      by_cases hp : Present s pid r
      · by_cases hm : Matches x r
        · rw [if_pos (mem_matching.2 ⟨hp, hm⟩), if_pos hm]
        · rw [if_neg (fun h => hm (mem_matching.1 h).2), if_neg hm]
      · have : (absOf env s).rels pid r = none := by simp [absOf, hp]
        rw [this]
        split <;> split <;> rfl
    rw [this]
    refine AStep.deleteMatching (hg.wf.matching_nodup pid x) (fun r => ?_) rfl
    rw [mem_matching, hg.isSome_rels]
  | check => exact hc.elim
  | explainCheck => exact hc.elim
  | expand => exact hc.elim
  | dumpRelationships => exact hc.elim

/-- Full claim: any sequence of policy-service calls answers like the abstract store.  Proved for sequences of well-shaped calls (`CallOK`) whose relationships come
from a set `W` in which the storage keys of different (policy, relationship) pairs differ.  Missing: relationships that collide in storage, in
particular the same relationship written in two policies (violated: `C20_isolation_violated`, `C21_aliasing_violated`). -/
theorem C26_refinement_partial (env : Env) (W : String → Relationship → Prop) (hS : Sep env.H W) (cs : List Call)
    (hc : ∀ c ∈ cs, CallOK env W c) :
    ∃ A, ATrace env cs AState.empty (runCalls env cs Store.empty).1 A := by
  have key : ∀ (cs : List Call) (s : Store), (∀ c ∈ cs, CallOK env W c) → Good env W s →
      ATrace env cs (absOf env s) (runCalls env cs s).1 (absOf env (runCalls env cs s).2) := by
    intro cs
    induction cs with
    | nil => intro s _ _; exact .nil
    | cons c cs ih =>
      intro s hcs hg
      rw [runCalls_cons]
      obtain ⟨h1, h2⟩ := sim_step hS hg c (hcs c (by simp))
      exact .cons h1 (ih _ (fun c' hc' => hcs c' (by simp [hc'])) h2)
  have := key cs Store.empty hc (Good.empty env W)
  rw [absOf_empty] at this
  exact ⟨_, this⟩

/-! ### C15 over histories -/

/-- Calls that may change the record of relationship `r` of policy `pid`. -/
def Touches (pid : String) (r : Relationship) : Call → Prop
  | .setRelationship _ q x _ | .deleteRelationship q x => q = pid ∧ x = some r
  | .deletePolicy q => q = pid
  | .deleteRelationships q sel => q = pid ∧ ∀ x, sel = some x → Matches x r
  | _ => False

theorem _root_.Zanzi.Spec.AStep.keeps {env : Env} {c : Call} {A A' : AState} {res : Res Answer} (h : AStep env c A res A') {pid : String} {r : Relationship}
    (hn : ¬ Touches pid r c) : A'.rels pid r = A.rels pid r := by
  cases h <;> try rfl
  case deletePolicy id rec n l _ _ _ _ =>
    dsimp only
    rw [upd_apply, if_neg (fun h => hn h.symm)]
  case set =>
    dsimp only
    rw [upd_upd_apply, if_neg]
    rintro ⟨rfl, rfl⟩
    exact hn ⟨rfl, rfl⟩
  case delete =>
    dsimp only
    rw [upd_upd_apply, if_neg]
    rintro ⟨rfl, rfl⟩
    exact hn ⟨rfl, rfl⟩
  case deleteMatching q sel n l _ _ _ =>
    dsimp only
    rw [upd_apply]
    split
    · next h =>
      subst h
      rw [if_neg]
      intro hm
      exact hn ⟨rfl, fun x hx => by cases hx; exact hm⟩
    · rfl

theorem _root_.Zanzi.Spec.ATrace.keeps {env : Env} {cs : List Call} {A A' : AState} {rs : List (Res Answer)} (h : ATrace env cs A rs A') {pid : String} {r : Relationship}
    (hn : ∀ c ∈ cs, ¬ Touches pid r c) : A'.rels pid r = A.rels pid r := by
  induction h with
  | nil => rfl
  | cons h1 _ ih =>
    rw [ih (fun c hc => hn c (by simp [hc])), h1.keeps (hn _ (by simp))]

/-- Full claim: a written record is returned until the relationship is overwritten or deleted.  Proved for histories as in C26: after any calls `pre`, a successful
SetRelationship, and any calls `post` none of which sets or deletes that relationship or deletes its policy, GetRelationship returns the written record. -/
theorem C15_read_until_changed_partial (env : Env) (W : String → Relationship → Prop) (hS : Sep env.H W) (pre post : List Call)
    (now : Timestamp) (pid : String) (r : Relationship) (a : Bytes) (ans : Answer) (s' : Store)
    (hpre : ∀ c ∈ pre, CallOK env W c) (hpost : ∀ c ∈ post, CallOK env W c) (hw : W pid r)
    (hset : serve env (.setRelationship now pid (some r) a) (runCalls env pre Store.empty).2 = (.ok ans, s'))
    (hn : ∀ c ∈ post, ¬ Touches pid r c) :
    (serve env (.getRelationship pid (some r)) (runCalls env post s').2).1 = .ok (.relationship (some ⟨pid, r, now, a⟩)) := by
  have key : ∀ (cs : List Call) (s : Store), (∀ c ∈ cs, CallOK env W c) → Good env W s →
      ATrace env cs (absOf env s) (runCalls env cs s).1 (absOf env (runCalls env cs s).2) ∧ Good env W (runCalls env cs s).2 := by
    intro cs
    induction cs with
    | nil => intro s _ h; exact ⟨.nil, h⟩
    | cons c cs ih =>
      intro s hcs hg
      rw [runCalls_cons]
      obtain ⟨h1, h2⟩ := sim_step hS hg c (hcs c (by simp))
      have := ih _ (fun c' hc' => hcs c' (by simp [hc'])) h2
      exact ⟨.cons h1 this.1, this.2⟩
  have hg1 := (key pre Store.empty hpre (Good.empty env W)).2
  have hstep := sim_step hS hg1 (.setRelationship now pid (some r) a) ⟨r, rfl, hw⟩
  rw [hset] at hstep
  obtain ⟨hst, hg2⟩ := hstep
  have hval : (absOf env s').rels pid r = some (a, now) := by
    generalize absOf env s' = A' at hst
    cases hst
    dsimp only
    rw [upd_upd_apply, if_pos ⟨rfl, rfl⟩]
  obtain ⟨htr, hg3⟩ := key post s' hpost hg2
  have hfin := htr.keeps hn
  rw [hval] at hfin
  have hget := (sim_step hS hg3 (.getRelationship pid (some r)) ⟨r, rfl, hw⟩).1
  generalize serve env (.getRelationship pid (some r)) (runCalls env post s').2 = y at hget
  obtain ⟨y1, y2⟩ := y
  dsimp only at hget ⊢
  generalize absOf env y2 = B at hget
  cases hget
  rw [hfin]
  rfl

/-- An instance of the hypotheses: relationships of policy "p" on numbered documents, a collision-free hash. -/
def wSet : String → Relationship → Prop := fun p r => p = "p" ∧ (r = rA ∨ r = ⟨some ⟨"doc", "2"⟩, "owner", some (.entity ⟨"user", "u"⟩)⟩)

example (H : String → Nat) (hH : Function.Injective H) : Sep H wSet := by
  have h1 : relKey H rA = (H "doc1super_owner", H "useru") := by
    rw [relKey_of eA_of]
    rfl
  have h2 : relKey H ⟨some ⟨"doc", "2"⟩, "owner", some (.entity ⟨"user", "u"⟩)⟩ = (H "doc2owner", H "useru") := by rfl
  refine ⟨?_, ?_⟩
  · rintro p r ⟨_, rfl | rfl⟩ <;> simp [RelationshipComplete, rA]
  · rintro p r q r' ⟨rfl, hr⟩ ⟨rfl, hr'⟩ hk
    refine ⟨rfl, ?_⟩
    rcases hr with rfl | rfl <;> rcases hr' with rfl | rfl
    · rfl
    · rw [h1, h2] at hk; exact absurd (hH (Prod.mk.inj hk).1) (by decide)
    · rw [h1, h2] at hk; exact absurd (hH (Prod.mk.inj hk).1) (by decide)
    · rfl

example (H : String → Nat) : CallOK (wEnv H) wSet (.setRelationship 1 "p" (some rA) []) ∧
    CallOK (wEnv H) wSet (.createPolicy 1 (some (.policy (docPolicy "p"))) []) ∧
    CallOK (wEnv H) wSet (.deleteRelationships "p" (some allSelector)) := by
  refine ⟨⟨rA, rfl, rfl, .inl rfl⟩, ⟨docPolicy "p", .inl rfl, ?_, ?_⟩, ⟨allSelector, rfl, allSelector_complete⟩⟩
  · simp [ExpressionsPresent, docPolicy]
  · simp [RestrictionsPresent, docPolicy]

end Zanzi
