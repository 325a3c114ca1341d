import Verif.Lemmas.StoreRun

/-
Closed forms of API calls served alone without faults.
-/

namespace Zanzi

open Spec Prog

/-- The serving of one call. -/
abbrev serve (env : Env) (c : Call) (s : Store) : Res Answer × Store := (c.prog env).run s

variable {env : Env} {s : Store}

theorem runCalls_nil (env : Env) (s : Store) : runCalls env [] s = ([], s) := rfl

theorem runCalls_cons (env : Env) (c : Call) (cs : List Call) (s : Store) :
    runCalls env (c :: cs) s =
      ((serve env c s).1 :: (runCalls env cs (serve env c s).2).1, (runCalls env cs (serve env c s).2).2) := rfl

theorem runCalls_append (env : Env) (cs ds : List Call) (s : Store) :
    runCalls env (cs ++ ds) s =
      ((runCalls env cs s).1 ++ (runCalls env ds (runCalls env cs s).2).1, (runCalls env ds (runCalls env cs s).2).2) := by
  induction cs generalizing s with
  | nil => rfl
  | cons c cs ih => rw [List.cons_append, runCalls_cons, runCalls_cons, ih]; rfl

theorem run_map {α : Type} {p : Prog α} {f : α → Answer} {s : Store} :
    (do let x ← p; return f x : Prog Answer).run s = Res.andThen (p.run s) (fun a s => (.ok (f a), s)) := by
  rw [run_bind]
  rfl

theorem serve_getPolicy (id : String) : serve env (.getPolicy id) s = (.ok (.policy (kvGet s.policies id)), s) := rfl

theorem serve_listPolicyIds : serve env .listPolicyIds s = (.ok (.ids (s.policies.map (·.1))), s) := rfl

theorem getPolicyFromDefinition_ok_iff {d : Option PolicyDefinition} {p : Policy} :
    getPolicyFromDefinition env d = .ok p ↔ Defines env d p := by
  unfold getPolicyFromDefinition Defines
  cases d with
  | none => simp
  | some d => cases d <;> simp

/-- The store after writing a policy. -/
def Store.putPolicy (s : Store) (rec : PolicyRecord) : Store :=
  { s with policies := kvPut strLt s.policies rec.policy.id rec }

theorem run_setPolicy (rec : PolicyRecord) (s : Store) :
    (Repo.setPolicy rec).run s = (.ok (kvGet s.policies rec.policy.id).isSome, s.putPolicy rec) := by
  unfold Repo.setPolicy
  simp only [run_bind, run_polHas, andThen_ok, run_polSet, run_pure]
  rfl

/-- Outcome of CreatePolicy. -/
theorem serve_create (now : Timestamp) (d : Option PolicyDefinition) (a : Bytes) :
    serve env (.createPolicy now d a) s =
      match getPolicyFromDefinition env d with
      | .ok p =>
        match kvGet s.policies p.id with
        | some _ => (.err .policyExists, s)
        | none =>
          match verifyPolicy env.U p with
          | .ok () => (.ok (.created ⟨p, a, now⟩), s.putPolicy ⟨p, a, now⟩)
          | .err e => (.err e, s)
          | .panic => (.panic, s)
          | .fuel => (.fuel, s)
      | .err e => (.err e, s)
      | .panic => (.panic, s)
      | .fuel => (.fuel, s) := by
  show Prog.run (do let x ← Service.createPolicy env now d a; return Answer.created x) s = _
  rw [run_map]
  unfold Service.createPolicy
  cases getPolicyFromDefinition env d with
  | err => rfl
  | panic => rfl
  | fuel => rfl
  | ok p =>
    simp only [lift_ok_bind, run_bind]
    have : (Repo.getPolicy p.id).run s = (.ok (kvGet s.policies p.id), s) := rfl
    rw [this, andThen_ok]
    cases kvGet s.policies p.id with
    | some _ => rfl
    | none =>
      dsimp only
      cases verifyPolicy env.U p with
      | err => rfl
      | panic => rfl
      | fuel => rfl
      | ok u => simp only [lift_ok_bind, run_bind, run_setPolicy, andThen_ok, run_pure]

/-- Outcome of UpdatePolicy. -/
theorem serve_update (d : Option PolicyDefinition) (a : Bytes) :
    serve env (.updatePolicy d a) s =
      match getPolicyFromDefinition env d with
      | .ok p =>
        match kvGet s.policies p.id with
        | none => (.err .policyNotFound, s)
        | some rec =>
          match verifyPolicy env.U p with
          | .ok () => (.ok .updated, s.putPolicy ⟨p, a, rec.createdAt⟩)
          | .err e => (.err e, s)
          | .panic => (.panic, s)
          | .fuel => (.fuel, s)
      | .err e => (.err e, s)
      | .panic => (.panic, s)
      | .fuel => (.fuel, s) := by
  show Prog.run (do let _ ← Service.updatePolicy env d a; return Answer.updated) s = _
  rw [run_map]
  unfold Service.updatePolicy
  cases getPolicyFromDefinition env d with
  | err => rfl
  | panic => rfl
  | fuel => rfl
  | ok p =>
    simp only [lift_ok_bind, run_bind]
    have : (Repo.getPolicy p.id).run s = (.ok (kvGet s.policies p.id), s) := rfl
    rw [this, andThen_ok]
    cases kvGet s.policies p.id with
    | none => rfl
    | some _ =>
      dsimp only
      cases verifyPolicy env.U p with
      | err => rfl
      | panic => rfl
      | fuel => rfl
      | ok u => simp only [lift_ok_bind, run_bind, run_setPolicy, andThen_ok, run_pure]

/-- Outcome of SetRelationship. -/
theorem serve_set (now : Timestamp) (pid : String) (r : Option Relationship) (a : Bytes) :
    serve env (.setRelationship now pid r a) s =
      match kvGet s.policies pid with
      | none => (.err .policyNotFound, s)
      | some rec =>
        match allowedRelationship r (newLut rec.policy) with
        | .ok () =>
          Res.andThen ((do let r ← Prog.lift (Res.deref r); Repo.setRelationship env.H ⟨pid, r, now, a⟩ : Prog Bool).run s)
            (fun b s => (.ok (.overwritten b), s))
        | .err e => (.err e, s)
        | .panic => (.panic, s)
        | .fuel => (.fuel, s) := by
  show Prog.run (do let x ← Service.setRelationship env now pid r a; return Answer.overwritten x) s = _
  rw [run_map]
  unfold Service.setRelationship
  rw [run_bind]
  have : (Repo.getPolicy pid).run s = (.ok (kvGet s.policies pid), s) := rfl
  rw [this, andThen_ok]
  cases kvGet s.policies pid with
  | none => rfl
  | some rec =>
    dsimp only
    cases allowedRelationship r (newLut rec.policy) <;> rfl

theorem allowed_complete {r : Option Relationship} {l : Lut} (h : allowedRelationship r l = .ok ()) :
    ∃ r' e, r = some r' ∧ toInternal r' = .ok e := by
  unfold allowedRelationship at h
  simp only [relRequiredFields_ok] at h
  simp only [Res.bind_ok] at h
  rw [Res.bind_eq_ok] at h
  obtain ⟨_, h1, _⟩ := h
  unfold checkSymbols at h1
  cases r with
  | none => simp at h1
  | some r =>
    refine ⟨r, ?_⟩
    rw [exists_and_left]
    refine ⟨rfl, toInternal_complete.2 ?_⟩
    obtain ⟨o, rel, sb⟩ := r
    cases o with
    | none => simp at h1
    | some o =>
      simp only [Res.deref_some, Res.bind_ok] at h1
      split at h1
      · simp at h1
      · split at h1
        · simp at h1
        · cases sb with
          | none => simp at h1
          | some sb =>
            refine ⟨by simp, by simp, ?_⟩
            intro rel' hrel
            simp only [Option.some.injEq] at hrel
            subst hrel
            simp at h1

theorem serve_set_ok {now : Timestamp} {pid : String} {r : Relationship} {e : IRel} {a : Bytes} {rec : PolicyRecord}
    (hp : kvGet s.policies pid = some rec) (ha : allowedRelationship (some r) (newLut rec.policy) = .ok ())
    (he : toInternal r = .ok e) :
    serve env (.setRelationship now pid (some r) a) s =
      (.ok (.overwritten (kvGet (s.edges pid) (e.key env.H)).isSome), s.putRel env.H pid e a now) := by
  rw [serve_set, hp]
  simp only [ha, Res.deref_some, lift_ok_bind, run_repo_setRelationship he, andThen_ok]

/-- What a successful SetRelationship did. -/
theorem serve_set_inv {now : Timestamp} {pid : String} {r : Option Relationship} {a : Bytes} {ans : Answer} {s' : Store}
    (h : serve env (.setRelationship now pid r a) s = (.ok ans, s')) :
    ∃ r' e rec, r = some r' ∧ toInternal r' = .ok e ∧ kvGet s.policies pid = some rec ∧
      allowedRelationship (some r') (newLut rec.policy) = .ok () ∧
      ans = .overwritten (kvGet (s.edges pid) (e.key env.H)).isSome ∧ s' = s.putRel env.H pid e a now := by
  cases hp : kvGet s.policies pid with
  | none => rw [serve_set, hp] at h; simp at h
  | some rec =>
    cases ha : allowedRelationship r (newLut rec.policy) with
    | ok u =>
      obtain ⟨r', e, rfl, he⟩ := allowed_complete ha
      rw [serve_set_ok hp ha he] at h
      cases h
      exact ⟨r', e, rec, rfl, he, rfl, ha, rfl, rfl⟩
    | err => rw [serve_set, hp] at h; simp [ha] at h
    | panic => rw [serve_set, hp] at h; simp [ha] at h
    | fuel => rw [serve_set, hp] at h; simp [ha] at h

theorem serve_delete {pid : String} {r : Relationship} {e : IRel} (he : toInternal r = .ok e) :
    serve env (.deleteRelationship pid (some r)) s =
      (.ok (.found (kvGet (s.edges pid) (e.key env.H)).isSome), s.delRels pid [e.key env.H]) := by
  show Prog.run (do let x ← Repo.deleteRelationship env.H pid (some r); return Answer.found x) s = _
  rw [run_map, run_repo_deleteRelationship he]
  rfl

theorem serve_get {pid : String} {r : Relationship} {e : IRel} (he : toInternal r = .ok e) :
    serve env (.getRelationship pid (some r)) s =
      (.ok (.relationship ((kvGet s.data (e.key env.H)).map (fun d => ⟨pid, r, d.createdAt, d.appData⟩))), s) := by
  show Prog.run (do let x ← Repo.getRelationship env.H pid (some r); return Answer.relationship x) s = _
  rw [run_map, run_repo_getRelationship he, andThen_ok]
  congr 3
  cases kvGet s.data (e.key env.H) with
  | none => rfl
  | some d => simp [fromInternalRecord, fromInternal_toInternal he]

theorem serve_deleteMatching {sel : Selector} (hc : SelectorComplete sel) (hset : SelectorSet sel) (pid : String) :
    serve env (.deleteRelationships pid (some sel)) s =
      (.ok (.affected (matching s pid sel).length), s.delRels pid ((matching s pid sel).map (relKey env.H))) := by
  show Prog.run (do let x ← Repo.deleteRelationships env.H pid (some sel); return Answer.affected x) s = _
  rw [run_map, run_repo_deleteRelationships hc hset]
  rfl

theorem serve_find {sel : Selector} (hc : SelectorComplete sel) (hset : SelectorSet sel) (pid : String) :
    serve env (.findRelationshipRecords pid (some sel)) s =
      match kvGet s.policies pid with
      | none => (.err .policyNotFound, s)
      | some rec =>
        match validSelector (some sel) rec.policy with
        | .ok () => (.ok (.records ((matching s pid sel).map (fun r => (kvGet s.data (relKey env.H r)).map
            (fun d => { policyId := pid, relationship := r, createdAt := d.createdAt, appData := d.appData })))), s)
        | .err e => (.err e, s)
        | .panic => (.panic, s)
        | .fuel => (.fuel, s) := by
  show Prog.run (do let x ← Service.findRelationshipRecords env pid (some sel); return Answer.records x) s = _
  rw [run_map]
  unfold Service.findRelationshipRecords
  rw [run_bind]
  have : (Repo.getPolicy pid).run s = (.ok (kvGet s.policies pid), s) := rfl
  rw [this, andThen_ok]
  cases kvGet s.policies pid with
  | none => rfl
  | some rec =>
    dsimp only
    cases validSelector (some sel) rec.policy with
    | err => rfl
    | panic => rfl
    | fuel => rfl
    | ok u =>
      rw [lift_ok_bind, run_findRecords hc hset]
      rfl

theorem allSelector_complete : SelectorComplete allSelector ∧ SelectorSet allSelector := by
  simp [SelectorComplete, SelectorSet, allSelector]

theorem matches_all (r : Relationship) : Matches allSelector r := by simp [Matches, allSelector]

theorem matching_all (s : Store) (pid : String) : matching s pid allSelector = relationships s pid := by
  unfold matching
  exact List.filter_eq_self.2 (fun r _ => by simp [matches_all])

theorem serve_deletePolicy (id : String) :
    serve env (.deletePolicy id) s =
      if (kvGet s.policies id).isSome then
        (.ok (.deletedPolicy true (relationships s id).length),
          ({ s with policies := kvDel s.policies id } : Store).delRels id ((relationships s id).map (relKey env.H)))
      else (.ok (.deletedPolicy false 0), s) := by
  show Prog.run (do let x ← Service.deletePolicy env id; return Answer.deletedPolicy x.1 x.2) s = _
  rw [run_map]
  unfold Service.deletePolicy Repo.deletePolicy
  simp only [run_bind, run_polHas, andThen_ok]
  cases h : (kvGet s.policies id).isSome
  · rfl
  · simp only [if_true, run_bind, run_polDel, andThen_ok, run_pure]
    rw [run_repo_deleteRelationships allSelector_complete.1 allSelector_complete.2, andThen_ok, matching_all]
    rfl

theorem serve_delete_panic {env : Env} {s : Store} {pid : String} {r : Relationship} (he : toInternal r = .panic) :
    serve env (.deleteRelationship pid (some r)) s = (.panic, s) := by
  show Prog.run (do let x ← Repo.deleteRelationship env.H pid (some r); return Answer.found x) s = _
  rw [run_map]
  have : (Repo.deleteRelationship env.H pid (some r)).run s = (.panic, s) := by
    unfold Repo.deleteRelationship
    simp only [Res.deref_some, lift_ok_bind, he]
    rfl
  rw [this]
  rfl

/-- A SetRelationship that is not answered with success changes nothing. -/
theorem serve_set_unchanged {env : Env} {s s' : Store} {now : Timestamp} {pid : String} {rel : Option Relationship} {a : Bytes}
    {r : Res Answer} (h : serve env (.setRelationship now pid rel a) s = (r, s')) (hr : ∀ a, r ≠ .ok a) : s' = s := by
  cases hp : kvGet s.policies pid with
  | none => rw [serve_set, hp] at h; cases h; rfl
  | some rec =>
    cases ha : allowedRelationship rel (newLut rec.policy) with
    | ok u =>
      obtain ⟨r', e, rfl, he⟩ := allowed_complete ha
      rw [serve_set_ok hp ha he] at h
      cases h
      exact absurd rfl (hr _)
    | err => rw [serve_set, hp] at h; simp only [ha] at h; cases h; rfl
    | panic => rw [serve_set, hp] at h; simp only [ha] at h; cases h; rfl
    | fuel => rw [serve_set, hp] at h; simp only [ha] at h; cases h; rfl

theorem newSelectorSpec_complete {sel : Option Selector} {sp} (hn : newSelectorSpec sel = .ok sp) :
    ∃ x, sel = some x ∧ SelectorComplete x ∧ SelectorSet x := by
  unfold newSelectorSpec at hn
  cases sel with
  | none => simp at hn
  | some sel =>
    obtain ⟨o, rl, sb⟩ := sel
    refine ⟨_, rfl, ?_⟩
    cases o with
    | none => simp at hn
    | some o =>
    simp only [Res.deref_some, Res.bind_ok] at hn
    split at hn
    · simp at hn
    cases rl with
    | none => simp at hn
    | some rl =>
    simp only [Res.deref_some, Res.bind_ok] at hn
    split at hn
    · simp at hn
    cases sb with
    | none => simp at hn
    | some sb =>
    simp only [Res.deref_some, Res.bind_ok] at hn
    split at hn
    · simp at hn
    simp_all [SelectorComplete, SelectorSet]

/-- A bulk deletion either has a fully specified selector, or fails and changes nothing. -/
theorem serve_bulk_cases {env : Env} {s : Store} (pid : String) (sel : Option Selector) :
    (∃ x, sel = some x ∧ SelectorComplete x ∧ SelectorSet x) ∨
    ((∀ a, (serve env (.deleteRelationships pid sel) s).1 ≠ .ok a) ∧ (serve env (.deleteRelationships pid sel) s).2 = s) := by
  cases hn : newSelectorSpec sel with
  | ok sp => exact .inl (newSelectorSpec_complete hn)
  | err e =>
    right
    have : serve env (.deleteRelationships pid sel) s = (.err e, s) := by
      show Prog.run (do let x ← Repo.deleteRelationships env.H pid sel; return Answer.affected x) s = _
      rw [run_map]
      unfold Repo.deleteRelationships Repo.findRelationships
      simp [run_bind, hn, run_done]
    simp [this]
  | panic =>
    right
    have : serve env (.deleteRelationships pid sel) s = (.panic, s) := by
      show Prog.run (do let x ← Repo.deleteRelationships env.H pid sel; return Answer.affected x) s = _
      rw [run_map]
      unfold Repo.deleteRelationships Repo.findRelationships
      simp [run_bind, hn, run_done]
    simp [this]
  | fuel =>
    right
    have : serve env (.deleteRelationships pid sel) s = (.fuel, s) := by
      show Prog.run (do let x ← Repo.deleteRelationships env.H pid sel; return Answer.affected x) s = _
      rw [run_map]
      unfold Repo.deleteRelationships Repo.findRelationships
      simp [run_bind, hn, run_done]
    simp [this]

end Zanzi
