import Verif.Props.Policies

/-
What C07, C09, C10, C12 and C55 mean at the service: the checks of Props/Policy.lean decide what the calls accept.
-/

namespace Zanzi

open Spec

private theorem valid_at {env : Env} {s : Store} (hs : WF env s) {pid : String} {rec : PolicyRecord}
    (h : policyAt s pid = some rec) : ValidPolicy env.U rec.policy := by
  rw [policyAt_eq] at h
  exact (C09_validation_exact _ _).1 (hs.polValid _ _ (kvGet_mem h))

/-! ### C09 and C07: which policies CreatePolicy and UpdatePolicy accept -/

/-- C09 at the service: CreatePolicy succeeds exactly on a definition of a valid policy whose id is free, and
UpdatePolicy exactly on a definition of a valid policy whose id is taken. -/
theorem C09_service_accepts (env : Env) (s : Store) (now : Timestamp) (d : Option PolicyDefinition) (a : Bytes) :
    ((∃ ans, (serve env (.createPolicy now d a) s).1 = .ok ans) ↔
      ∃ p, Defines env d p ∧ policyAt s p.id = none ∧ ValidPolicy env.U p) ∧
    ((∃ ans, (serve env (.updatePolicy d a) s).1 = .ok ans) ↔
      ∃ p, Defines env d p ∧ policyAt s p.id ≠ none ∧ ValidPolicy env.U p) := by
  have hdef : ∀ p, Defines env d p ↔ getPolicyFromDefinition env d = .ok p := fun p => getPolicyFromDefinition_ok_iff.symm
  rw [serve_create, serve_update]
  simp only [hdef, policyAt_eq]
  cases getPolicyFromDefinition env d with
  | err => simp
  | panic => simp
  | fuel => simp
  | ok p =>
    simp only [Res.ok.injEq, exists_eq_left']
    have hv : ValidPolicy env.U p ↔ verifyPolicy env.U p = .ok () := (C09_validation_exact _ _).symm
    rw [hv]
    cases kvGet s.policies p.id <;> cases verifyPolicy env.U p <;> simp

/-- C07 at the service: a definition with a repeated resource or relation name is never accepted and changes
nothing; in particular the policies that CreatePolicy and UpdatePolicy store have unique names. -/
theorem C07_service_rejects_duplicates (env : Env) (s : Store) (now : Timestamp) (d : Option PolicyDefinition)
    (a : Bytes) (p : Policy) (hd : Defines env d p) (hu : ¬ NamesUnique p) :
    (policyAt s p.id = none → serve env (.createPolicy now d a) s = (.err .duplicateDefinition, s)) ∧
    (policyAt s p.id ≠ none → serve env (.updatePolicy d a) s = (.err .duplicateDefinition, s)) := by
  rw [serve_create, serve_update, getPolicyFromDefinition_ok_iff.2 hd, policyAt_eq]
  dsimp only
  rw [(C07_names_unique env.U p).2 hu]
  constructor
  · intro h; rw [h]
  · intro h
    cases hx : kvGet s.policies p.id with
    | none => exact absurd hx h
    | some => rfl

/-- An accepted definition, one refused for its names, and one refused because its id is free or taken. -/
example (H : String → Nat) :
    (∃ p, Defines (wEnv H) (some (.policy (docPolicy "r"))) p ∧ policyAt wStore p.id = none ∧ ValidPolicy (wEnv H).U p) ∧
    (∃ p, Defines (wEnv H) (some (.policy (docPolicy "p"))) p ∧ policyAt wStore p.id ≠ none ∧ ValidPolicy (wEnv H).U p) ∧
    ¬ NamesUnique { docPolicy "p" with resources := (docPolicy "p").resources ++ (docPolicy "p").resources } := by
  refine ⟨⟨_, .inl rfl, rfl, (C09_validation_exact _ _).1 ?_⟩, ⟨_, .inl rfl, ?_, (C09_validation_exact _ _).1 ?_⟩, fun h => ?_⟩
  · show verifyPolicy U0 (docPolicy "r") = .ok ()
    decide +kernel
  · rw [policyAt_eq]
    exact fun h => by have := wStore_pol "p" (.inl rfl); rw [show (docPolicy "p").id = "p" from rfl, this] at h; cases h
  · show verifyPolicy U0 (docPolicy "p") = .ok ()
    decide +kernel
  · have := (uniqueNames_ok_iff _).2 h
    revert this
    decide +kernel

/-! ### C12: which relationships SetRelationship accepts -/

/-- C12 at the service: SetRelationship succeeds exactly when the policy exists and the relationship is
admissible under it. -/
theorem C12_service_admits (env : Env) (s : Store) (hs : WF env s) (now : Timestamp) (pid : String)
    (r : Option Relationship) (a : Bytes) :
    (∃ ans, (serve env (.setRelationship now pid r a) s).1 = .ok ans) ↔
      ∃ rec r', policyAt s pid = some rec ∧ r = some r' ∧ Admissible rec.policy r' := by
  constructor
  · rintro ⟨ans, h⟩
    obtain ⟨r', e, rec, hr, -, hp, ha, -⟩ := serve_set_inv (s' := (serve env (.setRelationship now pid r a) s).2)
      (Prod.ext h rfl)
    rw [← policyAt_eq] at hp
    exact ⟨rec, r', hp, hr, (C12_admission_exact _ (valid_at hs hp).1 r').1 ha⟩
  · rintro ⟨rec, r', hp, rfl, ha⟩
    have ha' := (C12_admission_exact _ (valid_at hs hp).1 r').2 ha
    obtain ⟨r'', e, hr, he⟩ := allowed_complete ha'
    cases hr
    rw [policyAt_eq] at hp
    rw [serve_set_ok hp ha' he]
    exact ⟨_, rfl⟩

/-- C12 at the service, the refusals: an unknown policy is answered with "policy not found", a relationship that is
not admissible is not accepted, and neither changes the store. -/
theorem C12_service_refuses (env : Env) (s : Store) (hs : WF env s) (now : Timestamp) (pid : String)
    (r : Option Relationship) (a : Bytes) :
    (policyAt s pid = none → serve env (.setRelationship now pid r a) s = (.err .policyNotFound, s)) ∧
    (∀ rec, policyAt s pid = some rec → (∀ r', r = some r' → ¬ Admissible rec.policy r') →
      (∀ ans, (serve env (.setRelationship now pid r a) s).1 ≠ .ok ans) ∧
      (serve env (.setRelationship now pid r a) s).2 = s) := by
  refine ⟨fun h => ?_, fun rec hp hn => ?_⟩
  · rw [serve_set, ← policyAt_eq, h]
  · have hno : ∀ ans, (serve env (.setRelationship now pid r a) s).1 ≠ .ok ans := by
      intro ans h
      obtain ⟨rec', r', hp', hr, ha⟩ := (C12_service_admits env s hs now pid r a).1 ⟨ans, h⟩
      rw [hp] at hp'
      cases hp'
      exact hn r' hr ha
    refine ⟨hno, ?_⟩
    revert hno
    rw [serve_set, ← policyAt_eq, hp]
    dsimp only
    cases ha : allowedRelationship r (newLut rec.policy) with
    | ok u =>
      intro hno
      obtain ⟨r', e, rfl, he⟩ := allowed_complete ha
      simp [Res.deref_some, lift_ok_bind, run_repo_setRelationship he, andThen_ok] at hno
    | err => simp
    | panic => simp
    | fuel => simp

/-- A well-formed store, a relationship that is admissible there, and two that are not. -/
example (H : String → Nat) : WF (wEnv H) wStore ∧ policyAt wStore "p" = some ⟨docPolicy "p", [], 0⟩ ∧
    policyAt wStore "r" = none ∧ Admissible (docPolicy "p") rA ∧
    ¬ Admissible (docPolicy "p") { rA with relation := "nope" } ∧ ¬ Admissible (docPolicy "p") { rA with subject := none } := by
  have hv : NamesUnique (docPolicy "p") := ((C09_validation_exact U0 _).1 (by decide +kernel)).1
  refine ⟨wStore_wf H, ?_, rfl, (C12_admission_exact _ hv _).1 (by decide +kernel), fun h => ?_, fun h => ?_⟩
  · rw [policyAt_eq]; exact wStore_pol "p" (.inl rfl)
  · have := (C12_admission_exact _ hv _).2 h
    revert this
    decide +kernel
  · have := (C12_admission_exact _ hv _).2 h
    revert this
    decide +kernel

/-! ### C10: required fields -/

/-- C10 is violated at the service: CreatePolicy accepts a policy whose id, resource name and relation name are
empty, and SetRelationship then accepts a relationship all of whose names and ids are empty. -/
theorem C10_service_violated (H : String → Nat) :
    ∃ p r s₁ s₂ x y, ¬ PolicyFieldsOK p ∧ ¬ RelationshipNamesOK r ∧ ¬ RelationshipIdsOK r ∧
      serve (wEnv H) (.createPolicy 0 (some (.policy p)) []) Store.empty = (.ok x, s₁) ∧
      serve (wEnv H) (.setRelationship 0 p.id (some r) []) s₁ = (.ok y, s₂) := by
  let p : Policy := { id := "", resources := [{ name := "", relations := [
    { name := "", relationExpression := some (.tree (.rule .this)), subjectRestriction := some .universalSet }] }] }
  let r : Relationship := ⟨some ⟨"", ""⟩, "", some (.entity ⟨"", ""⟩)⟩
  have hv : verifyPolicy U0 p = .ok () := by decide +kernel
  have ha : allowedRelationship (some r) (newLut p) = .ok () := by decide +kernel
  obtain ⟨r', e, hr, he⟩ := allowed_complete ha
  cases hr
  refine ⟨p, r, Store.empty.putPolicy ⟨p, [], 0⟩, _, .created ⟨p, [], 0⟩, _, by simp [PolicyFieldsOK, p],
    by simp [RelationshipNamesOK, r], by simp [RelationshipIdsOK, r], ?_, serve_set_ok (rec := ⟨p, [], 0⟩) ?_ ha he⟩
  · rw [serve_create, getPolicyFromDefinition_ok_iff.2 (.inl rfl)]
    have h0 : kvGet Store.empty.policies p.id = none := rfl
    have hv' : verifyPolicy (wEnv H).U p = .ok () := hv
    simp only [h0, hv']
  · simp [Store.putPolicy, kvGet_put]

/-- C10 at the service, the part that holds: under a policy without empty names, SetRelationship accepts no
relationship with an empty resource or relation name.  Missing: the policy's own names and id, and entity ids. -/
theorem C10_service_partial (env : Env) (s : Store) (now : Timestamp) (pid : String) (r : Relationship) (a : Bytes)
    (rec : PolicyRecord) (hp : policyAt s pid = some rec) (hf : PolicyFieldsOK rec.policy)
    (hr : ¬ RelationshipNamesOK r) :
    (∀ ans, (serve env (.setRelationship now pid (some r) a) s).1 ≠ .ok ans) := by
  intro ans h
  obtain ⟨r', e, rec', hr', -, hp', ha, -⟩ := serve_set_inv (s' := (serve env (.setRelationship now pid (some r) a) s).2)
    (Prod.ext h rfl)
  rw [policyAt_eq, hp'] at hp
  cases hp
  cases hr'
  unfold allowedRelationship at ha
  simp only [relRequiredFields_ok] at ha
  simp only [Res.bind_ok] at ha
  rw [Res.bind_eq_ok] at ha
  obtain ⟨_, h1, _⟩ := ha
  exact hr (C10_required_fields_partial _ hf _ h1)

example (H : String → Nat) : policyAt wStore "p" = some ⟨docPolicy "p", [], 0⟩ ∧ PolicyFieldsOK (docPolicy "p") ∧
    ¬ RelationshipNamesOK { rA with relation := "" } := by
  refine ⟨?_, by simp [PolicyFieldsOK, docPolicy], by simp [RelationshipNamesOK]⟩
  rw [policyAt_eq]; exact wStore_pol "p" (.inl rfl)

/-! ### C55: which selectors FindRelationshipRecords accepts -/

/-- C55 is violated at the service: FindRelationshipRecords crashes on "any object, relation `owner`", and refuses
an entity-set subject that the policy declares. -/
theorem C55_service_violated (env : Env) (s : Store) (a : Bytes) (now : Timestamp)
    (hp : policyAt s "p1" = some ⟨exPolicy, a, now⟩) :
    (SelectorKnown exPolicy ⟨some .wildcard, some (.relationName "owner"), some .wildcard⟩ ∧
      serve env (.findRelationshipRecords "p1" (some ⟨some .wildcard, some (.relationName "owner"), some .wildcard⟩)) s =
        (.panic, s)) ∧
    (SelectorKnown exPolicy ⟨some .wildcard, some .wildcard,
        some (.subjectSpec (.entitySet (some ⟨"dir", "root"⟩) "viewer"))⟩ ∧
      serve env (.findRelationshipRecords "p1" (some ⟨some .wildcard, some .wildcard,
        some (.subjectSpec (.entitySet (some ⟨"dir", "root"⟩) "viewer"))⟩)) s = (.err .resourceNotFound, s)) := by
  obtain ⟨⟨h1, h2⟩, h3, h4⟩ := C55_selector_validation_violated
  rw [policyAt_eq] at hp
  refine ⟨⟨h1, ?_⟩, h3, ?_⟩
  · rw [serve_find (by simp [SelectorComplete]) (by simp [SelectorSet]), hp]
    simp only [h2]
  · rw [serve_find (by simp [SelectorComplete]) (by simp [SelectorSet]), hp]
    simp only [h4]

/-- C55 at the service, the part that holds: FindRelationshipRecords answers such a selector exactly when it names
only declared things, refuses it otherwise, and never crashes.  Missing: a relation name with any object, and
entity-set subjects. -/
theorem C55_service_partial (env : Env) (s : Store) (hs : WF env s) (pid : String) (rec : PolicyRecord)
    (hp : policyAt s pid = some rec) (sel : Selector) (hc : SelectorComplete sel) (hset : SelectorSet sel)
    (hw : sel.object = some .wildcard → sel.relation = some .wildcard)
    (hsub : ∀ sub, sel.subject = some (.subjectSpec sub) → (∃ e, sub = .entity e) ∨ ∃ n, sub = .resourceSet n) :
    ((∃ l, serve env (.findRelationshipRecords pid (some sel)) s = (.ok (.records l), s)) ↔ SelectorKnown rec.policy sel) ∧
    ((∃ e, serve env (.findRelationshipRecords pid (some sel)) s = (.err e, s)) ↔ ¬ SelectorKnown rec.policy sel) := by
  obtain ⟨h1, h2⟩ := C55_selector_validation_partial rec.policy (valid_at hs hp).1 sel hc hset hw hsub
  rw [serve_find hc hset, ← policyAt_eq, hp]
  dsimp only
  rw [← h2]
  revert h1
  cases validSelector (some sel) rec.policy <;> simp [Res.Normal]

/-- The hypotheses are met, by a known and by an unknown selector. -/
example (H : String → Nat) : policyAt (Store.empty.putPolicy ⟨exPolicy, [], 0⟩) "p1" = some ⟨exPolicy, [], 0⟩ ∧
    WF (wEnv H) (Store.empty.putPolicy ⟨exPolicy, [], 0⟩) ∧
    SelectorKnown exPolicy ⟨some (.resourceSpec "file"), some (.relationName "owner"), some (.subjectSpec (.entity ⟨"user", "u"⟩))⟩ ∧
    ¬ SelectorKnown exPolicy ⟨some (.resourceSpec "file"), some (.relationName "nope"), some .wildcard⟩ := by
  have hv : NamesUnique exPolicy := ((C09_validation_exact U0 _).1 (by decide +kernel)).1
  refine ⟨by rw [policyAt_eq]; simp [Store.putPolicy, kvGet_put, exPolicy], ?_, ?_, fun h => ?_⟩
  · have := (WF.empty (wEnv H)).run (.createPolicy 0 (some (.policy exPolicy)) [])
    rw [show Prog.run _ Store.empty = serve (wEnv H) (.createPolicy 0 (some (.policy exPolicy)) []) Store.empty from rfl,
      serve_create, getPolicyFromDefinition_ok_iff.2 (.inl rfl)] at this
    have h0 : kvGet Store.empty.policies exPolicy.id = none := rfl
    have hv' : verifyPolicy (wEnv H).U exPolicy = .ok () := by
      show verifyPolicy U0 exPolicy = .ok ()
      decide +kernel
    simpa only [h0, hv'] using this
  · exact ((C55_selector_validation_partial _ hv _ (by simp [SelectorComplete]) (by simp [SelectorSet]) (by simp)
      (by simp)).2).1 (by decide +kernel)
  · have := ((C55_selector_validation_partial _ hv _ (by simp [SelectorComplete]) (by simp [SelectorSet]) (by simp)
      (by simp)).2).2 h
    revert this
    decide +kernel

end Zanzi
