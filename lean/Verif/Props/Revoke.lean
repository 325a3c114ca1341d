import Verif.Lemmas.Revoke

/-
Property C112: access can be revoked by following explanations.
Specification: Spec/Revoke.lean.
-/

namespace Zanzi

open Spec

section
variable {env : Env} {s s' : Store} {pid : String} {x : USet} {u : Entity}

theorem explains_policy {fuel : Nat} {t : GoalTree} {b : Bool} (h : Explains env s fuel pid x u t b) : ∃ rec, policyAt s pid = some rec := by
  cases hp : policyAt s pid with
  | some rec => exact ⟨rec, rfl⟩
  | none =>
    have he : (serve env (.explainCheck fuel pid (ask x u) .spew) s).1 = _ := congrArg Prod.fst (explainCheck_yields' env fuel pid (ask x u) .spew s)
    rw [show (serve env (.explainCheck fuel pid (ask x u) .spew) s).1 = _ from h] at he
    obtain ⟨q, hq, _⟩ := Res.bind_eq_ok.1 he.symm
    obtain ⟨_, _, h⟩ := Res.bind_eq_ok.1 hq
    obtain ⟨rec, h1, _⟩ := Res.bind_eq_ok.1 h
    unfold policyRes at h1
    rw [hp] at h1
    cases h1

/-- A stored successor is stored under the key of the relationship it stands for. -/
theorem succs_key (hs : WF env s) {y : USet} {sub : Subject} (hi : Immediate sub) (h : subjectNode sub ∈ succs env.H s pid y) :
    ∃ e, toInternal ⟨some y.object, y.relation, some sub⟩ = .ok e ∧ (kvGet (s.edges pid) (e.key env.H)).isSome = true := by
  unfold succs at h
  simp only [List.mem_map, List.mem_filter, decide_eq_true_eq] at h
  obtain ⟨e', ⟨⟨k, e⟩, ⟨hm, hkey⟩, rfl⟩, hn⟩ := h
  have hk := hs.edgeKey _ _ _ hm
  have key : ∀ d : INode, e.dest.key env.H = d.key env.H → (kvGet (s.edges pid) (IRel.key env.H ⟨⟨y.object.resource, y.object.id, y.relation, .objectSet⟩, d⟩)).isSome = true := by
    intro d hd
    have : IRel.key env.H ⟨⟨y.object.resource, y.object.id, y.relation, .objectSet⟩, d⟩ = k := by
      rw [hk] at hkey ⊢
      exact Prod.ext hkey.symm hd.symm
    rw [this, mem_kvGet (hs.edgeNodup pid) hm]
    rfl
  have hb := (hs.edgeNorm _ _ _ hm).back
  have hsub : subjectFromInternal e.dest = sub := by
    rw [← subjectNode_fromInternal] at hn
    generalize subjectFromInternal e.dest = sub' at hn
    cases sub <;> cases sub' <;> first | exact hi.elim | cases hn | skip
    all_goals rfl
  unfold fromInternal at hb
  rw [hsub] at hb
  cases sub with
  | entity o =>
    refine ⟨_, rfl, key _ ?_⟩
    have := Res.ok.inj hb
    rw [← this]
  | resourceSet n =>
    refine ⟨_, rfl, key _ ?_⟩
    have := Res.ok.inj hb
    rw [← this]
  | entitySet _ _ => exact hi.elim
  | unset => exact hi.elim

/-- Objects and wildcards at the top of an expansion are stored successors. -/
theorem tops_succs {H : String → Nat} {y : USet} {sub : Subject} (hi : Immediate sub) : ∀ {e : ExprTree} {t : GoalTree}, pBuild H s pid y e = .ok t → subjectNode sub ∈ t.tops → subjectNode sub ∈ succs H s pid y := by
  intro e
  induction e with
  | nil => intro t h; cases h
  | unset => intro t h; cases h
  | rule r =>
    intro t h hn
    unfold pBuild at h
    obtain ⟨ns, h1, h⟩ := Res.bind_eq_ok.1 h
    cases h
    obtain ⟨t, ht, hn⟩ := mem_topsList.1 hn
    obtain ⟨m, hm, rfl⟩ := List.mem_map.1 ht
    cases List.mem_singleton.1 hn
    cases r with
    | unset => cases h1
    | this => cases h1; exact hm
    | cu c =>
      cases h1
      have := List.mem_singleton.1 hm
      cases sub <;> first | exact hi.elim | cases this
    | ttu a b =>
      obtain ⟨m', hm', he⟩ := (mapSliceErr_mem h1).1 _ hm
      cases sub <;> first | exact hi.elim | (cases m' <;> cases he)
  | op l o r ihl ihr =>
    intro t h hn
    unfold pBuild at h
    obtain ⟨a, ha, h⟩ := Res.bind_eq_ok.1 h
    obtain ⟨b, hb, h⟩ := Res.bind_eq_ok.1 h
    have key : subjectNode sub ∈ a.tops ∨ subjectNode sub ∈ b.tops := by
      cases o
      · cases h; simpa [GoalTree.tops, topsList] using hn
      · cases h; simpa [GoalTree.tops, topsList] using hn
      · cases h; simpa [GoalTree.tops, topsList] using hn
      · cases h
    exact key.elim (ihl ha) (ihr hb)

theorem filter_drop {K V : Type} [DecidableEq K] {m : List (K × V)} (hn : KeysNodup m) {k : K} (h : (kvGet m k).isSome = true) :
    (m.filter (fun p => decide (p.1 ∉ [k]))).length + 1 = m.length := by
  obtain ⟨v, hv⟩ := Option.isSome_iff_exists.1 h
  have hm := kvGet_mem hv
  clear h hv
  induction m with
  | nil => cases hm
  | cons a m ih =>
    unfold KeysNodup at hn
    rw [List.map_cons, List.nodup_cons] at hn
    by_cases hk : a.1 = k
    · have hall : m.filter (fun p => decide (p.1 ∉ [k])) = m := by
        refine List.filter_eq_self.2 (fun p hp => decide_eq_true (fun hpk => hn.1 ?_))
        rw [hk, ← List.mem_singleton.1 hpk]
        exact List.mem_map_of_mem hp
      rw [List.filter_cons_of_neg (by simp [hk]), hall]
      rfl
    · rw [List.filter_cons_of_pos (by simp [hk])]
      rcases List.mem_cons.1 hm with rfl | hm
      · exact (hk rfl).elim
      · rw [List.length_cons, ih hn.2 hm, List.length_cons]

theorem explains_cites (hs : WF env s) {K : Relationship → Prop} {fuel : Nat} {t : GoalTree} {b : Bool} {r : Relationship} (h : Explains env s fuel pid x u t b) (hc : Cites none t r)
    (hK : ∀ (y : USet) sub, Immediate sub → subjectNode sub ∈ succs env.H s pid y → Names u (subjectNode sub) → K ⟨some y.object, y.relation, some sub⟩) : K r := by
  obtain ⟨rec, hp⟩ := explains_policy h
  obtain ⟨seen, _, h2, _⟩ := explain_ev hp h
  have hv := hs.policy_valid hp
  refine Ev.cites (u := u) (K := K) (fun n t ht hb => ?_) h2 none r (fun _ _ h => nomatch h) hc
  obtain ⟨y, rfl, e, _, he⟩ := bld_node hv.1 ht hb
  refine ⟨y, rfl, pBuild_fresh he, ?_⟩
  rintro m hm y' sub hy hi rfl hn
  obtain rfl := Option.some.inj hy
  exact hK _ _ hi (hs.policy_id hp ▸ tops_succs hi he hm) hn

/-- C112: whenever ExplainCheck grants, its tree cites a relationship. -/
theorem C112_grant_cites (hs : WF env s) {fuel : Nat} {t : GoalTree} (h : Explains env s fuel pid x u t true) : ∃ r, Cites none t r := by
  obtain ⟨rec, hp⟩ := explains_policy h
  obtain ⟨seen, _, h2, h3⟩ := explain_ev hp h
  have hv := hs.policy_valid hp
  have hr : t.result = .success := of_decide_eq_true h3.symm
  have hcited := Ev.cited (u := u) (fun n t ht hb => by
    obtain ⟨y, rfl, e, _, he⟩ := bld_node hv.1 ht hb
    exact ⟨⟨y, rfl⟩, (pBuild_formed he).1⟩) h2 hr x
  obtain ⟨r, hc⟩ := hcited
  refine ⟨r, ?_⟩
  have htop := (C44_results_justified hs hp h).2.2.1
  cases hc with
  | or _ _ => cases htop
  | and _ _ => cases htop
  | diff _ => cases htop
  | path hc => exact .path hc
  | @found _ sub _ hi => cases sub <;> first | exact hi.elim | cases htop

/-- C112: every relationship the tree cites names the user; deleting it answers that it was found, and takes exactly one relationship of this policy away. -/
theorem C112_cited_found (hs : WF env s) {fuel : Nat} {t : GoalTree} {b : Bool} {r : Relationship} (h : Explains env s fuel pid x u t b) (hc : Cites none t r) :
    NamesUser u r ∧ ∃ s', serve env (.deleteRelationship pid (some r)) s = (.ok (.found true), s') ∧ (relationships s' pid).length + 1 = (relationships s pid).length ∧
      (∀ q, Present s' pid q → Present s pid q) ∧ (∀ pid', pid' ≠ pid → relationships s' pid' = relationships s pid') ∧ s'.policies = s.policies := by
  refine explains_cites hs h hc (K := fun r => NamesUser u r ∧ ∃ s', serve env (.deleteRelationship pid (some r)) s = (.ok (.found true), s') ∧ (relationships s' pid).length + 1 = (relationships s pid).length ∧
    (∀ q, Present s' pid q → Present s pid q) ∧ (∀ pid', pid' ≠ pid → relationships s' pid' = relationships s pid') ∧ s'.policies = s.policies) (fun y sub hi hm hn => ⟨?_, ?_⟩)
  · cases sub with
    | entity e => rcases hn with hn | hn <;> cases hn; exact .inl rfl
    | resourceSet n => rcases hn with hn | hn <;> cases hn; exact .inr rfl
    | entitySet _ _ => exact hi.elim
    | unset => exact hi.elim
  · obtain ⟨e, he, hk⟩ := succs_key hs hi hm
    have hd := serve_delete (env := env) (s := s) (pid := pid) he
    rw [hk] at hd
    refine ⟨_, hd, ?_, fun q hq => ?_, fun pid' hne => ?_, rfl⟩
    · have := filter_drop (hs.edgeNodup pid) hk
      simpa [relationships, Store.delRels] using this
    · unfold Present relationships Store.delRels at hq
      simp only [if_true, List.mem_map, List.mem_filter] at hq
      obtain ⟨p, ⟨hp, _⟩, rfl⟩ := hq
      exact List.mem_map_of_mem hp
    · simp [relationships, Store.delRels, hne]

theorem subset_length {α : Type} [DecidableEq α] : ∀ {a b : List α}, a.Nodup → (∀ x ∈ a, x ∈ b) → a.length ≤ b.length
  | [], _, _, _ => Nat.zero_le _
  | x :: a, b, hn, h => by
    rw [List.nodup_cons] at hn
    have h1 := subset_length (b := b.erase x) hn.2 (fun y hy => (List.mem_erase_of_ne (fun he : y = x => hn.1 (he ▸ hy))).2 (h y (List.mem_cons_of_mem _ hy)))
    have hx := h x List.mem_cons_self
    rw [List.length_erase_of_mem hx] at h1
    have := List.length_pos_of_mem hx
    simp only [List.length_cons]
    omega

/-- Requests that set no relationship of the policy do not add any. -/
theorem other_length (hs : WF env s) {c : Call} (hc : ∀ now r a, c ≠ .setRelationship now pid (some r) a) :
    (relationships (serve env c s).2 pid).length ≤ (relationships s pid).length := by
  have h : Fewer env (fun _ => True) pid s (serve env c s).2 := (prog_noneOf env (N := fun _ => True) (fun now r a he => (hc now r a he).elim)).run
    (I := Fewer env (fun _ => True) pid s) (fun o t ho ht => ht.trans _ _ _ (noneOf_exec ho t)) (Fewer.refl s)
  unfold relationships
  rw [List.length_map, List.length_map, ← List.length_map (f := Prod.fst) (as := s.edges pid), ← List.length_map (f := Prod.fst)]
  refine subset_length ((hs.run c).edgeNodup pid) (fun k hk => ?_)
  obtain ⟨p, hp, rfl⟩ := List.mem_map.1 hk
  exact List.mem_map_of_mem (h.2 p hp trivial)

theorem Spec.Revoking.wf {n : Nat} (hs : WF env s) (h : Revoking env pid x u s n s') : WF env s' := by
  induction h with
  | start => exact hs
  | round _ _ _ ih => exact ih.run _
  | other _ _ ih => exact ih.run _

/-- C112: there are no more rounds than the policy has relationships. -/
theorem C112_rounds_bounded (hs : WF env s) {n : Nat} (h : Revoking env pid x u s n s') : n + (relationships s' pid).length ≤ (relationships s pid).length := by
  induction h with
  | start => simp
  | round h1 h2 h3 ih =>
    obtain ⟨_, s'', h4, h5, _⟩ := C112_cited_found (h1.wf hs) h2 h3
    rw [show Prog.run _ _ = _ from h4]
    dsimp only
    omega
  | other h1 h2 ih => exact Nat.le_trans (Nat.add_le_add_left (other_length (h1.wf hs) h2) _) ih

/-- C112: rounds of revocation end with a store in which neither ExplainCheck nor Check grants. -/
theorem C112_revocable (hs : WF env s) : ∃ n s', Revoking env pid x u s n s' ∧ n ≤ (relationships s pid).length ∧ (∀ fuel t, ¬ Explains env s' fuel pid x u t true) ∧
    ∀ fuel, ¬ Checks env s' fuel pid x u true := by
  have key : ∀ k n s', Revoking env pid x u s n s' → (relationships s' pid).length = k → ∃ n s', Revoking env pid x u s n s' ∧ ∀ fuel t, ¬ Explains env s' fuel pid x u t true := by
    intro k
    induction k with
    | zero =>
      intro n s' h hk
      refine ⟨n, s', h, fun fuel t he => ?_⟩
      obtain ⟨r, hr⟩ := C112_grant_cites (h.wf hs) he
      obtain ⟨_, _, _, h5, _⟩ := C112_cited_found (h.wf hs) he hr
      omega
    | succ k ih =>
      intro n s' h hk
      by_cases hg : ∃ fuel t, Explains env s' fuel pid x u t true
      · obtain ⟨fuel, t, he⟩ := hg
        obtain ⟨r, hr⟩ := C112_grant_cites (h.wf hs) he
        obtain ⟨_, s'', h4, h5, _⟩ := C112_cited_found (h.wf hs) he hr
        refine ih (n + 1) _ (h.round he hr) ?_
        rw [show Prog.run _ _ = _ from h4]
        dsimp only
        omega
      · exact ⟨n, s', h, fun fuel t he => hg ⟨fuel, t, he⟩⟩
  obtain ⟨n, s', h, hno⟩ := key _ 0 s .start rfl
  refine ⟨n, s', h, ?_, hno, fun fuel hc => ?_⟩
  · have := C112_rounds_bounded hs h
    omega
  · obtain ⟨t, ht⟩ := (C44_agreement env s' fuel pid (ask x u)).2.1 true hc
    exact hno fuel t ht

end

/-- A round happens: user:u has `any = a + b` by two relationships, and an explanation cites one of them. -/
example : ∃ s', Revoking gEnv "p" ⟨doc1, "any"⟩ usr abStore 1 s' ∧ (relationships s' "p").length = 1 := by
  obtain ⟨t, b, h1, h2⟩ := explains_of (env := gEnv) (s := abStore) (pid := "p") (x := ⟨doc1, "any"⟩) (u := usr) (fuel := 10) (f := fun _ b => b) (by decide +kernel)
  subst h2
  obtain ⟨r, hr⟩ := C112_grant_cites (gStore_wf _ _ _) h1
  obtain ⟨_, s', h3, h4, _⟩ := C112_cited_found (s := abStore) (gStore_wf _ _ _) h1 hr
  refine ⟨_, .round .start h1 hr, ?_⟩
  rw [show Prog.run _ _ = _ from h3]
  rw [abStore_rels] at h4
  exact Nat.succ.inj h4

/-- Also when keys collide: the tree cites doc:1#aa@user:u, which is not stored, and deleting it takes doc:1a#a@user:u away, which the grant rested on. -/
example : Explains gEnv aaStore 10 "p" ⟨doc1, "aa"⟩ usr aaTree true ∧ Cites none aaTree ⟨some doc1, "aa", some (.entity usr)⟩ ∧
    ¬ Present aaStore "p" ⟨some doc1, "aa", some (.entity usr)⟩ ∧
    ∃ s', Revoking gEnv "p" ⟨doc1, "aa"⟩ usr aaStore 1 s' ∧ relationships s' "p" = [] := by
  obtain ⟨hr, he, _⟩ := C44_expansion_violated
  have hc : Cites none aaTree ⟨some doc1, "aa", some (.entity usr)⟩ := .path (y' := ⟨doc1, "aa"⟩) (.or List.mem_cons_self (.found (y := ⟨doc1, "aa"⟩) (sub := .entity usr) trivial))
  refine ⟨he, hc, fun h => ?_, _, .round .start he hc, ?_⟩
  · unfold Present at h
    rw [hr] at h
    have := List.mem_singleton.1 h
    simp only [Relationship.mk.injEq, Option.some.injEq] at this
    exact absurd this.1 (by decide)
  · obtain ⟨_, s', h1, h2, _⟩ := C112_cited_found (s := aaStore) (gStore_wf _ _ _) he hc
    rw [hr] at h2
    rw [show Prog.run _ _ = _ from h1]
    exact List.length_eq_zero_iff.1 (by simpa using h2)

end Zanzi
