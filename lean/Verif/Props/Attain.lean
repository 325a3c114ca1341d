import Verif.Lemmas.Attain
import Verif.Props.Types
import Verif.Props.Grants

/-
Property C110: every kind of user the subject restrictions leave room for can be given access.
Specification: Spec/Types.lean, Spec/Graph.lean.
-/

namespace Zanzi

open Spec

theorem mayHold_declared {U : Unicode} {p : Policy} {t res rel : String} (h : MayHold U p t res rel) : HasRelation p res rel :=
  h (fun res rel => HasRelation p res rel) (fun _ _ d _ hd _ _ => ⟨d, hd⟩)

section
variable {env : Env} {p : Policy} {P : Char → Bool} {i : String} {u : Entity}

/-- A subject of a small relationship. -/
theorem Small.subject {r : Relationship} (h : Small p i u r) :
    ∃ res rel sub, r = ⟨some ⟨res, i⟩, rel, some sub⟩ ∧ HasRelation p res rel ∧
      ((∃ e : Entity, sub = .entity e ∧ HasResource p e.resource ∧ (e.id = i ∨ e.id = u.id)) ∨
        ∃ (e : Entity) (rel' : String), sub = .entitySet (some e) rel' ∧ HasRelation p e.resource rel' ∧ (e.id = i ∨ e.id = u.id)) := by
  obtain ⟨⟨⟨o, s, ho, hs, _, hr, hk⟩, _⟩, ⟨res, hres⟩, hsub⟩ := h
  obtain ⟨o', rel, s'⟩ := r
  simp only at ho hs hres hsub hr
  subst hres
  cases ho
  subst hs
  refine ⟨res, rel, s, rfl, hr, ?_⟩
  rcases hsub with hsub | ⟨res', hsub⟩ | ⟨res', rel', hsub⟩ <;> cases hsub
  · exact .inl ⟨_, rfl, hk, .inr rfl⟩
  · exact .inl ⟨_, rfl, hk, .inl rfl⟩
  · exact .inr ⟨_, _, rfl, hk, .inl rfl⟩

theorem styled_resource (hn : NamesStyled P p) {res : String} (h : HasResource p res) : NameStyle P res := by
  obtain ⟨r, h1, rfl⟩ := h
  exact (hn r h1).1

theorem styled_relation (hn : NamesStyled P p) {res rel : String} (h : HasRelation p res rel) : NameStyle P res ∧ NameStyle P rel := by
  obtain ⟨d, r, h1, rfl, h2, rfl⟩ := h
  exact ⟨(hn r h1).1, (hn r h1).2 d h2⟩

theorem has_resource {res rel : String} (h : HasRelation p res rel) : HasResource p res := by
  obtain ⟨d, r, h1, h2, _⟩ := h
  exact ⟨r, h1, h2⟩

theorem Small.style (hn : NamesStyled P p) (hi : IdentStyle P i) (hu : IdentStyle P u.id) {r : Relationship} (h : Small p i u r) : RelationshipStyle P r := by
  obtain ⟨res, rel, sub, rfl, hr, h⟩ := h.subject
  have hid : ∀ k, k = i ∨ k = u.id → IdentStyle P k := by rintro k (rfl | rfl) <;> assumption
  refine ⟨_, _, rfl, rfl, ⟨(styled_relation hn hr).1, hi⟩, (styled_relation hn hr).2, ?_⟩
  rcases h with ⟨e, rfl, h1, h2⟩ | ⟨e, rel', rfl, h1, h2⟩
  · exact ⟨styled_resource hn h1, hid _ h2⟩
  · exact ⟨⟨(styled_relation hn h1).1, hid _ h2⟩, (styled_relation hn h1).2⟩

/-- Small relationships have storage keys of their own. -/
theorem Small.key (hn : NamesStyled P p) (hi : IdentStyle P i) (hu : IdentStyle P u.id) (hH : CollisionFree env.H (HashedFor p i u.id)) {r r' : Relationship}
    (h : Small p i u r) (h' : Small p i u r') (hk : relKey env.H r = relKey env.H r') : r = r' := by
  have hid : ∀ k, k = i ∨ k = u.id → IdentStyle P k := by rintro k (rfl | rfl) <;> assumption
  have hch : ∀ {n : String}, NameStyle P n → n.toList.all (fun c => !P c) = true := fun h => List.all_eq_true.2 (fun c hc => by simp [(h.2 c hc).1])
  have mk : ∀ {r : Relationship}, Small p i u r → ∃ e, toInternal r = .ok e ∧ (IdStyle P e.source ∧ IdStyle P e.dest) ∧
      HashedFor p i u.id (nodeText e.source) ∧ HashedFor p i u.id (nodeText e.dest) := by
    intro r h
    obtain ⟨res, rel, sub, rfl, hr, h⟩ := h.subject
    have hs := styled_relation hn hr
    rcases h with ⟨e, rfl, h1, h2⟩ | ⟨e, rel', rfl, h1, h2⟩
    · exact ⟨⟨⟨res, i, rel, .objectSet⟩, ⟨e.resource, e.id, "", .object⟩⟩, rfl, ⟨⟨hch hs.1, hch hs.2, hs.2.1, hi.1, hi.2.1⟩,
        ⟨hch (styled_resource hn h1), rfl, rfl, (hid _ h2).1, (hid _ h2).2.1⟩⟩,
        ⟨res, i, rel, has_resource hr, .inl rfl, .inr ⟨_, hr⟩, .inl rfl⟩, ⟨e.resource, e.id, "", h1, h2, .inl rfl, .inl rfl⟩⟩
    · have hs' := styled_relation hn h1
      exact ⟨⟨⟨res, i, rel, .objectSet⟩, ⟨e.resource, e.id, rel', .objectSet⟩⟩, rfl, ⟨⟨hch hs.1, hch hs.2, hs.2.1, hi.1, hi.2.1⟩,
        ⟨hch hs'.1, hch hs'.2, hs'.2.1, (hid _ h2).1, (hid _ h2).2.1⟩⟩,
        ⟨res, i, rel, has_resource hr, .inl rfl, .inr ⟨_, hr⟩, .inl rfl⟩, ⟨e.resource, e.id, rel', has_resource h1, h2, .inr ⟨_, h1⟩, .inl rfl⟩⟩
  obtain ⟨e, h1, h2, h3, h4⟩ := mk h
  obtain ⟨e', h1', h2', h3', h4'⟩ := mk h'
  have hin : ∀ t, (∃ n ∈ [e.source, e.dest, e'.source, e'.dest], t = nodeText n) → HashedFor p i u.id t := by
    rintro t ⟨n, hn, rfl⟩
    simp only [List.mem_cons, List.not_mem_nil, or_false] at hn
    rcases hn with rfl | rfl | rfl | rfl <;> assumption
  exact C21_id_style_suffices env.H P r r' e e' (fun a b ha hb => hH a b (hin a ha) (hin b hb)) h1 h1' h2 h2' hk

/-- What a node reached through small relationships looks like. -/
def SmallNode (p : Policy) (i j : String) : RelationNode → Prop
  | .entitySet (some e) rel => HasRelation p e.resource rel ∧ (e.id = i ∨ e.id = j)
  | .entity (some e) => HasResource p e.resource ∧ (e.id = i ∨ e.id = j)
  | _ => False

theorem small_reaches (hv : ValidPolicy env.U p) (harr : ArrowsOK env.U.isIdent whiteSpace p) {R : Relationship → Prop} (hR : ∀ r, R r → Small p i u r) {g : USet}
    (hg : HasRelation p g.object.resource g.relation) (hgi : g.object.id = i) {n : RelationNode} (h : Reaches env.U p R g n) : SmallNode p i u.id n := by
  induction h with
  | start => exact ⟨hg, .inl hgi⟩
  | @step y n _ hw ih =>
    cases hw with
    | @this _ sub hd hl hr =>
      obtain ⟨res, rel, sub', he, _, h⟩ := (hR _ hr).subject
      simp only [Relationship.mk.injEq, Option.some.injEq] at he
      obtain ⟨_, _, rfl⟩ := he
      rcases h with ⟨e, rfl, h1, h2⟩ | ⟨e, rel', rfl, h1, h2⟩ <;> exact ⟨h1, h2⟩
    | @cu t c hd hl =>
      obtain ⟨d, ⟨r, h1, h2, h3, h4⟩, hden⟩ := hd
      obtain ⟨t', hden', _, hok⟩ := hv.2.2 r h1 d h3
      have : t = t' := DefinedBy.unique hv.1 (x := y) ⟨d, ⟨r, h1, h2, h3, h4⟩, hden⟩ ⟨d, ⟨r, h1, h2, h3, h4⟩, hden'⟩
      subst this
      have := hok _ hl
      rw [h2] at this
      exact ⟨this, ih.2⟩
    | @arrow t a b sub e hd hl hr hpt =>
      have hs := hR _ hr
      obtain ⟨d, ⟨r, h1, h2, h3, h4⟩, hden⟩ := hd
      obtain ⟨⟨_, _, ho, hsub, _, ⟨d', hd'⟩, _⟩, _⟩ := hs.1
      cases ho
      have hmp := admissible_points hv.1 hs.1 hd' hpt
      have := harr r h1 d h3 t hden a b hl d' (h2 ▸ hd') _ hmp
      refine ⟨this, ?_⟩
      obtain ⟨res, rel, sub', he, _, h⟩ := hs.subject
      simp only [Relationship.mk.injEq, Option.some.injEq] at he
      obtain ⟨_, _, rfl⟩ := he
      rcases h with ⟨e, rfl, _, h2⟩ | ⟨e, rel', rfl, _, h2⟩ <;> cases hpt <;> exact h2

end

/-- Full claim: for every accepted policy, object and user, if the subject restrictions leave room for users of this resource to have a relation of the object, then some relationships the policy
accepts make Check grant it.  Proved for policies whose expressions are unions with no part missing and whose arrows lead to declared relations, for ids and names that can be told apart when written
together and a hash without collisions on them.  Missing: arrows to undeclared relations (`C110_arrow_violated`), intersections (`C110_intersection_violated`), differences, colliding keys. -/
theorem C110_attainable_partial (env : Env) (p : Policy) (hv : ValidPolicy env.U p) (harr : ArrowsOK env.U.isIdent whiteSpace p)
    (hex : ∀ x t, DefinedBy env.U p x t → UnionOnly t ∧ Whole t) (P : Char → Bool) (hn : NamesStyled P p) (hpol : PolicyStyle P env.U p)
    (g : USet) (u : Entity) (hg : IdentStyle P g.object.id) (hu : IdentStyle P u.id) (hH : CollisionFree env.H (HashedFor p g.object.id u.id)) (now : Timestamp)
    (hm : MayHold env.U p u.resource g.object.resource g.relation) :
    ∃ rs, (∀ x ∈ (runCalls env (installs now p rs) Store.empty).1, ∃ ans, x = .ok ans) ∧
      ∃ n, ∀ fuel, n ≤ fuel → Checks env (runCalls env (installs now p rs) Store.empty).2 fuel p.id g u true := by
  obtain ⟨rs, hsm, hgr⟩ := mayHold_attained hv (fun x t h => unionOnly_diffFree (hex x t h).1) g.object.id hm
  refine ⟨rs, ?_⟩
  have hcreate : serve env (.createPolicy now (some (.policy p)) []) Store.empty = (.ok (.created ⟨p, [], now⟩), Store.empty.putPolicy ⟨p, [], now⟩) := by
    rw [serve_create]
    have h1 : getPolicyFromDefinition env (some (.policy p)) = .ok p := rfl
    have h2 : kvGet Store.empty.policies p.id = none := rfl
    have h3 : verifyPolicy env.U p = .ok () := (C09_validation_exact _ _).2 hv
    simp only [h1, h2, h3]
  have hpol0 : policyAt (Store.empty.putPolicy ⟨p, [], now⟩) p.id = some ⟨p, [], now⟩ := by
    rw [policyAt_eq]
    simp [Store.putPolicy, kvGet_put]
  have hwf0 : WF env (Store.empty.putPolicy ⟨p, [], now⟩) := by
    have := (WF.empty env).runCalls [.createPolicy now (some (.policy p)) []]
    have h2 : (runCalls env [.createPolicy now (some (.policy p)) []] Store.empty).2 = (serve env (.createPolicy now (some (.policy p)) []) Store.empty).2 := rfl
    rw [h2, hcreate] at this
    exact this
  have hnone : ∀ r, ¬ Present (Store.empty.putPolicy ⟨p, [], now⟩) p.id r := by
    intro r h
    cases (show r ∈ ([] : List Relationship) from h)
  obtain ⟨hok, hp, hpres⟩ := stored_all (env := env) now [] rs hwf0 hpol0 (fun r hr => (hsm r hr).1) (fun r r' h h' => by
    rcases h with h | h
    · exact Small.key hn hg hu hH (hsm r h) (hsm r' h')
    · exact absurd h (hnone r))
  have hrun : runCalls env (installs now p rs) Store.empty =
      (.ok (.created ⟨p, [], now⟩) :: (runCalls env (rs.map (fun r => .setRelationship now p.id (some r) [])) (Store.empty.putPolicy ⟨p, [], now⟩)).1,
        (runCalls env (rs.map (fun r => .setRelationship now p.id (some r) [])) (Store.empty.putPolicy ⟨p, [], now⟩)).2) := by
    show (let (r0, s') := serve env (.createPolicy now (some (.policy p)) []) Store.empty
          let (rs', s'') := runCalls env (rs.map (fun r => .setRelationship now p.id (some r) [])) s'
          (r0 :: rs', s'')) = _
    rw [hcreate]
  rw [hrun]
  refine ⟨fun x hx => ?_, ?_⟩
  · rcases List.mem_cons.1 hx with rfl | hx
    · exact ⟨_, rfl⟩
    · exact hok x hx
  simp only
  have hwf : WF env (runCalls env (rs.map (fun r => .setRelationship now p.id (some r) [])) (Store.empty.putPolicy ⟨p, [], now⟩)).2 := hwf0.runCalls _
  generalize (runCalls env (rs.map (fun r => .setRelationship now p.id (some r) [])) (Store.empty.putPolicy ⟨p, [], now⟩)).2 = s at hp hpres hwf
  have hR : Present s p.id = (· ∈ rs) := by
    funext r
    exact propext ((hpres r).trans (or_iff_left (hnone r)))
  have hdecl := mayHold_declared hm
  have hreach : ∀ n, Reaches env.U p (Present s p.id) g n → SmallNode p g.object.id u.id n := fun n h =>
    small_reaches hv harr (fun r hr => hsm r (by rw [hR] at hr; exact hr)) hdecl rfl h
  have hin : ∀ t, Hashed env.U p (Present s p.id) g t → HashedFor p g.object.id u.id t := by
    rintro t (⟨n, hn, ht⟩ | ⟨y, z, hy, hz, rfl⟩ | ⟨r, o, hr, ho, rfl⟩)
    · have := hreach n hn
      match n, this, ht with
      | .entitySet (some e) rel, this, ht => cases ht; exact ⟨_, _, rel, has_resource this.1, this.2, .inr ⟨_, this.1⟩, .inr rfl⟩
      | .entity (some e), this, ht => cases ht; exact ⟨_, _, "", this.1, this.2, .inl rfl, .inr (by simp)⟩
    · have hy' := hreach _ hy
      rcases hz with rfl | ⟨t, a, b, ⟨d, ⟨r, h1, h2, h3, h4⟩, hden⟩, hl, rfl⟩
      · exact ⟨_, _, _, has_resource hy'.1, hy'.2, .inr ⟨_, hy'.1⟩, .inl rfl⟩
      · obtain ⟨t', hden', _, hok⟩ := hv.2.2 r h1 d h3
        have : t = t' := DefinedBy.unique hv.1 (x := y) ⟨d, ⟨r, h1, h2, h3, h4⟩, hden⟩ ⟨d, ⟨r, h1, h2, h3, h4⟩, hden'⟩
        subst this
        exact ⟨_, _, _, has_resource hy'.1, hy'.2, .inr ⟨_, hok _ hl⟩, .inl rfl⟩
    · obtain ⟨res, rel, sub, rfl, hrel, _⟩ := (hsm r (by rw [hR] at hr; exact hr)).subject
      cases ho
      exact ⟨_, _, _, has_resource hrel, .inl rfl, .inr ⟨_, hrel⟩, .inl rfl⟩
  have hclear : KeysClear env.U env.H p (Present s p.id) g ∧ IdsClear env.U env.H p (Present s p.id) g := by
    exact style_suffices P (fun a b ha hb => hH a b (hin a ha) (hin b hb)) hpol (fun r hr => (hsm r (by rw [hR] at hr; exact hr)).style hn hg hu) ⟨⟨(styled_relation hn hdecl).1, hg⟩, (styled_relation hn hdecl).2⟩
  obtain ⟨n, hn'⟩ := C49_check_outcome_partial (u := u) hwf hp hclear.1
  refine ⟨n, fun fuel hf => ?_⟩
  have hread : ∀ y : USet, Reaches env.U p (Present s p.id) g y.node → Readable env.U p y := by
    intro y hy
    obtain ⟨⟨d, hd⟩, _⟩ := hreach _ hy
    obtain ⟨r, h1, h2, h3, h4⟩ := hd
    obtain ⟨t, ht, _⟩ := hv.2.2 r h1 d h3
    exact ⟨t, ⟨d, ⟨r, h1, h2, h3, h4⟩, ht⟩, (hex y t ⟨d, ⟨r, h1, h2, h3, h4⟩, ht⟩).2⟩
  rcases hn' fuel hf with ⟨b, hb⟩ | ⟨_, y, hy, hny⟩ | ⟨_, y, hy, e, a, b, m, _, _, hr⟩
  · have := C37_complete_partial hwf hp hclear.1 hclear.2 (fun y t _ hd => (hex y t hd).1) hb (by rw [hR]; exact hgr)
    rw [this] at hb
    exact hb
  · exact absurd (hread y hy) hny
  · rw [hR] at hr
    obtain ⟨_, _, hs⟩ := hsm _ hr
    rcases hs with hs | ⟨_, hs⟩ | ⟨_, _, hs⟩ <;> cases hs

/-- Documents are viewed by their owners and the owners of the folder they are in. -/
def homePolicy : Policy :=
  { id := "p"
    resources := [
      { name := "user", relations := [] },
      { name := "folder", relations := [kind "owner" [.entity "user"]] },
      { name := "doc", relations := [kind "parent" [.entity "folder"], kind "owner" [.entity "user"],
        { kind "viewer" [] with relationExpression := some (.tree (.op (.rule (.cu "owner")) .union (.rule (.ttu "parent" "owner")))) }] }] }

/-- The declarations of the policy. -/
theorem home_rel {d : Relation} (h : ∃ r ∈ homePolicy.resources, d ∈ r.relations) :
    d = kind "owner" [.entity "user"] ∨ d = kind "parent" [.entity "folder"] ∨
      d = { kind "viewer" [] with relationExpression := some (.tree (.op (.rule (.cu "owner")) .union (.rule (.ttu "parent" "owner")))) } := by
  obtain ⟨r, h1, h2⟩ := h
  simp only [homePolicy, List.mem_cons, List.not_mem_nil, or_false] at h1
  rcases h1 with rfl | rfl | rfl
  · cases h2
  · simp only [List.mem_cons, List.not_mem_nil, or_false] at h2
    exact .inl h2
  · simp only [List.mem_cons, List.not_mem_nil, or_false] at h2
    rcases h2 with h | h | h
    · exact .inr (.inl h)
    · exact .inl h
    · exact .inr (.inr h)

/-- The hypotheses of `C110_attainable_partial` hold: user:7 can be given relation viewer of doc:1. -/
example : ValidPolicy gEnv.U homePolicy ∧ ArrowsOK gEnv.U.isIdent whiteSpace homePolicy ∧ (∀ x t, DefinedBy gEnv.U homePolicy x t → UnionOnly t ∧ Whole t) ∧
    NamesStyled Char.isDigit homePolicy ∧ PolicyStyle Char.isDigit gEnv.U homePolicy ∧ IdentStyle Char.isDigit "1" ∧ IdentStyle Char.isDigit "7" ∧
    CollisionFree gEnv.H (HashedFor homePolicy "1" "7") ∧ MayHold gEnv.U homePolicy "user" "doc" "viewer" := by
  have hden : ∀ d t, (∃ r ∈ homePolicy.resources, d ∈ r.relations) → Denotes gEnv.U.isIdent whiteSpace d t →
      t = .rule .this ∨ (d.name = "viewer" ∧ t = .op (.rule (.cu "owner")) .union (.rule (.ttu "parent" "owner"))) := by
    intro d t hd ht
    rcases home_rel hd with rfl | rfl | rfl <;> rcases ht with ht | ⟨_, _, ht, _⟩ <;> cases ht
    · exact .inl rfl
    · exact .inl rfl
    · exact .inr ⟨rfl, rfl⟩
  refine ⟨(C09_validation_exact U0 _).1 (by decide +kernel), ?_, ?_, ?_, ?_, ?_, ?_, fun _ _ _ _ => Hx_inj, ?_⟩
  · intro r hr d hd t ht a b hl d' hd' res hres
    rcases hden d t ⟨r, hr, hd⟩ ht with rfl | ⟨_, rfl⟩
    · simp [leaves] at hl
    · simp only [leaves, List.mem_append, List.mem_singleton, Rule.ttu.injEq, reduceCtorEq, false_or] at hl
      obtain ⟨rfl, rfl⟩ := hl
      obtain ⟨r', h1, h2, h3, h4⟩ := hd'
      have hrs : d'.subjectRestriction = some (.restrictionSet [.entity "folder"]) := by
        rcases home_rel ⟨r', h1, h3⟩ with rfl | rfl | rfl
        · exact absurd (show "owner" = "parent" from h4) (by decide)
        · rfl
        · exact absurd (show "viewer" = "parent" from h4) (by decide)
      rcases hres with ⟨h, _⟩ | ⟨rs, h, hm⟩
      · rw [hrs] at h; cases h
      · rw [hrs] at h
        cases h
        simp only [List.mem_singleton, Restriction.entity.injEq, reduceCtorEq, exists_false, or_false] at hm
        subst hm
        exact ⟨_, _, .tail _ (.head _), rfl, .head _, rfl⟩
  · rintro x t ⟨d, ⟨r, h1, _, h3, _⟩, ht⟩
    rcases hden d t ⟨r, h1, h3⟩ ht with rfl | ⟨_, rfl⟩ <;> simp [UnionOnly, Whole]
  · unfold NamesStyled NameStyle homePolicy; decide +kernel
  · rintro x t ⟨d, ⟨r, h1, _, h3, _⟩, ht⟩ rule hrule
    rcases hden d t ⟨r, h1, h3⟩ ht with rfl | ⟨_, rfl⟩
    · simp only [leaves, List.mem_singleton] at hrule
      subst hrule
      trivial
    · simp only [leaves, List.mem_append, List.mem_singleton] at hrule
      rcases hrule with rfl | rfl
      · show NameStyle _ _
        unfold NameStyle; decide +kernel
      · show NameStyle _ _ ∧ NameStyle _ _
        unfold NameStyle; decide +kernel
  · exact ⟨⟨'1', by decide +kernel, by decide +kernel⟩, ⟨'1', by decide +kernel, by decide +kernel⟩, by decide +kernel⟩
  · exact ⟨⟨'7', by decide +kernel, by decide +kernel⟩, ⟨'7', by decide +kernel, by decide +kernel⟩, by decide +kernel⟩
  · intro V hV
    have hown : V "doc" "owner" := hV _ _ (kind "owner" [.entity "user"]) (.rule .this) ⟨_, .tail _ (.tail _ (.head _)), rfl, .tail _ (.head _), rfl⟩ (.inl rfl)
      (.inl (.inr ⟨_, rfl, .head _⟩))
    exact hV _ _ _ _ ⟨_, .tail _ (.tail _ (.head _)), rfl, .tail _ (.tail _ (.head _)), rfl⟩ (.inl rfl) (.inl hown)

/-- Documents are viewed by whoever has relation missing of their folder, which folders do not declare, or owns the folder. -/
def lostPolicy : Policy :=
  { id := "p"
    resources := [
      { name := "user", relations := [] },
      { name := "folder", relations := [kind "owner" [.entity "user"]] },
      { name := "doc", relations := [kind "parent" [.entity "folder"],
        { kind "viewer" [.entity "user"] with relationExpression := some (.tree (.op (.rule (.ttu "parent" "missing")) .union (.rule (.ttu "parent" "owner")))) }] }] }

theorem lostPolicy_valid : ValidPolicy U0 lostPolicy := (C09_validation_exact U0 _).1 (by decide +kernel)

/-- No resource declares relation missing. -/
theorem lost_missing (o : Entity) (t : ExprTree) : ¬ DefinedBy U0 lostPolicy ⟨o, "missing"⟩ t := by
  rintro ⟨d, ⟨r, h1, h2, h3, h4⟩, _⟩
  simp only [lostPolicy, List.mem_cons, List.not_mem_nil, or_false] at h1
  rcases h1 with rfl | rfl | rfl
  · cases h3
  · simp only [List.mem_cons, List.not_mem_nil, or_false] at h3
    subst h3
    exact absurd (show "owner" = "missing" from h4) (by decide)
  · simp only [List.mem_cons, List.not_mem_nil, or_false] at h3
    rcases h3 with rfl | rfl
    · exact absurd (show "parent" = "missing" from h4) (by decide)
    · exact absurd (show "viewer" = "missing" from h4) (by decide)

theorem suffix_ne {a b : String} (h : a ++ "missing" = b ++ "viewer") : False := by
  have h1 := congrArg (fun s => s.toList.reverse.head?) h
  simp [String.toList_append] at h1

/-- **C110** is violated: users can own folders and folders can be parents of documents, so the restrictions leave room for users to view documents.  But in every store with this policy, Check
grants nobody: whenever a document has a parent, it fails at the undeclared relation before it comes to the owners. -/
theorem C110_arrow_violated :
    ValidPolicy U0 lostPolicy ∧ MayHold U0 lostPolicy "user" "doc" "viewer" ∧
    ∀ (s : Store) (rec : PolicyRecord), policyAt s "p" = some rec → rec.policy = lostPolicy → ∀ (i : String) (u : Entity) (fuel : Nat),
      ¬ Checks gEnv s fuel "p" ⟨⟨"doc", i⟩, "viewer"⟩ u true := by
  refine ⟨lostPolicy_valid, fun V hV => ?_, fun s rec hp hr i u fuel h => ?_⟩
  · have hown : V "folder" "owner" := hV _ _ (kind "owner" [.entity "user"]) (.rule .this) ⟨_, .tail _ (.head _), rfl, .head _, rfl⟩ (.inl rfl) (.inl (.inr ⟨_, rfl, .head _⟩))
    exact hV _ _ _ _ ⟨_, .tail _ (.tail _ (.head _)), rfl, .tail _ (.head _), rfl⟩ (.inl rfl)
      (.inr ⟨kind "parent" [.entity "folder"], "folder", ⟨_, .tail _ (.tail _ (.head _)), rfl, .head _, rfl⟩, .inr ⟨_, rfl, .inl (.head _)⟩, hown⟩)
  · obtain ⟨t, seen, _, hev, hb⟩ := check_ev hp h
    have ht : t.result = .success := by simpa using hb.symm
    have hev0 := hev
    have hvd := lostPolicy_valid
    rw [← hr] at hvd
    cases hev with
    | repeated _ h => cases h
    | ended _ _ h1 h2 => cases h1; cases h2
    | @expanded _ _ id b t0 t1 _ _ hid _ hg _ hbld hev1 =>
      cases hid
      obtain ⟨e, hd, hbe⟩ := bld_ok hvd.1 hbld
      have hd' : DefinedBy gEnv.U rec.policy ⟨⟨"doc", i⟩, "viewer"⟩ (.op (.rule (.ttu "parent" "missing")) .union (.rule (.ttu "parent" "owner"))) := by
        rw [hr]
        exact ⟨_, ⟨_, .tail _ (.tail _ (.head _)), rfl, .tail _ (.head _), rfl⟩, .inl rfl⟩
      obtain rfl := DefinedBy.unique hvd.1 hd hd'
      unfold pBuild at hbe
      obtain ⟨a, ha, hbe⟩ := Res.bind_eq_ok.1 hbe
      obtain ⟨b, hb', hbe⟩ := Res.bind_eq_ok.1 hbe
      cases hbe
      unfold pBuild at ha hb'
      obtain ⟨ns, hns, ha⟩ := Res.bind_eq_ok.1 ha
      obtain ⟨ms, hms, hb'⟩ := Res.bind_eq_ok.1 hb'
      cases ha
      cases hb'
      have hns' := mapSliceErr_mem (show mapSliceErr (buildTtuNode "missing") (succs gEnv.H s rec.policy.id ⟨⟨"doc", i⟩, "parent"⟩) = .ok ns from hns)
      have hms' := mapSliceErr_mem (show mapSliceErr (buildTtuNode "owner") (succs gEnv.H s rec.policy.id ⟨⟨"doc", i⟩, "parent"⟩) = .ok ms from hms)
      cases ns with
      | nil =>
        have hm0 : ms = [] := by
          cases ms with
          | nil => rfl
          | cons m ms =>
            obtain ⟨a, h1, _⟩ := hms'.1 m List.mem_cons_self
            obtain ⟨b, h2, _⟩ := hns'.2 a h1
            cases h2
        subst hm0
        cases hev1 with
        | or hor =>
          cases hor with
          | orStop h1 h2 => cases h1 with | or h1 => cases h1; cases h2
          | orGo h1 h2 h3 =>
            cases h3 with
            | orStop h1 h2 => cases h1 with | or h1 => cases h1; cases h2
            | orGo _ _ h3 => cases h3; cases ht
      | cons n ns =>
        have hn : ∃ o, n = .entitySet o "missing" := by
          obtain ⟨a, _, h2⟩ := hns'.1 n List.mem_cons_self
          cases a <;> cases h2 <;> exact ⟨_, rfl⟩
        obtain ⟨o, rfl⟩ := hn
        have key : ∀ t s', ¬ Ev gEnv.H (Builds (bld gEnv rec.policy s)) (userGoal u) (.path (.entitySet o "missing") (reasonBuilder (.ttu "parent" "missing")))
            [gEnv.H ("doc" ++ "/" ++ i ++ "/" ++ "viewer")] (.tree t) s' := by
          intro t s' h
          cases h with
          | @repeated _ _ id _ h1 h2 =>
            cases o with
            | none => cases h1
            | some o =>
              cases h1
              simp only [List.mem_singleton] at h2
              exact suffix_ne (Hx_inj h2)
          | ended _ _ h1 h2 => cases h1; cases h2
          | expanded h1 _ _ _ h3 _ =>
            cases o with
            | none => cases h1
            | some o =>
              obtain ⟨e, hd, _⟩ := bld_ok (x := ⟨o, "missing"⟩) hvd.1 h3
              rw [hr] at hd
              exact lost_missing o e hd
        have first : ∀ t s', ¬ Ev gEnv.H (Builds (bld gEnv rec.policy s)) (userGoal u)
            (.tree (.or .unknown (.leaf .unknown (.entitySet o "missing") (reasonBuilder (.ttu "parent" "missing")) :: ns.map (fun n => .leaf .unknown n (reasonBuilder (.ttu "parent" "missing"))))))
            [gEnv.H ("doc" ++ "/" ++ i ++ "/" ++ "viewer")] (.tree t) s' := by
          intro t s' h
          cases h with
          | or h =>
            cases h with
            | orStop h _ => cases h with | leaf h => exact key _ _ h
            | orGo h _ _ => cases h with | leaf h => exact key _ _ h
        cases hev1 with
        | or hor =>
          cases hor with
          | orStop h _ => exact first _ _ h
          | orGo h _ _ => exact first _ _ h

/-- Documents with relations a, b and c of users, and all, which is `(a & b) & c`. -/
def allPolicy : Policy :=
  { id := "p"
    resources := [
      { name := "user", relations := [] },
      { name := "doc", relations := [kind "a" [.entity "user"], kind "b" [.entity "user"], kind "c" [.entity "user"],
        { kind "all" [.entity "user"] with
          relationExpression := some (.tree (.op (.op (.rule (.cu "a")) .intersection (.rule (.cu "b"))) .intersection (.rule (.cu "c")))) }] }] }

/-- The visit identifiers at which a search for user `u` succeeds. -/
def hits (H : String → Nat) (u : Entity) : List Nat := [H (u.resource ++ "/" ++ u.id ++ "/"), H (u.resource ++ "/" ++ "/")]

theorem or_hits {H : String → Nat} {build : RelationNode → GoalTree → Prop} {u : Entity} {reason : String} : ∀ {ns : List RelationNode} {s s' : List Nat} {l : List GoalTree},
    (∀ n ∈ ns, n.isTerminal = true) → Ev H build (userGoal u) (.or (ns.map (fun n => .leaf .unknown n reason))) s (.list l true) s' →
    ∃ id ∈ hits H u, id ∉ s ∧ id ∈ s' := by
  intro ns
  induction ns with
  | nil => intro s s' l _ h; cases h
  | cons n ns ih =>
    intro s s' l ht h
    cases h with
    | orStop h hr =>
      cases h with
      | leaf h =>
        cases h with
        | repeated _ _ => cases hr
        | @ended _ _ id b _ hid hns hg _ =>
          refine ⟨id, ?_, hns, List.mem_cons_self⟩
          cases b with
          | false => cases hr
          | true =>
            cases n with
            | entity o =>
              cases o with
              | none => cases hid
              | some o =>
                cases hid
                have hg' : (decide (u.resource = o.resource) && decide (u.id = o.id)) = true := Res.ok.inj hg
                simp only [Bool.and_eq_true, decide_eq_true_eq] at hg'
                simp [hits, hg'.1, hg'.2]
            | wildcard r =>
              cases hid
              have hg' : decide (r = u.resource) = true := Res.ok.inj hg
              simp [hits, of_decide_eq_true hg']
            | entitySet o rel => cases hg
            | unset => cases hg
        | expanded _ _ _ hb => rw [ht n List.mem_cons_self, Bool.or_true] at hb; cases hb
    | orGo h _ h2 =>
      obtain ⟨id, h3, h4, h5⟩ := ih (fun m hm => ht m (List.mem_cons_of_mem _ hm)) h2
      exact ⟨id, h3, fun hm => h4 (h.seen_mono hm), h5⟩

/-- A relation of plain objects and wildcards that the search finds the user in uses up one of two visit identifiers. -/
theorem cu_hits {s : Store} {p : Policy} (hv : NamesUnique p) (hsub : ∀ y n, n ∈ succs Hx s p.id y → n.isTerminal = true) {y : USet} (hd : DefinedBy U0 p y (.rule .this)) {u : Entity}
    {reason : String} {sn sn' : List Nat} {t : GoalTree}
    (h : Ev Hx (Builds (bld gEnv p s)) (userGoal u) (.tree (.or .unknown [.leaf .unknown y.node reason])) sn (.tree t) sn') (ht : t.result ≠ .failure) :
    ∃ id ∈ hits Hx u, id ∉ sn ∧ id ∈ sn' := by
  cases h with
  | @or _ _ _ b _ _ h =>
    cases b with
    | false => exact absurd rfl ht
    | true =>
      cases h with
      | orGo _ _ h => cases h
      | orStop h hr =>
        cases h with
        | leaf h =>
          cases h with
          | repeated => cases hr
          | ended _ _ h1 h2 => cases h1; cases h2
          | expanded _ hn _ _ hb h =>
            obtain ⟨e, hd', hbe⟩ := bld_ok (env := gEnv) hv hb
            obtain rfl := DefinedBy.unique hv hd hd'
            unfold pBuild at hbe
            obtain ⟨ns, hns, hbe⟩ := Res.bind_eq_ok.1 hbe
            cases hbe
            cases hns
            cases h with
            | @or _ _ _ b _ _ h =>
              cases b with
              | false => cases hr
              | true =>
                obtain ⟨id, h1, h2, h3⟩ := or_hits (hsub y) h
                exact ⟨id, h1, fun hm => h2 (List.mem_cons_of_mem _ hm), h3⟩

/-- **C110** is violated: users can have relations a, b and c of documents, but in every store with this policy and relationships it accepts, Check grants nobody relation all: each of the three has to
find the user anew, and there are only the user itself and the wildcard to find. -/
theorem C110_intersection_violated :
    ValidPolicy U0 allPolicy ∧ MayHold U0 allPolicy "user" "doc" "all" ∧
    ∀ (s : Store) (rec : PolicyRecord), policyAt s "p" = some rec → rec.policy = allPolicy → (∀ r, Present s "p" r → Admissible allPolicy r) →
      ∀ (i : String) (u : Entity) (fuel : Nat), ¬ Checks gEnv s fuel "p" ⟨⟨"doc", i⟩, "all"⟩ u true := by
  have hv : ValidPolicy U0 allPolicy := (C09_validation_exact U0 _).1 (by decide +kernel)
  have hdecl : ∀ res rel d, Declares allPolicy res rel d → d.subjectRestriction = some (.restrictionSet [.entity "user"]) := by
    rintro res rel d ⟨r, h1, rfl, h3, rfl⟩
    simp only [allPolicy, List.mem_cons, List.not_mem_nil, or_false] at h1
    rcases h1 with rfl | rfl
    · cases h3
    · simp only [List.mem_cons, List.not_mem_nil, or_false] at h3
      rcases h3 with rfl | rfl | rfl | rfl <;> rfl
  have ha : Declares allPolicy "doc" "a" (kind "a" [.entity "user"]) := ⟨_, .tail _ (.head _), rfl, .head _, rfl⟩
  have hb : Declares allPolicy "doc" "b" (kind "b" [.entity "user"]) := ⟨_, .tail _ (.head _), rfl, .tail _ (.head _), rfl⟩
  have hc : Declares allPolicy "doc" "c" (kind "c" [.entity "user"]) := ⟨_, .tail _ (.head _), rfl, .tail _ (.tail _ (.head _)), rfl⟩
  refine ⟨hv, fun V hV => ?_, fun s rec hp hr hadm i u fuel h => ?_⟩
  · have key : ∀ n, Declares allPolicy "doc" n (kind n [.entity "user"]) → V "doc" n := fun n h => hV _ _ _ (.rule .this) h (.inl rfl) (.inl (.inr ⟨_, rfl, .head _⟩))
    exact hV _ _ _ _ ⟨_, .tail _ (.head _), rfl, .tail _ (.tail _ (.tail _ (.head _))), rfl⟩ (.inl rfl) ⟨⟨key _ ha, key _ hb⟩, key _ hc⟩
  · have hsub : ∀ y n, n ∈ succs Hx s rec.policy.id y → n.isTerminal = true := by
      intro y n hn
      rw [hr] at hn
      obtain ⟨r, sub, h1, h2, rfl⟩ := mem_succs_present hn
      have hadm' := hadm r h1
      obtain ⟨⟨o, sub', ho, hs', _, ⟨d, hd⟩, _⟩, _⟩ := hadm r h1
      obtain ⟨o', rel, s'⟩ := r
      simp only at ho h2 hs' hd
      subst ho h2
      have := admissible_takes hv.1 hadm' hd
      have hrs := hdecl _ _ _ hd
      match sub, this with
      | .entity e, _ => rfl
      | .resourceSet n, _ => rfl
      | .entitySet (some e) rel', ⟨.inl ⟨h, _⟩, _⟩ => rw [hrs] at h; cases h
      | .entitySet (some e) rel', ⟨.inr ⟨rs, h, hm⟩, _⟩ => rw [hrs] at h; cases h; simp at hm
    have hvr : NamesUnique rec.policy := hr ▸ hv.1
    have hdef : ∀ n, Declares allPolicy "doc" n (kind n [.entity "user"]) → DefinedBy U0 rec.policy ⟨⟨"doc", i⟩, n⟩ (.rule .this) := fun n h => ⟨_, hr ▸ h, .inl rfl⟩
    obtain ⟨t, seen, _, hev, hbt⟩ := check_ev hp h
    have ht : t.result = .success := by simpa using hbt.symm
    obtain ⟨t0, t1, hbld, rfl, s0, hev1⟩ := ev_path_inv hev ht rfl rfl
    obtain ⟨e, hd, hbe⟩ := bld_ok hvr hbld
    have hd' : DefinedBy gEnv.U rec.policy ⟨⟨"doc", i⟩, "all"⟩ (.op (.op (.rule (.cu "a")) .intersection (.rule (.cu "b"))) .intersection (.rule (.cu "c"))) := by
      rw [hr]
      exact ⟨_, ⟨_, .tail _ (.head _), rfl, .tail _ (.tail _ (.tail _ (.head _))), rfl⟩, .inl rfl⟩
    obtain rfl := DefinedBy.unique hvr hd hd'
    cases hbe
    have one : ∀ {n : String} {reason : String} {sn sn' : List Nat} {t : GoalTree}, Declares allPolicy "doc" n (kind n [.entity "user"]) →
        Ev gEnv.H (Builds (bld gEnv rec.policy s)) (userGoal u) (.tree (.or .unknown [.leaf .unknown (.entitySet (some ⟨"doc", i⟩) n) reason])) sn (.tree t) sn' → t.result ≠ .failure →
        ∃ id ∈ hits Hx u, id ∉ sn ∧ id ∈ sn' := fun hn h ht => cu_hits hvr hsub (hdef _ hn) h ht
    have last : ∀ {ts : List GoalTree} {t : GoalTree} {sn sn' : List Nat}, Ev gEnv.H (Builds (bld gEnv rec.policy s)) (userGoal u) (.and [t]) sn (.list ts true) sn' →
        ∃ t', Ev gEnv.H (Builds (bld gEnv rec.policy s)) (userGoal u) (.tree t) sn (.tree t') sn' ∧ t'.result ≠ .failure := by
      intro ts t sn sn' h
      cases h with
      | andGo h1 h2 h3 => cases h3; exact ⟨_, h1, h2⟩
    cases hev1 with
    | @and _ _ _ b _ _ h =>
      cases b with
      | false => cases ht
      | true =>
        cases h with
        | andGo h1 h2 h3 =>
          obtain ⟨_, h3, h3'⟩ := last h3
          obtain ⟨i3, m3, n3, _⟩ := one hc h3 h3'
          cases h1 with
          | @and _ _ _ b _ _ h =>
            cases b with
            | false => exact absurd rfl h2
            | true =>
              cases h with
              | andGo h4 h5 h6 =>
                obtain ⟨_, h6, h6'⟩ := last h6
                obtain ⟨i2, m2, n2, o2⟩ := one hb h6 h6'
                obtain ⟨i1, m1, n1, o1⟩ := one ha h4 h5
                have d12 : i1 ≠ i2 := fun e => n2 (e ▸ o1)
                have d13 : i1 ≠ i3 := fun e => n3 (e ▸ h6.seen_mono o1)
                have d23 : i2 ≠ i3 := fun e => n3 (e ▸ o2)
                simp only [hits, List.mem_cons, List.not_mem_nil, or_false] at m1 m2 m3
                rcases m1 with rfl | rfl <;> rcases m2 with rfl | rfl <;> rcases m3 with rfl | rfl <;> simp at d12 d13 d23

end Zanzi
