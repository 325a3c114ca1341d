import Verif.Lemmas.Writes

/-
Bulk deletions among other requests.
-/

namespace Zanzi

open Spec Prog

section
variable {env : Env} {N : Relationship → Prop} {pid : String}

/-- Relationships of policy `pid` are stored under their own keys. -/
def OwnKeys (env : Env) (pid : String) (s : Store) : Prop := ∀ p ∈ s.edges pid, p.1 = relKey env.H (fromInternal p.2)

theorem ownKeys_of {s : Store} (h : WF env s) : OwnKeys env pid s := by
  intro p hp
  rw [h.edgeKey pid p.1 p.2 hp]
  exact (relKey_of (h.edgeNorm pid p.1 p.2 hp).back).symm

/-- Relationships of `pid` are written under their own keys, and none of `N` is written. -/
def noneOf (env : Env) (N : Relationship → Prop) (pid : String) (o : Op) : Prop :=
  ∀ k e, o = .edgeSet pid k e → k = relKey env.H (fromInternal e) ∧ ¬ N (fromInternal e)

/-- Relationships stay under their own keys, and those of `N` only get fewer. -/
def Fewer (env : Env) (N : Relationship → Prop) (pid : String) (s s' : Store) : Prop :=
  (OwnKeys env pid s → OwnKeys env pid s') ∧ ∀ p ∈ s'.edges pid, N (fromInternal p.2) → p ∈ s.edges pid

theorem Fewer.refl (s : Store) : Fewer env N pid s s := ⟨id, fun _ h _ => h⟩

theorem Fewer.trans (a b c : Store) (h : Fewer env N pid a b) (h' : Fewer env N pid b c) : Fewer env N pid a c :=
  ⟨h'.1 ∘ h.1, fun p hp hn => h.2 p (h'.2 p hp hn) hn⟩

theorem noneOf_exec {o : Op} (ho : noneOf env N pid o) (s : Store) : Fewer env N pid s (o.exec s).2 := by
  cases o <;> try exact ⟨id, fun _ h _ => h⟩
  case edgeSet q k e =>
    have key : ∀ p ∈ ((Op.edgeSet q k e).exec s).2.edges pid, p ∈ s.edges pid ∨ (p = (k, e) ∧ q = pid) := by
      intro p hp
      replace hp : p ∈ (s.setEdges q _).edges pid := hp
      rw [setEdges_edges] at hp
      split at hp
      · next hq =>
        subst hq
        exact (kvPut_mem hp).elim (fun h => .inr ⟨h, rfl⟩) .inl
      · exact .inl hp
    refine ⟨fun h p hp => ?_, fun p hp hn => ?_⟩
    · rcases key p hp with h1 | ⟨rfl, rfl⟩
      · exact h p h1
      · exact (ho _ _ rfl).1
    · rcases key p hp with h1 | ⟨rfl, rfl⟩
      · exact h1
      · exact absurd hn (ho _ _ rfl).2
  case edgeDel q k =>
    have key : ∀ p ∈ ((Op.edgeDel q k).exec s).2.edges pid, p ∈ s.edges pid := by
      intro p hp
      replace hp : p ∈ (s.setEdges q _).edges pid := hp
      rw [setEdges_edges] at hp
      split at hp
      · next hq => subst hq; exact kvDel_mem hp
      · exact hp
    exact ⟨fun h p hp => h p (key p hp), fun p hp _ => key p hp⟩

theorem prog_noneOf (env : Env) {c : Call} (hc : ∀ now r a, c = .setRelationship now pid (some r) a → ¬ N r) : (c.prog env).AllOps (noneOf env N pid) := by
  refine prog_ops env c (fun o ho k e he => by subst he; cases ho) (fun _ _ _ _ => nofun) (fun _ _ _ => nofun) (fun now q r a e he hi => ⟨fun k e' h => ?_, fun _ _ => nofun⟩)
    (fun _ _ _ _ _ => ⟨fun _ _ => nofun, fun _ _ => nofun⟩)
  obtain ⟨rfl, rfl, rfl⟩ := Op.edgeSet.inj h
  rw [fromInternal_toInternal hi, relKey_of hi]
  exact ⟨rfl, hc _ _ _ he⟩

/-- What remains of `N` and is selected is still to be deleted. -/
def Remaining (env : Env) (N : Relationship → Prop) (pid : String) (M : Relationship → Prop) (rem : List Relationship) (s : Store) : Prop :=
  OwnKeys env pid s ∧ ∀ p ∈ s.edges pid, N (fromInternal p.2) → M (fromInternal p.2) → fromInternal p.2 ∈ rem

theorem Remaining.fewer {M : Relationship → Prop} {rem : List Relationship} {s s' : Store} (h : Remaining env N pid M rem s) (hf : Fewer env N pid s s') :
    Remaining env N pid M rem s' := ⟨hf.1 h.1, fun p hp hn hm => h.2 p (hf.2 p hp hn) hn hm⟩

theorem deleteOne_wp {M : Relationship → Prop} {r : Relationship} {rem : List Relationship} {s : Store} (h : Remaining env N pid M (r :: rem) s) :
    (Repo.deleteRelationship env.H pid (some r)).Wp (Fewer env N pid) (fun res s' => ∀ a, res = .ok a → Remaining env N pid M rem s') s := by
  unfold Repo.deleteRelationship
  rw [Res.deref_some, lift_ok_bind]
  rcases toInternal_normal_or_panic r with ⟨e, he⟩ | he
  · rw [he, lift_ok_bind]
    intro s1 h1
    refine ⟨?_, Wp.done (fun _ => nofun), Wp.done (fun _ => nofun)⟩
    intro s2 h2
    refine ⟨?_, Wp.done (fun _ => nofun), Wp.done (fun _ => nofun)⟩
    have g0 : Remaining env N pid M (r :: rem) s2 := (h.fewer h1).fewer h2
    have gd : Remaining env N pid M rem ((Op.edgeDel pid (e.key env.H)).exec s2).2 := by
      refine ⟨(noneOf_exec (N := N) (o := .edgeDel pid (e.key env.H)) (fun _ _ => nofun) s2).1 g0.1, fun p hp hn hm => ?_⟩
      replace hp : p ∈ (s2.setEdges pid _).edges pid := hp
      rw [setEdges_edges, if_pos rfl] at hp
      have hk := (List.mem_filter.1 hp).2
      rcases List.mem_cons.1 (g0.2 p (kvDel_mem hp) hn hm) with h3 | h3
      · have := g0.1 p (kvDel_mem hp)
        rw [h3, relKey_of he] at this
        simp [this] at hk
      · exact h3
    intro s3 h3
    refine ⟨?_, Wp.done (fun _ => nofun), Wp.done (fun _ => nofun)⟩
    intro s4 h4 a _
    exact ((gd.fewer h3).fewer (noneOf_exec (N := N) (o := .dataDel _) (fun _ _ => nofun) s3)).fewer h4
  · rw [he]
    exact Wp.done (fun _ => nofun)

theorem deleteEach_wp {M : Relationship → Prop} : ∀ {rem : List Relationship} {s : Store}, Remaining env N pid M rem s →
    (Prog.mapSlice (fun r => Repo.deleteRelationship env.H pid (some r)) rem).Wp (Fewer env N pid)
      (fun res s' => ∀ a, res = .ok a → Remaining env N pid M [] s') s
  | [], s, h => fun s' hs' _ _ => h.fewer hs'
  | r :: rem, s, h => by
    unfold Prog.mapSlice
    refine Wp.bind Fewer.refl (Wp.mono ?_ (deleteOne_wp h))
    intro res s1 h1
    cases res with
    | ok a =>
      refine Wp.bind Fewer.refl (Wp.mono ?_ (deleteEach_wp (h1 a rfl)))
      intro res s2 h2
      cases res with
      | ok b => exact fun s3 h3 _ _ => (h2 b rfl).fewer h3
      | err => exact fun _ => nofun
      | panic => exact fun _ => nofun
      | fuel => exact fun _ => nofun
    | err => exact fun _ => nofun
    | panic => exact fun _ => nofun
    | fuel => exact fun _ => nofun

open Classical in
theorem deleteMatching_wp {sel : Selector} {s : Store} (h : OwnKeys env pid s) :
    (Repo.deleteRelationships env.H pid (some sel)).Wp (Fewer env N pid)
      (fun res s' => ∀ a, res = .ok a → ∀ p ∈ s'.edges pid, N (fromInternal p.2) → ¬ Matches sel (fromInternal p.2)) s := by
  unfold Repo.deleteRelationships Repo.findRelationships
  rw [Prog.bind_assoc]
  refine Wp.bind Fewer.refl ?_
  intro s1 h1
  refine ⟨fun s2 h2 => ?_, Wp.done (fun _ _ => nofun), Wp.done (fun _ _ => nofun)⟩
  show Prog.Wp _ _ (_ >>= _) s2
  rw [Prog.bind_assoc]
  cases hn : newSelectorSpec (some sel) with
  | err => exact Wp.done (fun _ => nofun)
  | panic => exact Wp.done (fun _ => nofun)
  | fuel => exact Wp.done (fun _ => nofun)
  | ok sp =>
    rw [lift_ok_bind]
    dsimp only
    have hfr : filterRes (selectorSatisfies sp) (((s1.edges pid).map (·.2)).map fromInternal) =
        .ok ((((s1.edges pid).map (·.2)).map fromInternal).filter (fun r => decide (Matches sel r))) := by
      obtain ⟨y, hy, g1, g2⟩ := newSelectorSpec_complete hn
      obtain rfl := Option.some.inj hy
      obtain ⟨o, rl, sb, rfl, g3, ho, hr, hsb⟩ := newSelectorSpec_ok g1 g2
      rw [g3] at hn
      obtain rfl := Res.ok.inj hn
      refine filterRes_matches ho hr hsb _ (fun x hx => ?_)
      obtain ⟨e, _, rfl⟩ := List.mem_map.1 hx
      exact fromInternal_complete e
    have hl : (Op.exec (.edgeList pid) s1).1 = (s1.edges pid).map (·.2) := rfl
    rw [hl, hfr, lift_ok_bind]
    refine Wp.bind Fewer.refl (Wp.mono ?_ (deleteEach_wp (M := Matches sel) (s := s2) ⟨h2.1 (h1.1 h), fun p hp hn' hm => ?_⟩))
    · intro res s3 h3
      cases res with
      | ok a =>
        intro s4 h4 _ _ p hp hn' hm
        exact absurd (((h3 a rfl).fewer h4).2 p hp hn' hm) (by simp)
      | err => exact fun _ => nofun
      | panic => exact fun _ => nofun
      | fuel => exact fun _ => nofun
    · rw [List.mem_filter]
      exact ⟨List.mem_map.2 ⟨_, List.mem_map.2 ⟨p, h2.2 p hp hn', rfl⟩, rfl⟩, by simpa using hm⟩

/-- Bulk deletion among requests that write no relationship of `N`. -/
theorem deleteRelationships_wp {sel : Selector} {s : Store} (h : OwnKeys env pid s) :
    ((Call.deleteRelationships pid (some sel)).prog env).Wp (Fewer env N pid)
      (fun res s' => ∀ a, res = .ok a → ∀ r, Present s' pid r → N r → ¬ Matches sel r) s := by
  refine Wp.bind Fewer.refl (Wp.mono ?_ (deleteMatching_wp (N := N) (sel := sel) h))
  intro res s1 h1
  cases res with
  | ok n =>
    intro s2 h2 _ _ r hr hn
    obtain ⟨p, hp, rfl⟩ := List.mem_map.1 (show r ∈ (s2.edges pid).map _ from hr)
    exact h1 n rfl p (h2.2 p hp hn) hn
  | err => exact fun _ => nofun
  | panic => exact fun _ => nofun
  | fuel => exact fun _ => nofun

/-- Policy deletion among requests that write no relationship of `N`. -/
theorem deletePolicy_wp {s : Store} (h : OwnKeys env pid s) :
    ((Call.deletePolicy pid).prog env).Wp (Fewer env N pid)
      (fun res s' => ∀ n, res = .ok (.deletedPolicy true n) → ∀ r, Present s' pid r → ¬ N r) s := by
  refine Wp.bind Fewer.refl ?_
  show (Service.deletePolicy env pid).Wp _ _ s
  unfold Service.deletePolicy Repo.deletePolicy
  refine Wp.bind Fewer.refl (Wp.bind Fewer.refl ?_)
  intro s1 h1
  refine ⟨fun s2 h2 => ?_, Wp.done (fun _ _ => nofun), Wp.done (fun _ _ => nofun)⟩
  dsimp only
  split
  · refine Wp.bind Fewer.refl ?_
    intro s3 h3
    refine ⟨fun s4 h4 => ?_, Wp.done (fun _ _ => nofun), Wp.done (fun _ _ => nofun)⟩
    dsimp only
    intro s5 h5
    dsimp only
    rw [if_pos rfl]
    have hk : OwnKeys env pid s5 := h5.1 (h4.1 ((noneOf_exec (N := N) (o := .polDel pid) (fun _ _ => nofun) s3).1 (h3.1 (h2.1 (h1.1 h)))))
    refine Wp.bind Fewer.refl (Wp.mono ?_ (deleteMatching_wp (N := N) (sel := allSelector) hk))
    intro res s6 h6
    cases res with
    | ok n =>
      intro s7 h7 s8 h8 _ _ r hr hn
      obtain ⟨p, hp, rfl⟩ := List.mem_map.1 (show r ∈ (s8.edges pid).map _ from hr)
      exact h6 n rfl p (h7.2 p (h8.2 p hp hn) hn) hn (by simp [Matches, allSelector])
    | err => exact fun _ => nofun
    | panic => exact fun _ => nofun
    | fuel => exact fun _ => nofun
  · intro s3 h3 s4 h4 s5 h5
    exact nofun

/-! ### The policy itself -/

/-- No policy is written under the id. -/
def notPolicy (pid : String) (o : Op) : Prop := ∀ rec, o = .polSet rec → rec.policy.id ≠ pid

/-- A policy that is gone stays gone. -/
def PolicyGone (pid : String) (s s' : Store) : Prop := kvGet s.policies pid = none → kvGet s'.policies pid = none

theorem notPolicy_exec {o : Op} (ho : notPolicy pid o) (s : Store) : PolicyGone pid s (o.exec s).2 := by
  intro h
  cases o <;> try exact h
  case polSet rec =>
    show kvGet (kvPut strLt s.policies rec.policy.id rec) pid = none
    rw [kvGet_put, if_neg (fun he => ho rec rfl he.symm), h]
  case polDel id =>
    show kvGet (kvDel s.policies id) pid = none
    rw [kvGet_del]; split; rfl; exact h

theorem prog_notPolicy {c : Call} (hc : c.writesPolicy = true → c.target env ≠ some pid) : (c.prog env).AllOps (notPolicy pid) := by
  by_cases hw : c.writesPolicy = true
  · exact (Call.prog_foreign (hc hw)).mono (fun o ho rec he => by subst he; exact ho)
  · exact prog_ops env c (fun o ho rec he => by subst he; cases ho) (fun h => absurd h hw) (fun _ _ => nofun) (fun _ _ _ _ _ _ _ => ⟨fun _ => nofun, fun _ => nofun⟩)
      (fun _ _ _ _ _ => ⟨fun _ => nofun, fun _ => nofun⟩)

theorem wp_keeps {α : Type} {R : Store → Store → Prop} {P : Op → Prop} {I : Store → Prop} (hI : ∀ s s', I s → R s s' → I s') (hP : ∀ o s, P o → R s (o.exec s).2)
    {p : Prog α} (hp : p.AllOps P) {s : Store} (h : I s) : p.Wp R (fun _ s' => I s') s := by
  induction hp generalizing s with
  | done r => exact fun s' hs' => hI _ _ h hs'
  | call ho _ ih => exact fun s' hs' => ⟨ih _ (hI _ _ (hI _ _ h hs') (hP _ _ ho)), ih _ (hI _ _ h hs'), ih _ (hI _ _ (hI _ _ h hs') (hP _ _ ho))⟩

theorem deletePolicy_gone_wp (env : Env) (pid : String) (s : Store) :
    ((Call.deletePolicy pid).prog env).Wp (PolicyGone pid) (fun res s' => ∀ a, res = .ok a → kvGet s'.policies pid = none) s := by
  have hrefl : ∀ s, PolicyGone pid s s := fun _ => id
  refine Wp.bind hrefl ?_
  show (Service.deletePolicy env pid).Wp _ _ s
  unfold Service.deletePolicy Repo.deletePolicy
  refine Wp.bind hrefl (Wp.bind hrefl ?_)
  intro s1 h1
  refine ⟨fun s2 h2 => ?_, Wp.done (fun _ _ => nofun), Wp.done (fun _ _ => nofun)⟩
  have hs : ∀ s s', kvGet s.policies pid = none → PolicyGone pid s s' → kvGet s'.policies pid = none := fun _ _ h h' => h' h
  dsimp only
  split
  · refine Wp.bind hrefl ?_
    intro s3 h3
    refine ⟨fun s4 h4 => ?_, Wp.done (fun _ _ => nofun), Wp.done (fun _ _ => nofun)⟩
    dsimp only
    intro s5 h5
    dsimp only
    rw [if_pos rfl]
    have hk : kvGet s5.policies pid = none := h5 (h4 (by
      show kvGet (kvDel s3.policies pid) pid = none
      rw [kvGet_del, if_pos rfl]))
    have hd : (Repo.deleteRelationships env.H pid (some allSelector)).AllOps (notPolicy pid) :=
      AllOps.bind ((Repo.findRelationships_read _ _).mono (fun o ho rec he => by subst he; cases ho)) (fun _ => AllOps.bind (AllOps.mapSlice (fun _ _ =>
        AllOps.bind (AllOps.lift _) (fun _ => AllOps.bind (AllOps.lift _) (fun _ => AllOps.bind (AllOps.op (fun _ => nofun)) (fun _ =>
          AllOps.bind (AllOps.op (fun _ => nofun)) (fun _ => AllOps.bind (AllOps.op (fun _ => nofun)) (fun _ => .done _))))))) (fun _ => .done _))
    refine Wp.bind hrefl (Wp.mono ?_ (wp_keeps hs (fun o s ho => notPolicy_exec ho s) hd hk))
    intro res s6 h6
    cases res with
    | ok n =>
      intro s7 h7 s8 h8 _ _
      exact h8 (h7 h6)
    | err => exact fun _ => nofun
    | panic => exact fun _ => nofun
    | fuel => exact fun _ => nofun
  · next hf =>
    have hk : kvGet s2.policies pid = none := h2 (by
      have : (kvGet s1.policies pid).isSome ≠ true := hf
      show kvGet s1.policies pid = none
      simpa using this)
    intro s3 h3 s4 h4 s5 h5 _ _
    exact h5 (h4 (h3 hk))

end

end Zanzi
