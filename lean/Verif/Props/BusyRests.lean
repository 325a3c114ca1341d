import Verif.Lemmas.BusyRests
import Verif.Props.Rests
import Verif.Props.Revoke

/-
Property C128: what a grant explained while others write rests on.
-/

namespace Zanzi

open Spec Prog

section
variable {env : Env} {A : Call → Prop} {x y : Sys} {fuel : Nat} {pid : String} {g : USet} {u : Entity} {hist : List Store} {sx : Serialized} {f : ExplainFormat}

/-- C128: whatever other requests do meanwhile, an explanation that grants cites a relationship. -/
theorem C128_grant_cites (hx : Sys.Reachable env x) (h : Sys.Flight env A x (.explainCheck fuel pid (ask g u) .spew) hist y (.done (.ok (.explained sx true f)))) :
    ∃ t r, sx = .spew t ∧ Cites none t r := by
  have hwf := h.wf hx
  obtain ⟨s, rec, q, t, seen, hs, h1, hq, rfl, hev, hb⟩ := spew_reads (h.reads (I := (· ∈ hist)) (fun _ h => h) .done)
  cases hq
  have hu := ((hwf s hs).policy_valid h1).1
  have hr : t.result = .success := of_decide_eq_true hb.symm
  obtain ⟨r, hc⟩ := Ev.cited (u := u) (fun n t ht hb => by
    obtain ⟨y, e, rfl, _, hsh⟩ := rbuilds_shape hu ⟨s, hs⟩ ht hb
    exact ⟨⟨y, rfl⟩, hsh.formed.1⟩) hev hr g
  obtain ⟨_, ht, _, _, htop, _⟩ := C127_coherent hx h
  cases ht
  refine ⟨t, r, rfl, ?_⟩
  cases hc with
  | or _ _ => cases htop
  | and _ _ => cases htop
  | diff _ => cases htop
  | path h => exact .path h
  | @found y sub why hi => cases sub <;> first | exact hi.elim | cases htop

/-- C128: each relationship cited names the user, and at some moment meanwhile deleting it would have found it and removed one relationship. -/
theorem C128_cited_found (hx : Sys.Reachable env x) {b : Bool} {t : GoalTree} {r : Relationship} (h : Sys.Flight env A x (.explainCheck fuel pid (ask g u) .spew) hist y (.done (.ok (.explained (.spew t) b f))))
    (hc : Cites none t r) : NamesUser u r ∧ ∃ s ∈ hist, ∃ s', serve env (.deleteRelationship pid (some r)) s = (.ok (.found true), s') ∧
      (relationships s' pid).length + 1 = (relationships s pid).length := by
  have hwf := h.wf hx
  obtain ⟨s, rec, q, t', seen, hs, h1, hq, ht, hev, _⟩ := spew_reads (h.reads (I := (· ∈ hist)) (fun _ h => h) .done)
  cases hq
  cases ht
  have hu := ((hwf s hs).policy_valid h1).1
  refine Ev.cites (u := u) (K := fun r => NamesUser u r ∧ ∃ s ∈ hist, ∃ s', serve env (.deleteRelationship pid (some r)) s = (.ok (.found true), s') ∧
    (relationships s' pid).length + 1 = (relationships s pid).length) (fun n t ht hb => ?_) hev none r (fun _ _ h => nomatch h) hc
  obtain ⟨y, e, rfl, _, hsh⟩ := rbuilds_shape hu ⟨s, hs⟩ ht hb
  refine ⟨y, rfl, hsh.fresh, ?_⟩
  rintro m hm y' sub hy hi rfl hn
  obtain rfl := Option.some.inj hy
  obtain ⟨rule, _, ns, ⟨s2, hs2, hns⟩, hmem⟩ := hsh.tops _ hm
  rw [(hwf s hs).policy_id h1] at hns
  have hsucc : subjectNode sub ∈ succs env.H s2 pid y := by
    cases rule with
    | unset => cases hns
    | this => cases hns; exact hmem
    | cu c =>
      cases hns
      have := List.mem_singleton.1 hmem
      cases sub <;> first | exact hi.elim | cases this
    | ttu a b =>
      obtain ⟨m', hm', he⟩ := (mapSliceErr_mem hns).1 _ hmem
      cases sub <;> first | exact hi.elim | (cases m' <;> cases he)
  refine ⟨?_, s2, hs2, ?_⟩
  · cases sub with
    | entity e => rcases hn with hn | hn <;> cases hn; exact .inl rfl
    | resourceSet n => rcases hn with hn | hn <;> cases hn; exact .inr rfl
    | entitySet _ _ => exact hi.elim
    | unset => exact hi.elim
  · obtain ⟨e, he, hk⟩ := succs_key (hwf s2 hs2) hi hsucc
    have hd := serve_delete (env := env) (s := s2) (pid := pid) he
    rw [hk] at hd
    refine ⟨_, hd, ?_⟩
    have := filter_drop ((hwf s2 hs2).edgeNodup pid) hk
    simpa [relationships, Store.delRels] using this

/-- C128: one policy stored meanwhile, and the relationships the explanation rests on, each stored at some moment meanwhile, are enough for the rules to give the relation, exclusions apart.
Missing: colliding storage keys, wildcards in tuplesets. -/
theorem C128_enough_partial (hx : Sys.Reachable env x) (h : Sys.Flight env A x (.explainCheck fuel pid (ask g u) .spew) hist y (.done (.ok (.explained sx true f))))
    (hk : ∀ s ∈ hist, ∀ rec, policyAt s pid = some rec → KeysClear env.U env.H rec.policy (StoredOnce hist pid) g)
    (hw : ∀ s ∈ hist, ∀ rec, policyAt s pid = some rec → TuplesetsConcrete env.U rec.policy (StoredOnce hist pid) g) :
    ∃ t, sx = .spew t ∧ ∃ s ∈ hist, ∃ rec, policyAt s pid = some rec ∧
      GrantedAtMost env.U rec.policy (fun r => StoredOnce hist pid r ∧ RestsOn none t r) u g := by
  obtain ⟨t, rfl, hb, s, hs, rec, hp, hj⟩ := C127_moments_partial hx h hk hw
  obtain ⟨_, ht, _, _, htop, _⟩ := C127_coherent hx h
  cases ht
  exact ⟨t, rfl, s, hs, rec, hp, fun V hV => (rests_during (fun y e _ => hV y e) t hj (hb.1 rfl) none (fun _ h1 h2 => ⟨h1, h2⟩)).1 _ htop .start⟩

/-- C128, when the policy stays and some moment has all the explanation rests on: the rules give the relation at that moment, if they meet no difference there. -/
theorem C128_granted_then_partial (hx : Sys.Reachable env x) (h : Sys.Flight env A x (.explainCheck fuel pid (ask g u) .spew) hist y (.done (.ok (.explained sx true f)))) {p : Policy}
    (hp : ∀ s ∈ hist, ∀ rec, policyAt s pid = some rec → rec.policy = p) (hk : KeysClear env.U env.H p (StoredOnce hist pid) g) (hw : TuplesetsConcrete env.U p (StoredOnce hist pid) g)
    {R : Relationship → Prop} (hR : ∀ t r, sx = .spew t → StoredOnce hist pid r → RestsOn none t r → R r) (hd : ExprsFrom env.U p R g DiffFree) : Granted env.U p R u g := by
  obtain ⟨t, rfl, hb, s, hs, rec, hp', hj⟩ := C127_moments_partial hx h (fun s hs rec h => hp s hs rec h ▸ hk) (fun s hs rec h => hp s hs rec h ▸ hw)
  obtain ⟨_, ht, _, _, htop, _⟩ := C127_coherent hx h
  cases ht
  rw [hp s hs rec hp'] at hj
  refine (rests_during (V := Granted env.U p R u) (E := R) (fun y e hr hy he => ?_) t hj (hb.1 rfl) none (fun r h1 h2 => hR t r rfl h1 h2)).1 _ htop .start
  have hdf := hd y e hr hy
  rw [positive_of_diffFree hdf] at he
  exact granted_of hy hdf he

end

/-- A grant that holds at no moment (`C63_new_enemy_violated`): it cites the membership, and rests on relationships that together are enough. -/
example : ∃ hist y, Sys.Flight gEnv (fun d => d = .deleteRelationship "p" (some neLink) ∨ d = .setRelationship 1 "p" (some neMember) []) ⟨[], neStore⟩ neExplain hist y
      (.done (.ok (.explained (.spew neTree) true .spew))) ∧ Cites none neTree neMember ∧
    (∃ s ∈ hist, ∃ s', serve gEnv (.deleteRelationship "p" (some neMember)) s = (.ok (.found true), s')) ∧
    GrantedAtMost gEnv.U (gPolicy neRels) (fun r => StoredOnce hist "p" r ∧ RestsOn none neTree r) usr ⟨doc1, "a"⟩ ∧
    Granted gEnv.U (gPolicy neRels) (Present neAll "p") usr ⟨doc1, "a"⟩ := by
  obtain ⟨hist, y, h, key⟩ := ne_history
  have hS : ∀ r, StoredOnce hist "p" r → Present neAll "p" r := fun r ⟨s, hs, hr⟩ => neAll_rels r ((key s hs).2 r hr)
  obtain ⟨t, ht, s, hs, rec, hp, hg⟩ := C128_enough_partial (gStore_reachable _ _ _) h (fun s hs rec hp => (ne_clear key s hs rec hp).1)
    (fun s hs rec hp => (ne_clear key s hs rec hp).2)
  cases ht
  have hp' := (key s hs).1
  rw [hp'] at hp
  cases hp
  have hc : Cites none neTree neMember :=
    .path (y' := ⟨doc1, "a"⟩) (.or List.mem_cons_self (.path (y' := ⟨⟨"group", "g"⟩, "member"⟩) (.or List.mem_cons_self (.found (sub := .entity usr) trivial))))
  refine ⟨hist, y, h, hc, ?_, hg, ?_⟩
  · obtain ⟨_, s, hs, s', hd, _⟩ := C128_cited_found (gStore_reachable _ _ _) h hc
    exact ⟨s, hs, s', hd⟩
  · refine C128_granted_then_partial (p := gPolicy neRels) (gStore_reachable _ _ _) h (fun s hs rec hp => ?_) (ne_clear key s hs _ hp').1 (ne_clear key s hs _ hp').2
      (fun t r _ hr _ => hS r hr) (exprs_of (env := gEnv) (f := diffFreeB) (fun _ => diffFree_of) (gStore_wf _ _ _) neAll_pol (L := neNodes)
        (by simp [neNodes, USet.node]) (by decide +kernel) (by decide +kernel))
    rw [(key s hs).1] at hp
    cases hp
    rfl

end Zanzi
