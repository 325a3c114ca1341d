import Verif.Lemmas.Interfere
import Verif.Spec.Aside

/-
Which storage writes each request can make, and lemmas for writes among other requests.
-/

namespace Zanzi

open Spec Prog

theorem filterRes_sat {α : Type} {f : α → Res Bool} : ∀ {l l' : List α}, filterRes f l = .ok l' → ∀ a ∈ l', f a = .ok true := by
  intro l
  induction l with
  | nil => intro l' h a ha; cases h; simp at ha
  | cons b l ih =>
    intro l' h a ha
    unfold filterRes at h
    cases hb : f b with
    | err => rw [hb] at h; cases h
    | panic => rw [hb] at h; cases h
    | fuel => rw [hb] at h; cases h
    | ok c =>
      rw [hb] at h
      dsimp only at h
      cases hl : filterRes f l with
      | err => rw [hl] at h; cases h
      | panic => rw [hl] at h; cases h
      | fuel => rw [hl] at h; cases h
      | ok l2 =>
        rw [hl] at h
        dsimp only at h
        cases h
        cases c with
        | false => exact ih hl a (by simpa using ha)
        | true =>
          rcases List.mem_cons.1 (by simpa using ha : a ∈ b :: l2) with rfl | h
          · exact hb
          · exact ih hl a h

theorem findRelationships_matches {sel : Option Selector} {sp} (hn : newSelectorSpec sel = .ok sp) {x : Relationship}
    (hs : selectorSatisfies sp x = .ok true) (hc : RelationshipComplete x) : ∃ y, sel = some y ∧ Matches y x := by
  obtain ⟨y, rfl, h1, h2⟩ := newSelectorSpec_complete hn
  obtain ⟨o, rl, sb, rfl, h3, ho, hr, hsb⟩ := newSelectorSpec_ok h1 h2
  rw [h3] at hn
  cases hn
  obtain ⟨b, h4, h5⟩ := selectorSatisfies_ok ho hr hsb hc
  rw [h4] at hs
  cases hs
  exact ⟨_, rfl, h5.1 rfl⟩

/-- The requests that write a policy. -/
def Call.writesPolicy : Call → Bool
  | .createPolicy .. | .updatePolicy .. => true
  | _ => false

/-- The storage calls of a request: reads, writes of the policy it defines, the deletion of the policy it deletes, the writes of the relationship it sets, the deletions of relationships it may
delete. -/
theorem prog_ops_exact (env : Env) (c : Call) {P : Op → Prop} (hread : ∀ o, o.isRead = true → P o) (hpol : ∀ rec, c.writes env rec.policy → P (.polSet rec))
    (hpd : ∀ id, c = .deletePolicy id → P (.polDel id))
    (hset : ∀ now q r a e, c = .setRelationship now q (some r) a → toInternal r = .ok e →
      P (.edgeSet q (e.key env.H) e) ∧ P (.dataSet { relationshipId := e.key env.H, createdAt := now, appData := a }))
    (hdel : ∀ q r e, c.mayDelete q r → toInternal r = .ok e → P (.edgeDel q (e.key env.H)) ∧ P (.dataDel (e.key env.H))) :
    (c.prog env).AllOps P := by
  have hr : ∀ {α : Type} {p : Prog α}, p.ReadOnly → p.AllOps P := fun hp => hp.mono hread
  have hone : ∀ q r, (∀ x, r = some x → RelationshipComplete x → c.mayDelete q x) → (Repo.deleteRelationship env.H q r).AllOps P := by
    intro q r hm
    unfold Repo.deleteRelationship
    cases r with
    | none => exact .done _
    | some x =>
      rw [Res.deref_some, lift_ok_bind]
      cases he : toInternal x with
      | err => exact .done _
      | panic => exact .done _
      | fuel => exact .done _
      | ok e =>
        have h := hdel q x e (hm x rfl (toInternal_complete.1 ⟨e, he⟩)) he
        rw [lift_ok_bind]
        exact AllOps.bind (AllOps.op (hread _ rfl)) (fun _ => AllOps.bind (AllOps.op h.1) (fun _ => AllOps.bind (AllOps.op h.2) (fun _ => .done _)))
  have hbulk : ∀ q sel, (∀ x y, sel = some y → Matches y x → c.mayDelete q x) → (Repo.deleteRelationships env.H q sel).AllOps P := by
    intro q sel hm
    unfold Repo.deleteRelationships Repo.findRelationships
    rw [Prog.bind_assoc]
    refine AllOps.bind (AllOps.op (hread _ rfl)) (fun rels => ?_)
    rw [Prog.bind_assoc]
    cases hn : newSelectorSpec sel with
    | err => exact .done _
    | panic => exact .done _
    | fuel => exact .done _
    | ok sp =>
      rw [lift_ok_bind]
      dsimp only
      cases hf : filterRes (selectorSatisfies sp) (rels.map fromInternal) with
      | err => exact .done _
      | panic => exact .done _
      | fuel => exact .done _
      | ok l =>
        rw [lift_ok_bind]
        refine AllOps.bind (AllOps.mapSlice (fun x hx => hone q (some x) (fun x' he hc => ?_))) (fun _ => .done _)
        cases he
        obtain ⟨y, hy, hmt⟩ := findRelationships_matches hn (filterRes_sat hf x hx) hc
        exact hm x y hy hmt
  have hsetp : ∀ rec, c.writes env rec.policy → (Repo.setPolicy rec).AllOps P := by
    intro rec hw
    exact AllOps.bind (AllOps.op (hread _ rfl)) (fun _ => AllOps.bind (AllOps.op (hpol _ hw)) (fun _ => .done _))
  by_cases hrd : c.isRead = true
  · exact hr (Call.prog_read env hrd)
  · cases c <;> simp [Call.isRead] at hrd <;> refine AllOps.bind ?_ (fun _ => .done _)
    case createPolicy now d a =>
      unfold Service.createPolicy
      cases hd : getPolicyFromDefinition env d with
      | ok p =>
        rw [lift_ok_bind]
        refine AllOps.bind (hr (Repo.getPolicy_read _)) (fun x => ?_)
        cases x
        · exact AllOps.bind (AllOps.lift _) (fun _ => AllOps.bind (hsetp _ (getPolicyFromDefinition_ok_iff.1 hd)) (fun _ => .done _))
        · exact .done _
      | err => exact .done _
      | panic => exact .done _
      | fuel => exact .done _
    case updatePolicy d a =>
      unfold Service.updatePolicy
      cases hd : getPolicyFromDefinition env d with
      | ok p =>
        rw [lift_ok_bind]
        refine AllOps.bind (hr (Repo.getPolicy_read _)) (fun x => ?_)
        cases x
        · exact .done _
        · exact AllOps.bind (AllOps.lift _) (fun _ => AllOps.bind (hsetp _ (getPolicyFromDefinition_ok_iff.1 hd)) (fun _ => .done _))
      | err => exact .done _
      | panic => exact .done _
      | fuel => exact .done _
    case deletePolicy q =>
      unfold Service.deletePolicy Repo.deletePolicy
      refine AllOps.bind (AllOps.bind (AllOps.op (hread _ rfl)) (fun x => ?_)) (fun x => ?_)
      · split
        · exact AllOps.bind (AllOps.op (hpd _ rfl)) (fun _ => .done _)
        · exact .done _
      · split
        · exact AllOps.bind (hbulk _ _ (fun x y _ _ => rfl)) (fun _ => .done _)
        · exact .done _
    case setRelationship now q r a =>
      refine AllOps.bind (hr (Repo.getPolicy_read _)) (fun x => ?_)
      cases x with
      | none => exact .done _
      | some _ =>
        refine AllOps.bind (AllOps.lift _) (fun _ => ?_)
        cases r with
        | none => exact .done _
        | some r =>
          rw [Res.deref_some, lift_ok_bind]
          unfold Repo.setRelationship
          cases he : toInternal r with
          | err => exact .done _
          | panic => exact .done _
          | fuel => exact .done _
          | ok e =>
            have h := hset now q r a e rfl he
            rw [lift_ok_bind]
            exact AllOps.bind (AllOps.op (hread _ rfl)) (fun _ => AllOps.bind (AllOps.op h.1)
              (fun _ => AllOps.bind (AllOps.op h.2) (fun _ => .done _)))
    case deleteRelationship q r => exact hone _ _ (fun x he _ => ⟨rfl, he⟩)
    case deleteRelationships q sel => exact hbulk _ _ (fun x y hy hm => ⟨rfl, y, hy, hm⟩)

/-- The same, when all policies written are treated alike. -/
theorem prog_ops (env : Env) (c : Call) {P : Op → Prop} (hread : ∀ o, o.isRead = true → P o) (hpol : c.writesPolicy = true → ∀ rec, P (.polSet rec))
    (hpd : ∀ id, P (.polDel id))
    (hset : ∀ now q r a e, c = .setRelationship now q (some r) a → toInternal r = .ok e →
      P (.edgeSet q (e.key env.H) e) ∧ P (.dataSet { relationshipId := e.key env.H, createdAt := now, appData := a }))
    (hdel : ∀ q r e, c.mayDelete q r → toInternal r = .ok e → P (.edgeDel q (e.key env.H)) ∧ P (.dataDel (e.key env.H))) :
    (c.prog env).AllOps P :=
  prog_ops_exact env c hread (fun rec h => hpol (by cases c <;> first | rfl | exact h.elim) rec) (fun id _ => hpd id) hset hdel

theorem Prog.Wp.done {R : Store → Store → Prop} {α : Type} {Q : Res α → Store → Prop} {r : Res α} {s : Store} (h : ∀ s, Q r s) :
    (Prog.done r).Wp R Q s := fun s' _ => h s'

/-! ### Deletions -/

/-- Nothing is written under the key. -/
def noWrite (pid : String) (k : EdgeKey) (o : Op) : Prop := (∀ e, o ≠ .edgeSet pid k e) ∧ ∀ d, o = .dataSet d → d.relationshipId ≠ k

/-- What is absent stays absent. -/
def StaysGone (pid : String) (k : EdgeKey) (s s' : Store) : Prop :=
  (kvGet (s.edges pid) k = none → kvGet (s'.edges pid) k = none) ∧ (kvGet s.data k = none → kvGet s'.data k = none)

theorem noWrite_exec {pid : String} {k : EdgeKey} {o : Op} (ho : noWrite pid k o) (s : Store) : StaysGone pid k s (o.exec s).2 := by
  cases o <;> try exact ⟨id, id⟩
  case edgeSet q k' e =>
    refine ⟨fun h => ?_, id⟩
    show kvGet ((s.setEdges q _).edges pid) k = none
    rw [setEdges_edges]
    split
    · next hq =>
      subst hq
      rw [kvGet_put, if_neg (fun he => ho.1 e (by rw [he])), h]
    · exact h
  case edgeDel q k' =>
    refine ⟨fun h => ?_, id⟩
    show kvGet ((s.setEdges q _).edges pid) k = none
    rw [setEdges_edges]
    split
    · next hq => subst hq; rw [kvGet_del]; split; rfl; exact h
    · exact h
  case dataSet d =>
    refine ⟨id, fun h => ?_⟩
    show kvGet (kvPut edgeLt s.data d.relationshipId d) k = none
    rw [kvGet_put, if_neg (fun he => ho.2 d rfl he.symm), h]
  case dataDel k' =>
    refine ⟨id, fun h => ?_⟩
    show kvGet (kvDel s.data k') k = none
    rw [kvGet_del]; split; rfl; exact h

theorem delete_wp (env : Env) (pid : String) (r : Relationship) (s : Store) :
    ((Call.deleteRelationship pid (some r)).prog env).Wp (StaysGone pid (relKey env.H r))
      (fun res s => ∀ a, res = .ok a → RelationshipComplete r ∧ kvGet (s.edges pid) (relKey env.H r) = none ∧ kvGet s.data (relKey env.H r) = none) s := by
  have hrefl : ∀ s, StaysGone pid (relKey env.H r) s s := fun _ => ⟨id, id⟩
  refine Wp.bind hrefl ?_
  show (Repo.deleteRelationship env.H pid (some r)).Wp _ _ s
  unfold Repo.deleteRelationship
  rw [Res.deref_some, lift_ok_bind]
  rcases toInternal_normal_or_panic r with ⟨e, he⟩ | he
  · rw [he, lift_ok_bind, relKey_of he]
    have hc := toInternal_complete.1 ⟨e, he⟩
    intro s1 _
    refine ⟨?_, Wp.done (fun _ => nofun), Wp.done (fun _ => nofun)⟩
    intro s2 _
    refine ⟨?_, Wp.done (fun _ => nofun), Wp.done (fun _ => nofun)⟩
    have g1 : kvGet (((Op.edgeDel pid (e.key env.H)).exec s2).2.edges pid) (e.key env.H) = none := by
      show kvGet ((s2.setEdges pid _).edges pid) _ = none
      rw [setEdges_edges, if_pos rfl, kvGet_del, if_pos rfl]
    intro s3 h3
    refine ⟨?_, Wp.done (fun _ => nofun), Wp.done (fun _ => nofun)⟩
    have g2 : kvGet ((Op.dataDel (e.key env.H)).exec s3).2.data (e.key env.H) = none := by
      show kvGet (kvDel s3.data _) _ = none
      rw [kvGet_del, if_pos rfl]
    intro s4 h4 s5 h5 a _
    exact ⟨hc, h5.1 (h4.1 (h3.1 g1)), h5.2 (h4.2 g2)⟩
  · rw [he]
    exact Wp.done (fun _ => nofun)

/-! ### Writes -/

/-- Under the key, only this relationship and data of `D` are written, and nothing is deleted. -/
def onlyWrites (pid : String) (k : EdgeKey) (e : IRel) (D : RelData → Prop) (o : Op) : Prop :=
  (∀ e', o = .edgeSet pid k e' → e' = e) ∧ (∀ d, o = .dataSet d → d.relationshipId = k → D d) ∧ o ≠ .edgeDel pid k ∧ o ≠ .dataDel k

/-- What is written stays written. -/
def StaysSet (pid : String) (k : EdgeKey) (e : IRel) (D : RelData → Prop) (s s' : Store) : Prop :=
  (kvGet (s.edges pid) k = some e → kvGet (s'.edges pid) k = some e) ∧
  ((∃ d, kvGet s.data k = some d ∧ D d) → ∃ d, kvGet s'.data k = some d ∧ D d)

theorem onlyWrites_exec {pid : String} {k : EdgeKey} {e : IRel} {D : RelData → Prop} {o : Op} (ho : onlyWrites pid k e D o) (s : Store) :
    StaysSet pid k e D s (o.exec s).2 := by
  obtain ⟨h1, h2, h3, h4⟩ := ho
  cases o <;> try exact ⟨id, id⟩
  case edgeSet q k' e' =>
    refine ⟨fun h => ?_, id⟩
    show kvGet ((s.setEdges q _).edges pid) k = _
    rw [setEdges_edges]
    split
    · next hq =>
      subst hq
      rw [kvGet_put]
      split
      · next hk => subst hk; rw [h1 e' rfl]
      · exact h
    · exact h
  case edgeDel q k' =>
    refine ⟨fun h => ?_, id⟩
    show kvGet ((s.setEdges q _).edges pid) k = _
    rw [setEdges_edges]
    split
    · next hq =>
      subst hq
      rw [kvGet_del, if_neg (fun he => h3 (by rw [he])), h]
    · exact h
  case dataSet d =>
    refine ⟨id, fun ⟨d', h, hd'⟩ => ?_⟩
    show ∃ d', kvGet (kvPut edgeLt s.data d.relationshipId d) k = some d' ∧ D d'
    rw [kvGet_put]
    split
    · next hk => exact ⟨d, rfl, h2 d rfl hk.symm⟩
    · exact ⟨d', h, hd'⟩
  case dataDel k' =>
    refine ⟨id, fun ⟨d', h, hd'⟩ => ?_⟩
    show ∃ d', kvGet (kvDel s.data k') k = some d' ∧ D d'
    rw [kvGet_del, if_neg (fun he => h4 (by rw [he]))]
    exact ⟨d', h, hd'⟩

theorem set_wp (env : Env) (now : Timestamp) (pid : String) (r : Relationship) (a : Bytes) (e : IRel) (he : toInternal r = .ok e)
    {D : RelData → Prop} (hD : D { relationshipId := e.key env.H, createdAt := now, appData := a }) (s : Store) :
    ((Call.setRelationship now pid (some r) a).prog env).Wp (StaysSet pid (e.key env.H) e D)
      (fun res s => ∀ a, res = .ok a → kvGet (s.edges pid) (e.key env.H) = some e ∧ ∃ d, kvGet s.data (e.key env.H) = some d ∧ D d) s := by
  have hrefl : ∀ s, StaysSet pid (e.key env.H) e D s s := fun _ => ⟨id, id⟩
  refine Wp.bind hrefl ?_
  show (Service.setRelationship env now pid (some r) a).Wp _ _ s
  refine Wp.bind hrefl ?_
  intro s1 _
  refine ⟨?_, Wp.done (fun _ => nofun), Wp.done (fun _ => nofun)⟩
  intro s2 _
  change Prog.Wp _ _ (match kvGet s1.policies pid with
    | none => Prog.lift (.err .policyNotFound)
    | some record => do
      Prog.lift (allowedRelationship (some r) (newLut record.policy))
      let r ← Prog.lift (Res.deref (some r))
      Repo.setRelationship env.H { policyId := pid, relationship := r, appData := a, createdAt := now }) s2
  cases kvGet s1.policies pid with
  | none => exact Wp.done (fun _ => nofun)
  | some rec =>
    refine Wp.bind hrefl ?_
    cases ha : allowedRelationship (some r) (newLut rec.policy) with
    | err => exact Wp.done (fun _ => nofun)
    | panic => exact Wp.done (fun _ => nofun)
    | fuel => exact Wp.done (fun _ => nofun)
    | ok _ =>
      intro s3 _
      dsimp only
      rw [Res.deref_some, lift_ok_bind]
      unfold Repo.setRelationship
      dsimp only
      rw [he, lift_ok_bind]
      intro s4 _
      refine ⟨?_, Wp.done (fun _ => nofun), Wp.done (fun _ => nofun)⟩
      intro s5 _
      refine ⟨?_, Wp.done (fun _ => nofun), Wp.done (fun _ => nofun)⟩
      have g1 : kvGet (((Op.edgeSet pid (e.key env.H) e).exec s5).2.edges pid) (e.key env.H) = some e := by
        show kvGet ((s5.setEdges pid _).edges pid) _ = _
        rw [setEdges_edges, if_pos rfl, kvGet_put, if_pos rfl]
      intro s6 h6
      refine ⟨?_, Wp.done (fun _ => nofun), Wp.done (fun _ => nofun)⟩
      have g2 : ∃ d, kvGet ((Op.dataSet { relationshipId := e.key env.H, createdAt := now, appData := a }).exec s6).2.data (e.key env.H) = some d ∧ D d := by
        refine ⟨_, ?_, hD⟩
        show kvGet (kvPut edgeLt s6.data (e.key env.H) _) _ = _
        rw [kvGet_put, if_pos rfl]
      intro s7 h7 s8 h8 b _
      exact ⟨h8.1 (h7.1 (h6.1 g1)), h8.2 (h7.2 g2)⟩

end Zanzi
