import Verif.Lemmas.Calls

/-
Closed forms of repository and service methods served alone without faults.
-/

namespace Zanzi

open Spec Prog

theorem policyAt_eq (s : Store) (id : String) : policyAt s id = kvGet s.policies id := by
  unfold policyAt
  induction s.policies with
  | nil => rfl
  | cons p m ih =>
    obtain ⟨k, v⟩ := p
    by_cases h : k = id
    · simp [kvGet, h]
    · simpa [kvGet, h] using ih

/-- Store after recording a relationship. -/
def Store.putRel (s : Store) (H : String → Nat) (pid : String) (e : IRel) (a : Bytes) (t : Timestamp) : Store :=
  { policies := s.policies
    edges := fun q => if q = pid then kvPut edgeLt (s.edges pid) (e.key H) e else s.edges q
    data := kvPut edgeLt s.data (e.key H) ⟨e.key H, t, a⟩ }

/-- Store after deleting the relationships with the given keys. -/
def Store.delRels (s : Store) (pid : String) (ks : List EdgeKey) : Store :=
  { policies := s.policies
    edges := fun q => if q = pid then (s.edges pid).filter (fun p => decide (p.1 ∉ ks)) else s.edges q
    data := s.data.filter (fun p => decide (p.1 ∉ ks)) }

theorem run_repo_setRelationship {H : String → Nat} {pid : String} {r : Relationship} {e : IRel} (h : toInternal r = .ok e)
    (a : Bytes) (t : Timestamp) (s : Store) :
    (Repo.setRelationship H { policyId := pid, relationship := r, createdAt := t, appData := a }).run s =
      (.ok (kvGet (s.edges pid) (e.key H)).isSome, s.putRel H pid e a t) := by
  unfold Repo.setRelationship
  simp only [h, lift_ok_bind, run_bind, run_edgeGet, andThen_ok, run_edgeSet, run_dataSet, run_pure]
  rfl

theorem run_repo_deleteRelationship {H : String → Nat} {pid : String} {r : Relationship} {e : IRel} (h : toInternal r = .ok e)
    (s : Store) :
    (Repo.deleteRelationship H pid (some r)).run s =
      (.ok (kvGet (s.edges pid) (e.key H)).isSome, s.delRels pid [e.key H]) := by
  unfold Repo.deleteRelationship
  simp only [Res.deref_some, h, lift_ok_bind, run_bind, run_edgeGet, andThen_ok, run_edgeDel, run_dataDel, run_pure]
  simp [Store.delRels, Store.setEdges, kvDel]

theorem run_repo_getRelationship {H : String → Nat} {pid : String} {r : Relationship} {e : IRel} (h : toInternal r = .ok e)
    (s : Store) :
    (Repo.getRelationship H pid (some r)).run s =
      (.ok ((kvGet s.data (e.key H)).map (fromInternalRecord pid e)), s) := by
  unfold Repo.getRelationship
  simp only [Res.deref_some, h, lift_ok_bind, run_bind, run_dataGet, andThen_ok]
  cases kvGet s.data (e.key H) <;> rfl

/-! ### Selectors -/

theorem newSelectorSpec_ok {sel : Selector} (hc : SelectorComplete sel) (hs : SelectorSet sel) :
    ∃ o r sb, sel = ⟨some o, some r, some sb⟩ ∧ newSelectorSpec (some sel) = .ok (o, r, sb) ∧
      o ≠ .unset ∧ r ≠ .unset ∧ sb ≠ .unset := by
  obtain ⟨o, r, sb⟩ := sel
  obtain ⟨h1, h2, h3⟩ := hc
  obtain ⟨h4, h5, h6⟩ := hs
  cases o with
  | none => exact absurd rfl h1
  | some o =>
  cases r with
  | none => exact absurd rfl h2
  | some r =>
  cases sb with
  | none => exact absurd rfl h3
  | some sb =>
    have h4' : o ≠ .unset := fun h => h4 (by rw [h])
    have h5' : r ≠ .unset := fun h => h5 (by rw [h])
    have h6' : sb ≠ .unset := fun h => h6 (by rw [h])
    exact ⟨o, r, sb, rfl, by simp [newSelectorSpec, h4', h5', h6'], h4', h5', h6'⟩

theorem selectorSatisfies_ok {o : ObjectSelector} {rl : RelationSelector} {sb : SubjectSelector}
    (ho : o ≠ .unset) (hr : rl ≠ .unset) (hs : sb ≠ .unset) {r : Relationship} (hc : RelationshipComplete r) :
    ∃ b, selectorSatisfies (o, rl, sb) r = .ok b ∧ (b = true ↔ Matches ⟨some o, some rl, some sb⟩ r) := by
  obtain ⟨ob, rel, sub⟩ := r
  obtain ⟨h1, h2, h3⟩ := hc
  cases ob with
  | none => exact absurd rfl h1
  | some ob =>
  cases sub with
  | none => exact absurd rfl h2
  | some sub =>
    have hob : ∃ b, objectPredicate o ⟨some ob, rel, some sub⟩ = .ok b ∧ (b = true ↔
        (∀ e, o = .objectSpec e → ob = e) ∧ (∀ n, o = .resourceSpec n → ob.resource = n)) := by
      cases o <;> simp [objectPredicate] at ho ⊢
    have hrl : ∃ b, relationPredicate rl ⟨some ob, rel, some sub⟩ = .ok b ∧ (b = true ↔
        (∀ n, rl = .relationName n → rel = n)) := by
      cases rl <;> simp [relationPredicate] at hr ⊢
    have hsb : ∃ b, subjectPredicate sb ⟨some ob, rel, some sub⟩ = .ok b ∧ (b = true ↔
        (∀ x, sb = .subjectSpec x → sub = x) ∧ (∀ n, sb = .resourceSpec n → subjectResource sub = some n)) := by
      cases sb with
      | unset => exact absurd rfl hs
      | wildcard => simp [subjectPredicate]
      | subjectSpec => simp [subjectPredicate]
      | resourceSpec n =>
        cases sub with
        | unset => simp [subjectPredicate, subjectResource]
        | entity => simp [subjectPredicate, subjectResource]
        | resourceSet => simp [subjectPredicate, subjectResource]
        | entitySet x y =>
          cases x with
          | none => exact absurd rfl (h3 y)
          | some x => simp [subjectPredicate, subjectResource]
    obtain ⟨b1, e1, i1⟩ := hob
    obtain ⟨b2, e2, i2⟩ := hrl
    obtain ⟨b3, e3, i3⟩ := hsb
    refine ⟨b1 && b2 && b3, ?_, ?_⟩
    · unfold selectorSatisfies
      simp only [e1, e2, e3, Res.bind_ok]
      cases b1 <;> cases b2 <;> simp
    · unfold Matches
      simp only [Bool.and_eq_true, i1, i2, i3, Option.some.injEq, exists_eq_left', and_assoc]

open Classical in
theorem filterRes_matches {o : ObjectSelector} {rl : RelationSelector} {sb : SubjectSelector}
    (ho : o ≠ .unset) (hr : rl ≠ .unset) (hs : sb ≠ .unset) (l : List Relationship)
    (hl : ∀ r ∈ l, RelationshipComplete r) :
    filterRes (selectorSatisfies (o, rl, sb)) l = .ok (l.filter (fun r => decide (Matches ⟨some o, some rl, some sb⟩ r))) := by
  induction l with
  | nil => rfl
  | cons a l ih =>
    obtain ⟨b, e, i⟩ := selectorSatisfies_ok ho hr hs (hl a (by simp))
    unfold filterRes
    rw [e]
    dsimp only
    rw [ih (fun r hr => hl r (by simp [hr]))]
    by_cases hm : Matches ⟨some o, some rl, some sb⟩ a
    · have : b = true := i.2 hm
      simp [hm, this]
    · have : b = false := by cases b; rfl; exact absurd (i.1 rfl) hm
      simp [hm, this]

open Classical in
/-- Relationships of a policy matching a selector, in storage order. -/
noncomputable def matching (s : Store) (pid : String) (sel : Selector) : List Relationship :=
  (relationships s pid).filter (fun r => decide (Matches sel r))

theorem mem_matching {s : Store} {pid : String} {sel : Selector} {r : Relationship} :
    r ∈ matching s pid sel ↔ Present s pid r ∧ Matches sel r := by
  simp [matching, Present]

theorem run_findRelationships {sel : Selector} (hc : SelectorComplete sel) (hs : SelectorSet sel) (pid : String) (s : Store) :
    (Repo.findRelationships pid (some sel)).run s = (.ok (matching s pid sel), s) := by
  obtain ⟨o, r, sb, rfl, h, h1, h2, h3⟩ := newSelectorSpec_ok hc hs
  unfold Repo.findRelationships
  simp only [run_bind, run_edgeList, andThen_ok, run_lift, h]
  rw [filterRes_matches h1 h2 h3]
  · simp [matching, relationships, Function.comp_def]
  · intro x hx
    obtain ⟨e, _, rfl⟩ := List.mem_map.1 hx
    exact fromInternal_complete e

theorem run_mapSlice_pure {α β : Type} {f : α → Prog β} {g : α → β} {s : Store} {l : List α}
    (h : ∀ a ∈ l, (f a).run s = (.ok (g a), s)) : (mapSlice f l).run s = (.ok (l.map g), s) := by
  induction l with
  | nil => rfl
  | cons a l ih =>
    unfold mapSlice
    rw [run_bind, h a (by simp), andThen_ok, run_bind, ih (fun x hx => h x (by simp [hx])), andThen_ok]
    rfl

/-- Key of a complete relationship. -/
def relKey (H : String → Nat) (r : Relationship) : EdgeKey :=
  match toInternal r with
  | .ok e => e.key H
  | _ => (0, 0)

theorem relKey_of {H : String → Nat} {r : Relationship} {e : IRel} (h : toInternal r = .ok e) : relKey H r = e.key H := by
  simp [relKey, h]

theorem delRels_delRels (s : Store) (pid : String) (k : EdgeKey) (ks : List EdgeKey) :
    (s.delRels pid [k]).delRels pid ks = s.delRels pid (k :: ks) := by
  unfold Store.delRels
  simp only [List.mem_cons, List.mem_singleton, not_or, List.not_mem_nil, or_false]
  congr 1
  · funext q
    by_cases hq : q = pid
    · simp only [hq, if_true, List.filter_filter]
      congr 1; funext p
      simp only [Bool.decide_and]
      exact Bool.and_comm _ _
    · simp [hq]
  · rw [List.filter_filter]
    congr 1; funext p
    simp only [Bool.decide_and]
    exact Bool.and_comm _ _

theorem delRels_nil (s : Store) (pid : String) : s.delRels pid [] = s := by
  obtain ⟨p, e, d⟩ := s
  have hf : ∀ {α : Type} (l : List α), l.filter (fun _ => true) = l := fun l => List.filter_eq_self.2 (fun _ _ => rfl)
  simp only [Store.delRels, List.not_mem_nil, not_false_eq_true, decide_true, hf]
  congr 1
  funext q
  split
  · next h => rw [h]
  · rfl

theorem run_mapSlice_delete {H : String → Nat} {pid : String} (rs : List Relationship)
    (hc : ∀ r ∈ rs, RelationshipComplete r) (s : Store) :
    ∃ bs : List Bool, bs.length = rs.length ∧
    (mapSlice (fun r => Repo.deleteRelationship H pid (some r)) rs).run s =
      (.ok bs, s.delRels pid (rs.map (relKey H))) := by
  induction rs generalizing s with
  | nil => exact ⟨[], rfl, by rw [List.map_nil, delRels_nil]; rfl⟩
  | cons r rs ih =>
    obtain ⟨e, he⟩ := toInternal_complete.2 (hc r (by simp))
    obtain ⟨bs, hl, hr⟩ := ih (fun x hx => hc x (by simp [hx])) (s.delRels pid [e.key H])
    refine ⟨(kvGet (s.edges pid) (e.key H)).isSome :: bs, by simp [hl], ?_⟩
    unfold mapSlice
    rw [run_bind, run_repo_deleteRelationship he, andThen_ok, run_bind, hr, andThen_ok, delRels_delRels, List.map_cons, relKey_of he]
    rfl

theorem run_repo_deleteRelationships {sel : Selector} (hc : SelectorComplete sel) (hs : SelectorSet sel) (H : String → Nat)
    (pid : String) (s : Store) :
    (Repo.deleteRelationships H pid (some sel)).run s =
      (.ok (matching s pid sel).length, s.delRels pid ((matching s pid sel).map (relKey H))) := by
  unfold Repo.deleteRelationships
  rw [run_bind, run_findRelationships hc hs, andThen_ok, run_bind]
  obtain ⟨bs, hl, hr⟩ := run_mapSlice_delete (H := H) (pid := pid) (matching s pid sel) (by
    intro r hr
    obtain ⟨hp, _⟩ := mem_matching.1 hr
    obtain ⟨e, _, rfl⟩ := List.mem_map.1 hp
    exact fromInternal_complete _) s
  rw [hr, andThen_ok]
  simp [hl]

theorem run_findRecords {sel : Selector} (hc : SelectorComplete sel) (hs : SelectorSet sel) (H : String → Nat)
    (pid : String) (s : Store) :
    (Repo.findRelationshipRecords H pid (some sel)).run s =
      (.ok ((matching s pid sel).map (fun r => (kvGet s.data (relKey H r)).map
        (fun d => { policyId := pid, relationship := r, createdAt := d.createdAt, appData := d.appData }))), s) := by
  unfold Repo.findRelationshipRecords
  rw [run_bind, run_findRelationships hc hs, andThen_ok]
  apply run_mapSlice_pure
  intro r hr
  obtain ⟨hp, _⟩ := mem_matching.1 hr
  obtain ⟨x, _, rfl⟩ := List.mem_map.1 hp
  obtain ⟨e, he⟩ := toInternal_complete.2 (fromInternal_complete x.2)
  rw [run_repo_getRelationship he, relKey_of he]
  congr 2
  cases kvGet s.data (e.key H) with
  | none => rfl
  | some d => simp [fromInternalRecord, fromInternal_toInternal he]

/-! ### Facts about present relationships in well-formed stores -/

variable {env : Env} {s : Store}

theorem WF.present_iff (hs : WF env s) {pid : String} {r : Relationship} {e : IRel} (h : toInternal r = .ok e) :
    Present s pid r ↔ kvGet (s.edges pid) (e.key env.H) = some e := by
  constructor
  · intro hp
    obtain ⟨⟨k, e'⟩, hm, hf⟩ := List.mem_map.1 hp
    have hb := (hs.edgeNorm pid _ _ hm).back
    dsimp only at hf
    rw [hf, h] at hb
    cases hb
    have hk := hs.edgeKey pid _ _ hm
    rw [← hk]
    exact mem_kvGet (hs.edgeNodup pid) hm
  · intro hk
    exact List.mem_map.2 ⟨_, kvGet_mem hk, fromInternal_toInternal h⟩

theorem present_complete {pid : String} {r : Relationship} (h : Present s pid r) : RelationshipComplete r := by
  obtain ⟨p, _, rfl⟩ := List.mem_map.1 h
  exact fromInternal_complete _

theorem WF.relationships_nodup (hs : WF env s) (pid : String) : (relationships s pid).Nodup := by
  have hn := hs.edgeNodup pid
  have hk := hs.edgeKey pid
  have hm := hs.edgeNorm pid
  unfold relationships
  revert hn hk hm
  induction s.edges pid with
  | nil => simp
  | cons p m ih =>
    intro hn hk hm
    unfold KeysNodup at hn
    rw [List.map_cons, List.nodup_cons] at hn ⊢
    refine ⟨?_, ih hn.2 (fun k e h => hk k e (by simp [h])) (fun k e h => hm k e (by simp [h]))⟩
    intro hmem
    obtain ⟨q, hq, he⟩ := List.mem_map.1 hmem
    have : q.2 = p.2 := fromInternal_inj (hm q.1 q.2 (by simp [hq])) (hm p.1 p.2 (by simp)) he
    apply hn.1
    have h1 := hk p.1 p.2 (by simp)
    have h2 := hk q.1 q.2 (by simp [hq])
    rw [h1, ← this, ← h2]
    exact List.mem_map.2 ⟨q, hq, rfl⟩

theorem WF.matching_nodup (hs : WF env s) (pid : String) (sel : Selector) : (matching s pid sel).Nodup :=
  (hs.relationships_nodup pid).filter _

theorem WF.mem_relKey (hs : WF env s) {pid : String} {p : EdgeKey × IRel} (hp : p ∈ s.edges pid) :
    relKey env.H (fromInternal p.2) = p.1 := by
  rw [relKey_of (hs.edgeNorm pid _ _ hp).back, ← hs.edgeKey pid _ _ hp]

open Classical in
/-- Bulk deletion leaves exactly the relationships that do not match. -/
theorem WF.relationships_delMatching (hs : WF env s) (pid : String) (sel : Selector) :
    relationships (s.delRels pid ((matching s pid sel).map (relKey env.H))) pid =
      (relationships s pid).filter (fun r => decide (¬ Matches sel r)) := by
  unfold relationships
  have hed : (s.delRels pid ((matching s pid sel).map (relKey env.H))).edges pid =
      (s.edges pid).filter (fun p => decide (p.1 ∉ (matching s pid sel).map (relKey env.H))) := by
    simp [Store.delRels]
  rw [hed, List.filter_map]
  congr 1
  apply List.filter_congr
  intro p hp
  simp only [Function.comp, decide_eq_decide]
  constructor
  · intro h hm
    apply h
    refine List.mem_map.2 ⟨fromInternal p.2, mem_matching.2 ⟨List.mem_map.2 ⟨p, hp, rfl⟩, hm⟩, hs.mem_relKey hp⟩
  · intro h hm
    obtain ⟨r, hr, hk⟩ := List.mem_map.1 hm
    obtain ⟨hpr, hmt⟩ := mem_matching.1 hr
    obtain ⟨q, hq, rfl⟩ := List.mem_map.1 hpr
    rw [hs.mem_relKey hq] at hk
    have : q = p := by
      have h1 := mem_kvGet (hs.edgeNodup pid) (show (q.1, q.2) ∈ s.edges pid from hq)
      have h2 := mem_kvGet (hs.edgeNodup pid) (show (p.1, p.2) ∈ s.edges pid from hp)
      rw [hk, h2] at h1
      exact Prod.ext hk (Option.some.inj h1).symm
    subst this
    exact h hmt

theorem relationships_delRels_other (s : Store) {pid q : String} (h : q ≠ pid) (ks : List EdgeKey) :
    relationships (s.delRels pid ks) q = relationships s q := by
  simp [relationships, Store.delRels, h]

theorem relationships_putRel_other (s : Store) {pid q : String} (h : q ≠ pid) (H : String → Nat) (e : IRel) (a : Bytes) (t : Timestamp) :
    relationships (s.putRel H pid e a t) q = relationships s q := by
  simp [relationships, Store.putRel, h]

end Zanzi
