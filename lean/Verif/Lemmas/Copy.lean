import Verif.Spec.Copy
import Verif.Lemmas.Clock
import Verif.Lemmas.Effects
import Verif.Props.Locality
import Verif.Props.Concurrency
import Verif.Props.Admission

/-
Copying what a service holds.
-/

namespace Zanzi

open Spec Prog

section
variable {env : Env} {s t : Store} {ids : List String} {pol : String → PolicyRecord} {recs : String → List RelationshipRecord}

theorem Fetched.mem (h : Fetched env s ids pol recs) (id : String) : id ∈ ids ↔ (kvGet s.policies id).isSome = true := by
  have := h.listed
  rw [serve_listPolicyIds] at this
  cases this
  rw [kvGet_isSome_iff]
  simp

theorem Fetched.polOf (h : Fetched env s ids pol recs) {id : String} (hi : id ∈ ids) : kvGet s.policies id = some (pol id) := by
  have := h.policies id hi
  rw [serve_getPolicy] at this
  exact Answer.policy.inj (Res.ok.inj this)

theorem Fetched.recsOf (h : Fetched env s ids pol recs) {id : String} (hi : id ∈ ids) : (recs id).map some = (relationships s id).map (fun r => (kvGet s.data (relKey env.H r)).map
    (fun d => ({ policyId := id, relationship := r, createdAt := d.createdAt, appData := d.appData } : RelationshipRecord))) := by
  have := h.records id hi
  rw [show everything = allSelector from rfl, serve_find allSelector_complete.1 allSelector_complete.2, Fetched.polOf h hi] at this
  dsimp only at this
  split at this
  · dsimp only at this
    rw [matching_all] at this
    have := Res.ok.inj this
    exact (Answer.records.inj this).symm
  · cases this
  · cases this
  · cases this

theorem Fetched.rec_of (h : Fetched env s ids pol recs) {id : String} (hi : id ∈ ids) {r : Relationship} (hr : Present s id r) :
    ∃ d, kvGet s.data (relKey env.H r) = some d ∧ (⟨id, r, d.createdAt, d.appData⟩ : RelationshipRecord) ∈ recs id := by
  have hm : (kvGet s.data (relKey env.H r)).map (fun d => ({ policyId := id, relationship := r, createdAt := d.createdAt, appData := d.appData } : RelationshipRecord)) ∈ (recs id).map some := by
    rw [Fetched.recsOf h hi]
    exact List.mem_map.2 ⟨r, hr, rfl⟩
  obtain ⟨x, hx, he⟩ := List.mem_map.1 hm
  cases hd : kvGet s.data (relKey env.H r) with
  | none => rw [hd] at he; cases he
  | some d =>
    rw [hd] at he
    cases he
    exact ⟨d, rfl, hx⟩

theorem Fetched.of_rec (h : Fetched env s ids pol recs) {id : String} (hi : id ∈ ids) {x : RelationshipRecord} (hx : x ∈ recs id) :
    Present s id x.relationship ∧ ∃ d, kvGet s.data (relKey env.H x.relationship) = some d ∧ x.appData = d.appData := by
  have hm : some x ∈ (recs id).map some := List.mem_map.2 ⟨x, hx, rfl⟩
  rw [Fetched.recsOf h hi] at hm
  obtain ⟨r, hr, he⟩ := List.mem_map.1 hm
  obtain ⟨d, hd, rfl⟩ := Option.map_eq_some_iff.1 he
  exact ⟨hr, d, hd, rfl⟩

/-- What was copied so far is what `s` holds. -/
structure Part (s t : Store) : Prop where
  pol : ∀ id rec, kvGet t.policies id = some rec → ∃ rec', kvGet s.policies id = some rec' ∧ SamePolicyRecord rec' rec
  edge : ∀ pid k e, kvGet (t.edges pid) k = some e → kvGet (s.edges pid) k = some e ∧ (kvGet s.policies pid).isSome = true
  data : ∀ k d, kvGet t.data k = some d → ∃ d', kvGet s.data k = some d' ∧ SameData d' d

/-- What was there stays. -/
structure Grows (t t' : Store) : Prop where
  pol : ∀ id, (kvGet t.policies id).isSome = true → (kvGet t'.policies id).isSome = true
  edge : ∀ pid k, (kvGet (t.edges pid) k).isSome = true → (kvGet (t'.edges pid) k).isSome = true
  data : ∀ k, (kvGet t.data k).isSome = true → (kvGet t'.data k).isSome = true

theorem Grows.refl (t : Store) : Grows t t := ⟨fun _ h => h, fun _ _ h => h, fun _ h => h⟩

theorem Grows.trans {t t' t'' : Store} (h : Grows t t') (h' : Grows t' t'') : Grows t t'' :=
  ⟨fun id hi => h'.pol id (h.pol id hi), fun p k hk => h'.edge p k (h.edge p k hk), fun k hk => h'.data k (h.data k hk)⟩

/-- What a copying request was to bring about. -/
def Brought (env : Env) (t : Store) : Call → Prop
  | .createPolicy _ (some (.policy p)) _ => (kvGet t.policies p.id).isSome = true
  | .setRelationship _ pid (some r) _ => (kvGet (t.edges pid) (relKey env.H r)).isSome = true ∧ (kvGet t.data (relKey env.H r)).isSome = true
  | _ => True

theorem Brought.grows {t t' : Store} {c : Call} (h : Brought env t c) (hg : Grows t t') : Brought env t' c := by
  unfold Brought at *
  split at h
  · exact hg.pol _ h
  · exact ⟨hg.edge _ _ h.1, hg.data _ h.2⟩
  · trivial

theorem copy_step (hs : WF env s) (hf : Fetched env s ids pol recs) {c : Call} (hc : CopyOf ids pol recs c) (hp : Part s t) {a : Answer} {t' : Store}
    (h : serve env c t = (.ok a, t')) : Part s t' ∧ Grows t t' ∧ Brought env t' c := by
  cases hc with
  | @policy now id hi =>
    have hg := Fetched.polOf hf hi
    have hid : (pol id).policy.id = id := hs.polKey _ _ (kvGet_mem hg)
    rw [serve_create] at h
    simp only [getPolicyFromDefinition, Res.deref_some, Res.bind_ok] at h
    have ht' : t' = t.putPolicy ⟨(pol id).policy, (pol id).appData, now⟩ := by
      split at h
      · cases h
      · split at h <;> first | (cases h; rfl) | cases h
    subst ht'
    have hk : ∀ q, kvGet (t.putPolicy ⟨(pol id).policy, (pol id).appData, now⟩).policies q = if q = id then some ⟨(pol id).policy, (pol id).appData, now⟩ else kvGet t.policies q := by
      intro q
      show kvGet (kvPut strLt t.policies (pol id).policy.id _) q = _
      rw [kvGet_put, hid]
    refine ⟨⟨fun q rec hq => ?_, hp.edge, hp.data⟩, ⟨fun q hq => ?_, fun _ _ h => h, fun _ h => h⟩, ?_⟩
    · rw [hk] at hq
      split at hq
      · rename_i he
        subst he
        cases hq
        exact ⟨_, hg, rfl, rfl⟩
      · exact hp.pol q rec hq
    · rw [hk]
      split
      · rfl
      · exact hq
    · show (kvGet (t.putPolicy _).policies (pol id).policy.id).isSome = true
      rw [hk, if_pos hid]
      rfl
  | @relationship now id x hi hx =>
    obtain ⟨r', e, rec, hr, he, hpol, _, _, rfl⟩ := serve_set_inv h
    cases hr
    obtain ⟨hpr, d, hd, ha⟩ := Fetched.of_rec hf hi hx
    rw [hs.present_iff he] at hpr
    have hk := relKey_of (H := env.H) he
    rw [hk] at hd
    have hde : ∀ q k, kvGet ((t.putRel env.H id e x.appData now).edges q) k = if q = id ∧ k = e.key env.H then some e else kvGet (t.edges q) k := by
      intro q k
      by_cases hq : q = id
      · subst hq
        simp only [Store.putRel, if_true, kvGet_put, true_and]
      · simp only [Store.putRel, hq, if_false, false_and]
    have hdd : ∀ k, kvGet (t.putRel env.H id e x.appData now).data k = if k = e.key env.H then some ⟨e.key env.H, now, x.appData⟩ else kvGet t.data k := fun k => by
      simp only [Store.putRel, kvGet_put]
    refine ⟨⟨hp.pol, fun q k e' hq => ?_, fun k d' hq => ?_⟩, ⟨fun _ h => h, fun q k hq => ?_, fun k hq => ?_⟩, ?_⟩
    · rw [hde] at hq
      split at hq
      · rename_i hc
        obtain ⟨rfl, rfl⟩ := hc
        cases hq
        exact ⟨hpr, (Fetched.mem hf _).1 hi⟩
      · exact hp.edge q k e' hq
    · rw [hdd] at hq
      split at hq
      · rename_i hc
        subst hc
        cases hq
        exact ⟨d, hd, hs.dataKey _ _ (kvGet_mem hd), ha.symm⟩
      · exact hp.data k d' hq
    · rw [hde]
      split
      · rfl
      · exact hq
    · rw [hdd]
      split
      · rfl
      · exact hq
    · show (kvGet (Store.edges _ id) (relKey env.H x.relationship)).isSome = true ∧ (kvGet (Store.data _) (relKey env.H x.relationship)).isSome = true
      rw [hk, hde, hdd, if_pos ⟨rfl, rfl⟩, if_pos rfl]
      exact ⟨rfl, rfl⟩

/-- A copying request that fails changes nothing. -/
theorem copy_failed {c : Call} (hc : CopyOf ids pol recs c) (ht : WF env t) (h : ¬ ∃ a, (serve env c t).1 = .ok a) : (serve env c t).2 = t := by
  cases hc with
  | @policy now id hi =>
    rw [serve_create] at h ⊢
    simp only [getPolicyFromDefinition, Res.deref_some, Res.bind_ok] at h ⊢
    split at h
    · rfl
    · split at h <;> first | rfl | exact absurd ⟨_, rfl⟩ h
  | @relationship now id x hi hx =>
    obtain ⟨h1, h2⟩ := C12_service_refuses env t ht now id (some x.relationship) x.appData
    cases hp : policyAt t id with
    | none => rw [h1 hp]
    | some rec =>
      by_cases ha : Admissible rec.policy x.relationship
      · exact absurd ((C12_service_admits env t ht now id (some x.relationship) x.appData).2 ⟨rec, _, hp, rfl, ha⟩) h
      · exact (h2 rec hp (fun r' hr => by cases hr; exact ha)).2

theorem copy_run (hs : WF env s) (hf : Fetched env s ids pol recs) (cs : List Call) : ∀ {t : Store}, (∀ c ∈ cs, CopyOf ids pol recs c) → WF env t → Part s t →
    Part s (runCalls env cs t).2 ∧ Grows t (runCalls env cs t).2 ∧ ∀ c a, (c, .ok a) ∈ cs.zip (runCalls env cs t).1 → Brought env (runCalls env cs t).2 c := by
  induction cs with
  | nil => intro t _ _ hp; exact ⟨hp, Grows.refl t, by simp⟩
  | cons c cs ih =>
    intro t hc ht hp
    have hc0 := hc c (List.mem_cons_self ..)
    have h1 : Part s (serve env c t).2 ∧ Grows t (serve env c t).2 ∧ ∀ a, (serve env c t).1 = .ok a → Brought env (serve env c t).2 c := by
      by_cases ha : ∃ a, (serve env c t).1 = .ok a
      · obtain ⟨a, ha⟩ := ha
        obtain ⟨h1, h2, h3⟩ := copy_step hs hf hc0 hp (t' := (serve env c t).2) (Prod.ext ha rfl)
        exact ⟨h1, h2, fun _ _ => h3⟩
      · rw [copy_failed hc0 ht ha]
        exact ⟨hp, Grows.refl t, fun a h => absurd ⟨a, h⟩ ha⟩
    obtain ⟨h4, h5, h6⟩ := ih (fun c' hc' => hc c' (List.mem_cons_of_mem _ hc')) (ht.run c) h1.1
    rw [runCalls_cons]
    refine ⟨h4, h1.2.1.trans h5, fun c' a hm => ?_⟩
    rw [List.zip_cons_cons] at hm
    rcases List.mem_cons.1 hm with he | hm
    · have he1 := congrArg Prod.fst he
      have he2 := congrArg Prod.snd he
      dsimp only at he1 he2
      subst he1
      exact (h1.2.2 a he2.symm).grows h5
    · exact h6 c' a hm

/-- The copy: policies and their relationships are those fetched. -/
structure Copied (s t : Store) : Prop where
  pol : ∀ id, BothOrNone SamePolicyRecord (kvGet s.policies id) (kvGet t.policies id)
  live : ∀ pid, (kvGet s.policies pid).isSome = true → t.edges pid = s.edges pid
  dead : ∀ pid, kvGet s.policies pid = none → t.edges pid = []
  data : ∀ k d, kvGet t.data k = some d → ∃ d', kvGet s.data k = some d' ∧ SameData d' d
  dataLive : ∀ pid k e, (kvGet s.policies pid).isSome = true → kvGet (s.edges pid) k = some e → (kvGet t.data k).isSome = true

theorem part_empty (s : Store) : Part s Store.empty := ⟨fun _ _ h => (by cases h), fun _ _ _ h => (by cases h), fun _ _ h => (by cases h)⟩

theorem copied (hs : WF env s) (hf : Fetched env s ids pol recs) {cs : List Call} (hc : Copies ids pol recs cs (runCalls env cs Store.empty).1) :
    Copied s (runCalls env cs Store.empty).2 := by
  obtain ⟨hp, _, hb⟩ := copy_run hs hf cs hc.only (WF.empty env) (part_empty s)
  have ht : WF env (runCalls env cs Store.empty).2 := (WF.empty env).runCalls cs
  have key : ∀ pid k e, (kvGet s.policies pid).isSome = true → kvGet (s.edges pid) k = some e →
      kvGet ((runCalls env cs Store.empty).2.edges pid) k = some e ∧ (kvGet (runCalls env cs Store.empty).2.data k).isSome = true := by
    intro pid k e hl he
    have hi := (Fetched.mem hf pid).2 hl
    have hm := kvGet_mem he
    have hn := hs.edgeNorm _ _ _ hm
    have hk := hs.edgeKey _ _ _ hm
    have hpr : Present s pid (fromInternal e) := (hs.mem_edges hn hk).1 hm
    obtain ⟨d, _, hx⟩ := Fetched.rec_of hf hi hpr
    obtain ⟨now, a, hcs⟩ := hc.relationships pid hi _ hx
    have hbr := hb _ _ hcs
    have hrk : relKey env.H (fromInternal e) = k := by rw [relKey_of hn.back, hk]
    have : (kvGet ((runCalls env cs Store.empty).2.edges pid) k).isSome = true ∧ (kvGet (runCalls env cs Store.empty).2.data k).isSome = true := hrk ▸ hbr
    refine ⟨?_, this.2⟩
    obtain ⟨e', he'⟩ := Option.isSome_iff_exists.1 this.1
    rw [(hp.edge _ _ _ he').1] at he
    cases he
    exact he'
  refine ⟨fun id => ?_, fun pid hl => ?_, fun pid hn => ?_, hp.data, fun pid k e hl he => (key pid k e hl he).2⟩
  · cases hg : kvGet s.policies id with
    | none =>
      cases hg' : kvGet (runCalls env cs Store.empty).2.policies id with
      | none => trivial
      | some rec =>
        obtain ⟨_, h1, _⟩ := hp.pol id rec hg'
        rw [hg] at h1
        cases h1
    | some rec =>
      have hi := (Fetched.mem hf id).2 (by rw [hg]; rfl)
      obtain ⟨now, a, hcs⟩ := hc.policies id hi
      have hbr : (kvGet (runCalls env cs Store.empty).2.policies (Zanzi.Policy.id (PolicyRecord.policy (pol id)))).isSome = true := hb _ _ hcs
      have hid : (pol id).policy.id = id := hs.polKey _ _ (kvGet_mem (Fetched.polOf hf hi))
      rw [hid] at hbr
      obtain ⟨rec', hr⟩ := Option.isSome_iff_exists.1 hbr
      obtain ⟨rec'', h1, h2⟩ := hp.pol id rec' hr
      rw [hg] at h1
      cases h1
      rw [hr]
      exact h2
  · refine sorted_ext (ht.edgeSorted pid) (hs.edgeSorted pid) (fun p => ?_)
    obtain ⟨k, e⟩ := p
    constructor
    · intro hm
      exact kvGet_mem (hp.edge pid k e (mem_kvGet (ht.edgeNodup pid) hm)).1
    · intro hm
      exact kvGet_mem (key pid k e hl (mem_kvGet (hs.edgeNodup pid) hm)).1
  · rw [List.eq_nil_iff_forall_not_mem]
    rintro ⟨k, e⟩ hm
    have := (hp.edge pid k e (mem_kvGet (ht.edgeNodup pid) hm)).2
    rw [hn] at this
    cases this

/-- Sorted lists with the same members are equal. -/
theorem strings_ext : ∀ {l l' : List String}, l.Pairwise (fun a b => strLt a b = true) → l'.Pairwise (fun a b => strLt a b = true) → (∀ p, p ∈ l ↔ p ∈ l') → l = l'
  | [], [], _, _, _ => rfl
  | [], q :: l', _, _, h => by have := (h q).2 List.mem_cons_self; cases this
  | p :: l, [], _, _, h => by have := (h p).1 List.mem_cons_self; cases this
  | p :: l, q :: l', h1, h2, h => by
    have h1' := List.pairwise_cons.1 h1
    have h2' := List.pairwise_cons.1 h2
    have asym : ∀ {a b : String}, strLt a b = true → strLt b a = true → False := by
      intro a b ha hb
      have := strLt_trans ha hb
      rw [strLt_irrefl] at this
      cases this
    have hpq : p = q := by
      rcases List.mem_cons.1 ((h p).1 List.mem_cons_self) with e | hp
      · exact e
      · rcases List.mem_cons.1 ((h q).2 List.mem_cons_self) with e | hq
        · exact e.symm
        · exact (asym (h1'.1 q hq) (h2'.1 p hp)).elim
    subst hpq
    have ht : l = l' := strings_ext h1'.2 h2'.2 (fun r => by
      constructor
      · intro hr
        rcases List.mem_cons.1 ((h r).1 (List.mem_cons_of_mem _ hr)) with e | hr'
        · subst e; exact (asym (h1'.1 _ hr) (h1'.1 _ hr)).elim
        · exact hr'
      · intro hr
        rcases List.mem_cons.1 ((h r).2 (List.mem_cons_of_mem _ hr)) with e | hr'
        · subst e; exact (asym (h2'.1 _ hr) (h2'.1 _ hr)).elim
        · exact hr')
    rw [ht]

theorem ids_eq (hs : WF env s) (ht : WF env t) (h : ∀ id, BothOrNone SamePolicyRecord (kvGet s.policies id) (kvGet t.policies id)) : s.policies.map (·.1) = t.policies.map (·.1) := by
  refine strings_ext (List.pairwise_map.2 hs.polSorted) (List.pairwise_map.2 ht.polSorted) (fun id => ?_)
  have h1 : ∀ m : List (String × PolicyRecord), id ∈ m.map (·.1) ↔ (kvGet m id).isSome = true := fun m => by
    rw [kvGet_isSome_iff]
    simp
  rw [h1, h1, both_isSome (h id)]

/-- Every stored datum belongs to a relationship of some policy. -/
def Owned (s : Store) : Prop := ∀ k, (kvGet s.data k).isSome = true → ∃ pid, (kvGet (s.edges pid) k).isSome = true

theorem delRels_owned {s : Store} (h : Owned s) (pid : String) (ks : List EdgeKey) : Owned (s.delRels pid ks) := by
  intro k hk
  obtain ⟨d, hd⟩ := kvGet_isSome_iff.1 hk
  obtain ⟨hd, hks⟩ := List.mem_filter.1 hd
  obtain ⟨q, hq⟩ := h k (kvGet_isSome_iff.2 ⟨d, hd⟩)
  obtain ⟨e, he⟩ := kvGet_isSome_iff.1 hq
  refine ⟨q, kvGet_isSome_iff.2 ⟨e, ?_⟩⟩
  simp only [Store.delRels]
  split
  · rename_i hp
    subst hp
    exact List.mem_filter.2 ⟨he, hks⟩
  · exact he

theorem serve_owned {s : Store} (h : Owned s) (c : Call) : Owned (serve env c s).2 := by
  have hE := serve_effect env c s
  generalize (serve env c s).2 = s' at hE
  cases hE with
  | same => exact h
  | created => exact h
  | updated => exact h
  | @put now pid r a e rec =>
    intro k hk
    simp only [Store.putRel, kvGet_put] at hk ⊢
    by_cases he : k = e.key env.H
    · exact ⟨pid, by simp only [if_true, kvGet_put, he]; rfl⟩
    · rw [if_neg he] at hk
      obtain ⟨q, hq⟩ := h k hk
      refine ⟨q, ?_⟩
      split
      · rename_i hp
        subst hp
        rw [kvGet_put, if_neg he]
        exact hq
      · exact hq
  | del _ pid ks => exact delRels_owned h pid ks
  | delPolicy id => exact delRels_owned (s := { s with policies := kvDel s.policies id }) h id _

theorem runCalls_owned (cs : List Call) : ∀ {s : Store}, Owned s → Owned (runCalls env cs s).2 := by
  induction cs with
  | nil => intro s h; exact h
  | cons c cs ih => intro s h; exact ih (serve_owned h c)

theorem Copied.same (hs : WF env s) (ht : WF env t) (h : Copied s t) (hn : ∀ pid, NoOrphans s pid) (ho : Owned s) : SameButTimes s t := by
  refine ⟨ids_eq hs ht h.pol, h.pol, ?_, fun k => ?_⟩
  · funext pid
    rcases (noOrphans_iff s pid).1 (hn pid) with hl | he
    · exact (h.live pid hl).symm
    · cases hg : kvGet s.policies pid with
      | none => rw [h.dead pid hg, he]
      | some rec => exact (h.live pid (by rw [hg]; rfl)).symm
  · cases hd : kvGet t.data k with
    | some d =>
      obtain ⟨d', h1, h2⟩ := h.data k d hd
      rw [h1]
      exact h2
    | none =>
      cases hd' : kvGet s.data k with
      | none => trivial
      | some d' =>
        obtain ⟨pid, hp⟩ := ho k (by rw [hd']; rfl)
        obtain ⟨e, he⟩ := Option.isSome_iff_exists.1 hp
        rcases (noOrphans_iff s pid).1 (hn pid) with hl | hnil
        · have := h.dataLive pid k e hl he
          rw [hd] at this
          cases this
        · rw [hnil] at he
          cases he

/-- A relationship its policy refuses is never copied. -/
theorem never_copied (hs : WF env s) (hf : Fetched env s ids pol recs) (cs : List Call) {id : String} (hi : id ∈ ids) {x : RelationshipRecord}
    (hna : ¬ Admissible (Zanzi.PolicyRecord.policy (pol id)) x.relationship) : ∀ {t : Store}, (∀ c ∈ cs, CopyOf ids pol recs c) → WF env t → Part s t →
    ∀ now b a, (Call.setRelationship now id (some x.relationship) b, Res.ok a) ∉ cs.zip (runCalls env cs t).1 := by
  induction cs with
  | nil => intro t _ _ _ now b a hm; cases hm
  | cons c cs ih =>
    intro t hc ht hp now b a hm
    have hc0 := hc c (List.mem_cons_self ..)
    rw [runCalls_cons, List.zip_cons_cons] at hm
    rcases List.mem_cons.1 hm with he | hm
    · have he1 := congrArg Prod.fst he
      have he2 := congrArg Prod.snd he
      dsimp only at he1 he2
      subst he1
      obtain ⟨rec, r', h1, h2, h3⟩ := (C12_service_admits env t ht now id (some x.relationship) b).1 ⟨a, he2.symm⟩
      cases h2
      rw [policyAt_eq] at h1
      obtain ⟨rec', h4, h5⟩ := hp.pol id rec h1
      rw [Fetched.polOf hf hi] at h4
      cases h4
      exact hna (h5.1 ▸ h3)
    · have h1 : Part s (serve env c t).2 := (copy_run hs hf [c] (fun c' hc' => by cases hc' with | head => exact hc0 | tail _ h => cases h) ht hp).1
      exact ih (fun c' hc' => hc c' (List.mem_cons_of_mem _ hc')) (ht.run c) h1 now b a hm

/-- Requests that all get what they asked for. -/
def AllDone (rs : List (Res Answer)) : Prop := ∀ r ∈ rs, ∃ a, r = .ok a

theorem creates_done (hs : WF env s) (hf : Fetched env s ids pol recs) (now : Timestamp) : ∀ (l : List String) {t : Store}, (∀ id ∈ l, id ∈ ids) → l.Nodup →
    (∀ id ∈ l, kvGet t.policies id = none) →
    AllDone (runCalls env (l.map (fun id => .createPolicy now (some (.policy (pol id).policy)) (pol id).appData)) t).1
  | [], _, _, _, _ => by intro r hr; cases hr
  | id :: l, t, hm, hn, hg => by
    have hi := hm id (List.mem_cons_self ..)
    have hp := Fetched.polOf hf hi
    have hid : (pol id).policy.id = id := hs.polKey _ _ (kvGet_mem hp)
    have hv := hs.polValid _ _ (kvGet_mem hp)
    have hsv : serve env (.createPolicy now (some (.policy (pol id).policy)) (pol id).appData) t =
        (.ok (.created ⟨(pol id).policy, (pol id).appData, now⟩), t.putPolicy ⟨(pol id).policy, (pol id).appData, now⟩) := by
      rw [serve_create]
      simp only [getPolicyFromDefinition, Res.deref_some, Res.bind_ok]
      rw [hid, hg id (List.mem_cons_self ..), hv]
    rw [List.map_cons, runCalls_cons, hsv]
    have hn' := List.nodup_cons.1 hn
    have := creates_done hs hf now l (t := t.putPolicy ⟨(pol id).policy, (pol id).appData, now⟩) (fun q hq => hm q (List.mem_cons_of_mem _ hq)) hn'.2 (fun q hq => by
      show kvGet (kvPut strLt t.policies (pol id).policy.id _) q = none
      rw [kvGet_put, hid, if_neg (fun h : q = id => hn'.1 (h ▸ hq))]
      exact hg q (List.mem_cons_of_mem _ hq))
    intro r hr
    rcases List.mem_cons.1 hr with rfl | hr
    · exact ⟨_, rfl⟩
    · exact this r hr

theorem sets_done (hs : WF env s) (hf : Fetched env s ids pol recs) (ha : AllAdmissible ids pol recs) : ∀ (cs : List Call) {t : Store},
    (∀ c ∈ cs, ∃ now id x, id ∈ ids ∧ x ∈ recs id ∧ c = .setRelationship now id (some x.relationship) x.appData) → WF env t → Part s t → (∀ id ∈ ids, (kvGet t.policies id).isSome = true) →
    AllDone (runCalls env cs t).1
  | [], _, _, _, _, _ => by intro r hr; cases hr
  | c :: cs, t, hc, ht, hp, hl => by
    obtain ⟨now, id, x, hi, hx, rfl⟩ := hc c (List.mem_cons_self ..)
    obtain ⟨rec, hr⟩ := Option.isSome_iff_exists.1 (hl id hi)
    obtain ⟨rec', h4, h5⟩ := hp.pol id rec hr
    rw [Fetched.polOf hf hi] at h4
    cases h4
    obtain ⟨a, hok⟩ := (C12_service_admits env t ht now id (some x.relationship) x.appData).2 ⟨rec, _, by rw [policyAt_eq]; exact hr, rfl, h5.1 ▸ ha id hi x hx⟩
    obtain ⟨h1, h2, -⟩ := copy_step hs hf (.relationship now hi hx) hp (t' := (serve env (.setRelationship now id (some x.relationship) x.appData) t).2) (Prod.ext hok rfl)
    have := sets_done hs hf ha cs (fun c hc' => hc c (List.mem_cons_of_mem _ hc')) (ht.run _) h1 (fun q hq => h2.pol q (hl q hq))
    rw [runCalls_cons]
    intro r hr'
    rcases List.mem_cons.1 hr' with rfl | hr'
    · exact ⟨a, hok⟩
    · exact this r hr'

theorem zip_done {cs : List Call} {rs : List (Res Answer)} (hl : cs.length = rs.length) (h : AllDone rs) {c : Call} (hc : c ∈ cs) : ∃ a, (c, .ok a) ∈ cs.zip rs := by
  induction cs generalizing rs with
  | nil => cases hc
  | cons d cs ih =>
    cases rs with
    | nil => cases hl
    | cons r rs =>
      rcases List.mem_cons.1 hc with rfl | hc
      · obtain ⟨a, rfl⟩ := h r (List.mem_cons_self ..)
        exact ⟨a, List.mem_cons_self ..⟩
      · obtain ⟨a, ha⟩ := ih (Nat.succ.inj hl) (fun r hr => h r (List.mem_cons_of_mem _ hr)) hc
        exact ⟨a, List.mem_cons_of_mem _ ha⟩

theorem runCalls_length (cs : List Call) : ∀ (t : Store), cs.length = (runCalls env cs t).1.length := by
  induction cs with
  | nil => intro t; rfl
  | cons c cs ih => intro t; exact congrArg Nat.succ (ih _)

theorem inOrder_copies (hs : WF env s) (hf : Fetched env s ids pol recs) (ha : AllAdmissible ids pol recs) (now : Timestamp) :
    AllDone (runCalls env (inOrder now ids pol recs) Store.empty).1 ∧
    Copies ids pol recs (inOrder now ids pol recs) (runCalls env (inOrder now ids pol recs) Store.empty).1 := by
  have hn : ids.Nodup := by
    have := hf.listed
    rw [serve_listPolicyIds] at this
    have := Answer.ids.inj (Res.ok.inj this)
    rw [← this]
    exact hs.polNodup
  have hd1 := creates_done hs hf now ids (t := Store.empty) (fun _ h => h) hn (fun _ _ => rfl)
  have honly1 : ∀ c ∈ ids.map (fun id => Call.createPolicy now (some (.policy (pol id).policy)) (pol id).appData), CopyOf ids pol recs c := by
    intro c hc
    obtain ⟨id, hi, rfl⟩ := List.mem_map.1 hc
    exact .policy now hi
  have hset : ∀ c ∈ ids.flatMap (fun id => (recs id).map (fun x => Call.setRelationship now id (some x.relationship) x.appData)),
      ∃ now id x, id ∈ ids ∧ x ∈ recs id ∧ c = .setRelationship now id (some x.relationship) x.appData := by
    intro c hc
    obtain ⟨id, hi, hc⟩ := List.mem_flatMap.1 hc
    obtain ⟨x, hx, rfl⟩ := List.mem_map.1 hc
    exact ⟨now, id, x, hi, hx, rfl⟩
  obtain ⟨hp1, _, hb1⟩ := copy_run hs hf _ honly1 (WF.empty env) (part_empty s)
  have hall : AllDone (runCalls env (inOrder now ids pol recs) Store.empty).1 := by
    unfold inOrder
    rw [runCalls_append]
    intro r hr
    rcases List.mem_append.1 hr with hr | hr
    · exact hd1 r hr
    · refine sets_done hs hf ha _ hset ((WF.empty env).runCalls _) hp1 (fun id hi => ?_) r hr
      obtain ⟨a, ha⟩ := zip_done (runCalls_length (env := env) _ Store.empty) hd1 (List.mem_map.2 ⟨id, hi, rfl⟩)
      have hid : (pol id).policy.id = id := hs.polKey _ _ (kvGet_mem (Fetched.polOf hf hi))
      have := hb1 _ _ ha
      unfold Brought at this
      dsimp only at this
      rw [hid] at this
      exact this
  refine ⟨hall, ⟨fun c hc => ?_, fun id hi => ?_, fun id hi x hx => ?_⟩⟩
  · rcases List.mem_append.1 hc with hc | hc
    · exact honly1 c hc
    · obtain ⟨now, id, x, hi, hx, rfl⟩ := hset c hc
      exact .relationship now hi hx
  · obtain ⟨a, h⟩ := zip_done (runCalls_length (env := env) _ Store.empty) hall (List.mem_append_left _ (List.mem_map.2 ⟨id, hi, rfl⟩))
    exact ⟨now, a, h⟩
  · obtain ⟨a, h⟩ := zip_done (runCalls_length (env := env) _ Store.empty) hall
      (List.mem_append_right _ (List.mem_flatMap.2 ⟨id, hi, List.mem_map.2 ⟨x, hx, rfl⟩⟩))
    exact ⟨now, a, h⟩

end

end Zanzi
