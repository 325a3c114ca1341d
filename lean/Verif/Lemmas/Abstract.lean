import Verif.Lemmas.NoPanic
import Verif.Props.Store

/-
Abstraction of the store to the two maps of `Spec.AState`.
-/

namespace Zanzi

open Spec Classical

/-- A set of relationships per policy in which equal storage keys mean equal policy and relationship. -/
structure Sep (H : String → Nat) (W : String → Relationship → Prop) : Prop where
  complete : ∀ p r, W p r → RelationshipComplete r
  inj : ∀ p r q r', W p r → W q r' → relKey H r = relKey H r' → p = q ∧ r = r'

/-- The abstract store a store stands for. -/
noncomputable def absOf (env : Env) (s : Store) : AState :=
  { pols := fun id => kvGet s.policies id
    rels := fun pid r => if Present s pid r then (kvGet s.data (relKey env.H r)).map (fun d => (d.appData, d.createdAt)) else none }

/-- Stores in which relationships and data records correspond, all within `W`. -/
structure Good (env : Env) (W : String → Relationship → Prop) (s : Store) : Prop where
  wf : WF env s
  restr : ∀ id rec, kvGet s.policies id = some rec → RestrictionsPresent rec.policy
  inW : ∀ pid r, Present s pid r → W pid r
  data : ∀ pid r, Present s pid r → (kvGet s.data (relKey env.H r)).isSome = true
  edge : ∀ k d, kvGet s.data k = some d → ∃ pid r, Present s pid r ∧ relKey env.H r = k

variable {env : Env} {W : String → Relationship → Prop} {s : Store}

theorem Good.empty (env : Env) (W : String → Relationship → Prop) : Good env W Store.empty := by
  refine ⟨WF.empty env, ?_, ?_, ?_, ?_⟩
  · intro id rec h; simp [Store.empty, kvGet] at h
  · intro pid r h; simp [Store.empty, Present, relationships] at h
  · intro pid r h; simp [Store.empty, Present, relationships] at h
  · intro k d h; simp [Store.empty, kvGet] at h

theorem absOf_empty (env : Env) : absOf env Store.empty = AState.empty := by
  unfold absOf AState.empty
  congr 1
  funext pid r
  simp [Store.empty, kvGet]

theorem Good.isSome_rels (hg : Good env W s) (pid : String) (r : Relationship) :
    ((absOf env s).rels pid r).isSome = true ↔ Present s pid r := by
  simp only [absOf]
  by_cases h : Present s pid r
  · simp [h, hg.data pid r h]
  · simp [h]

theorem Good.noAlias (hS : Sep env.H W) (hg : Good env W s) {pid : String} {r : Relationship} (hw : W pid r) : NoAlias env s pid r := by
  intro r' hr' hk
  exact (hS.inj pid r' pid r (hg.inW pid r' hr') hw hk).2

theorem upd_upd_apply {f : String → Relationship → Option (Bytes × Timestamp)} {p : String} {r : Relationship} {v : Option (Bytes × Timestamp)}
    (q : String) (x : Relationship) : upd f p (upd (f p) r v) q x = if q = p ∧ x = r then v else f q x := by
  unfold upd
  by_cases hq : q = p
  · subst hq
    by_cases hx : x = r <;> simp [hx]
  · simp [hq]

theorem upd_apply {f : String → Relationship → Option (Bytes × Timestamp)} {p : String} {g : Relationship → Option (Bytes × Timestamp)}
    (q : String) (x : Relationship) : upd f p g q x = if q = p then g x else f q x := by
  unfold upd
  by_cases hq : q = p <;> simp [hq]

/-- Presence after writing a relationship. -/
theorem present_putRel (hs : WF env s) {pid : String} {r : Relationship} {e : IRel} (he : toInternal r = .ok e) (hne : r.subject ≠ some .unset)
    (a : Bytes) (t : Timestamp) (q : String) (x : Relationship) :
    Present (s.putRel env.H pid e a t) q x ↔
      (q = pid ∧ x = r) ∨ (Present s q x ∧ ¬ (q = pid ∧ relKey env.H x = relKey env.H r)) := by
  by_cases hq : q = pid
  · subst hq
    have hs' : WF env (s.putRel env.H q e a t) := by
      have h1 := WF.exec (.edgeSet q (e.key env.H) e) s ⟨rfl, r, he, hne⟩ hs
      have h2 := WF.exec (.dataSet ⟨e.key env.H, t, a⟩) _ trivial h1
      exact h2
    by_cases hxc : RelationshipComplete x
    · obtain ⟨ex, hex⟩ := toInternal_complete.2 hxc
      rw [hs'.present_iff hex, hs.present_iff hex, relKey_of he, relKey_of hex]
      have : (s.putRel env.H q e a t).edges q = kvPut edgeLt (s.edges q) (e.key env.H) e := by simp [Store.putRel]
      rw [this, kvGet_put]
      by_cases hk : ex.key env.H = e.key env.H
      · simp only [hk, if_true, Option.some.injEq, true_and, and_true, not_true_eq_false, and_false, or_false]
        constructor
        · intro h; subst h; exact toInternal_inj hex he
        · intro h; subst h; rw [he] at hex; exact Res.ok.inj hex
      · simp only [hk, if_false, true_and, not_false_eq_true, and_true]
        constructor
        · intro h; exact .inr h
        · rintro (h | h)
          · subst h; rw [he] at hex; cases hex; exact absurd rfl hk
          · exact h
    · constructor
      · intro h; exact absurd (present_complete h) hxc
      · rintro (⟨_, rfl⟩ | h)
        · exact absurd (toInternal_complete.1 ⟨e, he⟩) hxc
        · exact absurd (present_complete h.1) hxc
  · unfold Present
    rw [relationships_putRel_other s hq]
    simp [hq]

theorem present_delRels (hs : WF env s) (pid : String) (ks : List EdgeKey) (q : String) (x : Relationship) :
    Present (s.delRels pid ks) q x ↔ Present s q x ∧ ¬ (q = pid ∧ relKey env.H x ∈ ks) := by
  by_cases hq : q = pid
  · subst hq
    constructor
    · intro h
      obtain ⟨p, hp, rfl⟩ := List.mem_map.1 h
      have : p ∈ s.edges q ∧ p.1 ∉ ks := by simpa [Store.delRels] using hp
      refine ⟨List.mem_map.2 ⟨p, this.1, rfl⟩, ?_⟩
      rintro ⟨_, hk⟩
      rw [hs.mem_relKey this.1] at hk
      exact this.2 hk
    · rintro ⟨h, hn⟩
      obtain ⟨p, hp, rfl⟩ := List.mem_map.1 h
      refine List.mem_map.2 ⟨p, ?_, rfl⟩
      have : p.1 ∉ ks := by
        intro hk
        exact hn ⟨rfl, by rw [hs.mem_relKey hp]; exact hk⟩
      simpa [Store.delRels] using ⟨hp, this⟩
  · unfold Present
    rw [relationships_delRels_other s hq]
    simp [hq]

theorem kvGet_delRels_data (s : Store) (pid : String) (ks : List EdgeKey) (k : EdgeKey) :
    kvGet (s.delRels pid ks).data k = if k ∈ ks then none else kvGet s.data k := by
  split
  · next h => rw [kvGet_none_iff]; intro v hv; simp [Store.delRels, h] at hv
  · next h => exact delRels_data h

/-- Writing a relationship. -/
theorem abs_putRel (hS : Sep env.H W) (hg : Good env W s) {pid : String} {r : Relationship} {e : IRel} (hw : W pid r)
    (he : toInternal r = .ok e) (hne : r.subject ≠ some .unset) (a : Bytes) (t : Timestamp) :
    Good env W (s.putRel env.H pid e a t) ∧
    absOf env (s.putRel env.H pid e a t) =
      { absOf env s with rels := upd (absOf env s).rels pid (upd ((absOf env s).rels pid) r (some (a, t))) } := by
  have hpres := fun q x => present_putRel hg.wf he hne a t (pid := pid) q x
  have hdata : ∀ k, kvGet (s.putRel env.H pid e a t).data k = if k = relKey env.H r then some ⟨relKey env.H r, t, a⟩ else kvGet s.data k := by
    intro k; rw [relKey_of he]; simp [Store.putRel, kvGet_put]
  have hsep : ∀ q x, Present s q x → relKey env.H x = relKey env.H r → q = pid ∧ x = r :=
    fun q x hx hk => hS.inj q x pid r (hg.inW q x hx) hw hk
  refine ⟨⟨?_, hg.restr, ?_, ?_, ?_⟩, ?_⟩
  · have h1 := WF.exec (.edgeSet pid (e.key env.H) e) s ⟨rfl, r, he, hne⟩ hg.wf
    exact WF.exec (.dataSet ⟨e.key env.H, t, a⟩) _ trivial h1
  · intro q x hx
    rcases (hpres q x).1 hx with ⟨rfl, rfl⟩ | ⟨hx, _⟩
    · exact hw
    · exact hg.inW q x hx
  · intro q x hx
    rw [hdata]
    split
    · rfl
    · next hk =>
      rcases (hpres q x).1 hx with ⟨rfl, rfl⟩ | ⟨hx, _⟩
      · exact absurd rfl hk
      · exact hg.data q x hx
  · intro k d hd
    rw [hdata] at hd
    split at hd
    · next hk => exact ⟨pid, r, (hpres pid r).2 (.inl ⟨rfl, rfl⟩), hk.symm⟩
    · next hk =>
      obtain ⟨q, x, hx, hxk⟩ := hg.edge k d hd
      refine ⟨q, x, (hpres q x).2 (.inr ⟨hx, ?_⟩), hxk⟩
      rintro ⟨_, h⟩
      exact hk (hxk.symm.trans h)
  · unfold absOf
    congr 1
    funext q x
    rw [upd_upd_apply]
    by_cases hq : q = pid ∧ x = r
    · rw [if_pos hq]
      obtain ⟨rfl, rfl⟩ := hq
      simp [(hpres q x).2 (.inl ⟨rfl, rfl⟩), hdata]
    · rw [if_neg hq]
      by_cases hx : Present s q x
      · have hk : relKey env.H x ≠ relKey env.H r := fun hk => hq (hsep q x hx hk)
        have : Present (s.putRel env.H pid e a t) q x := (hpres q x).2 (.inr ⟨hx, fun h => hk h.2⟩)
        simp [hx, this, hdata, hk]
      · have : ¬ Present (s.putRel env.H pid e a t) q x := by
          intro h
          rcases (hpres q x).1 h with h | h
          · exact hq h
          · exact hx h.1
        simp [hx, this]

/-- Deleting relationships. -/
theorem abs_delRels (hS : Sep env.H W) (hg : Good env W s) (pid : String) (l : List Relationship) (hl : ∀ r ∈ l, W pid r)
    (hwf : WF env (s.delRels pid (l.map (relKey env.H)))) :
    Good env W (s.delRels pid (l.map (relKey env.H))) ∧
    absOf env (s.delRels pid (l.map (relKey env.H))) =
      { absOf env s with rels := upd (absOf env s).rels pid (fun r => if r ∈ l then none else (absOf env s).rels pid r) } := by
  have hmem : ∀ q x, Present s q x → (relKey env.H x ∈ l.map (relKey env.H) ↔ q = pid ∧ x ∈ l) := by
    intro q x hx
    constructor
    · intro h
      obtain ⟨y, hy, hk⟩ := List.mem_map.1 h
      obtain ⟨rfl, rfl⟩ := hS.inj q x pid y (hg.inW q x hx) (hl y hy) hk.symm
      exact ⟨rfl, hy⟩
    · rintro ⟨_, h⟩
      exact List.mem_map_of_mem h
  have hpres : ∀ q x, Present (s.delRels pid (l.map (relKey env.H))) q x ↔ Present s q x ∧ ¬ (q = pid ∧ x ∈ l) := by
    intro q x
    rw [present_delRels hg.wf]
    constructor
    · rintro ⟨h, hn⟩
      exact ⟨h, fun h' => hn ⟨h'.1, (hmem q x h).2 h'⟩⟩
    · rintro ⟨h, hn⟩
      exact ⟨h, fun h' => hn ((hmem q x h).1 h'.2)⟩
  refine ⟨⟨hwf, hg.restr, fun q x hx => hg.inW q x ((hpres q x).1 hx).1, ?_, ?_⟩, ?_⟩
  · intro q x hx
    obtain ⟨h1, h2⟩ := (hpres q x).1 hx
    rw [kvGet_delRels_data, if_neg (fun h => h2 ((hmem q x h1).1 h))]
    exact hg.data q x h1
  · intro k d hd
    rw [kvGet_delRels_data] at hd
    split at hd
    · cases hd
    · next hk =>
      obtain ⟨q, x, hx, hxk⟩ := hg.edge k d hd
      refine ⟨q, x, (hpres q x).2 ⟨hx, fun h => hk ?_⟩, hxk⟩
      rw [← hxk]
      exact (hmem q x hx).2 h
  · unfold absOf
    congr 1
    funext q x
    rw [upd_apply]
    have hR : (if q = pid then (if x ∈ l then none else
            if Present s pid x then (kvGet s.data (relKey env.H x)).map (fun d => (d.appData, d.createdAt)) else none)
          else if Present s q x then (kvGet s.data (relKey env.H x)).map (fun d => (d.appData, d.createdAt)) else none) =
          if q = pid ∧ x ∈ l then none else
          if Present s q x then (kvGet s.data (relKey env.H x)).map (fun d => (d.appData, d.createdAt)) else none := by
      by_cases h1 : q = pid
      · subst h1; simp
      · simp [h1]
    rw [hR]
    by_cases hx : Present s q x
    · by_cases hq : q = pid ∧ x ∈ l
      · have : ¬ Present (s.delRels pid (l.map (relKey env.H))) q x := fun h => ((hpres q x).1 h).2 hq
        rw [if_neg this, if_pos hq]
      · have : Present (s.delRels pid (l.map (relKey env.H))) q x := (hpres q x).2 ⟨hx, hq⟩
        rw [if_pos this, if_neg hq, if_pos hx, kvGet_delRels_data, if_neg (fun h => hq ((hmem q x hx).1 h))]
    · have : ¬ Present (s.delRels pid (l.map (relKey env.H))) q x := fun h => hx ((hpres q x).1 h).1
      rw [if_neg this, if_neg hx]
      split <;> rfl

theorem Good.pol_unique (hg : Good env W s) {id : String} {rec : PolicyRecord} (h : kvGet s.policies id = some rec) :
    NamesUnique rec.policy :=
  ((C09_validation_exact env.U rec.policy).1 (hg.wf.polValid id rec (kvGet_mem h))).1

end Zanzi
