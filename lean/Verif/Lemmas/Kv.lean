import Verif.Model.Kv

/-
Lemmas about association lists.
-/

namespace Zanzi

variable {K V : Type} [DecidableEq K]

/-- every key occurs once -/
def KeysNodup (m : List (K × V)) : Prop := (m.map Prod.fst).Nodup

theorem kvGet_mem {m : List (K × V)} {k : K} {v : V} (h : kvGet m k = some v) : (k, v) ∈ m := by
  induction m with
  | nil => simp [kvGet] at h
  | cons p m ih =>
    obtain ⟨k', v'⟩ := p
    unfold kvGet at h
    split at h
    · next he => cases h; subst he; exact .head _
    · exact .tail _ (ih h)

theorem kvGet_none_iff {m : List (K × V)} {k : K} : kvGet m k = none ↔ ∀ v, (k, v) ∉ m := by
  induction m with
  | nil => simp [kvGet]
  | cons p m ih =>
    obtain ⟨k', v'⟩ := p
    unfold kvGet
    split
    · next he =>
      subst he
      exact ⟨fun h => (nomatch h), fun h => absurd (List.mem_cons_self ..) (h v')⟩
    · next he =>
      rw [ih]
      constructor
      · intro h v hm
        rcases List.mem_cons.1 hm with h1 | h1
        · exact he (Prod.mk.inj h1).1.symm
        · exact h v h1
      · intro h v hm
        exact h v (.tail _ hm)

theorem kvGet_isSome_iff {m : List (K × V)} {k : K} : (kvGet m k).isSome = true ↔ ∃ v, (k, v) ∈ m := by
  cases h : kvGet m k with
  | none => simpa using kvGet_none_iff.1 h
  | some v => simpa using ⟨v, kvGet_mem h⟩

theorem mem_kvGet {m : List (K × V)} (hn : KeysNodup m) {k : K} {v : V} (h : (k, v) ∈ m) :
    kvGet m k = some v := by
  induction m with
  | nil => simp at h
  | cons p m ih =>
    obtain ⟨k', v'⟩ := p
    have hn' := List.nodup_cons.1 hn
    unfold kvGet
    rcases List.mem_cons.1 h with h1 | h1
    · cases h1; simp
    · have : k' ≠ k := by
        intro he
        subst he
        exact hn'.1 (List.mem_map.2 ⟨(k', v), h1, rfl⟩)
      rw [if_neg this]
      exact ih hn'.2 h1

theorem mem_iff_kvGet {m : List (K × V)} (hn : KeysNodup m) {k : K} {v : V} :
    (k, v) ∈ m ↔ kvGet m k = some v :=
  ⟨mem_kvGet hn, kvGet_mem⟩

omit [DecidableEq K] in
theorem mem_kvInsert {lt : K → K → Bool} {m : List (K × V)} {k : K} {v : V} {p : K × V} :
    p ∈ kvInsert lt m k v ↔ p = (k, v) ∨ p ∈ m := by
  induction m with
  | nil => simp [kvInsert]
  | cons q m ih =>
    obtain ⟨k', v'⟩ := q
    unfold kvInsert
    split
    · simp
    · simp only [List.mem_cons, ih]
      constructor
      · rintro (h | h | h) <;> simp [h]
      · rintro (h | h | h) <;> simp [h]

omit [DecidableEq K] in
theorem kvInsert_perm {lt : K → K → Bool} {m : List (K × V)} {k : K} {v : V} :
    (kvInsert lt m k v).Perm ((k, v) :: m) := by
  induction m with
  | nil => simp [kvInsert]
  | cons q m ih =>
    obtain ⟨k', v'⟩ := q
    unfold kvInsert
    split
    · exact .refl _
    · exact (List.Perm.cons _ ih).trans (List.Perm.swap _ _ _)

theorem kvPut_nodup {lt : K → K → Bool} {m : List (K × V)} (hn : KeysNodup m) {k : K} {v : V} :
    KeysNodup (kvPut lt m k v) := by
  unfold kvPut
  split
  · have : (m.map (fun p => if p.1 = k then (k, v) else p)).map Prod.fst = m.map Prod.fst := by
      rw [List.map_map]
      apply List.map_congr_left
      intro p _
      simp only [Function.comp]
      split
      · next h => exact h.symm
      · rfl
    unfold KeysNodup
    rw [this]
    exact hn
  · next h =>
    unfold KeysNodup
    have hp := (kvInsert_perm (lt := lt) (m := m) (k := k) (v := v)).map Prod.fst
    rw [hp.nodup_iff, List.map_cons, List.nodup_cons]
    refine ⟨?_, hn⟩
    intro hm
    obtain ⟨⟨k', v'⟩, hm, he⟩ := List.mem_map.1 hm
    cases he
    exact h (kvGet_isSome_iff.2 ⟨v', hm⟩)

theorem kvGet_insert {lt : K → K → Bool} {m : List (K × V)} {k : K} {v : V} (hk : kvGet m k = none) (k' : K) :
    kvGet (kvInsert lt m k v) k' = if k' = k then some v else kvGet m k' := by
  induction m with
  | nil =>
    simp only [kvInsert, kvGet]
    by_cases h : k = k'
    · simp [h]
    · simp [h, Ne.symm h]
  | cons q m ih =>
    obtain ⟨k1, v1⟩ := q
    have hk1 : k1 ≠ k := by
      intro h
      simp [kvGet, h] at hk
    have hk2 : kvGet m k = none := by
      simpa [kvGet, hk1] using hk
    unfold kvInsert
    split
    · by_cases h : k = k'
      · subst h; simp [kvGet]
      · simp [kvGet, h, Ne.symm h]
    · have ih := ih hk2
      simp only [kvGet]
      split
      · next h => subst h; simp [hk1]
      · exact ih

theorem kvGet_put {lt : K → K → Bool} {m : List (K × V)} {k : K} {v : V} (k' : K) :
    kvGet (kvPut lt m k v) k' = if k' = k then some v else kvGet m k' := by
  unfold kvPut
  split
  · next hs =>
    have h1 : ∀ m : List (K × V), k' ≠ k →
        kvGet (m.map (fun p => if p.1 = k then (k, v) else p)) k' = kvGet m k' := by
      intro m hk
      induction m with
      | nil => rfl
      | cons q m ih =>
        obtain ⟨k1, v1⟩ := q
        by_cases h1 : k1 = k
        · subst h1
          simpa [kvGet, Ne.symm hk] using ih
        · simp [kvGet, h1, ih]
    by_cases hk : k' = k
    · subst hk
      rw [if_pos rfl]
      clear h1
      induction m with
      | nil => simp [kvGet] at hs
      | cons q m ih =>
        obtain ⟨k1, v1⟩ := q
        by_cases h1 : k1 = k'
        · simp [kvGet, h1]
        · simp only [List.map_cons, kvGet, h1, if_false] at hs ⊢
          exact ih hs
    · rw [if_neg hk]
      exact h1 m hk
  · next h =>
    exact kvGet_insert (by simpa using h) k'

theorem kvDel_nodup {m : List (K × V)} (hn : KeysNodup m) {k : K} : KeysNodup (kvDel m k) :=
  hn.sublist (List.Sublist.map _ List.filter_sublist)

theorem kvGet_del {m : List (K × V)} {k : K} (k' : K) :
    kvGet (kvDel m k) k' = if k' = k then none else kvGet m k' := by
  induction m with
  | nil => simp [kvDel, kvGet]
  | cons q m ih =>
    obtain ⟨k1, v1⟩ := q
    unfold kvDel at ih ⊢
    by_cases h : k1 = k
    · subst h
      simp only [List.filter_cons]
      simp only [ne_eq, not_true_eq_false, decide_false, Bool.false_eq_true, if_false]
      rw [ih]
      by_cases h2 : k' = k1
      · simp [h2]
      · simp [h2, kvGet, Ne.symm h2]
    · simp only [List.filter_cons]
      simp only [ne_eq, h, not_false_eq_true, decide_true, if_true, kvGet]
      rw [ih]
      by_cases h2 : k1 = k'
      · subst h2; simp [h]
      · simp [h2]

theorem kvDel_of_not_mem {m : List (K × V)} {k : K} (h : kvGet m k = none) : kvDel m k = m := by
  unfold kvDel
  rw [List.filter_eq_self]
  intro p hp
  simp only [decide_eq_true_eq]
  intro he
  exact kvGet_none_iff.1 h p.2 (by rw [← he]; exact hp)

/-- Order of keys: `lt` sorted. -/
def KeysSorted (lt : K → K → Bool) (m : List (K × V)) : Prop :=
  m.Pairwise (fun a b => lt a.1 b.1 = true)

theorem kvInsert_sorted {lt : K → K → Bool}
    (htrans : ∀ a b c, lt a b = true → lt b c = true → lt a c = true)
    (htotal : ∀ a b, a ≠ b → lt a b = false → lt b a = true)
    {m : List (K × V)} (hs : KeysSorted lt m) {k : K} {v : V} (hk : kvGet m k = none) :
    KeysSorted lt (kvInsert lt m k v) := by
  induction m with
  | nil => simp [kvInsert, KeysSorted]
  | cons q m ih =>
    obtain ⟨k1, v1⟩ := q
    have hk1 : k1 ≠ k := by
      intro h
      simp [kvGet, h] at hk
    have hk2 : kvGet m k = none := by
      simpa [kvGet, hk1] using hk
    have hs' := List.pairwise_cons.1 hs
    unfold kvInsert
    split
    · next h =>
      refine List.pairwise_cons.2 ⟨?_, hs⟩
      intro p hp
      rcases List.mem_cons.1 hp with h1 | h1
      · subst h1; exact h
      · exact htrans _ _ _ h (hs'.1 p h1)
    · next h =>
      refine List.pairwise_cons.2 ⟨?_, ih hs'.2 hk2⟩
      intro p hp
      rcases mem_kvInsert.1 hp with h1 | h1
      · subst h1
        exact htotal _ _ (Ne.symm hk1) (by simpa using h)
      · exact hs'.1 p h1

theorem kvPut_sorted {lt : K → K → Bool}
    (htrans : ∀ a b c, lt a b = true → lt b c = true → lt a c = true)
    (htotal : ∀ a b, a ≠ b → lt a b = false → lt b a = true)
    {m : List (K × V)} (hs : KeysSorted lt m) {k : K} {v : V} :
    KeysSorted lt (kvPut lt m k v) := by
  unfold kvPut
  split
  · unfold KeysSorted at *
    rw [List.pairwise_map]
    refine hs.imp ?_
    intro a b h
    split <;> split <;> simp_all
  · next h => exact kvInsert_sorted htrans htotal hs (by simpa using h)

theorem kvDel_sorted {lt : K → K → Bool} {m : List (K × V)} (hs : KeysSorted lt m) {k : K} :
    KeysSorted lt (kvDel m k) :=
  List.Pairwise.sublist List.filter_sublist hs

end Zanzi
