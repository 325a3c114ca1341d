import Verif.Lemmas.Kv
import Verif.Spec.Definition

/-
Lemmas on the mapping of compact policy definitions.
-/

namespace Zanzi

open Spec

/-! ### Sorting -/

theorem insertBy_perm {V : Type} (key : V → String) (v : V) (l : List V) : (insertBy key v l).Perm (v :: l) := by
  induction l with
  | nil => exact .refl _
  | cons w ws ih =>
    rw [insertBy]
    split
    · exact .refl _
    · exact (ih.cons w).trans (.swap _ _ _)

theorem sortBy_perm {V : Type} (key : V → String) (l : List V) : (sortBy key l).Perm l := by
  induction l with
  | nil => exact .refl _
  | cons v vs ih => exact (insertBy_perm key v _).trans (ih.cons v)

/-- Not decreasing by key. -/
def Ordered {V : Type} (key : V → String) (l : List V) : Prop := l.Pairwise (fun a b => ¬ key b < key a)

theorem insertBy_ordered {V : Type} {key : V → String} {v : V} {l : List V} (h : Ordered key l) : Ordered key (insertBy key v l) := by
  induction l with
  | nil => simp [insertBy, Ordered]
  | cons w ws ih =>
    unfold Ordered at *
    obtain ⟨h1, h2⟩ := List.pairwise_cons.1 h
    rw [insertBy]
    split
    · next hlt =>
      refine List.pairwise_cons.2 ⟨fun x hx => ?_, h⟩
      rcases List.mem_cons.1 hx with rfl | hx
      · exact fun hc => String.lt_irrefl _ (String.lt_trans hlt hc)
      · intro hc
        exact h1 x hx (String.lt_trans hc hlt)
    · next hlt =>
      refine List.pairwise_cons.2 ⟨fun x hx => ?_, ih h2⟩
      rcases List.mem_cons.1 ((insertBy_perm key v ws).mem_iff.1 hx) with rfl | hx
      · exact hlt
      · exact h1 x hx

theorem sortBy_ordered {V : Type} (key : V → String) (l : List V) : Ordered key (sortBy key l) := by
  induction l with
  | nil => exact .nil
  | cons v vs ih => exact insertBy_ordered ih

theorem increasing_of {V : Type} {key : V → String} {l : List V} (h : Ordered key l) (hn : (l.map key).Nodup) : Increasing (l.map key) := by
  induction l with
  | nil => exact .nil
  | cons v vs ih =>
    obtain ⟨h1, h2⟩ := List.pairwise_cons.1 h
    rw [List.map_cons, List.nodup_cons] at hn
    refine List.pairwise_cons.2 ⟨fun x hx => ?_, ih h2 hn.2⟩
    obtain ⟨w, hw, rfl⟩ := List.mem_map.1 hx
    rcases String.le_total (key v) (key w) with hle | hle
    · rcases Classical.em (key v < key w) with h' | h'
      · exact h'
      · have := String.le_antisymm hle (String.not_lt.1 h')
        exact absurd (List.mem_map.2 ⟨w, hw, this.symm⟩) hn.1
    · have : ¬ key v ≤ key w ∨ key v ≤ key w := (Classical.em _).symm
      have hle' : key v ≤ key w := String.not_lt.1 (h1 w hw)
      have := String.le_antisymm hle' hle
      exact absurd (List.mem_map.2 ⟨w, hw, this.symm⟩) hn.1

/-- Two increasing lists with the same items are equal. -/
theorem increasing_unique {V : Type} {key : V → String} : ∀ {l l' : List V}, l.Perm l' → Increasing (l.map key) → Increasing (l'.map key) → l = l' := by
  intro l
  induction l with
  | nil => intro l' h _ _; exact (List.Perm.eq_nil h.symm).symm
  | cons v vs ih =>
    intro l' h h1 h2
    cases l' with
    | nil => exact List.Perm.eq_nil h
    | cons w ws =>
      obtain ⟨h3, h4⟩ := List.pairwise_cons.1 h1
      obtain ⟨h5, h6⟩ := List.pairwise_cons.1 h2
      have hvw : v = w := by
        rcases List.mem_cons.1 (h.mem_iff.1 List.mem_cons_self) with hv | hv
        · exact hv
        · rcases List.mem_cons.1 (h.symm.mem_iff.1 List.mem_cons_self) with hw | hw
          · exact hw.symm
          · have a1 := h5 (key v) (List.mem_map.2 ⟨v, hv, rfl⟩)
            have a2 := h3 (key w) (List.mem_map.2 ⟨w, hw, rfl⟩)
            exact absurd (String.lt_trans a1 a2) (String.lt_irrefl _)
      subst hvw
      rw [ih (List.Perm.cons_inv h) h4 h6]

theorem map_nodup_perm {V : Type} {key : V → String} {l l' : List V} (h : l.Perm l') (hn : (l'.map key).Nodup) : (l.map key).Nodup :=
  ((h.map key).nodup_iff).2 hn

/-- Any sorting of items with different keys gives the same list. -/
theorem sortBy_unique {V : Type} {key : V → String} {l out : List V} (hn : (l.map key).Nodup) (hp : out.Perm l) (ho : Ordered key out) :
    out = sortBy key l :=
  increasing_unique (hp.trans (sortBy_perm key l).symm) (increasing_of ho (map_nodup_perm hp hn))
    (increasing_of (sortBy_ordered key l) (map_nodup_perm (sortBy_perm key l) hn))

theorem sortBy_perm_eq {V : Type} {key : V → String} {l l' : List V} (h : l.Perm l') (hn : (l'.map key).Nodup) : sortBy key l = sortBy key l' :=
  sortBy_unique hn ((sortBy_perm key l).trans h) (sortBy_ordered key l)

theorem sortBy_increasing {V : Type} {key : V → String} {l : List V} (hn : (l.map key).Nodup) : Increasing ((sortBy key l).map key) :=
  increasing_of (sortBy_ordered key l) (map_nodup_perm (sortBy_perm key l) hn)

/-! ### Iteration -/

theorem filterMap_kvGet {V : Type} {m : List (String × V)} (hn : (m.map (·.1)).Nodup) : (m.map (·.1)).filterMap (fun k => kvGet m k) = m.map (·.2) := by
  induction m with
  | nil => rfl
  | cons a m ih =>
    obtain ⟨k, v⟩ := a
    simp only [List.map_cons, List.nodup_cons] at hn
    simp only [List.map_cons, kvGet, List.filterMap_cons, if_true]
    rw [← ih hn.2]
    congr 1
    have : ∀ ks : List String, k ∉ ks → ks.filterMap (fun x => if k = x then some v else kvGet m x) = ks.filterMap (fun x => kvGet m x) := by
      intro ks
      induction ks with
      | nil => intro _; rfl
      | cons x xs ihx =>
        intro hx
        simp only [List.mem_cons, not_or] at hx
        rw [List.filterMap_cons, List.filterMap_cons, if_neg hx.1, ihx hx.2]
    exact this _ hn.1

theorem GoMap.range_perm {V : Type} (o : RangeOrder) (m : GoMap V) : (m.range o).Perm (m.entries.map (·.2)) := by
  unfold GoMap.range
  exact ((o.perm _).filterMap _).trans (by rw [filterMap_kvGet m.nodup])

theorem derefAll_some {V : Type} (l : List V) : derefAll (l.map some) = .ok l := by
  induction l with
  | nil => rfl
  | cons v vs ih => rw [List.map_cons, derefAll, Res.deref_some, Res.bind_ok, ih]; rfl

/-- Items of a map without placeholders, sorted. -/
theorem mapItems_ok {V : Type} (o : RangeOrder) {m : GoMap (Option V)} {key : V → String} {l : List V} (hl : m.entries.map (·.2) = l.map some)
    (hn : (l.map key).Nodup) : mapItemsToSlice o m key = .ok (sortBy key l) := by
  have hp : (m.range o).Perm (l.map some) := hl ▸ m.range_perm o
  obtain ⟨l', h1, h2⟩ : ∃ l' : List V, m.range o = l'.map some ∧ l'.Perm l := by
    have hall : ∀ x ∈ m.range o, ∃ v, x = some v := fun x hx => by
      obtain ⟨v, _, rfl⟩ := List.mem_map.1 (hp.mem_iff.1 hx)
      exact ⟨v, rfl⟩
    have hre : ((m.range o).filterMap id).map some = m.range o := by
      generalize m.range o = r at hall
      clear hp
      induction r with
      | nil => rfl
      | cons x xs ih =>
        obtain ⟨v, rfl⟩ := hall x List.mem_cons_self
        simp only [List.filterMap_cons, id, List.map_cons]
        rw [ih (fun y hy => hall y (List.mem_cons_of_mem _ hy))]
    refine ⟨(m.range o).filterMap id, hre.symm, ?_⟩
    have := hp.filterMap id
    rwa [List.filterMap_map, show (id ∘ some : V → Option V) = some from rfl, List.filterMap_some] at this
  rw [mapItemsToSlice, h1, derefAll_some, Res.bind_ok, sortBy_perm_eq h2 hn]
  rfl

/-! ### The mapped policy -/

/-- Relations of a resource body, named. -/
def namedRelations (b : Option ResourceDef) : List RelationDef :=
  (relationEntries b).map (fun p => { p.2.getD ⟨"", "", "", []⟩ with name := p.1 })

/-- The resource of an entry. -/
def resourceOf (key : String) (b : Option ResourceDef) : Resource :=
  { name := key, description := (match b with | some b => b.doc | none => ""), relations := (sortBy (·.name) (namedRelations b)).map mapRelation }

/-- The named body of an entry. -/
def namedResource (key : String) (b : Option ResourceDef) : ResourceDef :=
  let r := b.getD ⟨"", "", ⟨[], .nil⟩⟩
  { r with name := key, relations := r.relations.mapValues nameRelation }

theorem namedRelations_nodup (b : Option ResourceDef) : ((namedRelations b).map (·.name)).Nodup := by
  have : (namedRelations b).map (·.name) = (relationEntries b).map (·.1) := by unfold namedRelations; rw [List.map_map]; rfl
  rw [this]
  cases b with
  | none => exact .nil
  | some b => exact b.relations.nodup

theorem mapResource_ok (o : String → RangeOrder) (key : String) (b : Option ResourceDef) :
    mapResource o (namedResource key b) = .ok (resourceOf key b) := by
  have hl : (namedResource key b).relations.entries.map (·.2) = (namedRelations b).map some := by
    cases b <;> simp [namedResource, namedRelations, relationEntries, GoMap.mapValues, nameRelation]
  rw [mapResource, mapItems_ok _ hl (namedRelations_nodup b)]
  cases b <;> rfl

theorem mapSliceErr_ok {α β : Type} {f : α → Res β} {g : α → β} : ∀ {l : List α}, (∀ a ∈ l, f a = .ok (g a)) → mapSliceErr f l = .ok (l.map g) := by
  intro l
  induction l with
  | nil => intro _; rfl
  | cons a l ih =>
    intro h
    rw [mapSliceErr, h a List.mem_cons_self, ih (fun x hx => h x (List.mem_cons_of_mem _ hx))]
    rfl

/-- Named bodies of the resources. -/
def namedResources (d : PolicyDef) : List ResourceDef := d.resources.entries.map (fun p => namedResource p.1 p.2)

theorem namedResources_nodup (d : PolicyDef) : ((namedResources d).map (·.name)).Nodup := by
  have : (namedResources d).map (·.name) = d.resources.entries.map (·.1) := by unfold namedResources; rw [List.map_map]; rfl
  rw [this]
  exact d.resources.nodup

/-- The resource of a named body. -/
def resourceOfDef (r : ResourceDef) : Resource :=
  { name := r.name, description := r.doc, relations := (sortBy (·.name) (r.relations.entries.filterMap (·.2))).map mapRelation }

theorem resourceOfDef_named (key : String) (b : Option ResourceDef) : resourceOfDef (namedResource key b) = resourceOf key b := by
  have hl : (namedResource key b).relations.entries.filterMap (·.2) = namedRelations b := by
    have : (namedResource key b).relations.entries.map (·.2) = (namedRelations b).map some := by
      cases b <;> simp [namedResource, namedRelations, relationEntries, GoMap.mapValues, nameRelation]
    rw [show (fun p : String × Option RelationDef => p.2) = id ∘ (·.2) from rfl, ← List.filterMap_map, this, List.filterMap_map]
    exact List.filterMap_some
  unfold resourceOfDef resourceOf
  rw [hl]
  cases b <;> rfl

/-- The policy a definition maps to, whatever the iteration orders. -/
def policyOf (d : PolicyDef) : Policy :=
  { id := d.id, name := d.name, description := d.doc, resources := (sortBy (·.name) (namedResources d)).map resourceOfDef, attributes := d.attributes }

theorem policyFromDef_ok (top : RangeOrder) (o : String → RangeOrder) (d : PolicyDef) : policyFromDef top o d = .ok (policyOf d) := by
  have hl : (setEntityNames d).resources.entries.map (·.2) = (namedResources d).map some := by
    simp [setEntityNames, namedResources, GoMap.mapValues, nameResource, namedResource]
  rw [policyFromDef, mapPolicyDefinition, mapItems_ok _ hl (namedResources_nodup d), Res.bind_ok,
    mapSliceErr_ok (g := resourceOfDef) (fun r hr => by
      have hr := (sortBy_perm _ _).mem_iff.1 hr
      obtain ⟨⟨k, b⟩, _, rfl⟩ := List.mem_map.1 hr
      rw [mapResource_ok, resourceOfDef_named])]
  rfl

/-- The resources of the mapped policy. -/
theorem mem_policyOf {d : PolicyDef} {r : Resource} : r ∈ (policyOf d).resources ↔ ∃ k b, (k, b) ∈ d.resources.entries ∧ r = resourceOf k b := by
  unfold policyOf
  simp only [List.mem_map, (sortBy_perm _ _).mem_iff, namedResources]
  constructor
  · rintro ⟨_, ⟨⟨k, b⟩, h, rfl⟩, rfl⟩; exact ⟨k, b, h, resourceOfDef_named k b⟩
  · rintro ⟨k, b, h, rfl⟩; exact ⟨_, ⟨(k, b), h, rfl⟩, resourceOfDef_named k b⟩

/-- The relations of a mapped resource. -/
theorem mem_resourceOf {k : String} {b : Option ResourceDef} {d : Relation} :
    d ∈ (resourceOf k b).relations ↔ ∃ k' b', (k', b') ∈ relationEntries b ∧ d = mapRelation { b'.getD ⟨"", "", "", []⟩ with name := k' } := by
  unfold resourceOf
  simp only [List.mem_map, (sortBy_perm _ _).mem_iff, namedRelations]
  constructor
  · rintro ⟨_, ⟨⟨k', b'⟩, h, rfl⟩, rfl⟩; exact ⟨k', b', h, rfl⟩
  · rintro ⟨k', b', h, rfl⟩; exact ⟨_, ⟨(k', b'), h, rfl⟩, rfl⟩

theorem policyOf_names (d : PolicyDef) : Increasing ((policyOf d).resources.map (·.name)) := by
  have : (policyOf d).resources.map (·.name) = (sortBy (·.name) (namedResources d)).map (·.name) := by
    unfold policyOf; simp only [List.map_map]; rfl
  rw [this]
  exact sortBy_increasing (namedResources_nodup d)

theorem resourceOf_names (k : String) (b : Option ResourceDef) : Increasing ((resourceOf k b).relations.map (·.name)) := by
  have : (resourceOf k b).relations.map (·.name) = (sortBy (·.name) (namedRelations b)).map (·.name) := by
    unfold resourceOf; simp only [List.map_map]; rfl
  rw [this]
  exact sortBy_increasing (namedRelations_nodup b)

/-! ### Type constraints -/

theorem takeWhile_append_dropWhile' (p : Char → Bool) (l : List Char) : l.takeWhile p ++ l.dropWhile p = l := List.takeWhile_append_dropWhile

theorem dropWhile_head {p : Char → Bool} {l : List Char} {c : Char} {cs : List Char} (h : l.dropWhile p = c :: cs) : p c = false := by
  induction l with
  | nil => cases h
  | cons a l ih =>
    rw [List.dropWhile_cons] at h
    split at h
    · exact ih h
    · next hp => cases h; simpa using hp

theorem dropWhile_nil {l : List Char} : l.dropWhile (fun c => c ≠ ':') = [] ↔ ':' ∉ l := by
  induction l with
  | nil => simp
  | cons a l ih =>
    rw [List.dropWhile_cons]
    split
    · next h => simp only [ne_eq, decide_not, Bool.not_eq_true', decide_eq_false_iff_not] at h; rw [ih]; simp [Ne.symm h]
    · next h => simp only [ne_eq, decide_not, Bool.not_eq_true', decide_eq_false_iff_not, Decidable.not_not] at h; simp [h]

theorem cut_append {l r : List Char} (h : ':' ∉ l) :
    (l ++ ':' :: r).dropWhile (fun c => c ≠ ':') = ':' :: r ∧ (l ++ ':' :: r).takeWhile (fun c => c ≠ ':') = l := by
  induction l with
  | nil => simp
  | cons a l ih =>
    simp only [List.mem_cons, not_or] at h
    have h1 : decide (a ≠ ':') = true := by simpa using Ne.symm h.1
    rw [List.cons_append, List.dropWhile_cons, List.takeWhile_cons, if_pos h1, if_pos h1]
    exact ⟨(ih h.2).1, by rw [(ih h.2).2]⟩

theorem elem_entity {elem n : String} : mapSubjectRestrictionElem elem = .entity n ↔ elem = n ∧ ':' ∉ n.toList := by
  unfold mapSubjectRestrictionElem cutColon
  constructor
  · intro h
    split at h
    · next r heq =>
      split at heq
      · next h1 =>
        cases heq; cases h
        exact ⟨rfl, dropWhile_nil.1 h1⟩
      · cases heq
    · cases h
  · rintro ⟨rfl, h⟩
    rw [dropWhile_nil.2 h]

theorem elem_entitySet {elem n x : String} : mapSubjectRestrictionElem elem = .entitySet n x ↔ elem = n ++ ":" ++ x ∧ ':' ∉ n.toList := by
  unfold mapSubjectRestrictionElem cutColon
  constructor
  · intro h
    split at h
    · cases h
    · next r y heq =>
      split at heq
      · cases heq
      · next c after h1 =>
        cases heq; cases h
        have hc : c = ':' := by simpa using dropWhile_head h1
        subst hc
        have h2 := takeWhile_append_dropWhile' (fun c => decide (c ≠ ':')) elem.toList
        rw [h1] at h2
        refine ⟨?_, ?_⟩
        · apply String.toList_inj.1
          simpa using h2.symm
        · simp only [String.toList_ofList]
          intro hm
          have : ∀ (l : List Char) (c : Char), c ∈ l.takeWhile (fun c => decide (c ≠ ':')) → c ≠ ':' := by
            intro l
            induction l with
            | nil => intro c hc; cases hc
            | cons a l ih =>
              intro c hc
              rw [List.takeWhile_cons] at hc
              split at hc
              · next h => rcases List.mem_cons.1 hc with rfl | hc
                          · simpa using h
                          · exact ih c hc
              · cases hc
          exact this _ _ hm rfl
  · rintro ⟨rfl, h⟩
    have h1 := cut_append (r := x.toList) h
    have h2 : (n ++ ":" ++ x).toList = n.toList ++ ':' :: x.toList := by simp
    rw [h2, h1.1, h1.2]
    simp

end Zanzi
