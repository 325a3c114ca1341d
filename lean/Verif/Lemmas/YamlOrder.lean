import Verif.Lemmas.Yaml

/-
The order of the entries of YAML mappings does not matter.
-/

namespace Zanzi.Yaml

open Spec (Increasing relationEntries)
open Spec.Yaml (Reordered IsTable At)

theorem reordered_symm {y y' : Yaml} (h : Reordered y y') : Reordered y' y := by
  induction h with
  | refl y => exact .refl y
  | trans a b c _ _ ih1 ih2 => exact .trans _ _ _ ih2 ih1
  | perm es es' h => exact .perm _ _ h.symm
  | entry pre post k v v' _ ih => exact .entry _ _ _ _ _ ih

theorem field_append_cons (pre post : List (String × Yaml)) (k : String) (v : Yaml) (hn : ((pre ++ (k, v) :: post).map (·.1)).Nodup) :
    field (pre ++ (k, v) :: post) k = v := field_of_mem hn (List.mem_append.2 (.inr List.mem_cons_self))

theorem field_other (pre post : List (String × Yaml)) (k j : String) (v v' : Yaml) (h : j ≠ k) :
    field (pre ++ (k, v) :: post) j = field (pre ++ (k, v') :: post) j := by
  have : kvGet (pre ++ (k, v) :: post) j = kvGet (pre ++ (k, v') :: post) j := by
    induction pre with
    | nil =>
      simp only [List.nil_append, kvGet]
      rw [if_neg (fun he => h he.symm), if_neg (fun he => h he.symm)]
    | cons a pre ih =>
      obtain ⟨a1, a2⟩ := a
      simp only [List.cons_append, kvGet]
      rw [ih]
  rw [field, field, this]

/-- What reordering does to a mapping. -/
def Shape (es : List (String × Yaml)) (y' : Yaml) : Prop :=
  ∃ es', y' = .map es' ∧ (es.map (·.1)).Perm (es'.map (·.1)) ∧ ((es.map (·.1)).Nodup → ∀ k, Reordered (field es k) (field es' k))

theorem reordered_shape {y y' : Yaml} (h : Reordered y y') : (∀ es, y = .map es → Shape es y') ∧ ((∀ es, y ≠ .map es) → y' = y) := by
  induction h with
  | refl y => exact ⟨fun es he => ⟨es, he, .refl _, fun _ _ => .refl _⟩, fun _ => rfl⟩
  | trans a b c h1 h2 ih1 ih2 =>
    refine ⟨fun es he => ?_, fun hne => ?_⟩
    · obtain ⟨es', rfl, h3, h4⟩ := ih1.1 es he
      obtain ⟨es'', rfl, h5, h6⟩ := ih2.1 es' rfl
      exact ⟨es'', rfl, h3.trans h5, fun hn k => .trans _ _ _ (h4 hn k) (h6 (h3.nodup_iff.1 hn) k)⟩
    · have := ih1.2 hne
      subst this
      exact ih2.2 hne
  | perm es es' h =>
    refine ⟨fun es0 he => ?_, fun hne => absurd rfl (hne es)⟩
    cases he
    refine ⟨es', rfl, h.map _, fun hn k => ?_⟩
    rw [field, field, kvGet_perm h hn]
    exact .refl _
  | entry pre post k v v' h _ =>
    refine ⟨fun es0 he => ?_, fun hne => absurd rfl (hne _)⟩
    cases he
    refine ⟨_, rfl, ?_, fun hn j => ?_⟩
    · simp
    · by_cases hj : j = k
      · subst hj
        rw [field_append_cons _ _ _ _ hn, field_append_cons]
        · exact h
        · simpa using hn
      · rw [field_other pre post k j v v' hj]
        exact .refl _

theorem text_reordered {y y' : Yaml} (h : Reordered y y') : y.text = y'.text := by
  obtain ⟨h1, h2⟩ := reordered_shape h
  cases y with
  | map es =>
    obtain ⟨es', rfl, _⟩ := h1 es rfl
    rfl
  | _ => rw [h2 nofun]

theorem textList_reordered {y y' : Yaml} (h : Reordered y y') : y.textList = y'.textList := by
  obtain ⟨h1, h2⟩ := reordered_shape h
  cases y with
  | map es =>
    obtain ⟨es', rfl, _⟩ := h1 es rfl
    rfl
  | _ => rw [h2 nofun]

theorem known_reordered {tags : List String} {es es' : List (String × Yaml)} (hp : (es.map (·.1)).Perm (es'.map (·.1))) (h : knownFields tags es = .ok ()) :
    (es.map (·.1)).Nodup ∧ knownFields tags es' = .ok () := by
  obtain ⟨h1, h2⟩ := (knownFields_ok _ _).1 h
  refine ⟨h1, (knownFields_ok _ _).2 ⟨hp.nodup_iff.1 h1, fun k v hm => ?_⟩⟩
  obtain ⟨⟨k', v'⟩, hm', he⟩ := List.mem_map.1 (hp.mem_iff.2 (List.mem_map.2 ⟨_, hm, rfl⟩))
  have he : k' = k := he
  exact he ▸ h2 k' v' hm'

theorem relation_reordered {y y' : Yaml} (h : Reordered y y') {b : Option RelationDef} (hb : relation y = .ok b) : relation y' = .ok b := by
  obtain ⟨h1, h2⟩ := reordered_shape h
  cases y with
  | map es =>
    obtain ⟨es', rfl, hp, hf⟩ := h1 es rfl
    obtain ⟨h0, doc, expr, types, h3, h4, h5, h6⟩ := relation_map.1 hb
    obtain ⟨hn, h0'⟩ := known_reordered hp h0
    refine relation_map.2 ⟨h0', doc, expr, types, ?_, ?_, ?_, h6⟩
    · rw [← text_reordered (hf hn _)]; exact h3
    · rw [← text_reordered (hf hn _)]; exact h4
    · rw [← textList_reordered (hf hn _)]; exact h5
  | _ => rw [h2 nofun]; exact hb

theorem at_one {es : List (String × Yaml)} (hn : (es.map (·.1)).Nodup) (k : String) (z : Yaml) :
    At (.map es) [k] z ↔ k ∈ es.map (·.1) ∧ field es k = z := by
  constructor
  · intro h
    cases h with
    | step _ _ v _ _ h1 h2 =>
      cases h2
      exact ⟨List.mem_map.2 ⟨_, h1, rfl⟩, field_of_mem hn h1⟩
  · rintro ⟨h1, rfl⟩
    obtain ⟨⟨k', v⟩, hm, rfl⟩ := List.mem_map.1 h1
    rw [field_of_mem hn hm]
    exact .step _ _ _ _ _ hm (.here _)

/-- Decoded tables have the same entries, as far as `g` tells values apart. -/
theorem table_reordered {V W : Type} {f : Yaml → Res V} (hf : Tame f) {g : V → W}
    (hg : ∀ v v' a, Reordered v v' → f v = .ok a → ∃ a', f v' = .ok a' ∧ g a = g a') {y y' : Yaml} (h : Reordered y y') {m : GoMap V} (hm : table f y = .ok m) :
    ∃ m', table f y' = .ok m' ∧ (m.entries.map (fun e => (e.1, g e.2))).Perm (m'.entries.map (fun e => (e.1, g e.2))) := by
  obtain ⟨h1, h2⟩ := reordered_shape h
  cases y with
  | map es =>
    obtain ⟨es', rfl, hp, hfield⟩ := h1 es rfl
    obtain ⟨hn, hd⟩ := (table_map hf).1 hm
    have hn' := hp.nodup_iff.1 hn
    have hall : ∀ k ∈ es.map (·.1), ∃ v, f (field es k) = .ok v := fun k hk =>
      (table_at hf hm ((at_one hn k _).2 ⟨hk, rfl⟩)).1
    obtain ⟨m', hm'⟩ := (table_ok hf (P := fun y => ∃ v, f y = .ok v) (fun _ => Iff.rfl) (.map es')).2 (isTable_map.2 ⟨hn', fun k v hv => by
      have hk : k ∈ es'.map (·.1) := List.mem_map.2 ⟨_, hv, rfl⟩
      obtain ⟨a, ha⟩ := hall k (hp.mem_iff.2 hk)
      obtain ⟨a', ha', _⟩ := hg _ _ a (hfield hn k) ha
      rw [field_of_mem hn' hv] at ha'
      exact ⟨a', ha'⟩⟩)
    refine ⟨m', hm', ?_⟩
    have nd : ∀ q : GoMap V, (q.entries.map (fun e => (e.1, g e.2))).Nodup := fun q => by
      have := q.nodup
      have he : q.entries.map (·.1) = (q.entries.map (fun e => (e.1, g e.2))).map (·.1) := by rw [List.map_map]; rfl
      rw [he] at this
      exact List.Pairwise.of_map _ (fun a b hab he => hab (he ▸ rfl)) this
    refine (List.perm_ext_iff_of_nodup (nd m) (nd m')).2 ?_
    have key : ∀ (es1 es2 : List (String × Yaml)) (m1 m2 : GoMap V), table f (.map es1) = .ok m1 → table f (.map es2) = .ok m2 → (es1.map (·.1)).Nodup →
        (es1.map (·.1)).Perm (es2.map (·.1)) → (∀ k, Reordered (field es1 k) (field es2 k)) →
        ∀ a, a ∈ m1.entries.map (fun e => (e.1, g e.2)) → a ∈ m2.entries.map (fun e => (e.1, g e.2)) := by
      intro es1 es2 m1 m2 q1 q2 n1 p r a ha
      obtain ⟨⟨k, v⟩, hk, rfl⟩ := List.mem_map.1 ha
      obtain ⟨z, hz, hv⟩ := (table_mem hf q1 k v).1 hk
      obtain ⟨hk1, rfl⟩ := (at_one n1 k z).1 hz
      obtain ⟨v', hv', hgv⟩ := hg _ _ v (r k) hv
      refine List.mem_map.2 ⟨(k, v'), (table_mem hf q2 k v').2 ⟨_, (at_one (p.nodup_iff.1 n1) k _).2 ⟨p.mem_iff.1 hk1, rfl⟩, hv'⟩, ?_⟩
      rw [hgv]
    exact fun a => ⟨key es es' m m' hm hm' hn hp (hfield hn) a, key es' es m' m hm' hm hn' hp.symm (fun k => reordered_symm (hfield hn k)) a⟩
  | null =>
    rw [h2 nofun]
    exact ⟨m, hm, .refl _⟩
  | scalar => cases hm
  | seq => cases hm

theorem resource_reordered {y y' : Yaml} (h : Reordered y y') {b : Option ResourceDef} (hb : resource y = .ok b) :
    ∃ b', resource y' = .ok b' ∧ ∀ k, resourceOf k b = resourceOf k b' := by
  obtain ⟨h1, h2⟩ := reordered_shape h
  cases y with
  | map es =>
    obtain ⟨es', rfl, hp, hf⟩ := h1 es rfl
    obtain ⟨h0, doc, rels, h3, h4, rfl⟩ := resource_map.1 hb
    obtain ⟨hn, h0'⟩ := known_reordered hp h0
    obtain ⟨rels', h5, h6⟩ := table_reordered relation_tame (g := id) (fun v v' a hr ha => ⟨a, relation_reordered hr ha, rfl⟩) (hf hn "relations") h4
    refine ⟨some ⟨"", doc, rels'⟩, resource_map.2 ⟨h0', doc, rels', ?_, h5, rfl⟩, fun k => ?_⟩
    · rw [← text_reordered (hf hn _)]; exact h3
    · have h6 : rels.entries.Perm rels'.entries := by
        have he : ∀ l : List (String × Option RelationDef), l.map (fun e => (e.1, id e.2)) = l := fun l => by simp
        rw [he, he] at h6
        exact h6
      unfold resourceOf
      dsimp only
      have : sortBy (·.name) (namedRelations (some ⟨"", doc, rels⟩)) = sortBy (·.name) (namedRelations (some ⟨"", doc, rels'⟩)) :=
        sortBy_perm_eq (h6.map _) (namedRelations_nodup _)
      rw [this]
  | _ => rw [h2 nofun]; exact ⟨b, hb, fun _ => rfl⟩

theorem policyOf_resources_perm (d : PolicyDef) : (policyOf d).resources.Perm (d.resources.entries.map (fun e => resourceOf e.1 e.2)) := by
  unfold policyOf
  refine ((sortBy_perm _ _).map _).trans (List.Perm.of_eq ?_)
  unfold namedResources
  rw [List.map_map]
  congr 1
  funext e
  exact resourceOfDef_named e.1 e.2

theorem definition_reordered {y y' : Yaml} (h : Reordered y y') {d : PolicyDef} (hd : definition y = .ok d) :
    ∃ d', definition y' = .ok d' ∧ policyOf d = policyOf d' := by
  obtain ⟨h1, h2⟩ := reordered_shape h
  cases y with
  | map es =>
    obtain ⟨es', rfl, hp, hf⟩ := h1 es rfl
    obtain ⟨h0, id', name, doc, ress, attrs, h3, h4, h5, h6, h7, rfl⟩ := definition_map.1 hd
    obtain ⟨hn, h0'⟩ := known_reordered hp h0
    obtain ⟨ress', h8, h9⟩ := table_reordered resource_tame (g := fun b k => resourceOf k b) (fun v v' a hr ha => by
      obtain ⟨b', hb', he⟩ := resource_reordered hr ha
      exact ⟨b', hb', funext he⟩) (hf hn "resources") h6
    obtain ⟨attrs', h10, h11⟩ := table_reordered text_tame (g := id) (fun v v' a hr ha => ⟨a, by rw [← text_reordered hr]; exact ha, rfl⟩) (hf hn "attributes") h7
    refine ⟨⟨id', name, doc, ress', sortBy (·.1) attrs'.entries⟩, definition_map.2 ⟨h0', id', name, doc, ress', attrs', ?_, ?_, ?_, h8, h10, rfl⟩, ?_⟩
    · rw [← text_reordered (hf hn _)]; exact h3
    · rw [← text_reordered (hf hn _)]; exact h4
    · rw [← text_reordered (hf hn _)]; exact h5
    · have ha : sortBy (·.1) attrs.entries = sortBy (·.1) attrs'.entries := by
        have he : ∀ l : List (String × String), l.map (fun e => (e.1, id e.2)) = l := fun l => by simp
        rw [he, he] at h11
        exact sortBy_perm_eq h11 attrs'.nodup
      have hr : (policyOf ⟨id', name, doc, ress, sortBy (·.1) attrs.entries⟩).resources =
          (policyOf ⟨id', name, doc, ress', sortBy (·.1) attrs'.entries⟩).resources := by
        refine increasing_unique ?_ (policyOf_names _) (policyOf_names _)
        refine (policyOf_resources_perm _).trans (List.Perm.trans ?_ (policyOf_resources_perm _).symm)
        have := h9.map (fun e => e.2 e.1)
        simpa [List.map_map, Function.comp_def] using this
      have hx : ∀ p q : Policy, p.id = q.id → p.name = q.name → p.description = q.description → p.resources = q.resources → p.attributes = q.attributes → p = q := by
        intro p q
        cases p; cases q
        intro a b c d e
        dsimp only at a b c d e
        subst a b c d e
        rfl
      exact hx _ _ rfl rfl rfl hr ha
  | _ => rw [h2 nofun]; exact ⟨d, hd, rfl⟩

/-! ### Writing -/

theorem textItems_write (ts : List String) : textItems (ts.map .scalar) = .ok ts := by
  induction ts with
  | nil => rfl
  | cons t ts ih =>
    show (textItems (ts.map .scalar) >>= fun ts => pure (t :: ts)) = _
    rw [ih]
    rfl

theorem table_write {V : Type} {f : Yaml → Res V} (hf : Tame f) {w : V → Yaml} {m : GoMap V} (h : ∀ k v, (k, v) ∈ m.entries → f (w v) = .ok v) :
    table f (.map (m.entries.map (fun e => (e.1, w e.2)))) = .ok m := by
  refine (table_map hf).2 ⟨?_, ?_⟩
  · rw [List.map_map]
    exact m.nodup
  · have : ∀ l : List (String × V), (∀ k v, (k, v) ∈ l → f (w v) = .ok v) → Decoded f (l.map (fun e => (e.1, w e.2))) l := by
      intro l
      induction l with
      | nil => exact fun _ => .nil
      | cons a l ih => exact fun h => .cons ⟨rfl, h a.1 a.2 List.mem_cons_self⟩ (ih fun k v hm => h k v (List.mem_cons_of_mem _ hm))
    exact this _ h

theorem relation_write {b : Option RelationDef} (h : ∀ b', b = some b' → b'.name = "") : relation (Spec.Yaml.writeRelation b) = .ok b := by
  cases b with
  | none => rfl
  | some b =>
    refine relation_map.2 ⟨?_, b.doc, b.expr, b.types, rfl, rfl, textItems_write _, ?_⟩
    · exact if_pos (show (["doc", "types", "expr"] : List String).Nodup ∧ ∀ k ∈ ["doc", "types", "expr"], k ∈ ["doc", "expr", "types"] from by decide)
    · rw [← h b rfl]

theorem resource_write {b : Option ResourceDef} (h : ∀ b', b = some b' → b'.name = "" ∧ ∀ k r, (k, some r) ∈ b'.relations.entries → r.name = "") :
    resource (Spec.Yaml.writeResource b) = .ok b := by
  cases b with
  | none => rfl
  | some b =>
    obtain ⟨h1, h2⟩ := h b rfl
    refine resource_map.2 ⟨?_, b.doc, b.relations, rfl, table_write relation_tame (fun k v hm => relation_write fun b' hb => h2 k b' (hb ▸ hm)), ?_⟩
    · exact if_pos (show (["doc", "relations"] : List String).Nodup ∧ ∀ k ∈ ["doc", "relations"], k ∈ ["doc", "relations"] from by decide)
    · rw [← h1]

theorem definition_write {d : PolicyDef} (hn : Spec.Unnamed d) (ha : Increasing (d.attributes.map (·.1))) : definition (Spec.Yaml.write d) = .ok d := by
  have hnd : (d.attributes.map (·.1)).Nodup := ha.imp (fun h he => by subst he; exact String.lt_irrefl _ h)
  refine definition_map.2 ⟨?_, d.id, d.name, d.doc, d.resources, ⟨d.attributes, hnd⟩, rfl, rfl, rfl,
    table_write resource_tame (fun k v hm => resource_write fun b' hb => hn k b' (hb ▸ hm)), table_write (m := ⟨d.attributes, hnd⟩) text_tame (w := .scalar) (fun k v _ => rfl), ?_⟩
  · exact if_pos (show (["name", "id", "doc", "resources", "attributes"] : List String).Nodup ∧
      ∀ k ∈ ["name", "id", "doc", "resources", "attributes"], k ∈ ["id", "name", "doc", "resources", "attributes"] from by decide)
  · have : sortBy (·.1) d.attributes = d.attributes := increasing_unique (sortBy_perm _ _) (sortBy_increasing hnd) ha
    show d = ⟨d.id, d.name, d.doc, d.resources, sortBy (·.1) d.attributes⟩
    rw [this]

end Zanzi.Yaml
