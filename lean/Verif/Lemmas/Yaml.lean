import Verif.Lemmas.Definition
import Verif.Spec.Yaml

/-
Lemmas on decoding YAML trees into policy definitions.
-/

namespace Zanzi

open Spec

/-! ### Keys -/

theorem pairwise_keys {V : Type} (es : List (String × V)) : es.Pairwise (fun a b => a.1 ≠ b.1) ↔ (es.map (·.1)).Nodup := by
  unfold List.Nodup
  rw [List.pairwise_map]

theorem kvGet_of_mem {V : Type} {es : List (String × V)} {k : String} {v : V} (hn : (es.map (·.1)).Nodup) (h : (k, v) ∈ es) : kvGet es k = some v := by
  induction es with
  | nil => cases h
  | cons a es ih =>
    obtain ⟨k', v'⟩ := a
    rw [List.map_cons, List.nodup_cons] at hn
    rw [kvGet]
    rcases List.mem_cons.1 h with he | h
    · cases he; rw [if_pos rfl]
    · have hne : k' ≠ k := by
        rintro rfl
        exact hn.1 (List.mem_map.2 ⟨_, h, rfl⟩)
      rw [if_neg hne]
      exact ih hn.2 h

theorem kvGet_none {V : Type} {es : List (String × V)} {k : String} (h : kvGet es k = none) (v : V) : (k, v) ∉ es := by
  induction es with
  | nil => exact nofun
  | cons a es ih =>
    obtain ⟨k', v'⟩ := a
    rw [kvGet] at h
    split at h
    · cases h
    · next he =>
      intro hm
      rcases List.mem_cons.1 hm with hm | hm
      · cases hm; exact he rfl
      · exact ih h hm

theorem kvGet_perm {V : Type} {es es' : List (String × V)} (hp : es.Perm es') (hn : (es.map (·.1)).Nodup) (k : String) : kvGet es k = kvGet es' k := by
  have hn' : (es'.map (·.1)).Nodup := ((hp.map _).nodup_iff).1 hn
  cases h : kvGet es k with
  | some v => exact (kvGet_of_mem hn' (hp.mem_iff.1 (kvGet_mem h))).symm
  | none =>
    cases h' : kvGet es' k with
    | none => rfl
    | some v => exact absurd (hp.mem_iff.2 (kvGet_mem h')) (kvGet_none h v)

namespace Yaml

/-- A decoder that answers or reports a type error. -/
def Tame {V : Type} (f : Yaml → Res V) : Prop := ∀ y, (∃ v, f y = .ok v) ∨ f y = .err .yaml

theorem text_tame : Tame text := by
  intro y
  cases y with
  | null => exact .inl ⟨_, rfl⟩
  | scalar t => exact .inl ⟨_, rfl⟩
  | seq => exact .inr rfl
  | map => exact .inr rfl

theorem text_ok (y : Yaml) : (∃ t, y.text = .ok t) ↔ Spec.Yaml.IsText y := by
  cases y with
  | null => exact ⟨fun _ => .inl rfl, fun _ => ⟨_, rfl⟩⟩
  | scalar t => exact ⟨fun _ => .inr ⟨_, rfl⟩, fun _ => ⟨_, rfl⟩⟩
  | seq => exact ⟨fun ⟨_, h⟩ => (by cases h), fun h => (by rcases h with h | ⟨_, h⟩ <;> cases h)⟩
  | map => exact ⟨fun ⟨_, h⟩ => (by cases h), fun h => (by rcases h with h | ⟨_, h⟩ <;> cases h)⟩

/-- The text of an item. -/
def itemText : Yaml → Option String
  | .scalar t => some t
  | _ => none

theorem textItems_cases (ys : List Yaml) :
    ((∀ x ∈ ys, Spec.Yaml.IsText x) ∧ textItems ys = .ok (ys.filterMap itemText)) ∨ (¬ (∀ x ∈ ys, Spec.Yaml.IsText x) ∧ textItems ys = .err .yaml) := by
  induction ys with
  | nil => exact .inl ⟨nofun, rfl⟩
  | cons y ys ih =>
    have hall : (∀ x ∈ y :: ys, Spec.Yaml.IsText x) ↔ Spec.Yaml.IsText y ∧ ∀ x ∈ ys, Spec.Yaml.IsText x := List.forall_mem_cons
    cases y with
    | null =>
      rcases ih with ⟨h1, h2⟩ | ⟨h1, h2⟩
      · exact .inl ⟨hall.2 ⟨.inl rfl, h1⟩, h2⟩
      · exact .inr ⟨fun h => h1 (hall.1 h).2, h2⟩
    | scalar t =>
      rcases ih with ⟨h1, h2⟩ | ⟨h1, h2⟩
      · refine .inl ⟨hall.2 ⟨.inr ⟨t, rfl⟩, h1⟩, ?_⟩
        show (textItems ys >>= fun ts => pure (t :: ts)) = _
        rw [h2]
        rfl
      · refine .inr ⟨fun h => h1 (hall.1 h).2, ?_⟩
        show (textItems ys >>= fun ts => pure (t :: ts)) = _
        rw [h2]
        rfl
    | seq l => exact .inr ⟨fun h => (by rcases (hall.1 h).1 with h | ⟨_, h⟩ <;> cases h), rfl⟩
    | map l => exact .inr ⟨fun h => (by rcases (hall.1 h).1 with h | ⟨_, h⟩ <;> cases h), rfl⟩

theorem textList_tame : Tame textList := by
  intro y
  cases y with
  | null => exact .inl ⟨_, rfl⟩
  | scalar t => exact .inr rfl
  | seq ys =>
    rcases textItems_cases ys with ⟨_, h⟩ | ⟨_, h⟩
    · exact .inl ⟨_, h⟩
    · exact .inr h
  | map => exact .inr rfl

theorem textList_ok (y : Yaml) : (∃ t, y.textList = .ok t) ↔ Spec.Yaml.IsTexts y := by
  cases y with
  | null => exact ⟨fun _ => .inl rfl, fun _ => ⟨_, rfl⟩⟩
  | scalar t => exact ⟨fun ⟨_, h⟩ => (by cases h), fun h => (by rcases h with h | ⟨_, h, _⟩ <;> cases h)⟩
  | seq ys =>
    rcases textItems_cases ys with ⟨h1, h2⟩ | ⟨h1, h2⟩
    · exact ⟨fun _ => .inr ⟨ys, rfl, h1⟩, fun _ => ⟨_, h2⟩⟩
    · constructor
      · rintro ⟨t, h⟩
        have h : textItems ys = .ok t := h
        rw [h2] at h
        cases h
      · rintro (h | ⟨_, h, h'⟩)
        · cases h
        · cases h; exact absurd h' h1
  | map => exact ⟨fun ⟨_, h⟩ => (by cases h), fun h => (by rcases h with h | ⟨_, h, _⟩ <;> cases h)⟩

/-! ### Tables -/

/-- The decoded values of a mapping, entry by entry. -/
inductive Decoded {V : Type} (f : Yaml → Res V) : List (String × Yaml) → List (String × V) → Prop
  | nil : Decoded f [] []
  | cons {e : String × Yaml} {w : String × V} {es : List (String × Yaml)} {vs : List (String × V)} :
      (e.1 = w.1 ∧ f e.2 = .ok w.2) → Decoded f es vs → Decoded f (e :: es) (w :: vs)

theorem entryValues_cases {V : Type} {f : Yaml → Res V} (hf : Tame f) (es : List (String × Yaml)) :
    (∃ vs, entryValues f es = .ok vs ∧ vs.map (·.1) = es.map (·.1) ∧ Decoded f es vs) ∨
      ((∃ e ∈ es, f e.2 = .err .yaml) ∧ entryValues f es = .err .yaml) := by
  induction es with
  | nil => exact .inl ⟨[], rfl, rfl, .nil⟩
  | cons e es ih =>
    obtain ⟨k, y⟩ := e
    rcases hf y with ⟨v, hv⟩ | hv
    · rcases ih with ⟨vs, h1, h2, h3⟩ | ⟨⟨e, he, h1⟩, h2⟩
      · refine .inl ⟨(k, v) :: vs, ?_, ?_, .cons ⟨rfl, hv⟩ h3⟩
        · rw [entryValues, hv, Res.bind_ok, h1]; rfl
        · rw [List.map_cons, List.map_cons, h2]
      · exact .inr ⟨⟨e, List.mem_cons_of_mem _ he, h1⟩, by rw [entryValues, hv, Res.bind_ok, h2]; rfl⟩
    · exact .inr ⟨⟨(k, y), List.mem_cons_self, hv⟩, by rw [entryValues, hv]; rfl⟩

theorem table_tame {V : Type} {f : Yaml → Res V} (hf : Tame f) : Tame (table f) := by
  intro y
  cases y with
  | null => exact .inl ⟨_, rfl⟩
  | scalar => exact .inr rfl
  | seq => exact .inr rfl
  | map es =>
    rw [table]
    rcases entryValues_cases hf es with ⟨vs, h1, _⟩ | ⟨_, h⟩
    · rw [h1, Res.bind_ok]
      split
      · exact .inl ⟨_, rfl⟩
      · exact .inr rfl
    · exact .inr (by rw [h]; rfl)

/-- When a table decodes, and to what. -/
theorem table_map {V : Type} {f : Yaml → Res V} (hf : Tame f) {es : List (String × Yaml)} {m : GoMap V} :
    table f (.map es) = .ok m ↔ (es.map (·.1)).Nodup ∧ Decoded f es m.entries := by
  rw [table]
  have huniq : ∀ (es : List (String × Yaml)) (a b : List (String × V)), Decoded f es a →
      Decoded f es b → a = b := by
    intro es a b ha
    induction ha generalizing b with
    | nil => intro hb; cases hb; rfl
    | @cons x a' xs as h1 h2 ih =>
      intro hb
      cases hb with
      | @cons _ b' _ bs h3 h4 =>
        obtain ⟨a1, a2⟩ := a'
        obtain ⟨b1, b2⟩ := b'
        have h5 : a2 = b2 := Res.ok.inj (h1.2.symm.trans h3.2)
        have h6 : a1 = b1 := h1.1.symm.trans h3.1
        rw [h5, h6, ih bs h4]
  rcases entryValues_cases hf es with ⟨vs, h1, h2, h3⟩ | ⟨⟨e, he, h1⟩, h2⟩
  · rw [h1, Res.bind_ok]
    constructor
    · intro h
      split at h
      · next hn =>
        cases h
        exact ⟨h2 ▸ hn, h3⟩
      · cases h
    · rintro ⟨hn, hm⟩
      have he := huniq es _ _ h3 hm
      subst he
      rw [dif_pos (h2.symm ▸ hn)]
  · rw [h2]
    constructor
    · intro h; cases h
    · rintro ⟨_, hm⟩
      exfalso
      have : ∀ (es : List (String × Yaml)) (a : List (String × V)), Decoded f es a → ∀ e ∈ es, ∃ v, f e.2 = .ok v := by
        intro es a h
        induction h with
        | nil => exact nofun
        | cons h1 _ ih =>
          intro e he
          rcases List.mem_cons.1 he with rfl | he
          · exact ⟨_, h1.2⟩
          · exact ih e he
      obtain ⟨v, hv⟩ := this es _ hm e he
      rw [h1] at hv
      cases hv

theorem forall₂_keys {V : Type} {f : Yaml → Res V} {es : List (String × Yaml)} {vs : List (String × V)}
    (h : Decoded f es vs) : vs.map (·.1) = es.map (·.1) := by
  induction h with
  | nil => rfl
  | cons h1 _ ih => rw [List.map_cons, List.map_cons, ih, h1.1]

theorem forall₂_mem {V : Type} {f : Yaml → Res V} {es : List (String × Yaml)} {vs : List (String × V)}
    (h : Decoded f es vs) (k : String) (v : V) :
    (k, v) ∈ vs ↔ ∃ y, (k, y) ∈ es ∧ f y = .ok v ∧ (k, v) ∈ vs := by
  constructor
  · intro hm
    induction h with
    | nil => cases hm
    | @cons e w es vs h1 _ ih =>
      rcases List.mem_cons.1 hm with rfl | hm
      · obtain ⟨k', y⟩ := e
        obtain ⟨hk, hv⟩ := h1
        have hk : k' = k := hk
        subst hk
        exact ⟨y, List.mem_cons_self, hv, List.mem_cons_self⟩
      · obtain ⟨y, h1, h2, h3⟩ := ih hm
        exact ⟨y, List.mem_cons_of_mem _ h1, h2, List.mem_cons_of_mem _ h3⟩
  · rintro ⟨_, _, _, h⟩; exact h

theorem forall₂_mem' {V : Type} {f : Yaml → Res V} {es : List (String × Yaml)} {vs : List (String × V)}
    (h : Decoded f es vs) {k : String} {y : Yaml} (hm : (k, y) ∈ es) :
    ∃ v, f y = .ok v ∧ (k, v) ∈ vs := by
  induction h with
  | nil => cases hm
  | @cons e w es vs h1 _ ih =>
    rcases List.mem_cons.1 hm with rfl | hm
    · obtain ⟨k', v⟩ := w
      obtain ⟨hk, hv⟩ := h1
      have hk : k = k' := hk
      subst hk
      exact ⟨v, hv, List.mem_cons_self⟩
    · obtain ⟨v, h1, h2⟩ := ih hm
      exact ⟨v, h1, List.mem_cons_of_mem _ h2⟩

/-- The entries of a decoded table. -/
theorem table_mem {V : Type} {f : Yaml → Res V} (hf : Tame f) {y : Yaml} {m : GoMap V} (h : table f y = .ok m) (k : String) (v : V) :
    (k, v) ∈ m.entries ↔ ∃ z, Spec.Yaml.At y [k] z ∧ f z = .ok v := by
  cases y with
  | null =>
    cases h
    constructor
    · exact nofun
    · rintro ⟨z, hz, _⟩; cases hz
  | scalar => cases h
  | seq => cases h
  | map es =>
    obtain ⟨hn, h2⟩ := (table_map hf).1 h
    rw [forall₂_mem h2]
    constructor
    · rintro ⟨z, h1, h3, _⟩; exact ⟨z, .step _ _ _ _ _ h1 (.here _), h3⟩
    · rintro ⟨z, hz, hv⟩
      cases hz with
      | step _ _ w _ _ h1 h3 =>
        cases h3
        obtain ⟨v', h4, h5⟩ := forall₂_mem' h2 h1
        rw [hv] at h4
        cases h4
        exact ⟨z, h1, hv, h5⟩

theorem table_ok {V : Type} {f : Yaml → Res V} (hf : Tame f) {P : Yaml → Prop} (hP : ∀ y, (∃ v, f y = .ok v) ↔ P y) (y : Yaml) :
    (∃ m, table f y = .ok m) ↔ Spec.Yaml.IsTable (fun _ => P) y := by
  cases y with
  | null => exact ⟨fun _ => .inl rfl, fun _ => ⟨_, rfl⟩⟩
  | scalar => exact ⟨fun ⟨_, h⟩ => (by cases h), fun h => (by rcases h with h | ⟨_, h, _⟩ <;> cases h)⟩
  | seq => exact ⟨fun ⟨_, h⟩ => (by cases h), fun h => (by rcases h with h | ⟨_, h, _⟩ <;> cases h)⟩
  | map es =>
    constructor
    · rintro ⟨m, h⟩
      obtain ⟨h1, h2⟩ := (table_map hf).1 h
      refine .inr ⟨es, rfl, (pairwise_keys es).2 h1, fun k v hm => ?_⟩
      obtain ⟨w, hw, _⟩ := forall₂_mem' h2 hm
      exact (hP v).1 ⟨w, hw⟩
    · rintro (h | ⟨_, h, h1, h2⟩)
      · cases h
      · cases h
        rcases entryValues_cases hf es with ⟨vs, h3, h4, h5⟩ | ⟨⟨e, he, h3⟩, _⟩
        · exact ⟨⟨vs, h4.symm ▸ (pairwise_keys es).1 h1⟩, (table_map hf).2 ⟨(pairwise_keys es).1 h1, h5⟩⟩
        · obtain ⟨v, hv⟩ := (hP e.2).2 (h2 e.1 e.2 he)
          rw [h3] at hv
          cases hv

/-! ### Structs -/

theorem knownFields_ok (tags : List String) (es : List (String × Yaml)) :
    knownFields tags es = .ok () ↔ (es.map (·.1)).Nodup ∧ ∀ k v, (k, v) ∈ es → k ∈ tags := by
  unfold knownFields
  have : (∀ k ∈ es.map (·.1), k ∈ tags) ↔ ∀ k v, (k, v) ∈ es → k ∈ tags :=
    ⟨fun h k v hm => h k (List.mem_map.2 ⟨_, hm, rfl⟩), fun h k hk => by
      obtain ⟨⟨k', v⟩, hm, rfl⟩ := List.mem_map.1 hk
      exact h _ _ hm⟩
  split
  · next h => exact ⟨fun _ => ⟨h.1, this.1 h.2⟩, fun _ => rfl⟩
  · next h => exact ⟨fun h' => (by cases h'), fun h' => absurd ⟨h'.1, this.2 h'.2⟩ h⟩

theorem knownFields_tame (tags : List String) (es : List (String × Yaml)) : knownFields tags es = .ok () ∨ knownFields tags es = .err .yaml := by
  unfold knownFields
  split
  · exact .inl rfl
  · exact .inr rfl

theorem field_of_mem {es : List (String × Yaml)} (hn : (es.map (·.1)).Nodup) {k : String} {v : Yaml} (h : (k, v) ∈ es) : field es k = v := by
  rw [field, kvGet_of_mem hn h]
  rfl

theorem field_cases (es : List (String × Yaml)) (k : String) : ((k, field es k) ∈ es) ∨ (field es k = .null ∧ ∀ v, (k, v) ∉ es) := by
  cases h : kvGet es k with
  | some v =>
    left
    rw [field, h]
    exact kvGet_mem h
  | none => exact .inr ⟨by rw [field, h]; rfl, kvGet_none h⟩

/-- Paths through a field. -/
theorem at_field {es : List (String × Yaml)} (hn : (es.map (·.1)).Nodup) {k : String} {path : List String} {w : Yaml} (hw : w ≠ .null ∨ path ≠ []) :
    Spec.Yaml.At (.map es) (k :: path) w ↔ Spec.Yaml.At (field es k) path w := by
  constructor
  · intro h
    cases h with
    | step _ _ v _ _ h1 h2 => rw [field_of_mem hn h1]; exact h2
  · intro h
    rcases field_cases es k with h1 | ⟨h1, _⟩
    · exact .step _ _ _ _ _ h1 h
    · rw [h1] at h
      cases h
      rcases hw with hw | hw
      · exact absurd rfl hw
      · exact absurd rfl hw

theorem says_field {es : List (String × Yaml)} (hn : (es.map (·.1)).Nodup) {k : String} {path : List String} {t : String} :
    Spec.Yaml.Says (.map es) (k :: path) t ↔ Spec.Yaml.Says (field es k) path t := by
  unfold Spec.Yaml.Says
  constructor
  · rintro (h | ⟨h, h'⟩)
    · exact .inl ((at_field hn (.inl (by simp))).1 h)
    · exact .inr ⟨h, fun t' ht => h' t' ((at_field hn (.inl (by simp))).2 ht)⟩
  · rintro (h | ⟨h, h'⟩)
    · exact .inl ((at_field hn (.inl (by simp))).2 h)
    · exact .inr ⟨h, fun t' ht => h' t' ((at_field hn (.inl (by simp))).1 ht)⟩

theorem lists_field {es : List (String × Yaml)} (hn : (es.map (·.1)).Nodup) {k : String} {path : List String} {ts : List String} :
    Spec.Yaml.Lists (.map es) (k :: path) ts ↔ Spec.Yaml.Lists (field es k) path ts := by
  unfold Spec.Yaml.Lists
  constructor
  · rintro (⟨ys, h, h'⟩ | ⟨h, h'⟩)
    · exact .inl ⟨ys, (at_field hn (.inl (by simp))).1 h, h'⟩
    · exact .inr ⟨h, fun t' ht => h' t' ((at_field hn (.inl (by simp))).2 ht)⟩
  · rintro (⟨ys, h, h'⟩ | ⟨h, h'⟩)
    · exact .inl ⟨ys, (at_field hn (.inl (by simp))).2 h, h'⟩
    · exact .inr ⟨h, fun t' ht => h' t' ((at_field hn (.inl (by simp))).1 ht)⟩

theorem text_says {y : Yaml} {t : String} (h : y.text = .ok t) : Spec.Yaml.Says y [] t := by
  cases y with
  | null => cases h; exact .inr ⟨rfl, fun t' ht => by cases ht⟩
  | scalar t => cases h; exact .inl (.here _)
  | seq => cases h
  | map => cases h

theorem textList_lists {y : Yaml} {ts : List String} (h : y.textList = .ok ts) : Spec.Yaml.Lists y [] ts := by
  cases y with
  | null => cases h; exact .inr ⟨rfl, fun t' ht => by cases ht⟩
  | scalar t => cases h
  | seq ys =>
    rcases textItems_cases ys with ⟨_, h2⟩ | ⟨_, h2⟩
    · have h : textItems ys = .ok ts := h
      rw [h2] at h
      have h := Res.ok.inj h
      refine .inl ⟨ys, .here _, ?_⟩
      rw [← h]
      congr 1
    · have h : textItems ys = .ok ts := h
      rw [h2] at h
      cases h
  | map => cases h

theorem says_here {y z : Yaml} {k : String} {path : List String} (t : String) (hn : ∃ es, y = .map es ∧ (es.map (·.1)).Nodup) (h : Spec.Yaml.At y [k] z) :
    Spec.Yaml.Says y (k :: path) t ↔ Spec.Yaml.Says z path t := by
  obtain ⟨es, rfl, hn⟩ := hn
  cases h with
  | step _ _ v _ _ h1 h2 =>
    cases h2
    rw [says_field hn, field_of_mem hn h1]

theorem lists_here {y z : Yaml} {k : String} {path : List String} (ts : List String) (hn : ∃ es, y = .map es ∧ (es.map (·.1)).Nodup)
    (h : Spec.Yaml.At y [k] z) : Spec.Yaml.Lists y (k :: path) ts ↔ Spec.Yaml.Lists z path ts := by
  obtain ⟨es, rfl, hn⟩ := hn
  cases h with
  | step _ _ v _ _ h1 h2 =>
    cases h2
    rw [lists_field hn, field_of_mem hn h1]

theorem at_here {y z w : Yaml} {k : String} {path : List String} (hn : ∃ es, y = .map es ∧ (es.map (·.1)).Nodup) (h : Spec.Yaml.At y [k] z) :
    Spec.Yaml.At y (k :: path) w ↔ Spec.Yaml.At z path w := by
  obtain ⟨es, rfl, hn⟩ := hn
  cases h with
  | step _ _ v _ _ h1 h2 =>
    cases h2
    constructor
    · intro h
      cases h with
      | step _ _ v _ _ h3 h4 =>
        have := field_of_mem hn h1
        rw [field_of_mem hn h3] at this
        exact this ▸ h4
    · exact .step _ _ _ _ _ h1

theorem fine_field {es : List (String × Yaml)} (hn : (es.map (·.1)).Nodup) {P : Yaml → Prop} (h0 : P .null) {k : String} :
    P (field es k) ↔ ∀ v, (k, v) ∈ es → P v := by
  constructor
  · intro h v hm; rw [field_of_mem hn hm] at h; exact h
  · intro h
    rcases field_cases es k with h1 | ⟨h1, _⟩
    · exact h _ h1
    · rw [h1]; exact h0

theorem isTable_null {P : String → Yaml → Prop} : Spec.Yaml.IsTable P .null := .inl rfl

theorem isTable_map {P : String → Yaml → Prop} {es : List (String × Yaml)} :
    Spec.Yaml.IsTable P (.map es) ↔ (es.map (·.1)).Nodup ∧ ∀ k v, (k, v) ∈ es → P k v := by
  constructor
  · rintro (h | ⟨_, h, h1, h2⟩)
    · cases h
    · cases h; exact ⟨(pairwise_keys es).1 h1, h2⟩
  · rintro ⟨h1, h2⟩; exact .inr ⟨es, rfl, (pairwise_keys es).2 h1, h2⟩

theorem isTable_other {P : String → Yaml → Prop} : (∀ t, ¬ Spec.Yaml.IsTable P (.scalar t)) ∧ ∀ ys, ¬ Spec.Yaml.IsTable P (.seq ys) :=
  ⟨fun _ h => (by rcases h with h | ⟨_, h, _⟩ <;> cases h), fun _ h => (by rcases h with h | ⟨_, h, _⟩ <;> cases h)⟩

/-! ### Relations -/

theorem relation_map {es : List (String × Yaml)} {b : Option RelationDef} :
    relation (.map es) = .ok b ↔ knownFields ["doc", "expr", "types"] es = .ok () ∧ ∃ doc expr types, (field es "doc").text = .ok doc ∧
      (field es "expr").text = .ok expr ∧ (field es "types").textList = .ok types ∧ b = some ⟨"", doc, expr, types⟩ := by
  rw [relation]
  constructor
  · intro h
    obtain ⟨_, h0, h⟩ := Res.bind_eq_ok.1 h
    obtain ⟨doc, h1, h⟩ := Res.bind_eq_ok.1 h
    obtain ⟨expr, h2, h⟩ := Res.bind_eq_ok.1 h
    obtain ⟨types, h3, h⟩ := Res.bind_eq_ok.1 h
    cases h
    exact ⟨h0, doc, expr, types, h1, h2, h3, rfl⟩
  · rintro ⟨h0, doc, expr, types, h1, h2, h3, rfl⟩
    rw [h0, h1, h2, h3]
    rfl

theorem bind_tame {α β : Type} {r : Res α} {k : α → Res β} (h : (∃ v, r = .ok v) ∨ r = .err .yaml) (hk : ∀ v, (∃ w, k v = .ok w) ∨ k v = .err .yaml) :
    (∃ w, (r >>= k) = .ok w) ∨ (r >>= k) = .err .yaml := by
  rcases h with ⟨v, rfl⟩ | rfl
  · exact hk v
  · exact .inr rfl

theorem known_tame (tags : List String) (es : List (String × Yaml)) : (∃ u, knownFields tags es = .ok u) ∨ knownFields tags es = .err .yaml := by
  rcases knownFields_tame tags es with h | h
  · exact .inl ⟨_, h⟩
  · exact .inr h

theorem relation_tame : Tame relation := by
  intro y
  cases y with
  | null => exact .inl ⟨_, rfl⟩
  | scalar => exact .inr rfl
  | seq => exact .inr rfl
  | map es =>
    exact bind_tame (known_tame _ _) fun _ => bind_tame (text_tame _) fun _ => bind_tame (text_tame _) fun _ => bind_tame (textList_tame _) fun _ =>
      .inl ⟨_, rfl⟩

theorem relation_ok (y : Yaml) : (∃ b, relation y = .ok b) ↔ Spec.Yaml.IsRelation y := by
  cases y with
  | null => exact ⟨fun _ => isTable_null, fun _ => ⟨_, rfl⟩⟩
  | scalar t => exact ⟨fun ⟨_, h⟩ => (by cases h), fun h => absurd h (isTable_other.1 t)⟩
  | seq ys => exact ⟨fun ⟨_, h⟩ => (by cases h), fun h => absurd h (isTable_other.2 ys)⟩
  | map es =>
    rw [Spec.Yaml.IsRelation, isTable_map]
    constructor
    · rintro ⟨b, h⟩
      obtain ⟨h0, doc, expr, types, h1, h2, h3, _⟩ := relation_map.1 h
      obtain ⟨hn, hk⟩ := (knownFields_ok _ _).1 h0
      refine ⟨hn, fun k v hm => ?_⟩
      have hk := hk k v hm
      simp only [List.mem_cons, List.not_mem_nil, or_false] at hk
      rcases hk with rfl | rfl | rfl
      · rw [field_of_mem hn hm] at h1; exact .inl ⟨rfl, (text_ok _).1 ⟨_, h1⟩⟩
      · rw [field_of_mem hn hm] at h2; exact .inr (.inl ⟨rfl, (text_ok _).1 ⟨_, h2⟩⟩)
      · rw [field_of_mem hn hm] at h3; exact .inr (.inr ⟨rfl, (textList_ok _).1 ⟨_, h3⟩⟩)
    · rintro ⟨hn, hf⟩
      have h0 : knownFields ["doc", "expr", "types"] es = .ok () := (knownFields_ok _ _).2 ⟨hn, fun k v hm => by
        rcases hf k v hm with ⟨rfl, _⟩ | ⟨rfl, _⟩ | ⟨rfl, _⟩ <;> decide⟩
      obtain ⟨doc, h1⟩ := (text_ok _).2 ((fine_field hn (P := Spec.Yaml.IsText) (.inl rfl) (k := "doc")).2 fun v hm => by
        rcases hf _ v hm with ⟨_, h⟩ | ⟨h, _⟩ | ⟨h, _⟩
        · exact h
        · exact absurd h (by decide)
        · exact absurd h (by decide))
      obtain ⟨expr, h2⟩ := (text_ok _).2 ((fine_field hn (P := Spec.Yaml.IsText) (.inl rfl) (k := "expr")).2 fun v hm => by
        rcases hf _ v hm with ⟨h, _⟩ | ⟨_, h⟩ | ⟨h, _⟩
        · exact absurd h (by decide)
        · exact h
        · exact absurd h (by decide))
      obtain ⟨types, h3⟩ := (textList_ok _).2 ((fine_field hn (P := Spec.Yaml.IsTexts) (.inl rfl) (k := "types")).2 fun v hm => by
        rcases hf _ v hm with ⟨h, _⟩ | ⟨h, _⟩ | ⟨_, h⟩
        · exact absurd h (by decide)
        · exact absurd h (by decide)
        · exact h)
      exact ⟨_, relation_map.2 ⟨h0, doc, expr, types, h1, h2, h3, rfl⟩⟩

/-! ### Resources -/

theorem resource_map {es : List (String × Yaml)} {b : Option ResourceDef} :
    resource (.map es) = .ok b ↔ knownFields ["doc", "relations"] es = .ok () ∧ ∃ doc rels, (field es "doc").text = .ok doc ∧
      (field es "relations").table relation = .ok rels ∧ b = some ⟨"", doc, rels⟩ := by
  rw [resource]
  constructor
  · intro h
    obtain ⟨_, h0, h⟩ := Res.bind_eq_ok.1 h
    obtain ⟨doc, h1, h⟩ := Res.bind_eq_ok.1 h
    obtain ⟨rels, h2, h⟩ := Res.bind_eq_ok.1 h
    cases h
    exact ⟨h0, doc, rels, h1, h2, rfl⟩
  · rintro ⟨h0, doc, rels, h1, h2, rfl⟩
    rw [h0, h1, h2]
    rfl

theorem resource_tame : Tame resource := by
  intro y
  cases y with
  | null => exact .inl ⟨_, rfl⟩
  | scalar => exact .inr rfl
  | seq => exact .inr rfl
  | map es =>
    exact bind_tame (known_tame _ _) fun _ => bind_tame (text_tame _) fun _ => bind_tame (table_tame relation_tame _) fun _ => .inl ⟨_, rfl⟩

theorem resource_ok (y : Yaml) : (∃ b, resource y = .ok b) ↔ Spec.Yaml.IsResource y := by
  cases y with
  | null => exact ⟨fun _ => isTable_null, fun _ => ⟨_, rfl⟩⟩
  | scalar t => exact ⟨fun ⟨_, h⟩ => (by cases h), fun h => absurd h (isTable_other.1 t)⟩
  | seq ys => exact ⟨fun ⟨_, h⟩ => (by cases h), fun h => absurd h (isTable_other.2 ys)⟩
  | map es =>
    rw [Spec.Yaml.IsResource, isTable_map]
    constructor
    · rintro ⟨b, h⟩
      obtain ⟨h0, doc, rels, h1, h2, _⟩ := resource_map.1 h
      obtain ⟨hn, hk⟩ := (knownFields_ok _ _).1 h0
      refine ⟨hn, fun k v hm => ?_⟩
      have hk := hk k v hm
      simp only [List.mem_cons, List.not_mem_nil, or_false] at hk
      rcases hk with rfl | rfl
      · rw [field_of_mem hn hm] at h1; exact .inl ⟨rfl, (text_ok _).1 ⟨_, h1⟩⟩
      · rw [field_of_mem hn hm] at h2; exact .inr ⟨rfl, (table_ok relation_tame relation_ok _).1 ⟨_, h2⟩⟩
    · rintro ⟨hn, hf⟩
      have h0 : knownFields ["doc", "relations"] es = .ok () := (knownFields_ok _ _).2 ⟨hn, fun k v hm => by
        rcases hf k v hm with ⟨rfl, _⟩ | ⟨rfl, _⟩ <;> decide⟩
      obtain ⟨doc, h1⟩ := (text_ok _).2 ((fine_field hn (P := Spec.Yaml.IsText) (.inl rfl) (k := "doc")).2 fun v hm => by
        rcases hf _ v hm with ⟨_, h⟩ | ⟨h, _⟩
        · exact h
        · exact absurd h (by decide))
      obtain ⟨rels, h2⟩ := (table_ok relation_tame relation_ok _).2
        ((fine_field hn (P := Spec.Yaml.IsTable (fun _ => Spec.Yaml.IsRelation)) isTable_null (k := "relations")).2 fun v hm => by
          rcases hf _ v hm with ⟨h, _⟩ | ⟨_, h⟩
          · exact absurd h (by decide)
          · exact h)
      exact ⟨_, resource_map.2 ⟨h0, doc, rels, h1, h2, rfl⟩⟩

/-! ### Definitions -/

theorem definition_map {es : List (String × Yaml)} {d : PolicyDef} :
    definition (.map es) = .ok d ↔ knownFields ["id", "name", "doc", "resources", "attributes"] es = .ok () ∧ ∃ id name doc ress attrs,
      (field es "id").text = .ok id ∧ (field es "name").text = .ok name ∧ (field es "doc").text = .ok doc ∧
      (field es "resources").table resource = .ok ress ∧ (field es "attributes").table text = .ok attrs ∧
      d = ⟨id, name, doc, ress, sortBy (·.1) attrs.entries⟩ := by
  rw [definition]
  constructor
  · intro h
    obtain ⟨_, h0, h⟩ := Res.bind_eq_ok.1 h
    obtain ⟨id, h1, h⟩ := Res.bind_eq_ok.1 h
    obtain ⟨name, h2, h⟩ := Res.bind_eq_ok.1 h
    obtain ⟨doc, h3, h⟩ := Res.bind_eq_ok.1 h
    obtain ⟨ress, h4, h⟩ := Res.bind_eq_ok.1 h
    obtain ⟨attrs, h5, h⟩ := Res.bind_eq_ok.1 h
    cases h
    exact ⟨h0, id, name, doc, ress, attrs, h1, h2, h3, h4, h5, rfl⟩
  · rintro ⟨h0, id, name, doc, ress, attrs, h1, h2, h3, h4, h5, rfl⟩
    rw [h0, h1, h2, h3, h4, h5]
    rfl

theorem definition_tame : Tame definition := by
  intro y
  cases y with
  | null => exact .inl ⟨_, rfl⟩
  | scalar => exact .inr rfl
  | seq => exact .inr rfl
  | map es =>
    exact bind_tame (known_tame _ _) fun _ => bind_tame (text_tame _) fun _ => bind_tame (text_tame _) fun _ => bind_tame (text_tame _) fun _ =>
      bind_tame (table_tame resource_tame _) fun _ => bind_tame (table_tame text_tame _) fun _ => .inl ⟨_, rfl⟩

theorem definition_ok (y : Yaml) : (∃ d, definition y = .ok d) ↔ Spec.Yaml.IsDefinition y := by
  cases y with
  | null => exact ⟨fun _ => isTable_null, fun _ => ⟨_, rfl⟩⟩
  | scalar t => exact ⟨fun ⟨_, h⟩ => (by cases h), fun h => absurd h (isTable_other.1 t)⟩
  | seq ys => exact ⟨fun ⟨_, h⟩ => (by cases h), fun h => absurd h (isTable_other.2 ys)⟩
  | map es =>
    rw [Spec.Yaml.IsDefinition, isTable_map]
    constructor
    · rintro ⟨b, h⟩
      obtain ⟨h0, id, name, doc, ress, attrs, h1, h2, h3, h4, h5, _⟩ := definition_map.1 h
      obtain ⟨hn, hk⟩ := (knownFields_ok _ _).1 h0
      refine ⟨hn, fun k v hm => ?_⟩
      have hk := hk k v hm
      simp only [List.mem_cons, List.not_mem_nil, or_false] at hk
      rcases hk with rfl | rfl | rfl | rfl | rfl
      · rw [field_of_mem hn hm] at h1; exact .inl ⟨rfl, (text_ok _).1 ⟨_, h1⟩⟩
      · rw [field_of_mem hn hm] at h2; exact .inr (.inl ⟨rfl, (text_ok _).1 ⟨_, h2⟩⟩)
      · rw [field_of_mem hn hm] at h3; exact .inr (.inr (.inl ⟨rfl, (text_ok _).1 ⟨_, h3⟩⟩))
      · rw [field_of_mem hn hm] at h4; exact .inr (.inr (.inr (.inl ⟨rfl, (table_ok resource_tame resource_ok _).1 ⟨_, h4⟩⟩)))
      · rw [field_of_mem hn hm] at h5; exact .inr (.inr (.inr (.inr ⟨rfl, (table_ok text_tame text_ok _).1 ⟨_, h5⟩⟩)))
    · rintro ⟨hn, hf⟩
      have h0 : knownFields ["id", "name", "doc", "resources", "attributes"] es = .ok () := (knownFields_ok _ _).2 ⟨hn, fun k v hm => by
        rcases hf k v hm with ⟨rfl, _⟩ | ⟨rfl, _⟩ | ⟨rfl, _⟩ | ⟨rfl, _⟩ | ⟨rfl, _⟩ <;> decide⟩
      have pick : ∀ (k : String) (P : Yaml → Prop), P .null → (∀ v, (k, v) ∈ es → P v) → P (field es k) := fun k P h hp => (fine_field hn h).2 hp
      obtain ⟨id, h1⟩ := (text_ok _).2 (pick "id" Spec.Yaml.IsText (.inl rfl) fun v hm => by
        rcases hf _ v hm with ⟨_, h⟩ | ⟨h, _⟩ | ⟨h, _⟩ | ⟨h, _⟩ | ⟨h, _⟩ <;> first | exact h | exact absurd h (by decide))
      obtain ⟨name, h2⟩ := (text_ok _).2 (pick "name" Spec.Yaml.IsText (.inl rfl) fun v hm => by
        rcases hf _ v hm with ⟨h, _⟩ | ⟨_, h⟩ | ⟨h, _⟩ | ⟨h, _⟩ | ⟨h, _⟩ <;> first | exact h | exact absurd h (by decide))
      obtain ⟨doc, h3⟩ := (text_ok _).2 (pick "doc" Spec.Yaml.IsText (.inl rfl) fun v hm => by
        rcases hf _ v hm with ⟨h, _⟩ | ⟨h, _⟩ | ⟨_, h⟩ | ⟨h, _⟩ | ⟨h, _⟩ <;> first | exact h | exact absurd h (by decide))
      obtain ⟨ress, h4⟩ := (table_ok resource_tame resource_ok _).2
        (pick "resources" (Spec.Yaml.IsTable (fun _ => Spec.Yaml.IsResource)) isTable_null fun v hm => by
          rcases hf _ v hm with ⟨h, _⟩ | ⟨h, _⟩ | ⟨h, _⟩ | ⟨_, h⟩ | ⟨h, _⟩ <;> first | exact h | exact absurd h (by decide))
      obtain ⟨attrs, h5⟩ := (table_ok text_tame text_ok _).2
        (pick "attributes" (Spec.Yaml.IsTable (fun _ => Spec.Yaml.IsText)) isTable_null fun v hm => by
          rcases hf _ v hm with ⟨h, _⟩ | ⟨h, _⟩ | ⟨h, _⟩ | ⟨h, _⟩ | ⟨_, h⟩ <;> first | exact h | exact absurd h (by decide))
      exact ⟨_, definition_map.2 ⟨h0, id, name, doc, ress, attrs, h1, h2, h3, h4, h5, rfl⟩⟩

/-! ### What decoded definitions say -/

theorem table_at {V : Type} {f : Yaml → Res V} (hf : Tame f) {y z : Yaml} {m : GoMap V} (h : table f y = .ok m) {k : String} (hz : Spec.Yaml.At y [k] z) :
    (∃ v, f z = .ok v) ∧ ∃ es, y = .map es ∧ (es.map (·.1)).Nodup := by
  cases hz with
  | step es _ v _ _ h1 h2 =>
    cases h2
    obtain ⟨hn, hd⟩ := (table_map hf).1 h
    obtain ⟨w, hw, _⟩ := forall₂_mem' hd h1
    exact ⟨⟨w, hw⟩, es, rfl, hn⟩

theorem says_null (k : String) (path : List String) : Spec.Yaml.Says .null (k :: path) "" := .inr ⟨rfl, fun _ h => by cases h⟩

theorem relation_says {w : Yaml} {b : Option RelationDef} (h : relation w = .ok b) :
    Spec.Yaml.Says w ["doc"] (match b with | some b => b.doc | none => "") ∧ Spec.Yaml.Says w ["expr"] (match b with | some b => b.expr | none => "") ∧
      Spec.Yaml.Lists w ["types"] (match b with | some b => b.types | none => []) := by
  cases w with
  | null => cases h; exact ⟨says_null _ _, says_null _ _, .inr ⟨rfl, fun _ h => by cases h⟩⟩
  | scalar => cases h
  | seq => cases h
  | map es =>
    obtain ⟨h0, doc, expr, types, h1, h2, h3, rfl⟩ := relation_map.1 h
    have hn := ((knownFields_ok _ _).1 h0).1
    exact ⟨(says_field hn).2 (text_says h1), (says_field hn).2 (text_says h2), (lists_field hn).2 (textList_lists h3)⟩

theorem resource_says {z : Yaml} {b : Option ResourceDef} (h : resource z = .ok b) :
    Spec.Yaml.Says z ["doc"] (match b with | some b => b.doc | none => "") ∧
      (∀ k b', (k, b') ∈ relationEntries b ↔ ∃ w, Spec.Yaml.At z ["relations", k] w ∧ relation w = .ok b') ∧
      (∀ k w, Spec.Yaml.At z ["relations", k] w → (∃ b', relation w = .ok b') ∧
        (∀ path t, Spec.Yaml.Says z ("relations" :: k :: path) t ↔ Spec.Yaml.Says w path t) ∧
        ∀ path ts, Spec.Yaml.Lists z ("relations" :: k :: path) ts ↔ Spec.Yaml.Lists w path ts) := by
  cases z with
  | null =>
    cases h
    exact ⟨says_null _ _, fun k b' => ⟨nofun, fun ⟨_, h, _⟩ => (by cases h)⟩, fun k w h => by cases h⟩
  | scalar => cases h
  | seq => cases h
  | map es =>
    obtain ⟨h0, doc, rels, h1, h2, rfl⟩ := resource_map.1 h
    have hn := ((knownFields_ok _ _).1 h0).1
    refine ⟨(says_field hn).2 (text_says h1), fun k b' => ?_, fun k w hw => ?_⟩
    · rw [show relationEntries (some ⟨"", doc, rels⟩) = rels.entries from rfl, table_mem relation_tame h2]
      constructor
      · rintro ⟨w, hw, h3⟩; exact ⟨w, (at_field hn (.inr (by simp))).2 hw, h3⟩
      · rintro ⟨w, hw, h3⟩; exact ⟨w, (at_field hn (.inr (by simp))).1 hw, h3⟩
    · have hw := (at_field hn (.inr (by simp))).1 hw
      obtain ⟨h3, h4⟩ := table_at relation_tame h2 hw
      refine ⟨h3, fun path t => ?_, fun path ts => ?_⟩
      · rw [says_field hn, says_here t h4 hw]
      · rw [lists_field hn, lists_here ts h4 hw]

/-- The root of a decoded document. -/
theorem definition_says {y : Yaml} {d : PolicyDef} (h : definition y = .ok d) :
    Spec.Yaml.Says y ["id"] d.id ∧ Spec.Yaml.Says y ["name"] d.name ∧ Spec.Yaml.Says y ["doc"] d.doc ∧
      (Increasing (d.attributes.map (·.1)) ∧ ∀ k t, (k, t) ∈ d.attributes ↔ (∃ v, Spec.Yaml.At y ["attributes", k] v) ∧ Spec.Yaml.Says y ["attributes", k] t) ∧
      (∀ k b, (k, b) ∈ d.resources.entries ↔ ∃ z, Spec.Yaml.At y ["resources", k] z ∧ resource z = .ok b) ∧
      (∀ k z, Spec.Yaml.At y ["resources", k] z → (∃ b, resource z = .ok b) ∧
        (∀ path w, Spec.Yaml.At y ("resources" :: k :: path) w ↔ Spec.Yaml.At z path w) ∧
        (∀ path t, Spec.Yaml.Says y ("resources" :: k :: path) t ↔ Spec.Yaml.Says z path t) ∧
        ∀ path ts, Spec.Yaml.Lists y ("resources" :: k :: path) ts ↔ Spec.Yaml.Lists z path ts) := by
  cases y with
  | null =>
    cases h
    refine ⟨says_null _ _, says_null _ _, says_null _ _, ⟨.nil, fun k t => ⟨nofun, fun ⟨⟨_, h⟩, _⟩ => (by cases h)⟩⟩,
      fun k b' => ⟨nofun, fun ⟨_, h, _⟩ => (by cases h)⟩, fun k w h => by cases h⟩
  | scalar => cases h
  | seq => cases h
  | map es =>
    obtain ⟨h0, id, name, doc, ress, attrs, h1, h2, h3, h4, h5, rfl⟩ := definition_map.1 h
    have hn := ((knownFields_ok _ _).1 h0).1
    refine ⟨(says_field hn).2 (text_says h1), (says_field hn).2 (text_says h2), (says_field hn).2 (text_says h3), ⟨sortBy_increasing attrs.nodup, fun k t => ?_⟩,
      fun k b => ?_, fun k z hz => ?_⟩
    · rw [(sortBy_perm _ _).mem_iff, table_mem text_tame h5]
      constructor
      · rintro ⟨z, hz, ht⟩
        obtain ⟨_, h6⟩ := table_at text_tame h5 hz
        exact ⟨⟨z, (at_field hn (.inr (by simp))).2 hz⟩, (says_field hn).2 ((says_here t h6 hz).2 (text_says ht))⟩
      · rintro ⟨⟨z, hz⟩, ht⟩
        have hz := (at_field hn (.inr (by simp))).1 hz
        obtain ⟨⟨t', ht'⟩, h6⟩ := table_at text_tame h5 hz
        refine ⟨z, hz, ?_⟩
        rw [says_field hn, says_here t h6 hz] at ht
        cases z with
        | null =>
          rcases ht with ht | ⟨rfl, _⟩
          · cases ht
          · rfl
        | scalar u =>
          rcases ht with ht | ⟨_, h⟩
          · cases ht; rfl
          · exact absurd (.here _) (h u)
        | seq => cases ht'
        | map => cases ht'
    · rw [table_mem resource_tame h4]
      constructor
      · rintro ⟨w, hw, h3⟩; exact ⟨w, (at_field hn (.inr (by simp))).2 hw, h3⟩
      · rintro ⟨w, hw, h3⟩; exact ⟨w, (at_field hn (.inr (by simp))).1 hw, h3⟩
    · have hz := (at_field hn (.inr (by simp))).1 hz
      obtain ⟨h6, h7⟩ := table_at resource_tame h4 hz
      refine ⟨h6, fun path w => ?_, fun path t => ?_, fun path ts => ?_⟩
      · rw [at_field hn (.inr (by simp)), at_here h7 hz]
      · rw [says_field hn, says_here t h7 hz]
      · rw [lists_field hn, lists_here ts h7 hz]

end Yaml

end Zanzi
