import Verif.Spec.Setup

/-
Property C69: instances are configured as their options ask.
-/

namespace Zanzi

open Spec Setup

/-- The part of the world that options do not change. -/
def SameWorld (w w' : World) : Prop := w'.home = w.home ∧ w'.opens = w.opens ∧ w'.zapOk = w.zapOk ∧ w.allocated ≤ w'.allocated

theorem SameWorld.refl (w : World) : SameWorld w w := ⟨rfl, rfl, rfl, Nat.le_refl _⟩

theorem SameWorld.trans {a b c : World} (h : SameWorld a b) (h' : SameWorld b c) : SameWorld a c :=
  ⟨h'.1.trans h.1, h'.2.1.trans h.2.1, h'.2.2.1.trans h.2.2.1, Nat.le_trans h.2.2.2 h'.2.2.2⟩

theorem SameWorld.works {w w' : World} (h : SameWorld w w') (o : Opt) : Works w' o ↔ Works w o := by
  obtain ⟨h1, h2, h3, _⟩ := h
  cases o with
  | levelDb path => unfold Works; split <;> simp_all
  | _ => simp [Works, h3]

theorem apply_world (o : Opt) (z : Instance) (w : World) : SameWorld w (apply o z w).2 := by
  cases o with
  | kv b => exact .refl w
  | logger l => exact .refl w
  | developmentLogger => unfold apply; dsimp only; split <;> exact .refl w
  | development => unfold apply newMem; dsimp only; split <;> exact ⟨rfl, rfl, rfl, Nat.le_succ _⟩
  | levelDb path =>
    unfold apply
    dsimp only
    split
    · exact .refl w
    · split <;> exact .refl w

/-- What one option does. -/
theorem apply_works {o : Opt} {w : World} (h : Works w o) (z : Instance) :
    ∃ z', (apply o z w).1 = .ok z' ∧ z'.logger = ((loggerAsked o).or z.logger) ∧
      (∀ b, storeAsked (w.home.getD []) o = some (some b) → z'.store = some b) ∧
      (storeAsked (w.home.getD []) o = none → z'.store = z.store) ∧
      (storeAsked (w.home.getD []) o = some none → ∃ n, z'.store = some (.mem n) ∧ w.allocated ≤ n ∧ n < (apply o z w).2.allocated) := by
  cases o with
  | kv b => exact ⟨_, rfl, rfl, fun b hb => by cases hb; rfl, nofun, nofun⟩
  | logger l => exact ⟨_, rfl, rfl, nofun, fun _ => rfl, nofun⟩
  | developmentLogger =>
    have h : w.zapOk = true := h
    refine ⟨{ z with logger := some .development }, by simp [apply, h], rfl, nofun, fun _ => rfl, nofun⟩
  | development =>
    have h : w.zapOk = true := h
    refine ⟨{ z with store := some (.mem w.allocated), logger := some .development }, by simp [apply, newMem, h], rfl, nofun, nofun, fun _ => ⟨_, rfl, Nat.le_refl _, ?_⟩⟩
    simp [apply, newMem, h]
  | levelDb path =>
    have hx : ∃ p, expand w path = .ok p ∧ w.opens p = true ∧ storeAsked (w.home.getD []) (.levelDb path) = some (some (.level p)) := by
      unfold Works at h
      split at h
      all_goals first | (rename_i heq; cases heq; done) | skip
      · rename_i rest heq
        cases heq
        obtain ⟨hm, h1, h2⟩ := h
        exact ⟨hm ++ rest, by simp [expand, h1], h2, by simp [storeAsked, h1]⟩
      · rename_i p hne heq
        cases heq
        refine ⟨path, ?_, h, ?_⟩
        · unfold expand
          split
          · exact absurd rfl (hne _)
          · rfl
        · unfold storeAsked
          split
          all_goals first | (rename_i heq; cases heq; done) | skip
          · rename_i heq; cases heq; exact absurd rfl (hne _)
          · rename_i heq; cases heq; rfl
          · rename_i hno; exact absurd rfl (hno path)
    obtain ⟨p, h1, h2, h3⟩ := hx
    refine ⟨{ z with store := some (.level p) }, by simp [apply, h1, h2], rfl, fun b hb => ?_, fun hb => ?_, fun hb => ?_⟩
    · rw [h3] at hb; cases hb; rfl
    · rw [h3] at hb; cases hb
    · rw [h3] at hb; cases hb

theorem apply_fails {o : Opt} {w : World} (h : ¬ Works w o) (z : Instance) : ∃ e w', apply o z w = (.error e, w') := by
  cases o with
  | kv b => exact absurd trivial h
  | logger l => exact absurd trivial h
  | developmentLogger =>
    have h : ¬ w.zapOk = true := h
    simp [apply, h]
  | development =>
    have h : ¬ w.zapOk = true := h
    simp [apply, newMem, h]
  | levelDb path =>
    unfold apply
    dsimp only
    cases he : expand w path with
    | error e => exact ⟨_, _, rfl⟩
    | ok p =>
      dsimp only
      rw [if_neg]
      · exact ⟨_, _, rfl⟩
      · intro ho
        apply h
        unfold expand at he
        split at he
        · rename_i rest
          cases hh : w.home with
          | none => rw [hh] at he; cases he
          | some hm =>
            rw [hh] at he
            cases he
            exact ⟨hm, hh, ho⟩
        · rename_i hne
          cases he
          unfold Works
          split
          all_goals first | (rename_i heq; cases heq; done) | skip
          · rename_i heq; cases heq; exact absurd rfl (hne _)
          · rename_i heq; cases heq; exact ho

theorem lastWith_cons {α β : Type} {f : α → Option β} {x : α} {l : List α} {b : β} :
    LastWith f (x :: l) b ↔ LastWith f l b ∨ (f x = some b ∧ ∀ y ∈ l, f y = none) := by
  constructor
  · rintro ⟨bf, y, af, h1, h2, h3⟩
    cases bf with
    | nil => cases h1; exact .inr ⟨h2, h3⟩
    | cons z bf => cases h1; exact .inl ⟨bf, y, af, rfl, h2, h3⟩
  · rintro (⟨bf, y, af, rfl, h2, h3⟩ | ⟨h2, h3⟩)
    · exact ⟨x :: bf, y, af, rfl, h2, h3⟩
    · exact ⟨[], x, l, rfl, h2, h3⟩

theorem lastWith_or_none {α β : Type} (f : α → Option β) (l : List α) : (∃ b, LastWith f l b) ∨ ∀ y ∈ l, f y = none := by
  induction l with
  | nil => exact .inr nofun
  | cons x l ih =>
    rcases ih with ⟨b, h⟩ | h
    · exact .inl ⟨b, lastWith_cons.2 (.inl h)⟩
    · cases hx : f x with
      | none => exact .inr (by simp [hx]; exact h)
      | some b => exact .inl ⟨b, lastWith_cons.2 (.inr ⟨hx, h⟩)⟩

theorem lastWith_not_none {α β : Type} {f : α → Option β} {l : List α} {b : β} (h : LastWith f l b) : ¬ ∀ y ∈ l, f y = none := by
  obtain ⟨bf, x, af, rfl, h2, _⟩ := h
  intro h
  rw [h x (by simp)] at h2
  cases h2

/-- The option loop. -/
theorem applyAll_works (os : List Opt) (z : Instance) (w : World) (h : ∀ o ∈ os, Works w o) :
    ∃ z' w', applyAll os z w = (.ok z', w') ∧ SameWorld w w' ∧
      (∀ l, LastWith loggerAsked os l → z'.logger = some l) ∧ ((∀ o ∈ os, loggerAsked o = none) → z'.logger = z.logger) ∧
      (∀ b, LastWith (storeAsked (w.home.getD [])) os (some b) → z'.store = some b) ∧
      ((∀ o ∈ os, storeAsked (w.home.getD []) o = none) → z'.store = z.store) ∧
      (LastWith (storeAsked (w.home.getD [])) os none → ∃ n, z'.store = some (.mem n) ∧ w.allocated ≤ n ∧ n < w'.allocated) := by
  induction os generalizing z w with
  | nil =>
    exact ⟨z, w, rfl, .refl w, fun l h => absurd (by simp) (lastWith_not_none h), fun _ => rfl, fun l h => absurd (by simp) (lastWith_not_none h), fun _ => rfl, fun h => absurd (by simp) (lastWith_not_none h)⟩
  | cons o os ih =>
    obtain ⟨z1, h1, hl, hb, hn, hm⟩ := apply_works (h o List.mem_cons_self) z
    have hw := apply_world o z w
    generalize hx : apply o z w = x at h1 hw hm
    obtain ⟨x1, w1⟩ := x
    dsimp only at h1 hw hm
    subst h1
    obtain ⟨z', w', h2, h3, h4, h5, h6, h7, h8⟩ := ih z1 w1 (fun o ho => (hw.works o).2 (h o (List.mem_cons_of_mem _ ho)))
    rw [hw.1] at h6 h7 h8
    refine ⟨z', w', by simp only [applyAll, hx, h2], hw.trans h3, fun l hl' => ?_, fun ha => ?_, fun b hb' => ?_, fun ha => ?_, fun hl' => ?_⟩
    · rcases lastWith_cons.1 hl' with hl' | ⟨ho, ha⟩
      · exact h4 l hl'
      · rw [h5 ha, hl, ho]; rfl
    · rw [h5 (fun o ho => ha o (List.mem_cons_of_mem _ ho)), hl, ha o List.mem_cons_self]; rfl
    · rcases lastWith_cons.1 hb' with hl' | ⟨ho, ha⟩
      · exact h6 b hl'
      · rw [h7 ha, hb b ho]
    · rw [h7 (fun o ho => ha o (List.mem_cons_of_mem _ ho)), hn (ha o List.mem_cons_self)]
    · rcases lastWith_cons.1 hl' with hl' | ⟨ho, ha⟩
      · obtain ⟨n, e1, e2, e3⟩ := h8 hl'
        exact ⟨n, e1, Nat.le_trans hw.2.2.2 e2, e3⟩
      · obtain ⟨n, e1, e2, e3⟩ := hm ho
        exact ⟨n, by rw [h7 ha, e1], e2, Nat.lt_of_lt_of_le e3 h3.2.2.2⟩

/-- C69: when every option works, `New` succeeds; the last option about logging and the last option about the store decide, in whatever order and number they were given; a
logger not asked for is the default one; a store not asked for, or asked for by the development configuration, is in memory and new: no earlier instance or option value has it. -/
theorem C69_configured_partial (opts : List Opt) (w : World) (h : ∀ o ∈ opts, Works w o) :
    ∃ z w', new opts w = (.ok z, w') ∧
      (∀ l, LastWith loggerAsked opts l → z.logger = some l) ∧ ((∀ o ∈ opts, loggerAsked o = none) → z.logger = some .default) ∧
      (∀ b, LastWith (storeAsked (w.home.getD [])) opts (some b) → z.store = some b) ∧
      ((∀ b, ¬ LastWith (storeAsked (w.home.getD [])) opts (some b)) → ∃ n, z.store = some (.mem n) ∧ w.allocated ≤ n ∧ n < w'.allocated) := by
  obtain ⟨z, w', h1, h2, h3, h4, h5, h6, h7⟩ := applyAll_works opts {} w h
  refine ⟨(setDefaults z w').1, (setDefaults z w').2, by simp only [new, h1], fun l hl => ?_, fun ha => ?_, fun b hb => ?_, fun ha => ?_⟩
  · have := h3 l hl
    unfold setDefaults
    rw [this]
    dsimp only
    split <;> exact this
  · have := h4 ha
    unfold setDefaults
    rw [this]
    dsimp only
    split <;> rfl
  · have := h5 b hb
    unfold setDefaults
    dsimp only
    cases hl : z.logger <;> simp [this]
  · rcases lastWith_or_none (storeAsked (w.home.getD [])) opts with ⟨b, hb⟩ | hn
    · cases b with
      | some b => exact absurd hb (ha b)
      | none =>
        obtain ⟨n, e1, e2, e3⟩ := h7 hb
        refine ⟨n, ?_, e2, ?_⟩ <;> unfold setDefaults <;> dsimp only <;> cases hl : z.logger <;> simp [e1, e3]
    · have := h6 hn
      have := h2.2.2.2
      refine ⟨w'.allocated, ?_, h2.2.2.2, ?_⟩ <;> unfold setDefaults newMem <;> dsimp only <;> cases hl : z.logger <;> simp_all

/-- C69, failure: `New` gives an instance exactly when every option works. -/
theorem C69_succeeds_iff (opts : List Opt) (w : World) : (∃ z w', new opts w = (.ok z, w')) ↔ ∀ o ∈ opts, Works w o := by
  constructor
  · rintro ⟨z, w', h⟩
    have : ∀ (os : List Opt) z0 w0, (∃ e w', applyAll os z0 w0 = (.error e, w')) ∨ ∀ o ∈ os, Works w0 o := by
      intro os
      induction os with
      | nil => exact fun _ _ => .inr nofun
      | cons o os ih =>
        intro z0 w0
        by_cases ho : Works w0 o
        · obtain ⟨z1, h1, _⟩ := apply_works ho z0
          have hw := apply_world o z0 w0
          generalize hx : apply o z0 w0 = x at h1 hw
          obtain ⟨x1, w1⟩ := x
          dsimp only at h1 hw
          subst h1
          rcases ih z1 w1 with ⟨e, w', h2⟩ | h2
          · exact .inl ⟨e, w', by simp only [applyAll, hx, h2]⟩
          · refine .inr fun y hy => ?_
            rcases List.mem_cons.1 hy with rfl | hy
            · exact ho
            · exact (hw.works y).1 (h2 y hy)
        · obtain ⟨e, w', h1⟩ := apply_fails ho z0
          exact .inl ⟨e, w', by simp only [applyAll, h1]⟩
    rcases this opts {} w with ⟨e, w'', h2⟩ | h2
    · simp only [new, h2] at h
      cases h
    · exact h2
  · intro h
    obtain ⟨z, w', h1, _⟩ := C69_configured_partial opts w h
    exact ⟨z, w', h1⟩

/-- C69 is false as documented ("stores its data under DefaultDataDir"): without an option about the store, no instance is persistent. -/
theorem C69_default_persistent_violated (opts : List Opt) (w : World) (hn : ∀ home, ∀ o ∈ opts, storeAsked home o = none) {z : Instance} {w' : World}
    (h : new opts w = (.ok z, w')) : ∃ n, z.store = some (.mem n) := by
  obtain ⟨z', w'', h1, _, _, _, h2⟩ := C69_configured_partial opts w ((C69_succeeds_iff opts w).1 ⟨z, w', h⟩)
  rw [h] at h1
  cases h1
  obtain ⟨n, h3, _⟩ := h2 (fun b hb => lastWith_not_none hb (hn _))
  exact ⟨n, h3⟩

/-- C69, separation: instances made one after another without an option about the store have different stores. -/
theorem C69_separate_stores (o1 o2 : List Opt) (w : World) (hn1 : ∀ home, ∀ o ∈ o1, storeAsked home o = none) (hn2 : ∀ home, ∀ o ∈ o2, storeAsked home o = none)
    {z1 z2 : Instance} {w1 w2 wm : World} (h1 : new o1 w = (.ok z1, w1)) (hm : w1.allocated ≤ wm.allocated) (h2 : new o2 wm = (.ok z2, w2)) : z1.store ≠ z2.store := by
  obtain ⟨z', w'', e1, _, _, _, f1⟩ := C69_configured_partial o1 w ((C69_succeeds_iff o1 w).1 ⟨z1, w1, h1⟩)
  rw [h1] at e1
  cases e1
  obtain ⟨z', w'', e2, _, _, _, f2⟩ := C69_configured_partial o2 wm ((C69_succeeds_iff o2 wm).1 ⟨z2, w2, h2⟩)
  rw [h2] at e2
  cases e2
  obtain ⟨n, g1, _, g2⟩ := f1 (fun b hb => lastWith_not_none hb (hn1 _))
  obtain ⟨m, g3, g4, _⟩ := f2 (fun b hb => lastWith_not_none hb (hn2 _))
  rw [g1, g3]
  intro h
  cases h
  omega

/-- C69, separation, is false for the in-memory option: its store is made with the option value, so two instances given the same value share one store, whereas two given the same
development configuration do not. -/
theorem C69_shared_memory_violated (w : World) :
    (new [(withMemKVStore w).1] (withMemKVStore w).2).1 = .ok ⟨some .default, some (.mem w.allocated)⟩ ∧
    (new [(withMemKVStore w).1] (new [(withMemKVStore w).1] (withMemKVStore w).2).2).1 = .ok ⟨some .default, some (.mem w.allocated)⟩ ∧
    (w.zapOk = true → (new [.development] w).1 ≠ (new [.development] (new [.development] w).2).1) := by
  refine ⟨rfl, rfl, fun h => ?_⟩
  simp [new, applyAll, apply, newMem, h, setDefaults]

/-- C69, paths: `~` alone or before a slash is the home directory of the user. -/
theorem C69_own_home (w : World) (home rest : List Char) (hh : w.home = some home) (hop : w.opens (home ++ '/' :: rest) = true) (hop' : w.opens home = true) :
    (∃ w', new [.levelDb ('~' :: '/' :: rest)] w = (.ok ⟨some .default, some (.level (home ++ '/' :: rest))⟩, w')) ∧
    ∃ w', new [.levelDb ['~']] w = (.ok ⟨some .default, some (.level home)⟩, w') := by
  simp [new, applyAll, apply, expand, hh, hop, hop', setDefaults]

/-- C69, paths, is false for the home of another user: a path such as `~bob/data` goes to the directory whose name is the own home directory followed by `bob/data`. -/
theorem C69_other_home_violated (w : World) (home rest : List Char) (c : Char) (_hc : c ≠ '/') (hh : w.home = some home) (hop : w.opens (home ++ c :: rest) = true) :
    ∃ w', new [.levelDb ('~' :: c :: rest)] w = (.ok ⟨some .default, some (.level (home ++ c :: rest))⟩, w') := by
  simp [new, applyAll, apply, expand, hh, hop, setDefaults]

/-- A world in which `/home/al/zanzi` opens. -/
def exWorld : World := ⟨3, some "/home/al".toList, fun p => p == "/home/al/zanzi".toList || p == "/home/albob/zanzi".toList, true⟩

example : ∀ o ∈ [Opt.development, .logger .noop, .levelDb "~/zanzi".toList], Works exWorld o := by
  simp only [List.mem_cons, List.not_mem_nil, or_false, forall_eq_or_imp, forall_eq]
  exact ⟨rfl, trivial, _, rfl, by decide +kernel⟩

example : (new [.development, .logger .noop, .levelDb "~/zanzi".toList] exWorld).1 = .ok ⟨some .noop, some (.level "/home/al/zanzi".toList)⟩ := by rfl
example : (new [.levelDb "~bob/zanzi".toList] exWorld).1 = .ok ⟨some .default, some (.level "/home/albob/zanzi".toList)⟩ := by rfl
example : ¬ ∃ z w', new [.logger .noop, .levelDb "/no".toList] exWorld = (.ok z, w') := by
  rw [C69_succeeds_iff]
  intro h
  have := h (.levelDb "/no".toList) (by simp)
  have : exWorld.opens "/no".toList = true := this
  exact absurd this (by decide +kernel)

end Zanzi
