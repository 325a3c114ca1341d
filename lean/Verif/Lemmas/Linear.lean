import Verif.Lemmas.Updates
import Verif.Spec.Linear

/-
Requests kept apart are explained by serving them one at a time.
-/

namespace Zanzi

open Spec Prog

theorem concat_get {α : Type} {l : List α} {x q : α} {i : Nat} : (l ++ [x])[i]? = some q ↔ l[i]? = some q ∨ (i = l.length ∧ q = x) := by
  by_cases h : i < l.length
  · rw [List.getElem?_append_left h]
    exact ⟨.inl, fun h' => h'.elim id (fun h' => absurd h'.1 (by omega))⟩
  · rw [List.getElem?_append_right (by omega), List.getElem?_eq_none (l := l) (by omega)]
    by_cases h' : i = l.length
    · subst h'
      simp [eq_comm]
    · rw [List.getElem?_eq_none (by simp; omega)]
      simp [h']

theorem set_get {α : Type} {l : List α} {x y q : α} {i j : Nat} (hi : l[i]? = some y) : (l.set i x)[j]? = some q ↔ (j = i ∧ q = x) ∨ (j ≠ i ∧ l[j]? = some q) := by
  have hlt : i < l.length := by
    by_cases h : i < l.length
    · exact h
    · rw [List.getElem?_eq_none (by omega)] at hi
      cases hi
  rw [List.getElem?_set]
  by_cases h : i = j
  · subst h
    simp [hlt, eq_comm]
  · simp [h, Ne.symm h]

theorem nodup_fst {β : Type} {l : List (Nat × β)} (h : (l.map (·.1)).Nodup) {x y : Nat × β} (hx : x ∈ l) (hy : y ∈ l) (he : x.1 = y.1) : x = y := by
  induction l with
  | nil => cases hx
  | cons z l ih =>
    rw [List.map_cons, List.nodup_cons] at h
    rcases List.mem_cons.1 hx with hx' | hx' <;> rcases List.mem_cons.1 hy with hy' | hy'
    · rw [hx', hy']
    · exact absurd (hx' ▸ he ▸ List.mem_map_of_mem (f := Prod.fst) hy') h.1
    · exact absurd (hy' ▸ he ▸ List.mem_map_of_mem (f := Prod.fst) hx') h.1
    · exact ih h.2 hx' hy'

/-- Serving requests one at a time explains what callers saw, up to the store `sb`; requests that are over exist and are not waited for. -/
structure LinBase (env : Env) (s₀ : Store) (l : List Req) (ev : List Event) (sb : Store) (p : List (Nat × Call × Res Answer)) : Prop where
  ex : Explained env s₀ l ev sb p
  known : ∀ i, .made i ∈ ev → ∃ q, l[i]? = some q
  over : ∀ i, Over ev i → ∃ q, l[i]? = some q ∧ q.caller ≠ .waiting

theorem before_append {p p' : List (Nat × Call × Res Answer)} {i j : Nat} (h : Before p i j) : Before (p ++ p') i j := by
  obtain ⟨l₁, l₂, rfl, h1, h2⟩ := h
  exact ⟨l₁, l₂ ++ p', by simp, h1, by rw [List.map_append]; exact List.mem_append_left _ h2⟩

theorem over_left {ev ev' : List Event} {i : Nat} (h : Over ev i) : Over (ev ++ ev') i := by
  rcases h with h | ⟨a, b, rfl, h⟩
  · exact .inl (List.mem_append_left _ h)
  · exact .inr ⟨a, b ++ ev', by simp, h⟩

theorem over_earlier {ev : List Event} {i j : Nat} (h : Earlier ev i j) : Over ev i := by
  obtain ⟨_, _, rfl, h, _⟩ := h
  exact over_left h

theorem over_concat {ev : List Event} {x : Event} {i : Nat} (h : Over (ev ++ [x]) i) : Over ev i ∨ x = .answered i ∨ (x = .crashed ∧ .made i ∈ ev) := by
  rcases h with h | ⟨a, b, he, h⟩
  · rcases List.mem_append.1 h with h | h
    · exact .inl (.inl h)
    · exact .inr (.inl (List.mem_singleton.1 h).symm)
  · rcases List.eq_nil_or_concat b with rfl | ⟨b', y, rfl⟩
    · obtain ⟨rfl, hx⟩ := List.append_inj' he rfl
      cases hx
      exact .inr (.inr ⟨rfl, h⟩)
    · rw [List.concat_eq_append, ← List.cons_append, ← List.append_assoc] at he
      obtain ⟨rfl, _⟩ := List.append_inj' he rfl
      exact .inl (.inr ⟨a, b', rfl, h⟩)

/-- One more request is served. -/
theorem LinBase.take {env : Env} {s₀ : Store} {l : List Req} {ev : List Event} {sb sb' : Store} {p : List (Nat × Call × Res Answer)} (h : LinBase env s₀ l ev sb p) {i : Nat} {q : Req} {r : Res Answer}
    (hi : i ∉ p.map (·.1)) (hq : l[i]? = some q) (ha : q.caller = .waiting) (hs : serve env q.call sb = (r, sb')) : LinBase env s₀ l ev sb' (p ++ [(i, q.call, r)]) := by
  refine ⟨⟨?_, ?_, fun i' q' r' h1 h2 h3 => List.mem_append_left _ (h.ex.answers i' q' r' h1 h2 h3), ?_, ?_⟩, h.known, h.over⟩
  · rw [List.map_append, List.nodup_append]
    refine ⟨h.ex.once, by simp, ?_⟩
    intro a ha' b hb
    simp only [List.map_cons, List.map_nil, List.mem_singleton] at hb
    subst hb
    exact fun he => hi (he ▸ ha')
  · intro i' c r' hm
    rcases List.mem_append.1 hm with hm | hm
    · exact h.ex.asked i' c r' hm
    · simp only [List.mem_singleton, Prod.mk.injEq] at hm
      obtain ⟨rfl, rfl, rfl⟩ := hm
      exact ⟨q, hq, rfl, by rw [ha]; nofun⟩
  · rw [List.map_append, List.map_append, runCalls_append, h.ex.results]
    show (p.map (·.2.2) ++ [(serve env q.call sb).1], (serve env q.call sb).2) = _
    rw [hs]
    rfl
  · intro i' j' he hi' hj
    have hi'' : i' ∈ p.map (·.1) := by
      rw [List.map_append, List.mem_append] at hi'
      rcases hi' with hi' | hi'
      · exact hi'
      · simp only [List.map_cons, List.map_nil, List.mem_singleton] at hi'
        subst hi'
        obtain ⟨q', h1, h2⟩ := h.over _ (over_earlier he)
        rw [hq] at h1
        cases h1
        exact absurd ha h2
    rw [List.map_append, List.mem_append] at hj
    rcases hj with hj | hj
    · exact before_append (h.ex.order i' j' he hi'' hj)
    · exact ⟨p, [(i, q.call, r)], rfl, hi'', hj⟩

/-- A request does something its caller does not see. -/
theorem LinBase.move {env : Env} {s₀ : Store} {l : List Req} {ev : List Event} {sb : Store} {p : List (Nat × Call × Res Answer)} (h : LinBase env s₀ l ev sb p) {i : Nat} {c : Call} {t t' : Prog Answer}
    (hq : l[i]? = some ⟨c, t, .waiting⟩) : LinBase env s₀ (l.set i ⟨c, t', .waiting⟩) ev sb p := by
  refine ⟨⟨h.ex.once, ?_, ?_, h.ex.results, h.ex.order⟩, ?_, ?_⟩
  · intro i' c' r' hm
    obtain ⟨q, h1, h2, h3⟩ := h.ex.asked i' c' r' hm
    by_cases he : i' = i
    · subst he
      rw [hq] at h1
      cases h1
      exact ⟨⟨c, t', .waiting⟩, (set_get hq).2 (.inl ⟨rfl, rfl⟩), h2, by nofun⟩
    · exact ⟨q, (set_get hq).2 (.inr ⟨he, h1⟩), h2, h3⟩
  · intro i' q r h1 h2
    rcases (set_get hq).1 h1 with ⟨rfl, rfl⟩ | ⟨_, h1⟩
    · cases h2
    · exact h.ex.answers i' q r h1 h2
  · intro i' hi'
    obtain ⟨q, h1⟩ := h.known i' hi'
    by_cases he : i' = i
    · subst he
      exact ⟨_, (set_get hq).2 (.inl ⟨rfl, rfl⟩)⟩
    · exact ⟨q, (set_get hq).2 (.inr ⟨he, h1⟩)⟩
  · intro i' hi'
    obtain ⟨q, h1, h2⟩ := h.over i' hi'
    by_cases he : i' = i
    · subst he
      rw [hq] at h1
      cases h1
      exact absurd rfl h2
    · exact ⟨q, (set_get hq).2 (.inr ⟨he, h1⟩), h2⟩

theorem earlier_concat {ev : List Event} {x : Event} {i j : Nat} (h : Earlier (ev ++ [x]) i j) : x = .made j ∨ Earlier ev i j := by
  obtain ⟨ev₁, ev₂, he, h1, h2⟩ := h
  rcases List.eq_nil_or_concat ev₂ with rfl | ⟨ev₂', y, rfl⟩
  · cases h2
  · rw [List.concat_eq_append, ← List.append_assoc] at he
    obtain ⟨rfl, hx⟩ := List.append_inj' he rfl
    cases hx
    rw [List.concat_eq_append, List.mem_append] at h2
    rcases h2 with h2 | h2
    · exact .inr ⟨ev₁, ev₂', rfl, h1, h2⟩
    · simp at h2
      exact .inl h2.symm

/-- A caller is answered. -/
theorem LinBase.reply {env : Env} {s₀ : Store} {l : List Req} {ev : List Event} {sb : Store} {p : List (Nat × Call × Res Answer)} (h : LinBase env s₀ l ev sb p) {i : Nat} {c : Call} {t : Prog Answer}
    {r : Res Answer} (hq : l[i]? = some ⟨c, t, .waiting⟩) (hr : ∀ r', (i, c, r') ∈ p → r = r' ∨ r = .err .store) (hm : r ≠ .err .store → (i, c, r) ∈ p) :
    LinBase env s₀ (l.set i ⟨c, t, .told r⟩) (ev ++ [.answered i]) sb p := by
  refine ⟨⟨h.ex.once, ?_, ?_, h.ex.results, fun i' j he hi' hj => ?_⟩, ?_, ?_⟩
  · intro i' c' r' hm'
    obtain ⟨q, h1, h2, h3⟩ := h.ex.asked i' c' r' hm'
    by_cases he : i' = i
    · subst he
      rw [hq] at h1
      cases h1
      subst h2
      refine ⟨⟨c, t, .told r⟩, (set_get hq).2 (.inl ⟨rfl, rfl⟩), rfl, fun r'' h => ?_⟩
      cases h
      exact hr r' hm'
    · exact ⟨q, (set_get hq).2 (.inr ⟨he, h1⟩), h2, h3⟩
  · intro i' q r' h1 h2 h3
    rcases (set_get hq).1 h1 with ⟨rfl, rfl⟩ | ⟨_, h1⟩
    · dsimp only at h2 ⊢
      cases h2
      exact hm h3
    · exact h.ex.answers i' q r' h1 h2 h3
  · rcases earlier_concat he with he | he
    · cases he
    · exact h.ex.order i' j he hi' hj
  · intro i' hi'
    rcases List.mem_append.1 hi' with hi' | hi'
    · obtain ⟨q, h1⟩ := h.known i' hi'
      by_cases he : i' = i
      · subst he
        exact ⟨_, (set_get hq).2 (.inl ⟨rfl, rfl⟩)⟩
      · exact ⟨q, (set_get hq).2 (.inr ⟨he, h1⟩)⟩
    · simp at hi'
  · intro i' hi'
    by_cases he : i' = i
    · subst he
      exact ⟨_, (set_get hq).2 (.inl ⟨rfl, rfl⟩), by nofun⟩
    · rcases over_concat hi' with hi' | hi' | hi'
      · obtain ⟨q, h1, h2⟩ := h.over i' hi'
        exact ⟨q, (set_get hq).2 (.inr ⟨he, h1⟩), h2⟩
      · cases hi'
        exact absurd rfl he
      · cases hi'.1

/-- Nothing is served that was not asked. -/
theorem LinBase.bound {env : Env} {s₀ : Store} {l : List Req} {ev : List Event} {sb : Store} {p : List (Nat × Call × Res Answer)} (h : LinBase env s₀ l ev sb p) : l.length ∉ p.map (·.1) := by
  intro hm
  obtain ⟨⟨i, c, r⟩, hx, he⟩ := List.mem_map.1 hm
  dsimp only at he
  subst he
  obtain ⟨q, h1, _⟩ := h.ex.asked _ _ _ hx
  simp at h1

/-- A request is made. -/
theorem LinBase.make {env : Env} {s₀ : Store} {l : List Req} {ev : List Event} {sb : Store} {p : List (Nat × Call × Res Answer)} (h : LinBase env s₀ l ev sb p) (c : Call) (t : Prog Answer) :
    LinBase env s₀ (l ++ [⟨c, t, .waiting⟩]) (ev ++ [.made l.length]) sb p := by
  refine ⟨⟨h.ex.once, ?_, ?_, h.ex.results, ?_⟩, ?_, ?_⟩
  · intro i' c' r' hm
    obtain ⟨q, h1, h2⟩ := h.ex.asked i' c' r' hm
    exact ⟨q, concat_get.2 (.inl h1), h2⟩
  · intro i' q r h1 h2
    rcases concat_get.1 h1 with h1 | ⟨_, rfl⟩
    · exact h.ex.answers i' q r h1 h2
    · cases h2
  · intro i' j he hi hj
    rcases earlier_concat he with he | he
    · cases he
      exact absurd hj h.bound
    · exact h.ex.order i' j he hi hj
  · intro i' hi'
    rcases List.mem_append.1 hi' with hi' | hi'
    · obtain ⟨q, h1⟩ := h.known i' hi'
      exact ⟨q, concat_get.2 (.inl h1)⟩
    · simp at hi'
      subst hi'
      exact ⟨_, concat_get.2 (.inr ⟨rfl, rfl⟩)⟩
  · intro i' hi'
    rcases over_concat hi' with hi' | hi' | hi'
    · obtain ⟨q, h1, h2⟩ := h.over i' hi'
      exact ⟨q, concat_get.2 (.inl h1), h2⟩
    · cases hi'
    · cases hi'.1

/-- A request after a crash. -/
def crashedReq (q : Req) : Req := match q.caller with | .waiting => ⟨q.call, q.left, .lost⟩ | _ => q

theorem crashedReq_call (q : Req) : (crashedReq q).call = q.call := by
  obtain ⟨c, t, x⟩ := q
  cases x <;> rfl

theorem crashedReq_told {q : Req} {r : Res Answer} : (crashedReq q).caller = .told r ↔ q.caller = .told r := by
  obtain ⟨c, t, x⟩ := q
  cases x <;> simp [crashedReq]

theorem crashedReq_waiting (q : Req) : (crashedReq q).caller ≠ .waiting := by
  obtain ⟨c, t, x⟩ := q
  cases x <;> simp [crashedReq]

/-- The service crashes. -/
theorem LinBase.crash {env : Env} {s₀ : Store} {l : List Req} {ev : List Event} {sb : Store} {p : List (Nat × Call × Res Answer)} (h : LinBase env s₀ l ev sb p) :
    LinBase env s₀ (l.map crashedReq) (ev ++ [.crashed]) sb p := by
  have hg : ∀ {i : Nat} {q : Req}, l[i]? = some q → (l.map crashedReq)[i]? = some (crashedReq q) := by
    intro i q hq
    rw [List.getElem?_map, hq]
    rfl
  refine ⟨⟨h.ex.once, ?_, ?_, h.ex.results, ?_⟩, ?_, ?_⟩
  · intro i' c' r' hm
    obtain ⟨q, h1, h2, h3⟩ := h.ex.asked i' c' r' hm
    exact ⟨_, hg h1, (crashedReq_call q).trans h2, fun r hr => h3 r (crashedReq_told.1 hr)⟩
  · intro i' q r h1 h2 h3
    rw [List.getElem?_map, Option.map_eq_some_iff] at h1
    obtain ⟨q', h1, rfl⟩ := h1
    rw [crashedReq_call]
    exact h.ex.answers i' q' r h1 (crashedReq_told.1 h2) h3
  · intro i' j he hi hj
    rcases earlier_concat he with he | he
    · cases he
    · exact h.ex.order i' j he hi hj
  · intro i' hi'
    rcases List.mem_append.1 hi' with hi' | hi'
    · obtain ⟨q, h1⟩ := h.known i' hi'
      exact ⟨_, hg h1⟩
    · simp at hi'
  · intro i' hi'
    rcases over_concat hi' with hi' | hi' | hi'
    · obtain ⟨q, h1, _⟩ := h.over i' hi'
      exact ⟨_, hg h1, crashedReq_waiting q⟩
    · cases hi'
    · obtain ⟨q, h1⟩ := h.known i' hi'.2
      exact ⟨_, hg h1, crashedReq_waiting q⟩

/-- A request waited for: it has taken effect and is bound to give its answer, or it has not; or it will answer that a storage call failed. -/
def Underway (env : Env) (s : Store) (p : List (Nat × Call × Res Answer)) (i : Nat) (q : Req) : Prop :=
  (∃ r, (i, q.call, r) ∈ p ∧ q.left.AllOps edgeRead ∧ (q.left.run s).1 = r) ∨ (i ∉ p.map (·.1) ∧ Pending env s q.call q.left) ∨ q.left = .done (.err .store)

/-- Requests that share the service. -/
structure Shared (env : Env) (l : List Req) (s : Store) (p : List (Nat × Call × Res Answer)) : Prop where
  way : ∀ i q, l[i]? = some q → q.caller = .waiting → Sharable q.call ∧ q.left.FailStop ∧ Underway env s p i q
  apart : ∀ (i j : Nat) (q q' : Req), i ≠ j → l[i]? = some q → l[j]? = some q' → q.caller = .waiting → q'.caller = .waiting → NotBothCreate env q.call q'.call

/-- A request that has the service to itself. -/
def Alone (env : Env) (l : List Req) (sb s : Store) (p : List (Nat × Call × Res Answer)) : Prop :=
  ∃ i q, l[i]? = some q ∧ q.caller = .waiting ∧ ¬ Sharable q.call ∧ i ∉ p.map (·.1) ∧ q.left.run s = serve env q.call sb ∧ ∀ j q', l[j]? = some q' → q'.caller = .waiting → j = i

theorem NotBothCreate.symm {env : Env} {c c' : Call} (h : NotBothCreate env c c') : NotBothCreate env c' c := fun p p' h1 h2 => (h p' p h2 h1).symm

theorem sharable_pending {env : Env} {c : Call} (h : Sharable c) (s : Store) : Pending env s c (c.prog env) ∨ ∃ r, c.prog env = .done r := by
  rcases h with h | h
  · rcases Call.prog_once env h with h | ⟨o, k, h, ho, hk⟩
    · cases hp : c.prog env with
      | done r => exact .inr ⟨r, rfl⟩
      | call o k =>
        rw [hp] at h
        cases h with
        | call ho hk =>
          refine .inl (.read hp ?_ (fun x => hk _))
          cases o <;> first | rfl | simp [edgeRead] at ho
    · exact .inl (h ▸ .read h ho hk)
  · rcases polWrite_bad (env := env) h with ⟨p, h⟩ | h
    · exact .inl (.start h)
    · exact .inr h

theorem underway_more {env : Env} {s : Store} {p : List (Nat × Call × Res Answer)} {i i' : Nat} {q : Req} (x : Call × Res Answer) (h : Underway env s p i q) (hne : i ≠ i') :
    Underway env s (p ++ [(i', x)]) i q := by
  rcases h with ⟨r, h⟩ | h | h
  · exact .inl ⟨r, List.mem_append_left _ h.1, h.2⟩
  · refine .inr (.inl ⟨?_, h.2⟩)
    rw [List.map_append, List.mem_append]
    rintro (h' | h')
    · exact h.1 h'
    · simp at h'
      exact hne h'
  · exact .inr (.inr h)

/-- The others are left alone by what request `i` does to policies. -/
theorem Shared.others {env : Env} {l : List Req} {s s' : Store} {p : List (Nat × Call × Res Answer)} (hS : Shared env l s p) {i : Nat} {q : Req} (hi : l[i]? = some q) (hq : q.caller = .waiting)
    (hw : s' = s ∨ ∃ rec ans, Ready env s q.call rec ans ∧ s' = s.putPolicy rec) {a : Nat} {q' : Req} (hne : a ≠ i) (h1 : l[a]? = some q') (h2 : q'.caller = .waiting) : Underway env s' p a q' := by
  rcases hw with rfl | ⟨rec, ans, hw, rfl⟩
  · exact (hS.way a q' h1 h2).2.2
  · rcases (hS.way a q' h1 h2).2.2 with ⟨r, h3, h4, h5⟩ | h | h
    · refine .inl ⟨r, h3, h4, ?_⟩
      rw [← h5]
      exact (edgeRead_run h4 (s := s.putPolicy rec) (s' := s) ⟨rfl, rfl⟩).1
    · exact .inr (.inl ⟨h.1, Pending.keep h.2 hw (hS.apart a i q' q hne h1 hi h2 hq)⟩)
    · exact .inr (.inr h)

theorem Shared.setApart {env : Env} {l : List Req} {s : Store} {p : List (Nat × Call × Res Answer)} (hS : Shared env l s p) {i : Nat} {c : Call} {t t' : Prog Answer} {x : Caller}
    (hi : l[i]? = some ⟨c, t, .waiting⟩) : ∀ (a j : Nat) (q q' : Req), a ≠ j → (l.set i ⟨c, t', x⟩)[a]? = some q → (l.set i ⟨c, t', x⟩)[j]? = some q' →
      q.caller = .waiting → q'.caller = .waiting → NotBothCreate env q.call q'.call := by
  intro a j q q' hne h1 h2 h3 h4
  rcases (set_get hi).1 h1 with ⟨rfl, rfl⟩ | ⟨_, h1'⟩ <;> rcases (set_get hi).1 h2 with ⟨rfl, rfl⟩ | ⟨_, h2'⟩
  · exact absurd rfl hne
  · exact hS.apart a j ⟨c, t, .waiting⟩ q' hne hi h2' rfl h4
  · exact hS.apart a j q ⟨c, t, .waiting⟩ hne h1' hi h3 rfl
  · exact hS.apart a j q q' hne h1' h2' h3 h4

theorem linear_inv {env : Env} {s₀ s : Store} {l : List Req} {ev : List Event} (h : Timeline env (KeptApart env) s₀ l ev s) :
    ∃ sb p, LinBase env s₀ l ev sb p ∧ ((sb = s ∧ Shared env l s p) ∨ Alone env l sb s p) := by
  induction h with
  | init =>
    refine ⟨s₀, [], ⟨⟨.nil, by simp, by simp, rfl, by simp⟩, by simp, fun i h => ?_⟩, .inl ⟨rfl, ⟨by simp, by simp⟩⟩⟩
    rcases h with h | ⟨a, b, h, _⟩
    · cases h
    · simp at h
  | @make l ev s c hA _ ih =>
    obtain ⟨sb, p, hb, hm⟩ := ih
    have hb' := hb.make c (c.prog env)
    rcases hm with ⟨rfl, hS⟩ | ⟨i, q, h1, h2, h3, _⟩
    · by_cases hc : Sharable c
      · have hap : ∀ (i j : Nat) (q q' : Req), i ≠ j → (l ++ [(⟨c, c.prog env, .waiting⟩ : Req)])[i]? = some q → (l ++ [(⟨c, c.prog env, .waiting⟩ : Req)])[j]? = some q' → q.caller = .waiting →
            q'.caller = .waiting → NotBothCreate env q.call q'.call := by
          intro i j q q' hne h1 h2 h3 h4
          rcases concat_get.1 h1 with h1 | ⟨rfl, rfl⟩ <;> rcases concat_get.1 h2 with h2 | ⟨rfl, rfl⟩
          · exact hS.apart i j q q' hne h1 h2 h3 h4
          · exact (hA q (List.mem_of_getElem? h1) h3).2.2
          · exact NotBothCreate.symm (hA q' (List.mem_of_getElem? h2) h4).2.2
          · exact absurd rfl hne
        rcases sharable_pending (env := env) hc sb with hp | ⟨r, hr⟩
        · refine ⟨sb, p, hb', .inl ⟨rfl, ⟨fun i q h1 h2 => ?_, hap⟩⟩⟩
          rcases concat_get.1 h1 with h1 | ⟨rfl, rfl⟩
          · exact hS.way i q h1 h2
          · exact ⟨hc, Call.prog_fs env c, .inr (.inl ⟨hb.bound, hp⟩)⟩
        · have hs : serve env c sb = (r, sb) := by
            show (c.prog env).run sb = _
            rw [hr]
            rfl
          refine ⟨sb, p ++ [(l.length, c, r)], hb'.take (q := ⟨c, c.prog env, .waiting⟩) hb.bound (concat_get.2 (.inr ⟨rfl, rfl⟩)) rfl hs, .inl ⟨rfl, ⟨fun i q h1 h2 => ?_, hap⟩⟩⟩
          rcases concat_get.1 h1 with h1 | ⟨rfl, rfl⟩
          · obtain ⟨h3, h4, h5⟩ := hS.way i q h1 h2
            refine ⟨h3, h4, underway_more _ h5 ?_⟩
            rintro rfl
            simp at h1
          · refine ⟨hc, Call.prog_fs env c, .inl ⟨r, by simp, ?_⟩⟩
            dsimp only
            rw [hr]
            exact ⟨.done _, rfl⟩
      · refine ⟨sb, p, hb', .inr ⟨l.length, _, concat_get.2 (.inr ⟨rfl, rfl⟩), rfl, hc, hb.bound, rfl, fun j q' h1 h2 => ?_⟩⟩
        rcases concat_get.1 h1 with h1 | ⟨rfl, rfl⟩
        · exact absurd (hA q' (List.mem_of_getElem? h1) h2).2.1 hc
        · rfl
    · exact absurd (hA q (List.mem_of_getElem? h1) h2).1 h3
  | @op l ev s s' i c o k resp b hi hst hb _ ih =>
    obtain ⟨sb, p, hlb, hm⟩ := ih
    have hb' := hlb.move (t' := k resp) hi
    rcases hm with ⟨rfl, hS⟩ | ⟨i', q, h1, h2, h3, h4, h5, h6⟩
    · have hap := hS.setApart (t' := k resp) (x := .waiting) hi
      obtain ⟨hsh, hfs, hw⟩ := hS.way i _ hi rfl
      have hfs' : (k resp).FailStop := by
        cases hfs with
        | call h0 h1 =>
          cases resp with
          | none =>
            rw [h0]
            exact .done _
          | some x => exact h1 x
      have hnone : resp = none → k resp = .done (.err .store) := by
        rintro rfl
        cases hfs with
        | call h0 _ => exact h0
      -- what the step amounts to
      have key : (s' = sb ∧ Underway env sb p i ⟨c, k resp, .waiting⟩) ∨
          (i ∉ p.map (·.1) ∧ (s' = sb ∨ ∃ rec ans, Ready env sb c rec ans ∧ s' = sb.putPolicy rec) ∧ ∃ r, serve env c sb = (r, s') ∧
            (((k resp).AllOps edgeRead ∧ ((k resp).run s').1 = r) ∨ k resp = .done (.err .store))) := by
        rcases hw with ⟨r, hr1, hr2, hr3⟩ | ⟨hn, hp⟩ | hd
        · cases hr2 with
          | call ho hk =>
            have hs := (edgeRead_exec ho (s := sb) (s' := sb) ⟨rfl, rfl⟩).2
            cases hst with
            | ok =>
              refine .inl ⟨hs, .inl ⟨r, hr1, hk _, ?_⟩⟩
              rw [← hr3]
              show _ = ((k (some (o.exec sb).1)).run (o.exec sb).2).1
              rw [hs]
            | failBefore => exact .inl ⟨rfl, .inr (.inr (hnone rfl))⟩
            | failAfter => exact .inl ⟨hs, .inr (.inr (hnone rfl))⟩
        · rcases Pending.step hp (s₀ := sb) ⟨rfl, rfl⟩ with ⟨he, hs⟩ | ⟨hw, ha, he⟩
          · cases hst with
            | ok => exact .inl ⟨he, .inr (.inl ⟨hn, hs⟩)⟩
            | failBefore => exact .inl ⟨rfl, .inr (.inr (hnone rfl))⟩
            | failAfter => exact .inl ⟨he, .inr (.inr (hnone rfl))⟩
          · cases hst with
            | ok =>
              refine .inr ⟨hn, hw, _, he, .inl ⟨ha, ?_⟩⟩
              have : SameEdges (o.exec sb).2 sb := by
                rcases hw with hw | ⟨rec, ans, _, hw⟩
                · rw [hw]
                  exact ⟨rfl, rfl⟩
                · rw [hw]
                  exact ⟨rfl, rfl⟩
              exact (edgeRead_run ha this).1
            | failBefore => exact .inl ⟨rfl, .inr (.inr (hnone rfl))⟩
            | failAfter => exact .inr ⟨hn, hw, _, he, .inr (hnone rfl)⟩
        · cases hd
      rcases key with ⟨rfl, hu⟩ | ⟨hn, hw, r, he, hu⟩
      · refine ⟨s', p, hb', .inl ⟨rfl, ⟨fun a q h1 h2 => ?_, hap⟩⟩⟩
        rcases (set_get hi).1 h1 with ⟨rfl, rfl⟩ | ⟨_, h1⟩
        · exact ⟨hsh, hfs', hu⟩
        · exact hS.way a q h1 h2
      · refine ⟨s', p ++ [(i, c, r)], hb'.take (q := ⟨c, k resp, .waiting⟩) hn ((set_get hi).2 (.inl ⟨rfl, rfl⟩)) rfl he, .inl ⟨rfl, ⟨fun a q h1 h2 => ?_, hap⟩⟩⟩
        rcases (set_get hi).1 h1 with ⟨rfl, rfl⟩ | ⟨hne, h1⟩
        · refine ⟨hsh, hfs', ?_⟩
          rcases hu with hu | hu
          · exact .inl ⟨r, by simp, hu⟩
          · exact .inr (.inr hu)
        · obtain ⟨h3, h4, _⟩ := hS.way a q h1 h2
          exact ⟨h3, h4, underway_more _ (hS.others hi rfl hw hne h1 h2) hne⟩
    · have : i = i' := h6 i _ hi rfl
      subst this
      rw [hi] at h1
      cases h1
      cases hst with
      | ok =>
        refine ⟨sb, p, hb', .inr ⟨i, _, (set_get hi).2 (.inl ⟨rfl, rfl⟩), rfl, h3, h4, ?_, fun j q' h1 h2 => ?_⟩⟩
        · rw [← h5]
          rfl
        · rcases (set_get hi).1 h1 with ⟨rfl, _⟩ | ⟨_, h1⟩
          · rfl
          · exact h6 j q' h1 h2
      | failBefore => exact absurd (hb rfl) h3
      | failAfter => exact absurd (hb rfl) h3
  | @reply l ev s i c r hi _ ih =>
    obtain ⟨sb, p, hb, hm⟩ := ih
    rcases hm with ⟨rfl, hS⟩ | ⟨i', q, h1, h2, h3, h4, h5, h6⟩
    · have hS' : Shared env (l.set i ⟨c, .done r, .told r⟩) sb p := by
        refine ⟨fun a q h1 h2 => ?_, hS.setApart hi⟩
        rcases (set_get hi).1 h1 with ⟨rfl, rfl⟩ | ⟨_, h1⟩
        · cases h2
        · exact hS.way a q h1 h2
      rcases (hS.way i _ hi rfl).2.2 with ⟨r', hr1, hr2, hr3⟩ | ⟨hn, hp⟩ | hd
      · have : r = r' := hr3
        subst this
        refine ⟨sb, p, hb.reply hi (fun r' hr' => .inl ?_) (fun _ => hr1), .inl ⟨rfl, hS'⟩⟩
        have := nodup_fst hb.ex.once hr1 hr' rfl
        simp only [Prod.mk.injEq, true_and] at this
        exact this
      · exact (Pending.not_done hp).elim
      · cases hd
        exact ⟨sb, p, hb.reply hi (fun _ _ => .inr rfl) (fun h => absurd rfl h), .inl ⟨rfl, hS'⟩⟩
    · have : i = i' := h6 i _ hi rfl
      subst this
      rw [hi] at h1
      cases h1
      have hb1 := hb.take h4 hi rfl (h5.symm.trans rfl : serve env c sb = (r, s))
      have hin : (i, c, r) ∈ p ++ [(i, c, r)] := by simp
      have hb' := hb1.reply hi (r := r) (fun r' hr' => .inl (by
        have := nodup_fst hb1.ex.once hin hr' rfl
        simp only [Prod.mk.injEq, true_and] at this
        exact this)) (fun _ => hin)
      refine ⟨s, _, hb', .inl ⟨rfl, ⟨fun a q h1 h2 => ?_, fun a j q q' hne h1 h2 h3 h4 => ?_⟩⟩⟩
      · rcases (set_get hi).1 h1 with ⟨rfl, rfl⟩ | ⟨hne, h1⟩
        · cases h2
        · exact absurd (h6 a q h1 h2) hne
      · rcases (set_get hi).1 h1 with ⟨rfl, rfl⟩ | ⟨hne', h1⟩
        · cases h3
        · exact absurd (h6 a q h1 h3) hne'
  | @crash l ev s hc _ ih =>
    obtain ⟨sb, p, hb, hm⟩ := ih
    rcases hm with ⟨rfl, hS⟩ | ⟨i', q, h1, h2, h3, _⟩
    · refine ⟨sb, p, hb.crash, .inl ⟨rfl, ⟨fun a q h1 h2 => ?_, fun a j q q' hne h1 h2 h3 h4 => ?_⟩⟩⟩
      · rw [List.getElem?_map, Option.map_eq_some_iff] at h1
        obtain ⟨q', _, rfl⟩ := h1
        exact absurd h2 (crashedReq_waiting q')
      · rw [List.getElem?_map, Option.map_eq_some_iff] at h1
        obtain ⟨q', _, rfl⟩ := h1
        exact absurd h3 (crashedReq_waiting q')
    · exact absurd (hc q (List.mem_of_getElem? h1) h2) h3

end Zanzi
