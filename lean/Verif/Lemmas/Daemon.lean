import Verif.Spec.Daemon
import Verif.Lemmas.Serve
import Verif.Lemmas.Calls

/-
Lemmas about daemons.
-/

namespace Zanzi.Daemon

open Spec

/-- The path `main` opens. -/
theorem opened (u : Login) (f : Flags) (op : List Char → Bool) :
    (∃ z p, (Setup.new [.logger .default, .levelDb f.dataDir] ⟨0, u.home, op, true⟩).1 = .ok z ∧ z.store = some (.level p) ∧ asksFor u f = some (absolute u p) ∧ op p = true) ∨
    ((∃ e, (Setup.new [.logger .default, .levelDb f.dataDir] ⟨0, u.home, op, true⟩).1 = .error e) ∧
      ∀ path, asksFor u f = some path → ∃ p, absolute u p = path ∧ op p = false) := by
  have habs : ∀ p : List Char, absolute u p = if p.head? = some '/' then p else u.cwd ++ '/' :: p := by
    intro p
    unfold absolute
    split
    · simp
    · rename_i hne
      cases p with
      | nil => simp
      | cons c cs =>
        have : c ≠ '/' := fun e => hne cs (by rw [e])
        simp [this]
  by_cases ht : ∃ rest, f.dataDir = '~' :: rest
  · obtain ⟨rest, ht⟩ := ht
    cases hh : u.home with
    | none =>
      refine .inr ⟨⟨.user, ?_⟩, ?_⟩
      · simp [Setup.new, Setup.applyAll, Setup.apply, Setup.expand, ht]
      · simp [asksFor, ht, hh]
    | some home =>
      have ha : asksFor u f = some (absolute u (home ++ rest)) := by
        rw [habs]
        simp [asksFor, ht, hh]
      cases ho : op (home ++ rest) with
      | true =>
        refine .inl ⟨⟨some .default, some (.level (home ++ rest))⟩, home ++ rest, ?_, rfl, ha, ho⟩
        simp [Setup.new, Setup.applyAll, Setup.apply, Setup.expand, ht, ho, Setup.setDefaults]
      | false =>
        refine .inr ⟨⟨.kv, ?_⟩, fun path hp => ⟨home ++ rest, ?_, ho⟩⟩
        · simp [Setup.new, Setup.applyAll, Setup.apply, Setup.expand, ht, ho]
        · exact Option.some.inj (ha.symm.trans hp)
  · have hx : ∀ w, Setup.expand w f.dataDir = .ok f.dataDir := by
      intro w
      unfold Setup.expand
      split
      · rename_i rest e
        exact absurd ⟨rest, e⟩ ht
      · rfl
    have ha : asksFor u f = some (absolute u f.dataDir) := by
      rw [habs]
      unfold asksFor
      split
      · rename_i rest e
        exact absurd ⟨rest, e⟩ ht
      · rfl
    cases ho : op f.dataDir with
    | true =>
      refine .inl ⟨⟨some .default, some (.level f.dataDir)⟩, f.dataDir, ?_, rfl, ha, ho⟩
      simp [Setup.new, Setup.applyAll, Setup.apply, hx, ho, Setup.setDefaults]
    | false =>
      refine .inr ⟨⟨.kv, ?_⟩, fun path hp => ⟨f.dataDir, ?_, ho⟩⟩
      · simp [Setup.new, Setup.applyAll, Setup.apply, hx, ho]
      · exact Option.some.inj (ha.symm.trans hp)

/-- When a daemon starts. -/
theorem start_ok_iff {h : Host} {u : Login} {f : Flags} {m m' : Machine} : start h u f m = .ok m' ↔
    ∃ path s, asksFor u f = some path ∧ h.socket f.address = some s ∧ h.usable u (h.place path) = true ∧ (∀ p ∈ m.procs, p.dir ≠ h.place path) ∧
      h.bindable s = true ∧ (∀ p ∈ m.procs, p.sock ≠ s) ∧ m' = { m with procs := ⟨s, h.place path, []⟩ :: m.procs } := by
  unfold start
  rcases opened u f (fun p => h.usable u (h.place (absolute u p)) && !m.procs.any (fun x => x.dir == h.place (absolute u p))) with ⟨z, p, h1, h2, h3, h4⟩ | ⟨⟨e, h1⟩, h2⟩
  · rw [h1]
    dsimp only
    rw [h2]
    dsimp only
    rw [h3]
    simp only [Bool.and_eq_true, Bool.not_eq_true', List.any_eq_false, beq_iff_eq] at h4
    cases hs : h.socket f.address with
    | none => simp
    | some s =>
      dsimp only
      split
      · rename_i hb
        simp only [Bool.and_eq_true, Bool.not_eq_true', List.any_eq_false, beq_iff_eq] at hb
        constructor
        · intro e
          exact ⟨_, s, rfl, rfl, h4.1, h4.2, hb.1, hb.2, (Except.ok.inj e).symm⟩
        · rintro ⟨path, s', e1, e2, _, _, _, _, rfl⟩
          cases e1
          cases e2
          rfl
      · rename_i hb
        refine ⟨nofun, ?_⟩
        rintro ⟨path, s', e1, e2, _, _, b1, b2, rfl⟩
        cases e2
        refine absurd ?_ hb
        simp only [Bool.and_eq_true, Bool.not_eq_true', List.any_eq_false, beq_iff_eq]
        exact ⟨b1, b2⟩
  · rw [h1]
    refine ⟨nofun, ?_⟩
    rintro ⟨path, s', e1, _, u1, u2, _⟩
    obtain ⟨p, rfl, hp⟩ := h2 path e1
    rw [u1, Bool.true_and, Bool.not_eq_false', List.any_eq_true] at hp
    obtain ⟨x, hx, hd⟩ := hp
    exact absurd (beq_iff_eq.1 hd) (u2 x hx)

/-- The machine runs the daemons of its history. -/
def Runs (h : Host) (past : List (Event × Seen)) (m : Machine) : Prop := ∀ s d, (∃ p ∈ m.procs, p.sock = s ∧ p.dir = d) ↔ runningOn h s past = some d

theorem runs_fresh (h : Host) : Runs h [] .fresh := fun s d => ⟨(fun ⟨_, hp, _⟩ => nomatch hp), nofun⟩

theorem Runs.happen {env : Env} {h : Host} {past : List (Event × Seen)} {m : Machine} (hr : Runs h past m) (e : Event) :
    Runs h ((e, (happen env h m e).1) :: past) (happen env h m e).2 := by
  cases e with
  | stop s' =>
    intro s d
    show (∃ p ∈ m.procs.filter _, _) ↔ (if s' = s then none else runningOn h s past) = some d
    split
    · rename_i e
      subst e
      refine ⟨?_, nofun⟩
      rintro ⟨p, hp, e, _⟩
      have := (List.mem_filter.1 hp).2
      rw [e] at this
      simp at this
    · rename_i e
      rw [← hr s d]
      constructor
      · rintro ⟨p, hp, h'⟩
        exact ⟨p, (List.mem_filter.1 hp).1, h'⟩
      · rintro ⟨p, hp, h1, h2⟩
        refine ⟨p, List.mem_filter.2 ⟨hp, ?_⟩, h1, h2⟩
        rw [h1]
        simpa using fun x => e x.symm
  | start u f =>
    cases hs : start h u f m with
    | error e =>
      have : Daemon.happen env h m (.start u f) = (.failed e, m) := by simp only [Daemon.happen, hs]
      rw [this]
      exact hr
    | ok m' =>
      have : Daemon.happen env h m (.start u f) = (.started, m') := by simp only [Daemon.happen, hs]
      rw [this]
      obtain ⟨path, s0, e1, e2, _, _, _, hf, rfl⟩ := start_ok_iff.1 hs
      intro s d
      show (∃ p ∈ ⟨s0, h.place path, []⟩ :: m.procs, _) ↔ (if h.socket f.address = some s then (asksFor u f).map h.place else runningOn h s past) = some d
      rw [e1, e2]
      split
      · rename_i e
        cases e
        constructor
        · rintro ⟨p, hp, h1, h2⟩
          rcases List.mem_cons.1 hp with rfl | hp
          · exact congrArg some h2
          · exact absurd h1 (hf p hp)
        · intro e
          exact ⟨_, List.mem_cons_self, rfl, Option.some.inj e⟩
      · rename_i e
        rw [← hr s d]
        constructor
        · rintro ⟨p, hp, h1, h2⟩
          rcases List.mem_cons.1 hp with rfl | hp
          · exact absurd (congrArg some h1) e
          · exact ⟨p, hp, h1, h2⟩
        · rintro ⟨p, hp, h'⟩
          exact ⟨p, List.mem_cons_of_mem _ hp, h'⟩
  | ask addr c =>
    have hp : (Daemon.happen env h m (.ask addr c)).2.procs = m.procs := by
      simp only [Daemon.happen]
      split
      · rfl
      · split <;> rfl
    intro s d
    rw [hp]
    exact hr s d

/-- How a request is answered. -/
theorem Runs.ask {env : Env} {h : Host} {past : List (Event × Seen)} {m : Machine} (hr : Runs h past m) (addr : List Char) (c : Call) :
    (∃ s d, h.socket addr = some s ∧ runningOn h s past = some d ∧
      Daemon.happen env h m (.ask addr c) = (.answered (Zanzi.serve env c (m.disk d)).1, m.write d (Zanzi.serve env c (m.disk d)).2)) ∨
    ((h.socket addr).bind (fun s => runningOn h s past) = none ∧ Daemon.happen env h m (.ask addr c) = (.refused, m)) := by
  cases hs : h.socket addr with
  | none => exact .inr ⟨rfl, by simp only [Daemon.happen, hs]⟩
  | some s =>
    cases hf : m.procs.find? (fun x => x.sock == s) with
    | none =>
      refine .inr ⟨?_, by simp only [Daemon.happen, hs, hf]⟩
      cases hn : runningOn h s past with
      | none => exact hn
      | some d =>
        obtain ⟨p, hp, h1, _⟩ := (hr s d).2 hn
        exact absurd (beq_iff_eq.2 h1) (List.find?_eq_none.1 hf p hp)
    | some p =>
      have hp : p.sock = s := beq_iff_eq.1 (List.find?_some (p := fun x : Proc => x.sock == s) hf)
      exact .inl ⟨s, p.dir, rfl, (hr s p.dir).1 ⟨p, List.mem_of_find?_eq_some hf, hp, rfl⟩, by simp only [Daemon.happen, hs, hf]⟩

theorem history_append {env : Env} {h : Host} : ∀ (es es' : List Event) (m : Machine), history env h (es ++ es') m =
    ((history env h es m).1 ++ (history env h es' (history env h es m).2).1, (history env h es' (history env h es m).2).2)
  | [], _, _ => rfl
  | e :: es, es', m => by
    show ((Daemon.happen env h m e).1 :: (history env h (es ++ es') _).1, (history env h (es ++ es') _).2) = _
    rw [history_append es es']
    rfl

theorem runs_history {env : Env} {h : Host} : ∀ (es : List Event) (past : List (Event × Seen)) (m : Machine), Runs h past m →
    Runs h ((es.zip (history env h es m).1).reverse ++ past) (history env h es m).2
  | [], _, _, hr => hr
  | e :: es, past, m, hr => by
    have := runs_history (env := env) es _ _ (hr.happen (env := env) e)
    simpa only [history, List.zip_cons_cons, List.reverse_cons, List.append_assoc, List.singleton_append] using this

end Zanzi.Daemon
