import Verif.Lemmas.Linear
import Verif.Props.Concurrency

/-
C99: requests kept apart behave as if served one at a time, in the order their callers saw.
-/

namespace Zanzi

open Spec Prog

/-- C99: at any time when every request waited for reads, updates or creates a policy, serving requests one at a time, in an order in which those over before another was made come first, explains
every answer callers got and the store; provided that all along only such requests overlapped, and no two that create the same policy.  Storage calls of such requests may fail and the service may
crash under them: what they asked is then done entirely or not at all. -/
theorem C99_linearizable (env : Env) (s₀ : Store) (l : List Req) (ev : List Event) (s : Store) (h : Timeline env (KeptApart env) s₀ l ev s)
    (hq : ∀ q ∈ l, q.caller = .waiting → Sharable q.call) : ∃ served, Explained env s₀ l ev s served := by
  obtain ⟨sb, p, hb, ⟨rfl, _⟩ | ⟨i, q, h1, h2, h3, _⟩⟩ := linear_inv h
  · exact ⟨p, hb.ex⟩
  · exact absurd (hq q (List.mem_of_getElem? h1) h2) h3

/-- A request makes the rest of its storage calls and its caller is answered. -/
theorem timeline_finish {env : Env} {A : List Req → Call → Prop} {s₀ s : Store} {l : List Req} {ev : List Event} (h : Timeline env A s₀ l ev s) {i : Nat} {c : Call} {t : Prog Answer}
    (hi : l[i]? = some ⟨c, t, .waiting⟩) : Timeline env A s₀ (l.set i ⟨c, .done (t.run s).1, .told (t.run s).1⟩) (ev ++ [.answered i]) (t.run s).2 := by
  induction t generalizing l s with
  | done r => exact .reply hi h
  | call o k ih =>
    have h' := ih (some (o.exec s).1) (Timeline.op hi (.ok o s) (by nofun) h) ((set_get hi).2 (.inl ⟨rfl, rfl⟩))
    rw [List.set_set] at h'
    exact h'

/-- A request that has the service to itself, two that overlap, and another one alone. -/
theorem timeline_overlap (env : Env) (s₀ : Store) (c₀ c₁ c₂ c₃ : Call) (h1 : Sharable c₁) (h2 : Sharable c₂)
    (hn : ∀ p p', CreatesPolicy env c₁ p → CreatesPolicy env c₂ p' → p.id ≠ p'.id) : ∃ l s, Timeline env (KeptApart env) s₀ l
      [.made 0, .answered 0, .made 1, .made 2, .answered 2, .answered 1, .made 3, .answered 3] s ∧ l.map (·.call) = [c₀, c₁, c₂, c₃] ∧ ∀ q ∈ l, q.caller ≠ .waiting := by
  have t0 := timeline_finish (i := 0) (Timeline.make c₀ (by intro q hq; simp at hq) (Timeline.init (env := env) (A := KeptApart env) (s₀ := s₀))) rfl
  have t1 := Timeline.make c₁ (by intro q hq; simp at hq; subst hq; nofun) t0
  have t2 := Timeline.make c₂ (by
    intro q hq hu
    simp at hq
    rcases hq with rfl | rfl
    · cases hu
    · exact ⟨h1, h2, hn⟩) t1
  have t3 := timeline_finish (i := 1) (timeline_finish (i := 2) t2 rfl) rfl
  have t4 := timeline_finish (i := 3) (Timeline.make c₃ (by
    intro q hq hu
    simp at hq
    rcases hq with rfl | rfl | rfl <;> cases hu) t3) rfl
  refine ⟨_, _, t4, rfl, ?_⟩
  intro q hq
  simp at hq
  rcases hq with rfl | rfl | rfl | rfl <;> simp

/-- A request fails at its next storage call, before that takes effect or after, and its caller is told. -/
theorem timeline_fail {env : Env} {A : List Req → Call → Prop} {s₀ s : Store} {l : List Req} {ev : List Event} (h : Timeline env A s₀ l ev s) {i : Nat} {c : Call} {o : Op} {k : Option o.Resp → Prog Answer}
    (hi : l[i]? = some ⟨c, .call o k, .waiting⟩) (hc : Sharable c) (hk : k none = .done (.err .store)) (b : Bool) :
    Timeline env A s₀ (l.set i ⟨c, .done (.err .store), .told (.err .store)⟩) (ev ++ [.answered i]) (if b then (o.exec s).2 else s) := by
  have h1 : Timeline env A s₀ (l.set i ⟨c, k none, .waiting⟩) ev (if b then (o.exec s).2 else s) := by
    cases b
    · exact Timeline.op hi (.failBefore o s) (fun _ => hc) h
    · exact Timeline.op hi (.failAfter o s) (fun _ => hc) h
  rw [hk] at h1
  have h2 := Timeline.reply ((set_get hi).2 (.inl ⟨rfl, rfl⟩)) h1
  rw [List.set_set] at h2
  exact h2

/-- The hypotheses of `C99_linearizable` met by a policy created, updated while it is read, and deleted. -/
example (env : Env) : ∃ l s, Timeline env (KeptApart env) Store.empty l [.made 0, .answered 0, .made 1, .made 2, .answered 2, .answered 1, .made 3, .answered 3] s ∧
    l.map (·.call) = [.createPolicy 1 (some (.policy (docPolicy "p"))) [], .updatePolicy (some (.policy (docPolicy "p"))) [7], .check 9 "p" none, .deletePolicy "p"] ∧
    (∀ q ∈ l, q.caller = .waiting → Sharable q.call) ∧ ∃ served, Explained env Store.empty l [.made 0, .answered 0, .made 1, .made 2, .answered 2, .answered 1, .made 3, .answered 3] s served := by
  obtain ⟨l, s, h, hl, ha⟩ := timeline_overlap env Store.empty (.createPolicy 1 (some (.policy (docPolicy "p"))) []) (.updatePolicy (some (.policy (docPolicy "p"))) [7]) (.check 9 "p" none)
    (.deletePolicy "p") (.inr (.inl ⟨_, _, rfl⟩)) (.inl rfl) (fun p p' ⟨_, _, _, h, _⟩ => by cases h)
  exact ⟨l, s, h, hl, fun q hq hu => absurd hu (ha q hq), C99_linearizable env _ _ _ _ h (fun q hq hu => absurd hu (ha q hq))⟩

/-- The hypotheses of `C99_linearizable` met by a policy created, updated with a storage call failing before or after it takes effect, read while the service crashes, and deleted. -/
example (env : Env) (b : Bool) : ∃ l s, Timeline env (KeptApart env) Store.empty l [.made 0, .answered 0, .made 1, .answered 1, .made 2, .crashed, .made 3, .answered 3] s ∧
    l.map (·.call) = [.createPolicy 1 (some (.policy (docPolicy "p"))) [], .updatePolicy (some (.policy (docPolicy "p"))) [7], .check 9 "p" none, .deletePolicy "p"] ∧
    (∀ q ∈ l, q.caller = .waiting → Sharable q.call) ∧ ∃ served, Explained env Store.empty l [.made 0, .answered 0, .made 1, .answered 1, .made 2, .crashed, .made 3, .answered 3] s served := by
  have hu : Sharable (.updatePolicy (some (.policy (docPolicy "p"))) [7]) := .inr (.inl ⟨_, _, rfl⟩)
  obtain ⟨k, hk, _⟩ := polWrite_prog (env := env) (.inl ⟨_, _, rfl, rfl⟩ : PolWrite env (.updatePolicy (some (.policy (docPolicy "p"))) [7]) (docPolicy "p"))
  have hk0 : k none = .done (.err .store) := by
    have := Call.prog_fs env (.updatePolicy (some (.policy (docPolicy "p"))) [7])
    rw [hk] at this
    cases this with
    | call h _ => exact h
  have t0 := timeline_finish (i := 0) (Timeline.make (.createPolicy 1 (some (.policy (docPolicy "p"))) []) (by intro q hq; simp at hq)
    (Timeline.init (env := env) (A := KeptApart env) (s₀ := Store.empty))) rfl
  have t1 := Timeline.make (.updatePolicy (some (.policy (docPolicy "p"))) [7]) (by intro q hq; simp at hq; subst hq; nofun) t0
  rw [hk] at t1
  have t2 := Timeline.make (.check 9 "p" none) (by intro q hq; simp at hq; rcases hq with rfl | rfl <;> nofun) (timeline_fail (i := 1) t1 rfl hu hk0 b)
  have t3 := Timeline.crash (by
    intro q hq hw
    simp at hq
    rcases hq with rfl | rfl | rfl
    · cases hw
    · cases hw
    · exact .inl rfl) t2
  have t4 := timeline_finish (i := 3) (Timeline.make (.deletePolicy "p") (by
    intro q hq hw
    simp at hq
    rcases hq with rfl | rfl | rfl <;> cases hw) t3) rfl
  refine ⟨_, _, t4, rfl, ?_, C99_linearizable env _ _ _ _ t4 ?_⟩ <;>
    (intro q hq hw
     simp at hq
     rcases hq with rfl | rfl | rfl | rfl <;> cases hw)

end Zanzi
