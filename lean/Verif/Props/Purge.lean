import Verif.Lemmas.Purge
import Verif.Props.Interference
import Verif.Props.Locality

/-
C95: policies do not interfere.
-/

namespace Zanzi

open Spec Prog

theorem AnswersOf.total (env : Env) (pid : String) (cs : List Call) (s : Store) : ∃ l, AnswersOf env pid cs s l := by
  induction cs generalizing s with
  | nil => exact ⟨_, .nil⟩
  | cons c cs ih =>
    obtain ⟨l, hl⟩ := ih ((c.prog env).run s).2
    by_cases hc : Concerns env pid c
    · exact ⟨_, .own hc hl⟩
    · exact ⟨_, .other hc hl⟩

theorem AnswersOf.unique {env : Env} {pid : String} {cs : List Call} {s : Store} {l l' : List (Call × Res Answer)} (h : AnswersOf env pid cs s l)
    (h' : AnswersOf env pid cs s l') : l = l' := by
  induction h generalizing l' with
  | nil => cases h'; rfl
  | own hc _ ih =>
    cases h' with
    | own _ h' => rw [ih h']
    | other hn => exact absurd hc hn
  | other hn _ ih =>
    cases h' with
    | own hc => exact absurd hc hn
    | other _ h' => exact ih h'

theorem sameUnder_of {env : Env} {pid : String} {x x' : Sys} (hx : Sys.Reachable env x) (hx' : Sys.Reachable env x')
    (hp : policyAt x.store pid = policyAt x'.store pid) (hr : ∀ r, Present x.store pid r ↔ Present x'.store pid r) : SameUnder pid x.store x'.store := by
  rw [policyAt_eq, policyAt_eq] at hp
  exact ⟨hp, hx.wf.1.edges_of_present hx'.wf.1 hr, fun rec h => hx.wf.1.polKey _ _ (kvGet_mem h)⟩

/-- C95: take two servers with the same policy and the same relationships under one id, whatever else they hold.  On the first any requests arrive, interleave, fail and are cut off by
crashes; on the second only those of them that concern this policy.  A request concerning the policy can be answered `r` on the first exactly when it can on the second. -/
theorem C95_noninterference (env : Env) (x x' : Sys) (hx : Sys.Reachable env x) (hx' : Sys.Reachable env x') (hidle : x.threads = []) (hidle' : x'.threads = []) (pid : String)
    (hp : policyAt x.store pid = policyAt x'.store pid) (hr : ∀ r, Present x.store pid r ↔ Present x'.store pid r)
    (A : Call → Prop) (c : Call) (hc : Concerns env pid c) (r : Res Answer) :
    (∃ hist y, Sys.Flight env A x c hist y (.done r)) ↔ ∃ hist y, Sys.Flight env (fun d => A d ∧ Concerns env pid d) x' c hist y (.done r) := by
  have ha := sameUnder_of hx hx' hp hr
  constructor
  · rintro ⟨hist, y, h⟩
    obtain ⟨hist', y', h1, _⟩ := h.purge hc (x' := x') ⟨by rw [hidle, hidle']; exact .nil, ha⟩
    exact ⟨hist', y', h1⟩
  · rintro ⟨hist, y, h⟩
    obtain ⟨hist', y', h1, _⟩ := h.purge hc (x' := x) ⟨by rw [hidle, hidle']; exact .nil, ha.symm⟩
    exact ⟨hist', y', h1.mono (fun d hd => hd.1.1)⟩

/-- C95 for requests served one by one: leaving out the requests that do not concern the policy changes no answer of the others. -/
theorem C95_purge (env : Env) (x x' : Sys) (hx : Sys.Reachable env x) (hx' : Sys.Reachable env x') (pid : String)
    (hp : policyAt x.store pid = policyAt x'.store pid) (hr : ∀ r, Present x.store pid r ↔ Present x'.store pid r)
    (cs ds : List Call) (hd : Purged env pid cs ds) (l : List (Call × Res Answer)) : AnswersOf env pid cs x.store l ↔ AnswersOf env pid ds x'.store l := by
  refine ⟨answersOf_purged hd (sameUnder_of hx hx' hp hr), fun h => ?_⟩
  obtain ⟨l', hl⟩ := AnswersOf.total env pid cs x.store
  rwa [AnswersOf.unique h (answersOf_purged hd (sameUnder_of hx hx' hp hr) hl)]

/-- C95, a policy deleted and created again starts afresh: after DeletePolicy of a stored policy, the requests concerning this id, among whatever others, are answered as on a server that holds
nothing. -/
theorem C95_afresh (env : Env) (x : Sys) (hx : Sys.Reachable env x) (pid : String) (hp : policyAt x.store pid ≠ none) (cs ds : List Call)
    (hd : Purged env pid cs ds) (l : List (Call × Res Answer)) (h : AnswersOf env pid cs (serve env (.deletePolicy pid) x.store).2 l) : AnswersOf env pid ds Store.empty l := by
  obtain ⟨s', h1, _, h2, h3, _⟩ := (C25_delete_policy env x.store pid hx.wf.1).2 (Option.isSome_iff_ne_none.2 hp)
  rw [h1] at h
  refine answersOf_purged hd ⟨?_, ?_, ?_⟩ h
  · rw [← policyAt_eq, h2]; rfl
  · have hwf : WF env s' := by
      have := hx.wf.1.run (.deletePolicy pid)
      rw [show Prog.run _ _ = _ from h1] at this
      exact this
    exact hwf.edges_of_present (WF.empty env) (fun r => ⟨fun h => absurd h (h3 r), fun h => by cases h⟩)
  · intro rec h
    rw [← policyAt_eq, h2] at h
    cases h

/-- Met by a server with a second policy and one without it; a request concerning the policy is answered, and requests of the other policy are left out. -/
example : ∃ x x', Sys.Reachable gEnv x ∧ Sys.Reachable gEnv x' ∧ x.threads = [] ∧ x'.threads = [] ∧ policyAt x.store "p" = policyAt x'.store "p" ∧
    (∀ r, Present x.store "p" r ↔ Present x'.store "p" r) ∧ policyAt x'.store "p" ≠ none ∧ policyAt x.store "q" ≠ none ∧ policyAt x'.store "q" = none ∧
    Concerns gEnv "p" setV ∧ Concerns gEnv "p" (.check 10 "p" (ask ⟨doc1, "any"⟩ usr)) ∧
    Purged gEnv "p" [.getPolicy "q", setV, .deletePolicy "q", .check 10 "p" (ask ⟨doc1, "any"⟩ usr)] [setV, .check 10 "p" (ask ⟨doc1, "any"⟩ usr)] := by
  have hne : (Call.createPolicy 5 (some (.policy (docPolicy "q"))) []).target gEnv ≠ some "p" := by decide
  have hx : Sys.Reachable gEnv ⟨[], (serve gEnv (.createPolicy 5 (some (.policy (docPolicy "q"))) []) abStore).2⟩ := by
    have hp := Sys.Path.serve (A := fun _ => True) (.refl (env := gEnv) (x := ⟨[], abStore⟩)) (.createPolicy 5 (some (.policy (docPolicy "q"))) []) trivial
    exact hp.reachable (gStore_reachable _ _ _)
  have hiso := C20_isolation_partial gEnv abStore _ "p" (gStore_wf _ _ _) hne
  have h1 : Concerns gEnv "p" setV := ⟨rfl, by simp [setV], by simp [setV]⟩
  have h2 : Concerns gEnv "p" (.check 10 "p" (ask ⟨doc1, "any"⟩ usr)) := ⟨rfl, by simp, by simp⟩
  have h3 : ∀ c, c.target gEnv = some "q" → ¬ Concerns gEnv "p" c := fun c hc h => by
    have := hc.symm.trans h.1
    exact absurd this (by decide)
  refine ⟨_, ⟨[], abStore⟩, hx, gStore_reachable _ _ _, rfl, rfl, hiso.1, fun r => ?_, ?_, ?_, ?_, h1, h2, .other (h3 _ rfl) (.own h1 (.other (h3 _ rfl) (.own h2 .nil)))⟩
  · show _ ∈ relationships _ _ ↔ _ ∈ relationships abStore _
    rw [hiso.2.1]
  · rw [abStore_pol]
    exact fun h => by cases h
  · decide +kernel
  · decide +kernel

end Zanzi
