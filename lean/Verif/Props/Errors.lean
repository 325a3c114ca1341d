import Verif.Lemmas.Errors
import Verif.Props.Search

/-
C87: an error says whose fault it is.  A failed request carries `api.ErrInvalidRequest` exactly if the request was at fault, and `api.ErrInternal` exactly if the service was.
-/

namespace Zanzi

open Prog Spec

/-- **C87** (what is said is right).  Under any storage failures: an error blaming the request means that no storage call failed and that the request named an unknown format or an
absent policy; an error blaming the service means that a storage call failed or that JSON was asked for.  Both are never blamed at once, and the error is the one the other
models speak of. -/
theorem C87_blame_right {env : Env} {c : Call} {s s' : Store} {b : Bool} {e : GoErr} (h : RunF (c.progE env) s b (.ok (.error e)) s') :
    (.invalidRequest ∈ e.blame → b = false ∧ (UnknownFormat c ∨ ∃ pid, Asks c pid ∧ policyAt s pid = none)) ∧
    (.internal ∈ e.blame → b = true ∨ WantsJson c) ∧ ¬ (.invalidRequest ∈ e.blame ∧ .internal ∈ e.blame) ∧
    (c.progE env).forget = c.prog env := by
  have nothing : ∀ {P Q : Prop}, e.blame = [] → (.invalidRequest ∈ e.blame → P) ∧ (.internal ∈ e.blame → Q) ∧ ¬ (.invalidRequest ∈ e.blame ∧ .internal ∈ e.blame) :=
    fun h => by rw [h]; exact ⟨nofun, nofun, nofun⟩
  have lookup : ∀ {pid} {s s' : Store} {b}, RunF (GraphService.getPolicyE pid) s b (.ok (.error e)) s' → Asks c pid →
      (.invalidRequest ∈ e.blame → b = false ∧ (UnknownFormat c ∨ ∃ pid, Asks c pid ∧ policyAt s pid = none)) ∧
      (.internal ∈ e.blame → b = true ∨ WantsJson c) ∧ ¬ (.invalidRequest ∈ e.blame ∧ .internal ∈ e.blame) := by
    intro pid s s' b h ha
    rcases getPolicyE_error h with ⟨hb, rfl⟩ | ⟨hb, hp, rfl⟩
    · exact ⟨fun h => (by simp at h), fun _ => .inl hb, by simp⟩
    · exact ⟨fun _ => ⟨hb, .inr ⟨pid, ha, hp⟩⟩, fun h => (by simp at h), by simp⟩
  refine (fun x => ⟨x.1, x.2.1, x.2.2, forget_progE env c⟩ : _ ∧ _ ∧ _ → _) ?_
  cases c with
  | check fuel pid req =>
    rcases andThen_runF h with h | ⟨_, _, _, _, _, h, _⟩
    · rcases andThen_runF h with h | ⟨_, _, _, _, h0, h, _⟩
      · exact lookup h rfl
      · rcases andThen_runF h with h | ⟨_, _, _, _, _, h, _⟩
        · exact nothing (wrap_error h).2
        · cases h
    · cases h
  | explainCheck fuel pid req f =>
    rcases andThen_runF h with h | ⟨_, _, _, _, _, h, _⟩
    · rcases andThen_runF h with h | ⟨_, _, b1, b2, h0, h, hb⟩
      · obtain ⟨h1, h2, h3, _⟩ := wrap_lift_error h
        have hf : f = .unknown := by cases f <;> first | rfl | cases h1
        rw [h2]
        exact ⟨fun _ => ⟨h3, .inl hf⟩, fun h => (by simp at h), by simp⟩
      · have h0 := wrap_value h0
        have hf : f ≠ .unknown := by rintro rfl; cases h0
        obtain ⟨_, rfl, rfl⟩ := lift_value h0
        rw [Bool.false_or] at hb
        subst hb
        rcases andThen_runF h with h | ⟨_, _, b1, b2, h0, h, hb⟩
        · exact lookup h rfl
        · rcases andThen_runF h with h | ⟨_, _, b1, b2, _, h, hb'⟩
          · exact nothing (wrap_error h).2
          · rcases andThen_runF h with h | ⟨_, _, _, _, _, h, _⟩
            · obtain ⟨h1, h2, h3, _⟩ := wrap_lift_error h
              rw [h2]
              exact ⟨fun h => (by simp at h), fun _ => .inr (serialize_error hf h1), by simp⟩
            · cases h
    · cases h
  | expand fuel pid root f =>
    rcases andThen_runF h with h | ⟨_, _, _, _, _, h, _⟩
    · rcases andThen_runF h with h | ⟨_, _, b1, b2, h0, h, hb⟩
      · obtain ⟨h1, h2, h3, _⟩ := wrap_lift_error h
        have hf : f = .unknown := by cases f <;> first | rfl | cases h1
        rw [h2]
        exact ⟨fun _ => ⟨h3, .inl hf⟩, fun h => (by simp at h), by simp⟩
      · have h0 := wrap_value h0
        have hf : f ≠ .unknown := by rintro rfl; cases h0
        obtain ⟨_, rfl, rfl⟩ := lift_value h0
        rw [Bool.false_or] at hb
        subst hb
        rcases andThen_runF h with h | ⟨_, _, b1, b2, h0, h, hb⟩
        · exact lookup h rfl
        · rcases andThen_runF h with h | ⟨_, _, b1, b2, _, h, hb'⟩
          · exact nothing (wrap_error h).2
          · rcases andThen_runF h with h | ⟨_, _, _, _, _, h, _⟩
            · obtain ⟨h1, h2, h3, _⟩ := wrap_lift_error h
              rw [h2]
              exact ⟨fun h => (by simp at h), fun _ => .inr (serialize_error hf h1), by simp⟩
            · cases h
    · cases h
  | dumpRelationships fuel order pid f =>
    rcases andThen_runF h with h | ⟨_, _, _, _, _, h, _⟩
    · rcases andThen_runF h with h | ⟨_, _, _, _, h0, h, _⟩
      · exact lookup h rfl
      · rcases andThen_runF h with h | ⟨_, _, _, _, _, h, _⟩
        · exact nothing (wrap_error h).2
        · cases f with
          | dot => exact nothing (wrap_error h).2
          | unknown => exact nothing (wrap_error h).2
    · cases h
  | _ => exact nothing (wrap_error h).2

/-- **C87** (partial: what is said at all).  An unknown format and an absent policy are blamed on the request, and a failing policy lookup on the service.  When a
later storage call fails nothing is said. -/
theorem C87_blame_said_partial (env : Env) {c : Call} {pid : String} (hc : Asks c pid) :
    (UnknownFormat c → c.progE env = .done (.ok (.error ⟨.invalidVariant, [.invalidRequest]⟩))) ∧
    (¬ UnknownFormat c → ∃ k, c.progE env = .call (.polGet pid) k ∧ k none = .done (.ok (.error ⟨.store, [.internal]⟩)) ∧
      k (some none) = .done (.ok (.error ⟨.policyNotFound, [.invalidRequest]⟩)) ∧
      ∀ rec s e s', RunF (k (some (some rec))) s true (.ok (.error e)) s' → e = ⟨.store, []⟩) := by
  have stop : ∀ {α : Type} {p : Prog α} {s s' : Store} {e : GoErr} {bs}, p.FailStop → RunF (p.wrap bs) s true (.ok (.error e)) s' → e = ⟨.store, bs⟩ := by
    intro α p s s' e bs hp h
    obtain ⟨h1, h2⟩ := wrap_error h
    have := hp.runF h1 rfl
    obtain ⟨c, bl⟩ := e
    cases this; cases h2; rfl
  have value : ∀ {α : Type} {p : Prog α} {s s' : Store} {a : α} {b bs}, p.FailStop → RunF (p.wrap bs) s b (.ok (.ok a)) s' → b = false := by
    intro α p s s' a b bs hp h
    cases b with
    | false => rfl
    | true => cases hp.runF (wrap_value h) rfl
  cases c with
  | check fuel pid req =>
    cases hc
    refine ⟨nofun, fun _ => ⟨_, rfl, rfl, rfl, fun rec s e s' h => ?_⟩⟩
    rcases andThen_runF h with h | ⟨_, _, _, _, _, h, _⟩
    · rcases andThen_runF (p := (GraphService.checkTree env fuel rec.policy req).wrap []) h with h | ⟨_, _, _, _, _, h, _⟩
      · exact stop (GraphService.checkTree_fs _ _ _ _) h
      · cases h
    · cases h
  | explainCheck fuel pid req f =>
    cases hc
    refine ⟨fun hf => ?_, fun hf => ?_⟩
    · cases f <;> cases hf; rfl
    · have tail : ∀ (rec : PolicyRecord) s e s', RunF ((((GraphService.checkTree env fuel rec.policy req).wrap []).andThen fun tree =>
          ((Prog.lift (serialize f tree)).wrap [.internal]).andThen fun serialized => return .ok (serialized, decide (tree.result = .success), ExplainFormat.spew)).andThen
          fun x => return .ok (Answer.explained x.1 x.2.1 x.2.2)) s true (.ok (.error e)) s' → e = ⟨.store, []⟩ := by
        intro rec s e s' h
        rcases andThen_runF h with h | ⟨_, _, _, _, _, h, _⟩
        · rcases andThen_runF h with h | ⟨_, _, _, _, h0, h, hb⟩
          · exact stop (GraphService.checkTree_fs _ _ _ _) h
          · have := value (GraphService.checkTree_fs _ _ _ _) h0
            subst this
            rcases andThen_runF h with h | ⟨_, _, _, _, _, h, _⟩
            · have := (wrap_lift_error h).2.2.1
              subst this
              cases hb
            · cases h
        · cases h
      cases f with
      | unknown => exact absurd rfl hf
      | _ => exact ⟨_, rfl, rfl, rfl, tail⟩
  | expand fuel pid root f =>
    cases hc
    refine ⟨fun hf => ?_, fun hf => ?_⟩
    · cases f <;> cases hf; rfl
    · have tail : ∀ (rec : PolicyRecord) s e s', RunF ((((searchGoal env fuel rec.policy root none).wrap []).andThen fun tree =>
          ((Prog.lift (serialize f tree)).wrap [.internal]).andThen fun serialized => return .ok (serialized, f)).andThen
          fun x => return .ok (Answer.expanded x.1 x.2)) s true (.ok (.error e)) s' → e = ⟨.store, []⟩ := by
        intro rec s e s' h
        rcases andThen_runF h with h | ⟨_, _, _, _, _, h, _⟩
        · rcases andThen_runF h with h | ⟨_, _, _, _, h0, h, hb⟩
          · exact stop (searchGoal_fs _ _ _ _ _) h
          · have := value (searchGoal_fs _ _ _ _ _) h0
            subst this
            rcases andThen_runF h with h | ⟨_, _, _, _, _, h, _⟩
            · have := (wrap_lift_error h).2.2.1
              subst this
              cases hb
            · cases h
        · cases h
      cases f with
      | unknown => exact absurd rfl hf
      | _ => exact ⟨_, rfl, rfl, rfl, tail⟩
  | dumpRelationships fuel order pid f =>
    cases hc
    have hfs : ∀ pid, (do let edges ← Repo.listEdges pid; Prog.lift (walk env.H edges) : Prog Forest).FailStop :=
      fun pid => FailStop.bind (Repo.listEdges_fs _) (fun _ => FailStop.lift _)
    have tail : ∀ (rec : PolicyRecord) s e s', RunF ((((do let edges ← Repo.listEdges rec.policy.id; Prog.lift (walk env.H edges) : Prog Forest).wrap []).andThen fun forest =>
        match f with
        | .dot => (Prog.lift (dumpSerialize forest fuel (order forest.orphans))).wrap []
        | .unknown => (Prog.lift (.err .invalidVariant)).wrap []).andThen fun x => return .ok (Answer.dumped x)) s true (.ok (.error e)) s' → e = ⟨.store, []⟩ := by
      intro rec s e s' h
      rcases andThen_runF h with h | ⟨_, _, _, _, _, h, _⟩
      · rcases andThen_runF h with h | ⟨_, _, _, _, h0, h, hb⟩
        · exact stop (hfs _) h
        · have := value (hfs _) h0
          subst this
          cases f with
          | dot => have := (wrap_lift_error h).2.2.1; subst this; cases hb
          | unknown => have := (wrap_lift_error h).2.2.1; subst this; cases hb
      · cases h
    exact ⟨nofun, fun _ => ⟨_, rfl, rfl, rfl, tail⟩⟩
  | _ => cases hc

/-- The hypotheses of `C87_blame_right` and `C87_blame_said_partial` are met: with both kinds of blame. -/
example : Asks (.check 10 "q" (ask ⟨doc1, "a"⟩ usr)) "q" ∧ Asks (.expand 10 "p" none .unknown) "p" ∧ UnknownFormat (.expand 10 "p" none .unknown) ∧
    (∃ s', RunF ((Call.check 10 "q" (ask ⟨doc1, "a"⟩ usr)).progE gEnv) abStore false (.ok (.error ⟨.policyNotFound, [.invalidRequest]⟩)) s') ∧
    ∃ s', RunF ((Call.check 10 "p" (ask ⟨doc1, "a"⟩ usr)).progE gEnv) abStore true (.ok (.error ⟨.store, [.internal]⟩)) s' := by
  exact ⟨rfl, rfl, rfl, fails_of (by decide +kernel), faults_of 0 (by decide +kernel) (by decide +kernel)⟩

/-- **C87**, refuted.  A relation the policy does not declare and an unknown dump format are not blamed on the request.  A storage call failing during the search is not blamed on the
service.  An explanation in JSON, which is among the defined formats, is blamed on the service though nothing failed.  The policy service blames nobody: neither for a policy
that exists already nor for a failing lookup. -/
theorem C87_blame_violated :
    (∃ s', RunF ((Call.check 10 "p" (ask ⟨doc1, "none"⟩ usr)).progE gEnv) abStore false (.ok (.error ⟨.relationNotFound, []⟩)) s') ∧
    (∃ s', RunF ((Call.dumpRelationships 10 id "p" .unknown).progE gEnv) abStore false (.ok (.error ⟨.invalidVariant, []⟩)) s') ∧
    (∃ s', RunF ((Call.check 10 "p" (ask ⟨doc1, "a"⟩ usr)).progE gEnv) abStore true (.ok (.error ⟨.store, []⟩)) s') ∧
    (∃ s', RunF ((Call.explainCheck 10 "p" (ask ⟨doc1, "a"⟩ usr) .json).progE gEnv) abStore false (.ok (.error ⟨.json, [.internal]⟩)) s') ∧
    (∃ s', RunF ((Call.createPolicy 0 (some (.policy ⟨"p", "", "", [], []⟩)) []).progE gEnv) abStore false (.ok (.error ⟨.policyExists, []⟩)) s') ∧
    (∃ s', RunF ((Call.getPolicy "p").progE gEnv) abStore true (.ok (.error ⟨.store, []⟩)) s') := by
  exact ⟨fails_of (by decide +kernel), fails_of (by decide +kernel), faults_of 1 (by decide +kernel) (by decide +kernel), fails_of (by decide +kernel),
    fails_of (by decide +kernel), faults_of 0 (by decide +kernel) (by decide +kernel)⟩

end Zanzi
