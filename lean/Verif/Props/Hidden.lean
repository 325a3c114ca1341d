import Verif.Lemmas.Hidden
import Verif.Props.Writes

/-
Property C85: selectors select by value.
Specification: Spec/Hidden.lean.
-/

namespace Zanzi

open Spec Prog

/-- Full claim: what FindRelationshipRecords and DeleteRelationships do depends on the exported fields of the selector alone.  Proved for selectors whose object and subject
messages are as composite literals, or decoding without unknown fields, make them: the requests are then those of the other models, in every state and under every
schedule, since the programs are equal.  Missing: `C85_touched_nothing`. -/
theorem C85_untouched_partial (env : Env) (pid : String) (m : MSelector) (hm : PristineSelector m) :
    Service.findRelationshipRecordsM env pid (some m) = Service.findRelationshipRecords env pid (some m.value) ∧
    Service.deleteRelationshipsM env pid (some m) = Service.deleteRelationships env pid (some m.value) := by
  unfold Service.findRelationshipRecordsM Service.findRelationshipRecords Service.deleteRelationshipsM Service.deleteRelationships
    Repo.findRelationshipRecords Repo.deleteRelationships
  simp only [findRelationshipsM_untouched pid hm, Option.map_some, and_true]
  congr 1

/-- All other selectors: where a selector of the same value is answered, this one finds no record and deletes nothing. -/
theorem C85_touched_nothing (env : Env) (pid : String) (m : MSelector) (hm : ¬ PristineSelector m) (s : Store) :
    (∀ l s', (Service.findRelationshipRecords env pid (some m.value)).run s = (.ok l, s') →
      (Service.findRelationshipRecordsM env pid (some m)).run s = (.ok [], s)) ∧
    (∀ n s', (Service.deleteRelationships env pid (some m.value)).run s = (.ok n, s') →
      (Service.deleteRelationshipsM env pid (some m)).run s = (.ok 0, s)) := by
  constructor
  · intro l s' h
    unfold Service.findRelationshipRecords at h
    unfold Service.findRelationshipRecordsM
    rw [run_bind] at h ⊢
    have hg : (Repo.getPolicy pid).run s = (.ok (kvGet s.policies pid), s) := rfl
    rw [hg] at h ⊢
    simp only [andThen_ok] at h ⊢
    cases hp : kvGet s.policies pid with
    | none => rw [hp] at h; cases h
    | some rec =>
      rw [hp] at h
      simp only [Option.map_some] at h ⊢
      rw [run_bind] at h ⊢
      simp only [run_lift] at h ⊢
      cases hv : validSelector (some m.value) rec.policy with
      | ok u =>
        rw [hv] at h
        simp only [andThen_ok] at h ⊢
        unfold Repo.findRelationshipRecords at h
        rw [run_bind] at h ⊢
        cases hf : (Repo.findRelationships pid (some m.value)).run s with
        | mk r t =>
          cases r with
          | ok l' =>
            rw [findRelationshipsM_touched hm hf]
            rfl
          | _ => rw [hf] at h; cases h
      | _ => rw [hv] at h; cases h
  · intro n s' h
    unfold Service.deleteRelationships Repo.deleteRelationships at h
    unfold Service.deleteRelationshipsM
    rw [run_bind] at h ⊢
    cases hf : (Repo.findRelationships pid (some m.value)).run s with
    | mk r t =>
      cases r with
      | ok l' =>
        rw [findRelationshipsM_touched hm hf]
        rfl
      | _ => rw [hf] at h; cases h

/-- Printing a selector keeps its exported fields, and unless it names neither object nor subject it is no longer untouched. -/
theorem reflected_touched (m : MSelector) :
    m.reflected.value = m.value ∧
    ((∃ e, m.object = some (.objectSpec e)) ∨ (∃ s, m.subject = some (.subjectSpec s)) → ¬ PristineSelector m.reflected) := by
  obtain ⟨o, r, s⟩ := m
  constructor
  · have h1 : ∀ s : MSubject, s.reflected.value = s.value := by
      rintro ⟨h, k⟩
      cases k with
      | entitySet h e r => cases e <;> rfl
      | _ => rfl
    cases o with
    | none =>
      cases s with
      | none => rfl
      | some s => cases s <;> simp [MSelector.reflected, MSelector.value, MSubjectSelector.value, h1]
    | some o =>
      cases s with
      | none => cases o <;> rfl
      | some s => cases o <;> cases s <;>
          simp [MSelector.reflected, MSelector.value, MSubjectSelector.value, MObjectSelector.value, MEntity.value, MEntity.reflected, h1]
  · rintro (⟨e, rfl⟩ | ⟨s, rfl⟩) ⟨h1, h2⟩
    · exact Bool.noConfusion (h1 e.reflected rfl).1
    · exact Bool.noConfusion (h2 s.reflected rfl).1.1

/-- The relationships of doc:1. -/
def ofDoc1 : MSelector := ⟨some (.objectSpec (Entity.literal ⟨"doc", "1"⟩)), some .wildcard, some .wildcard⟩

/-- The same with a field of a newer version of the schema (number 3, a varint) in the object, as it comes from a newer client. -/
def ofDoc1Newer : MSelector := ⟨some (.objectSpec ⟨⟨false, 0, [24, 1]⟩, "doc", "1"⟩), some .wildcard, some .wildcard⟩

theorem ofDoc1_matching (H : String → Nat) : matching (w1Store H) "p" ofDoc1.value = [rA] := by
  unfold matching
  rw [w1_relationships]
  have : Matches ofDoc1.value rA := by
    refine ⟨fun e h => ?_, fun n h => ?_, fun n h => ?_, fun n h => ?_, fun n h => ?_⟩ <;> cases h <;> rfl
  simp [this]

/-- C85 is violated whatever the hash: the selector of doc:1's relationships finds the one stored.  The same selector message, printed once or received with an unknown field in
its object, finds nothing and deletes nothing, though its fields are the same. -/
theorem C85_by_value_violated (H : String → Nat) :
    Sys.Reachable (wEnv H) ⟨[], w1Store H⟩ ∧ ofDoc1.reflected.value = ofDoc1.value ∧ ofDoc1Newer.value = ofDoc1.value ∧
    (Service.findRelationshipRecordsM (wEnv H) "p" (some ofDoc1)).run (w1Store H) = (.ok [some ⟨"p", rA, 0, []⟩], w1Store H) ∧
    ((Service.deleteRelationshipsM (wEnv H) "p" (some ofDoc1)).run (w1Store H)).1 = .ok 1 ∧
    ∀ m, m = ofDoc1.reflected ∨ m = ofDoc1Newer →
      (Service.findRelationshipRecordsM (wEnv H) "p" (some m)).run (w1Store H) = (.ok [], w1Store H) ∧
      (Service.deleteRelationshipsM (wEnv H) "p" (some m)).run (w1Store H) = (.ok 0, w1Store H) := by
  have hun : PristineSelector ofDoc1 := ⟨fun e h => by cases h; exact literal_untouched _, fun s h => by cases h⟩
  have hc : SelectorComplete ofDoc1.value ∧ SelectorSet ofDoc1.value := by
    constructor <;> simp [SelectorComplete, SelectorSet, ofDoc1, MSelector.value, MObjectSelector.value, MSubjectSelector.value]
  have hfind : (Service.findRelationshipRecords (wEnv H) "p" (some ofDoc1.value)).run (w1Store H) = (.ok [some ⟨"p", rA, 0, []⟩], w1Store H) := by
    unfold Service.findRelationshipRecords
    rw [run_bind, show (Repo.getPolicy "p").run (w1Store H) = (.ok (some ⟨docPolicy "p", [], 0⟩), w1Store H) from
      congrArg (fun x => (Res.ok x, _)) (wStore_pol "p" (.inl rfl))]
    simp only [andThen_ok]
    rw [run_bind, run_lift, show validSelector (some ofDoc1.value) (docPolicy "p") = .ok () by decide +kernel]
    simp only [andThen_ok]
    unfold Repo.findRelationshipRecords
    rw [run_bind, run_findRelationships hc.1 hc.2, ofDoc1_matching]
    simp only [andThen_ok]
    rw [run_mapSlice_pure (g := fun r => some ⟨"p", r, 0, []⟩)]
    · rfl
    · intro r hr
      obtain rfl := List.mem_singleton.1 hr
      rw [run_repo_getRelationship eA_of]
      have : kvGet (w1Store H).data (eA.key (wEnv H).H) = some ⟨eA.key H, 0, []⟩ := by
        simp [w1Store, Store.putRel, kvGet_put, wEnv]
      rw [this]
      rfl
  have hdel : ((Service.deleteRelationships (wEnv H) "p" (some ofDoc1.value)).run (w1Store H)).1 = .ok 1 := by
    show ((Repo.deleteRelationships (wEnv H).H "p" (some ofDoc1.value)).run (w1Store H)).1 = _
    rw [run_repo_deleteRelationships hc.1 hc.2, ofDoc1_matching]
    rfl
  obtain ⟨h1, h2⟩ := C85_untouched_partial (wEnv H) "p" ofDoc1 hun
  refine ⟨w1_reachable H, (reflected_touched _).1, rfl, by rw [h1]; exact hfind, by rw [h2]; exact hdel, fun m hm => ?_⟩
  have hv : m.value = ofDoc1.value := by rcases hm with rfl | rfl; exact (reflected_touched _).1; rfl
  have ht : ¬ PristineSelector m := by
    rcases hm with rfl | rfl
    · exact (reflected_touched _).2 (.inl ⟨_, rfl⟩)
    · exact fun h => List.cons_ne_nil _ _ (h.1 _ rfl).2.2
  obtain ⟨g1, g2⟩ := C85_touched_nothing (wEnv H) "p" m ht (w1Store H)
  rw [hv] at g1 g2
  exact ⟨g1 _ _ hfind, g2 1 _ (Prod.ext hdel rfl)⟩

/-- `ofDoc1` meets the hypothesis of `C85_untouched_partial`, its printed form that of `C85_touched_nothing`. -/
example : PristineSelector ofDoc1 ∧ ¬ PristineSelector ofDoc1.reflected :=
  ⟨⟨fun e h => by cases h; exact literal_untouched _, fun s h => by cases h⟩, (reflected_touched _).2 (.inl ⟨_, rfl⟩)⟩

end Zanzi
