import Verif.Lemmas.Clock
import Verif.Props.Times

/-
C100: the clock decides nothing but recorded times.
-/

namespace Zanzi

open Spec Prog

/-- C100: the same requests, served one after the other at any other times on a server that holds the same but for creation times, are answered the same but for creation times, errors and trees
included, and leave the same but for creation times. -/
theorem C100_clock (env : Env) (cs cs' : List Call) (h : PlaceByPlace SameRequest cs cs') (s s' : Store) (hs : SameButTimes s s') :
    PlaceByPlace SameOutcome (runCalls env cs s).1 (runCalls env cs' s').1 ∧ SameButTimes (runCalls env cs s).2 (runCalls env cs' s').2 :=
  runCalls_alike cs h hs

/-- C100 on a busy server: if a request can be answered `r` while others arrive, interleave, fail or are cut off by crashes, then the same request at any other time can be answered the same but for
creation times, with the others arriving at any other times. -/
theorem C100_clock_busy (env : Env) (A A' : Call → Prop) (hA : ∀ c, A c → ∃ c', A' c' ∧ SameRequest c c') (c c' : Call) (hc : SameRequest c c') (s s' : Store) (hs : SameButTimes s s')
    (hist : List Store) (y : Sys) (r : Res Answer) (h : Sys.Flight env A ⟨[], s⟩ c hist y (.done r)) :
    ∃ hist' y' r', Sys.Flight env A' ⟨[], s'⟩ c' hist' y' (.done r') ∧ SameOutcome r r' ∧ SameButTimes y.store y'.store := by
  obtain ⟨hist', y', t', h1, h2, h3⟩ := h.alike hA hc (x' := ⟨[], s'⟩) ⟨.nil, hs⟩
  cases h2 with
  | done h => exact ⟨hist', y', _, h1, sameOutcome_iff.1 h, h3.2⟩

/-- A relationship set and read at some time. -/
theorem w_set_read (H : String → Nat) (now : Timestamp) (a : Bytes) : (runCalls (wEnv H) [.setRelationship now "p" (some rA) a, .getRelationship "p" (some rA)] wStore).1 =
    [.ok (.overwritten false), .ok (.relationship (some ⟨"p", rA, now, a⟩))] := by
  have hset : serve (wEnv H) (.setRelationship now "p" (some rA) a) wStore = (.ok (.overwritten false), wStore.putRel H "p" eA a now) := by
    rw [w_set H rfl (.inl rfl) (.inl ⟨rfl, rfl⟩)]
    rfl
  rw [runCalls_cons, hset, runCalls_cons, (C15_read_your_write (wEnv H) _ _ now "p" rA a _ (wStore_wf H) hset).1, runCalls_nil]

/-- The hypotheses of `C100_clock` met by a relationship set and read at two times; the answers differ, in the time only. -/
example (H : String → Nat) : PlaceByPlace SameRequest [.setRelationship 2 "p" (some rA) [7], .getRelationship "p" (some rA)] [.setRelationship 4 "p" (some rA) [7], .getRelationship "p" (some rA)] ∧
    SameButTimes wStore wStore ∧
    (runCalls (wEnv H) [.setRelationship 2 "p" (some rA) [7], .getRelationship "p" (some rA)] wStore).1 = [.ok (.overwritten false), .ok (.relationship (some ⟨"p", rA, 2, [7]⟩))] ∧
    (runCalls (wEnv H) [.setRelationship 4 "p" (some rA) [7], .getRelationship "p" (some rA)] wStore).1 = [.ok (.overwritten false), .ok (.relationship (some ⟨"p", rA, 4, [7]⟩))] :=
  ⟨⟨⟨4, rfl⟩, ⟨0, rfl⟩, trivial⟩, SameButTimes.refl _, w_set_read H 2 [7], w_set_read H 4 [7]⟩

/-- The hypotheses of `C100_clock_busy` met by a request on a server where anything may arrive. -/
example (env : Env) (s : Store) : (∀ c, (fun _ => True : Call → Prop) c → ∃ c', (fun _ => True : Call → Prop) c' ∧ SameRequest c c') ∧
    ∃ hist y r, Sys.Flight env (fun _ => True) ⟨[], s⟩ (.getPolicy "p") hist y (.done r) := by
  refine ⟨fun c _ => ⟨servedAt 0 c, trivial, 0, rfl⟩, [s, s], ⟨[], s⟩, .ok (.policy (kvGet s.policies "p")), ?_⟩
  have h := Sys.Flight.start (A := fun _ => True) (c := .getPolicy "p") (Sys.Path.refl (env := env) (A := fun _ => True) (x := ⟨[], s⟩))
  exact Sys.Flight.own (op := .polGet "p") h (.ok (.polGet "p") s)

end Zanzi
