import Verif.Lemmas.AppData
import Verif.Props.Clock

/-
C119: application data are handed on unread.
-/

namespace Zanzi

open Spec Prog

/-- C119: whatever relation `R` holds between the application data sent to and held by two servers that are otherwise the same, it holds between the application data they answer with and keep, and
nothing else differs: errors, decisions, trees, counts and times included. With `R` true everywhere, application data decide nothing; with `R` the graph of a function, they are handed on as they
are. -/
theorem C119_unread (env : Env) (R : Bytes → Bytes → Prop) (cs cs' : List Call) (h : PlaceByPlace (RequestOver R) cs cs') (s s' : Store) (hs : StoreOver R s s') :
    PlaceByPlace (OutcomeOver R) (runCalls env cs s).1 (runCalls env cs' s').1 ∧ StoreOver R (runCalls env cs s).2 (runCalls env cs' s').2 :=
  runCalls_over cs h hs

/-- C119 on a busy server: what a request can be answered while others arrive, interleave, fail or are cut off by crashes, it can be answered with other application data about, but for these. -/
theorem C119_unread_busy (env : Env) (R : Bytes → Bytes → Prop) (A A' : Call → Prop) (hA : ∀ c, A c → ∃ c', A' c' ∧ RequestOver R c c') (c c' : Call) (hc : RequestOver R c c') (s s' : Store)
    (hs : StoreOver R s s') (hist : List Store) (y : Sys) (r : Res Answer) (h : Sys.Flight env A ⟨[], s⟩ c hist y (.done r)) :
    ∃ hist' y' r', Sys.Flight env A' ⟨[], s'⟩ c' hist' y' (.done r') ∧ OutcomeOver R r r' ∧ StoreOver R y.store y'.store := by
  obtain ⟨hist', y', t', h1, h2, h3⟩ := h.over hA hc (x' := ⟨[], s'⟩) ⟨.nil, hs⟩
  cases h2 with
  | done h => exact ⟨hist', y', _, h1, outcomeOver_iff.1 h, h3.2⟩

theorem storeOver_self {R : Bytes → Bytes → Prop} {s : Store} (h1 : ∀ e ∈ s.policies, R e.2.appData e.2.appData) (h2 : ∀ e ∈ s.data, R e.2.appData e.2.appData) : StoreOver R s s := by
  refine ⟨rfl, fun id => ?_, rfl, fun k => ?_⟩
  · cases h : kvGet s.policies id with
    | none => trivial
    | some x => exact ⟨rfl, rfl, h1 _ (kvGet_mem h)⟩
  · cases h : kvGet s.data k with
    | none => trivial
    | some x => exact ⟨rfl, rfl, h2 _ (kvGet_mem h)⟩

theorem outcomeOver_in {P : Bytes → Prop} {r r' : Res Answer} (h : OutcomeOver (fun a _ => P a) r r') : ∀ a ∈ appDataIn r, P a := by
  cases r with
  | ok x =>
    cases r' with
    | ok y =>
      replace h : AnswerOver (fun a _ => P a) x y := h
      cases x with
      | created x =>
        cases y <;> first | exact h.elim | skip
        intro a ha
        cases List.mem_singleton.1 ha
        exact h.2.2
      | policy x =>
        cases y <;> first | exact h.elim | skip
        rcases both_none h with ⟨rfl, _⟩ | ⟨u, v, rfl, _, hu⟩
        · exact fun a ha => nomatch ha
        · intro a ha
          cases List.mem_singleton.1 ha
          exact hu.2.2
      | relationship x =>
        cases y <;> first | exact h.elim | skip
        rcases both_none h with ⟨rfl, _⟩ | ⟨u, v, rfl, _, hu⟩
        · exact fun a ha => nomatch ha
        · intro a ha
          cases List.mem_singleton.1 ha
          exact hu.2.2.2
      | records l =>
        cases y <;> first | exact h.elim | skip
        rename_i l'
        replace h : PlaceByPlace (BothOrNone (RelationshipRecordOver fun a _ => P a)) l l' := h
        intro a ha
        obtain ⟨x, hx, hax⟩ := List.mem_flatMap.1 ha
        clear ha
        induction l generalizing l' with
        | nil => exact nomatch hx
        | cons z l ih =>
          cases l' with
          | nil => exact h.elim
          | cons z' l' =>
            rcases List.mem_cons.1 hx with rfl | hx
            · rcases both_none h.1 with ⟨rfl, _⟩ | ⟨u, v, rfl, _, hu⟩
              · exact nomatch hax
              · cases List.mem_singleton.1 hax
                exact hu.2.2.2
            · exact ih l' h.2 hx
      | _ => exact fun a ha => nomatch ha
    | _ => exact nomatch h
  | _ => exact fun a ha => nomatch ha

theorem requestOver_self {P : Bytes → Prop} {c : Call} (h : ∀ a ∈ sentIn c, P a) : RequestOver (fun a _ => P a) c c := by
  cases c with
  | createPolicy now d a => exact .create _ _ (h a (List.mem_singleton.2 rfl))
  | updatePolicy d a => exact .update _ (h a (List.mem_singleton.2 rfl))
  | setRelationship now q r a => exact .set _ _ _ (h a (List.mem_singleton.2 rfl))
  | _ => exact .other (by simp) (by simp) (by simp)

/-- C119: a server makes up no application data: whatever is in one of its answers was in a request, or was held before. -/
theorem C119_nothing_made_up (env : Env) (cs : List Call) (s : Store) : ∀ r ∈ (runCalls env cs s).1, ∀ a ∈ appDataIn r, (∃ c ∈ cs, a ∈ sentIn c) ∨ a ∈ heldIn s := by
  let P : Bytes → Prop := fun a => (∃ c ∈ cs, a ∈ sentIn c) ∨ a ∈ heldIn s
  have hs : StoreOver (fun a _ => P a) s s := storeOver_self (fun e he => .inr (List.mem_append_left _ (List.mem_map.2 ⟨e, he, rfl⟩)))
    (fun e he => .inr (List.mem_append_right _ (List.mem_map.2 ⟨e, he, rfl⟩)))
  have hc : ∀ l : List Call, (∀ c ∈ l, c ∈ cs) → PlaceByPlace (RequestOver (fun a _ => P a)) l l := by
    intro l
    induction l with
    | nil => exact fun _ => trivial
    | cons c l ih => exact fun hl => ⟨requestOver_self (fun a ha => .inl ⟨c, hl c (List.mem_cons_self ..), ha⟩), ih (fun c hc => hl c (List.mem_cons_of_mem _ hc))⟩
  have h := (runCalls_over (env := env) cs (hc cs (fun _ h => h)) hs).1
  have all : ∀ l l' : List (Res Answer), PlaceByPlace (OutcomeOver (fun a _ => P a)) l l' → ∀ r ∈ l, ∀ a ∈ appDataIn r, P a := by
    intro l
    induction l with
    | nil => exact fun _ _ r hr => nomatch hr
    | cons x l ih =>
      intro l' hl r hr
      cases l' with
      | nil => exact hl.elim
      | cons x' l' =>
        rcases List.mem_cons.1 hr with rfl | hr
        · exact outcomeOver_in hl.1
        · exact ih l' hl.2 r hr
  exact all _ _ h

/-- The hypotheses of `C119_unread` met by a relationship set and read with application data of different lengths; the answers differ, in these only. -/
example (H : String → Nat) :
    PlaceByPlace (RequestOver (fun a b => b = a ++ a)) [.setRelationship 2 "p" (some rA) [7], .getRelationship "p" (some rA)] [.setRelationship 2 "p" (some rA) [7, 7], .getRelationship "p" (some rA)] ∧
    StoreOver (fun a b => b = a ++ a) wStore wStore ∧
    (runCalls (wEnv H) [.setRelationship 2 "p" (some rA) [7], .getRelationship "p" (some rA)] wStore).1 = [.ok (.overwritten false), .ok (.relationship (some ⟨"p", rA, 2, [7]⟩))] ∧
    (runCalls (wEnv H) [.setRelationship 2 "p" (some rA) [7, 7], .getRelationship "p" (some rA)] wStore).1 = [.ok (.overwritten false), .ok (.relationship (some ⟨"p", rA, 2, [7, 7]⟩))] :=
  ⟨⟨.set _ _ _ rfl, .other (by simp) (by simp) (by simp), trivial⟩, storeOver_self (by decide) (by decide), w_set_read H 2 [7], w_set_read H 2 [7, 7]⟩

/-- The hypotheses of `C119_unread_busy` met by a request on a server where anything may arrive. -/
example (env : Env) : (∀ c, (fun _ => True : Call → Prop) c → ∃ c', (fun _ => True : Call → Prop) c' ∧ RequestOver (fun _ _ => True) c c') ∧ StoreOver (fun _ _ => True) wStore wStore ∧
    RequestOver (fun _ _ => True) (.getPolicy "p") (.getPolicy "p") ∧ ∃ hist y r, Sys.Flight env (fun _ => True) ⟨[], wStore⟩ (.getPolicy "p") hist y (.done r) := by
  refine ⟨fun c _ => ?_, storeOver_self (fun _ _ => trivial) (fun _ _ => trivial), .other (by simp) (by simp) (by simp), [wStore, wStore], ⟨[], wStore⟩, .ok (.policy (kvGet wStore.policies "p")), ?_⟩
  · cases c with
    | createPolicy now d a => exact ⟨.createPolicy now d [], trivial, .create _ _ trivial⟩
    | updatePolicy d a => exact ⟨.updatePolicy d [], trivial, .update _ trivial⟩
    | setRelationship now q r a => exact ⟨.setRelationship now q r [], trivial, .set _ _ _ trivial⟩
    | _ => exact ⟨_, trivial, .other (by simp) (by simp) (by simp)⟩
  · have h := Sys.Flight.start (A := fun _ => True) (c := .getPolicy "p") (Sys.Path.refl (env := env) (A := fun _ => True) (x := ⟨[], wStore⟩))
    exact Sys.Flight.own (op := .polGet "p") h (.ok (.polGet "p") wStore)

/-- `C119_nothing_made_up` at work: the application data in the answer came with a request. -/
example (H : String → Nat) : [7] ∈ appDataIn (.ok (.relationship (some ⟨"p", rA, 2, [7]⟩))) ∧
    .ok (.relationship (some ⟨"p", rA, 2, [7]⟩)) ∈ (runCalls (wEnv H) [.setRelationship 2 "p" (some rA) [7], .getRelationship "p" (some rA)] wStore).1 ∧
    [7] ∈ sentIn (.setRelationship 2 "p" (some rA) [7]) ∧ [7] ∉ heldIn wStore := by
  refine ⟨List.mem_singleton.2 rfl, ?_, List.mem_singleton.2 rfl, by decide⟩
  rw [w_set_read H 2 [7]]
  exact List.mem_cons_of_mem _ (List.mem_singleton.2 rfl)

end Zanzi
