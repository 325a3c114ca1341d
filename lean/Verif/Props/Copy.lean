import Verif.Lemmas.Copy
import Verif.Props.Clock
import Verif.Props.Grants
import Verif.Props.Interference

/-
C101: a service can be copied through its own API.
-/

namespace Zanzi

open Spec Prog

section
variable {env : Env} {s t : Store} {ids : List String} {pol : String → PolicyRecord} {recs : String → List RelationshipRecord}

/-- What the copy holds, with the creation times of the original. -/
def between (s t : Store) : Store := { policies := s.policies, edges := t.edges, data := s.data.filter (fun p => (kvGet t.data p.1).isSome) }

theorem kvGet_kept {K V : Type} [DecidableEq K] (m : List (K × V)) (f : K → Bool) (k : K) : kvGet (m.filter (fun p => f p.1)) k = if f k = true then kvGet m k else none := by
  induction m with
  | nil => simp [kvGet]
  | cons p m ih =>
    by_cases hf : f p.1 = true
    · rw [List.filter_cons_of_pos (p := fun p : K × V => f p.1) hf]
      by_cases hk : p.1 = k
      · subst hk; simp [kvGet, hf]
      · simp [kvGet, hk] at ih ⊢; exact ih
    · rw [List.filter_cons_of_neg (p := fun p : K × V => f p.1) hf]
      by_cases hk : p.1 = k
      · subst hk; simp [ih, hf]
      · simp [kvGet, hk] at ih ⊢; exact ih

theorem Copied.between_same (hs : WF env s) (ht : WF env t) (h : Copied s t) : SameButTimes (between s t) t := by
  refine ⟨show s.policies.map (·.1) = _ from ids_eq hs ht h.pol, h.pol, rfl, fun k => ?_⟩
  show BothOrNone _ (kvGet (s.data.filter _) k) _
  rw [kvGet_kept s.data (fun k => (kvGet t.data k).isSome)]
  cases hd : kvGet t.data k with
  | none => trivial
  | some d =>
    obtain ⟨d', h1, h2⟩ := h.data k d hd
    rw [h1]
    exact h2

theorem Copied.between_find (hs : WF env s) (h : Copied s t) {pid : String} (hl : (kvGet s.policies pid).isSome = true) {sel : Selector} (hc : SelectorComplete sel) (hset : SelectorSet sel) :
    (serve env (.findRelationshipRecords pid (some sel)) s).1 = (serve env (.findRelationshipRecords pid (some sel)) (between s t)).1 := by
  have hr : relationships (between s t) pid = relationships s pid := by
    show (t.edges pid).map _ = (s.edges pid).map _
    rw [h.live pid hl]
  have hm : matching (between s t) pid sel = matching s pid sel := by
    unfold matching
    rw [hr]
  rw [serve_find hc hset, serve_find hc hset, hm]
  show _ = (match kvGet s.policies pid with | none => _ | some rec => _ : Res Answer × Store).1
  cases kvGet s.policies pid with
  | none => rfl
  | some rec =>
    dsimp only
    cases validSelector (some sel) rec.policy with
    | err => rfl
    | panic => rfl
    | fuel => rfl
    | ok u =>
      dsimp only
      congr 2
      refine List.map_congr_left (fun r hr' => ?_)
      have hpr : Present s pid r := by
        unfold matching at hr'
        exact (List.mem_filter.1 hr').1
      obtain ⟨⟨k, e⟩, hm', rfl⟩ := List.mem_map.1 hpr
      have hk : relKey env.H (fromInternal e) = k := by rw [relKey_of (hs.edgeNorm _ _ _ hm').back, hs.edgeKey _ _ _ hm']
      dsimp only
      rw [hk]
      show _ = (kvGet (s.data.filter _) k).map _
      rw [kvGet_kept s.data (fun k => (kvGet t.data k).isSome), if_pos (h.dataLive pid k e hl (mem_kvGet (hs.edgeNodup pid) hm'))]

theorem sameOutcome_trans_eq {a b c : Res Answer} (h : a = b) (h' : SameOutcome b c) : SameOutcome a c := h ▸ h'

end

/-- C101: whoever fetches the policy ids, the policies and the relationship records of a service and sends them to an empty one, in any order and again where refused, has a copy once each was accepted: it
lists the same policies, with the same application data and the same relationships, and answers every graph query and every selection of records the same but for creation times. -/
theorem C101_copy (env : Env) (x : Sys) (hx : Sys.Reachable env x) (ids : List String) (pol : String → PolicyRecord) (recs : String → List RelationshipRecord)
    (hf : Fetched env x.store ids pol recs) (cs : List Call) (rs : List (Res Answer)) (t : Store) (ht : runCalls env cs Store.empty = (rs, t)) (hc : Copies ids pol recs cs rs) :
    (serve env .listPolicyIds t).1 = .ok (.ids ids) ∧
    (∀ id, BothOrNone SamePolicyRecord (policyAt x.store id) (policyAt t id)) ∧
    (∀ id ∈ ids, ∀ r, Present x.store id r ↔ Present t id r) ∧
    (∀ id ∈ ids, ∀ c : Call, c.graphQuery id → SameOutcome (serve env c x.store).1 (serve env c t).1) ∧
    (∀ id ∈ ids, ∀ sel, SelectorComplete sel → SelectorSet sel →
      SameOutcome (serve env (.findRelationshipRecords id (some sel)) x.store).1 (serve env (.findRelationshipRecords id (some sel)) t).1) := by
  have hs := hx.wf.1
  obtain rfl : rs = (runCalls env cs Store.empty).1 := by rw [ht]
  obtain rfl : t = (runCalls env cs Store.empty).2 := by rw [ht]
  have hwt : WF env (runCalls env cs Store.empty).2 := (WF.empty env).runCalls cs
  have h := copied hs hf hc
  have hb := h.between_same hs hwt
  have hone : ∀ c, SameOutcome (serve env c (between x.store (runCalls env cs Store.empty).2)).1 (serve env c (runCalls env cs Store.empty).2).1 := by
    intro c
    have := (C100_clock env [c] [c] ⟨⟨(stamp c).getD 0, ?_⟩, trivial⟩ _ _ hb).1
    · exact this.1
    · cases c <;> rfl
  refine ⟨?_, fun id => ?_, fun id hi r => ?_, fun id hi c hc' => ?_, fun id hi sel h1 h2 => ?_⟩
  · rw [serve_listPolicyIds, ← ids_eq hs hwt h.pol, ← hf.listed]
    rfl
  · rw [policyAt_eq, policyAt_eq]
    exact h.pol id
  · unfold Present relationships
    rw [h.live id ((Fetched.mem hf id).1 hi)]
  · refine sameOutcome_trans_eq (graphQuery_agree (s' := between x.store (runCalls env cs Store.empty).2) (fun rec hr => hs.polKey _ _ (kvGet_mem hr)) rfl ?_ hc') (hone c)
    exact (h.live id ((Fetched.mem hf id).1 hi)).symm
  · exact sameOutcome_trans_eq (h.between_find hs ((Fetched.mem hf id).1 hi) h1 h2) (hone _)

/-- C101: if the original served its requests one after the other, the copy is exact but for creation times: whatever is asked next, and for how long, it answers as the original would. -/
theorem C101_copy_exact (env : Env) (past : List Call) (s : Store) (hp : (runCalls env past Store.empty).2 = s) (ids : List String) (pol : String → PolicyRecord)
    (recs : String → List RelationshipRecord) (hf : Fetched env s ids pol recs) (cs : List Call) (rs : List (Res Answer)) (t : Store) (ht : runCalls env cs Store.empty = (rs, t))
    (hc : Copies ids pol recs cs rs) :
    SameButTimes s t ∧ ∀ next next', PlaceByPlace SameRequest next next' → PlaceByPlace SameOutcome (runCalls env next s).1 (runCalls env next' t).1 := by
  subst hp
  obtain rfl : rs = (runCalls env cs Store.empty).1 := by rw [ht]
  obtain rfl : t = (runCalls env cs Store.empty).2 := by rw [ht]
  have hs : WF env (runCalls env past Store.empty).2 := (WF.empty env).runCalls past
  have hwt : WF env (runCalls env cs Store.empty).2 := (WF.empty env).runCalls cs
  have h := (copied hs hf hc).same hs hwt (C33_sequential_no_orphans_partial env past) (runCalls_owned past (fun k hk => by cases hk))
  exact ⟨h, fun next next' hn => (C100_clock env next next' hn _ _ h).1⟩

/-- C101: a copy can be made exactly if every policy admits the relationships it holds, and then it is made by creating the policies and setting the relationships, all accepted the first time. -/
theorem C101_copy_possible (env : Env) (x : Sys) (hx : Sys.Reachable env x) (ids : List String) (pol : String → PolicyRecord) (recs : String → List RelationshipRecord)
    (hf : Fetched env x.store ids pol recs) :
    ((∃ cs, Copies ids pol recs cs (runCalls env cs Store.empty).1) ↔ AllAdmissible ids pol recs) ∧
    (AllAdmissible ids pol recs → ∀ now, Copies ids pol recs (inOrder now ids pol recs) (runCalls env (inOrder now ids pol recs) Store.empty).1 ∧
      ∀ r ∈ (runCalls env (inOrder now ids pol recs) Store.empty).1, ∃ a, r = .ok a) := by
  have hs := hx.wf.1
  refine ⟨⟨?_, fun h => ⟨_, (inOrder_copies hs hf h 0).2⟩⟩, fun h now => ⟨(inOrder_copies hs hf h now).2, (inOrder_copies hs hf h now).1⟩⟩
  rintro ⟨cs, hc⟩ id hi x hx'
  refine Classical.byContradiction (fun hna => ?_)
  obtain ⟨now, a, hm⟩ := hc.relationships id hi x hx'
  exact never_copied hs hf cs hi hna hc.only (WF.empty env) (part_empty _) now _ a hm

theorem fetched_of {env : Env} {s : Store} {id : String} {rec : PolicyRecord} {recs : List RelationshipRecord} (h1 : s.policies.map (·.1) = [id]) (h2 : kvGet s.policies id = some rec)
    (h3 : validSelector (some everything) rec.policy = .ok ())
    (h4 : (relationships s id).map (fun r => (kvGet s.data (relKey env.H r)).map (fun d => (⟨id, r, d.createdAt, d.appData⟩ : RelationshipRecord))) = recs.map some) :
    Fetched env s [id] (fun _ => rec) (fun _ => recs) := by
  refine ⟨by rw [serve_listPolicyIds, h1], ?_, ?_⟩
  · intro q hq
    rw [List.mem_singleton.1 hq, serve_getPolicy, h2]
  · intro q hq
    rw [List.mem_singleton.1 hq, show everything = allSelector from rfl, serve_find allSelector_complete.1 allSelector_complete.2, h2]
    dsimp only
    rw [show allSelector = everything from rfl, h3]
    dsimp only
    rw [show everything = allSelector from rfl, matching_all, h4]

/-- user:u has a and b on doc:1. -/
def copiedRels : List Relationship := [⟨some doc1, "a", some (.entity usr)⟩, ⟨some doc1, "b", some (.entity usr)⟩]

/-- The hypotheses of C101 met by a service that holds a policy and two relationships: they are fetched, and admitted, so the copy can be made. -/
example : ∃ recs : List RelationshipRecord, recs.map (·.relationship) = copiedRels ∧ Sys.Reachable gEnv ⟨[], gStore gEnv opRels copiedRels⟩ ∧
    Fetched gEnv (gStore gEnv opRels copiedRels) ["p"] (fun _ => ⟨gPolicy opRels, [], 0⟩) (fun _ => recs) ∧ AllAdmissible ["p"] (fun _ => ⟨gPolicy opRels, [], 0⟩) (fun _ => recs) := by
  refine ⟨copiedRels.map (fun r => ⟨"p", r, 0, []⟩), rfl, gStore_reachable .., fetched_of (by decide +kernel) (by decide +kernel) (by decide +kernel) (by decide +kernel), ?_⟩
  intro id hi x hx
  have hv : ValidPolicy gEnv.U (gPolicy opRels) := (C09_validation_exact _ _).1 (by decide +kernel)
  refine (C12_admission_exact _ hv.1 _).1 ?_
  have : ∀ r ∈ copiedRels, allowedRelationship (some r) (newLut (gPolicy opRels)) = .ok () := by decide +kernel
  obtain ⟨r, hr, rfl⟩ := List.mem_map.1 hx
  exact this r hr

/-- A service that holds a relationship its policy no longer admits cannot be copied: the update of the policy left it behind, and no service accepts it. -/
theorem C101_orphan_not_copied : ∃ s recs, s = (runCalls gEnv
      [.createPolicy 0 (some (.policy (gPolicy [rel "a" "_this", rel "ya" "_this"]))) [],
       .setRelationship 0 "p" (some ⟨some ⟨"doc", "x"⟩, "ya", some (.entity usr)⟩) [],
       .updatePolicy (some (.policy (gPolicy [rel "a" "_this"]))) []] Store.empty).2 ∧
    Fetched gEnv s ["p"] (fun _ => ⟨gPolicy [rel "a" "_this"], [], 0⟩) (fun _ => recs) ∧
    ∀ cs, ¬ Copies ["p"] (fun _ => ⟨gPolicy [rel "a" "_this"], [], 0⟩) (fun _ => recs) cs (runCalls gEnv cs Store.empty).1 := by
  have hf : Fetched gEnv (runCalls gEnv
      [.createPolicy 0 (some (.policy (gPolicy [rel "a" "_this", rel "ya" "_this"]))) [],
       .setRelationship 0 "p" (some ⟨some ⟨"doc", "x"⟩, "ya", some (.entity usr)⟩) [],
       .updatePolicy (some (.policy (gPolicy [rel "a" "_this"]))) []] Store.empty).2 ["p"] (fun _ => ⟨gPolicy [rel "a" "_this"], [], 0⟩)
      (fun _ => [⟨"p", ⟨some ⟨"doc", "x"⟩, "ya", some (.entity usr)⟩, 0, []⟩]) :=
    fetched_of (by decide +kernel) (by decide +kernel) (by decide +kernel) (by decide +kernel)
  refine ⟨_, _, rfl, hf, fun cs hc => ?_⟩
  have hv : ValidPolicy gEnv.U (gPolicy [rel "a" "_this"]) := (C09_validation_exact _ _).1 (by decide +kernel)
  have hna : ¬ Admissible (gPolicy [rel "a" "_this"]) ⟨some ⟨"doc", "x"⟩, "ya", some (.entity usr)⟩ := by
    intro h
    have := (C12_admission_exact _ hv.1 _).2 h
    revert this
    decide +kernel
  obtain ⟨now, a, hm⟩ := hc.relationships "p" (List.mem_singleton.2 rfl) _ (List.mem_singleton.2 rfl)
  exact never_copied ((WF.empty gEnv).runCalls _) hf cs (List.mem_singleton.2 rfl) (x := ⟨"p", ⟨some ⟨"doc", "x"⟩, "ya", some (.entity usr)⟩, 0, []⟩) hna hc.only (WF.empty gEnv) (part_empty _) now _ a hm

end Zanzi
