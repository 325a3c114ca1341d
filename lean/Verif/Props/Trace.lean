import Verif.Lemmas.Trace
import Verif.Props.Writes

/-
Property C91: everything stored was asked for.
Specification: Spec/Trace.lean.
-/

namespace Zanzi

open Spec Prog

section
variable {env : Env} {A : Call → Prop}

/-- Requests that write nothing explain nothing. -/
theorem policyAsked_of {c : Call} (h1 : ∀ now d a, c ≠ .createPolicy now d a) (h2 : ∀ d a, c ≠ .updatePolicy d a) {pid : String} {rec : PolicyRecord}
    (h : PolicyAsked env (fun d => A d ∨ d = c) pid rec) : PolicyAsked env A pid rec := by
  obtain ⟨hi, hv, ⟨d, hg, hd⟩, d', p, a, hc, hd', hp⟩ := h
  refine ⟨hi, hv, ⟨d, ?_, hd⟩, d', p, a, hc.resolve_right (fun h => h1 _ _ _ h.symm), hd', hp⟩
  rcases hg with ⟨now, hg⟩ | hg
  · exact .inl ⟨now, hg.resolve_right (fun h => h1 _ _ _ h.symm)⟩
  · exact .inr (hg.resolve_right (fun h => h2 _ _ h.symm))

theorem traced_hist {c : Call} {hist : List Store} {y : Sys} {t : Prog Answer} (h : Sys.Flight env A ⟨[], Store.empty⟩ c hist y t) :
    ∀ s ∈ hist, Traced env (fun d => A d ∨ d = c) s := fun s hs => by
  obtain ⟨z, hz, rfl⟩ := h.hist.2 s hs
  exact path_traced hz

/-- What reading a relationship's data can answer. -/
theorem get_reads {I : Store → Prop} {H : String → Nat} {pid : String} {r : Relationship} {rec : RelationshipRecord}
    (h : (Repo.getRelationship H pid (some r)).Reads I (.ok (some rec))) :
    ∃ s d, I s ∧ RelationshipComplete r ∧ kvGet s.data (relKey H r) = some d ∧ rec = ⟨pid, r, d.createdAt, d.appData⟩ := by
  obtain ⟨r', h1, h⟩ := Reads.bind_ok h
  cases h1.lift
  obtain ⟨e, h1, h⟩ := Reads.bind_ok h
  have he := h1.lift
  obtain ⟨d, h1, h⟩ := Reads.bind_ok h
  obtain ⟨s, hs, hd⟩ := Reads.op_ok h1
  replace hd : d = kvGet s.data (e.key H) := hd
  cases d with
  | none => cases h.pure
  | some d =>
    refine ⟨s, d, hs, toInternal_complete.1 ⟨e, he⟩, by rw [relKey_of he]; exact hd.symm, ?_⟩
    rw [Option.some.inj (Res.ok.inj h.pure)]
    unfold fromInternalRecord
    rw [fromInternal_toInternal he]

theorem mapSlice_reads {I : Store → Prop} {α β : Type} {f : α → Prog β} : ∀ {as : List α} {bs : List β}, (mapSlice f as).Reads I (.ok bs) →
    ∀ b ∈ bs, ∃ a ∈ as, (f a).Reads I (.ok b)
  | [], bs, h, b, hb => by
    cases h
    cases hb
  | a :: as, bs, h, b, hb => by
    obtain ⟨b', h1, h⟩ := Reads.bind_ok h
    obtain ⟨bs', h2, h⟩ := Reads.bind_ok h
    cases h.pure
    rcases List.mem_cons.1 hb with rfl | hb
    · exact ⟨a, List.mem_cons_self, h1⟩
    · obtain ⟨a', ha, h3⟩ := mapSlice_reads h2 b hb
      exact ⟨a', List.mem_cons_of_mem _ ha, h3⟩

theorem filterRes_mem {α : Type} {f : α → Res Bool} : ∀ {l l' : List α}, filterRes f l = .ok l' → ∀ a ∈ l', a ∈ l := by
  intro l
  induction l with
  | nil => intro l' h a ha; cases h; exact ha
  | cons x l ih =>
    intro l' h a ha
    unfold filterRes at h
    split at h <;> try cases h
    split at h <;> try cases h
    next b _ _ as' has =>
      cases b
      · exact List.mem_cons_of_mem _ (ih has a ha)
      · rcases List.mem_cons.1 ha with rfl | ha
        · exact List.mem_cons_self
        · exact List.mem_cons_of_mem _ (ih has a ha)

/-- What finding relationships can answer: records read one by one, of relationships that were stored together. -/
theorem find_reads {I : Store → Prop} {pid : String} {sel : Option Selector} {l : List (Option RelationshipRecord)}
    (h : ((Call.findRelationshipRecords pid sel).prog env).Reads I (.ok (.records l))) :
    ∃ rels : List Relationship, (∀ r ∈ rels, ∃ s, I s ∧ Present s pid r) ∧ ∀ x ∈ l, ∃ r ∈ rels, (Repo.getRelationship env.H pid (some r)).Reads I (.ok x) := by
  obtain ⟨x, h, hx⟩ := Reads.map_ok (p := Service.findRelationshipRecords env pid sel) h
  cases hx
  obtain ⟨p, _, h⟩ := Reads.bind_ok h
  cases p with
  | none => cases h.lift
  | some p =>
    obtain ⟨_, _, h⟩ := Reads.bind_ok h
    obtain ⟨rels, h1, h⟩ := Reads.bind_ok h
    refine ⟨rels, fun r hr => ?_, mapSlice_reads h⟩
    obtain ⟨es, h2, h1⟩ := Reads.bind_ok h1
    obtain ⟨s, hs, hes⟩ := Reads.op_ok h2
    obtain ⟨spec, _, h1⟩ := Reads.bind_ok h1
    have := filterRes_mem h1.lift r hr
    refine ⟨s, hs, ?_⟩
    replace hes : es = (s.edges pid).map (·.2) := hes
    rw [hes, List.map_map] at this
    exact this

theorem kvGet_some_of_mem {K V : Type} [DecidableEq K] {m : List (K × V)} {p : K × V} (h : p ∈ m) : ∃ v, kvGet m p.1 = some v := by
  induction m with
  | nil => cases h
  | cons q m ih =>
    obtain ⟨k, v⟩ := q
    unfold kvGet
    split
    · exact ⟨v, rfl⟩
    · next hne =>
      rcases List.mem_cons.1 h with rfl | h
      · exact absurd rfl hne
      · exact ih h

end

/-! ### C91: everything stored was asked for -/

/-- Whatever requests `A` arrived, however they interleaved, failed and crashed: a stored policy was given by one of them, with its data, and its time is that of a request that created it. -/
theorem C91_policies (env : Env) (A : Call → Prop) (y : Sys) (h : Sys.Path env A ⟨[], Store.empty⟩ y) (pid : String) (rec : PolicyRecord)
    (hp : policyAt y.store pid = some rec) : PolicyAsked env A pid rec :=
  (path_traced h).policies _ _ (policyAt_eq _ _ ▸ hp)

/-- A stored relationship was set by one of the requests in this very policy, under a policy admitting it. -/
theorem C91_relationships (env : Env) (A : Call → Prop) (y : Sys) (h : Sys.Path env A ⟨[], Store.empty⟩ y) (pid : String) (r : Relationship)
    (hr : Present y.store pid r) : RelationshipAsked env A pid r := by
  obtain ⟨p, hp, rfl⟩ := List.mem_map.1 hr
  exact (path_traced h).edges _ _ hp

/-- A policy answered by GetPolicy, while other requests run, was asked for. -/
theorem C91_get_policy (env : Env) (A : Call → Prop) (pid : String) (hist : List Store) (y : Sys) (rec : PolicyRecord)
    (h : Sys.Flight env A ⟨[], Store.empty⟩ (.getPolicy pid) hist y (.done (.ok (.policy (some rec))))) : PolicyAsked env A pid rec := by
  have h1 := h.reads (I := (· ∈ hist)) (fun _ h => h) .done
  obtain ⟨x, h2, h3⟩ := Reads.bind_ok (p := Service.getPolicy pid) h1
  cases h3
  replace h2 : (Prog.call (.polGet pid) _).Reads (· ∈ hist) _ := h2
  cases h2 with
  | @ok _ _ s _ hs hr =>
    refine policyAsked_of (by simp) (by simp) ((traced_hist h s hs).policies _ _ ?_)
    generalize hv : kvGet s.policies pid = v
    replace hr : (Prog.done (.ok (kvGet s.policies pid))).Reads (· ∈ hist) (.ok (some rec)) := hr
    rw [hv] at hr
    cases hr
    rfl
  | fail hr => cases hr

/-- A check that grants, while other requests run, does so only if one of the requests set, in this policy, a relationship naming the user. -/
theorem C91_grants (env : Env) (A : Call → Prop) (c : Call) (pid : String) (g : Option Entity) (hc : c.asks pid g) (hist : List Store) (y : Sys) (a : Answer)
    (h : Sys.Flight env A ⟨[], Store.empty⟩ c hist y (.done (.ok a))) (ha : a.grants) :
    ∃ u r now b, g = some u ∧ NamesUser u r ∧ A (.setRelationship now pid (some r) b) := by
  have h1 := h.reads (I := (· ∈ hist)) (fun _ h => h) .done
  obtain ⟨u, hu, s, r, hs, h2, h3⟩ := grants_named (h.wf ((Sys.reachable_iff _ _).2 .refl)) hc h1 ha
  obtain ⟨p, hp, rfl⟩ := List.mem_map.1 h2
  obtain ⟨⟨now, b, hset⟩, _⟩ := (traced_hist h s hs).edges _ _ hp
  refine ⟨u, _, now, b, hu, h3, hset.resolve_right ?_⟩
  rintro rfl
  exact hc

/-- Ids answered by ListPolicyIds, while other requests run, are those of policies that were asked for. -/
theorem C91_list_ids (env : Env) (A : Call → Prop) (hist : List Store) (y : Sys) (ids : List String)
    (h : Sys.Flight env A ⟨[], Store.empty⟩ .listPolicyIds hist y (.done (.ok (.ids ids)))) (pid : String) (hi : pid ∈ ids) :
    ∃ rec, PolicyAsked env A pid rec := by
  obtain ⟨l, h1, h2⟩ := Reads.map_ok (p := Service.listPolicyIds) (h.reads (I := (· ∈ hist)) (fun _ h => h) .done)
  cases h2
  obtain ⟨s, hs, rfl⟩ := Reads.op_ok h1
  replace hi : pid ∈ s.policies.map (·.1) := hi
  obtain ⟨p, hp, rfl⟩ := List.mem_map.1 hi
  obtain ⟨rec, hrec⟩ := kvGet_some_of_mem hp
  exact ⟨rec, policyAsked_of (by simp) (by simp) ((traced_hist h s hs).policies _ _ hrec)⟩

/-- Relationships of the records answered by FindRelationshipRecords, while other requests run, were asked for in this very policy. -/
theorem C91_find (env : Env) (A : Call → Prop) (pid : String) (sel : Option Selector) (hist : List Store) (y : Sys) (l : List (Option RelationshipRecord))
    (h : Sys.Flight env A ⟨[], Store.empty⟩ (.findRelationshipRecords pid sel) hist y (.done (.ok (.records l)))) (rec : RelationshipRecord) (hr : some rec ∈ l) :
    rec.policyId = pid ∧ ∃ now a, A (.setRelationship now pid (some rec.relationship) a) := by
  obtain ⟨rels, hrel, hget⟩ := find_reads (h.reads (I := (· ∈ hist)) (fun _ h => h) .done)
  obtain ⟨r, hmem, hg⟩ := hget _ hr
  obtain ⟨s', d, hs', he, hd, rfl⟩ := get_reads hg
  obtain ⟨s, hs, hp⟩ := hrel r hmem
  obtain ⟨p, hp', rfl⟩ := List.mem_map.1 hp
  obtain ⟨⟨now, a, hset⟩, _⟩ := (traced_hist h s hs).edges _ _ hp'
  exact ⟨rfl, now, a, hset.resolve_right nofun⟩

/-- Full claim: a record answered by GetRelationship was set by one of the requests with this time and data.  Proved, while other requests run, if no request sets another relationship, or this one in
another policy, with the same storage key.  Missing: such requests (`C91_records_violated`). -/
theorem C91_records_partial (env : Env) (A : Call → Prop) (pid : String) (r : Relationship)
    (hk : ∀ now q r' b, A (.setRelationship now q (some r') b) → RelationshipComplete r' → relKey env.H r' = relKey env.H r → q = pid ∧ r' = r)
    (hist : List Store) (y : Sys) (rec : RelationshipRecord)
    (h : Sys.Flight env A ⟨[], Store.empty⟩ (.getRelationship pid (some r)) hist y (.done (.ok (.relationship (some rec))))) :
    rec.policyId = pid ∧ rec.relationship = r ∧ A (.setRelationship rec.createdAt pid (some r) rec.appData) := by
  obtain ⟨x, h1, h2⟩ := Reads.map_ok (p := Service.getRelationship env pid (some r)) (h.reads (I := (· ∈ hist)) (fun _ h => h) .done)
  cases h2
  obtain ⟨s, d, hs, he, hd, rfl⟩ := get_reads h1
  obtain ⟨q, r', h3, h4, h5⟩ := (traced_hist h s hs).data _ _ hd
  replace h3 := h3.resolve_right nofun
  obtain ⟨rfl, rfl⟩ := hk _ _ _ _ h3 h4 h5
  exact ⟨rfl, rfl, h3⟩

/-- The same for the records answered by FindRelationshipRecords, under the same condition on the relationship of the record. -/
theorem C91_find_records_partial (env : Env) (A : Call → Prop) (pid : String) (sel : Option Selector) (hist : List Store) (y : Sys)
    (l : List (Option RelationshipRecord)) (h : Sys.Flight env A ⟨[], Store.empty⟩ (.findRelationshipRecords pid sel) hist y (.done (.ok (.records l))))
    (rec : RelationshipRecord) (hr : some rec ∈ l)
    (hk : ∀ now q r' b, A (.setRelationship now q (some r') b) → RelationshipComplete r' → relKey env.H r' = relKey env.H rec.relationship →
      q = pid ∧ r' = rec.relationship) :
    A (.setRelationship rec.createdAt pid (some rec.relationship) rec.appData) := by
  obtain ⟨rels, hrel, hget⟩ := find_reads (h.reads (I := (· ∈ hist)) (fun _ h => h) .done)
  obtain ⟨r, hmem, hg⟩ := hget _ hr
  obtain ⟨s, d, hs, he, hd, rfl⟩ := get_reads hg
  obtain ⟨q, r', h3, h4, h5⟩ := (traced_hist h s hs).data _ _ hd
  replace h3 := h3.resolve_right nofun
  obtain ⟨rfl, rfl⟩ := hk _ _ _ _ h3 h4 h5
  exact h3

/-- Requests creating policies "p" and "q" and setting `r` in policy `pid`. -/
def askedFor (pid : String) (r : Relationship) : List Call :=
  [.createPolicy 0 (some (.policy (docPolicy "p"))) [], .createPolicy 0 (some (.policy (docPolicy "q"))) [], .setRelationship 1 pid (some r) [1]]

theorem askedFor_path (H : String → Nat) {pid : String} (h : pid = "p" ∨ pid = "q") {r : Relationship} {e : IRel} (hr : (r = rA ∧ e = eA) ∨ (r = rB ∧ e = eB)) :
    Sys.Path (wEnv H) (· ∈ askedFor pid r) ⟨[], Store.empty⟩ ⟨[], wStore.putRel H pid e [1] 1⟩ := by
  have h1 := (Sys.Path.refl (env := wEnv H) (A := (· ∈ askedFor pid r)) (x := ⟨[], Store.empty⟩)).runCalls
    [.createPolicy 0 (some (.policy (docPolicy "p"))) [], .createPolicy 0 (some (.policy (docPolicy "q"))) []] (fun c hc => by
      unfold askedFor
      simp only [List.mem_cons, List.not_mem_nil, or_false] at hc ⊢
      exact hc.elim .inl (fun h => .inr (.inl h)))
  rw [wStore_reached] at h1
  have h2 := h1.serve (.setRelationship 1 pid (some r) [1]) (by simp [askedFor])
  rw [w_set H (s := wStore) rfl h hr] at h2
  exact h2

/-- C91 is violated for records, whatever the hash: Get answers a record for a relationship no request ever set in this policy, because another relationship, or this one in another policy, was. -/
theorem C91_records_violated (H : String → Nat) : ∀ pr ∈ [("p", rB), ("q", rA)], ∃ y, Sys.Path (wEnv H) (· ∈ askedFor pr.1 pr.2) ⟨[], Store.empty⟩ y ∧
    (serve (wEnv H) (.getRelationship "p" (some rA)) y.store).1 = .ok (.relationship (some ⟨"p", rA, 1, [1]⟩)) ∧
    ∀ now b, Call.setRelationship now "p" (some rA) b ∉ askedFor pr.1 pr.2 := by
  have hH : (wEnv H).H = H := rfl
  intro pr hpr
  simp only [List.mem_cons, List.not_mem_nil, or_false] at hpr
  rcases hpr with rfl | rfl
  · refine ⟨_, askedFor_path H (.inl rfl) (.inr ⟨rfl, rfl⟩), ?_, by simp [askedFor, rA, rB]⟩
    rw [serve_get eA_of, hH]
    simp [Store.putRel, kvGet_put, key_alias]
  · refine ⟨_, askedFor_path H (.inr rfl) (.inl ⟨rfl, rfl⟩), ?_, by simp [askedFor]⟩
    rw [serve_get eA_of, hH]
    simp [Store.putRel, kvGet_put]

/-- A server that meets the hypotheses of `C91_policies`, `C91_relationships` and `C91_records_partial`. -/
example (H : String → Nat) : ∃ y, Sys.Path (wEnv H) (· ∈ askedFor "p" rA) ⟨[], Store.empty⟩ y ∧ policyAt y.store "p" = some ⟨docPolicy "p", [], 0⟩ ∧
    Present y.store "p" rA ∧ (serve (wEnv H) (.getRelationship "p" (some rA)) y.store).1 = .ok (.relationship (some ⟨"p", rA, 1, [1]⟩)) ∧
    ∀ now q r' b, Call.setRelationship now q (some r') b ∈ askedFor "p" rA → RelationshipComplete r' → relKey (wEnv H).H r' = relKey (wEnv H).H rA → q = "p" ∧ r' = rA := by
  have hH : (wEnv H).H = H := rfl
  refine ⟨_, askedFor_path H (.inl rfl) (.inl ⟨rfl, rfl⟩), by rw [policyAt_eq]; rfl, ?_, ?_, ?_⟩
  · exact (present_putRel (wStore_wf H) eA_of (by simp [rA]) [1] 1 "p" rA).2 (.inl ⟨rfl, rfl⟩)
  · rw [serve_get eA_of, hH]
    simp [Store.putRel, kvGet_put]
  · intro now q r' b h _ _
    simp [askedFor] at h
    exact ⟨h.2.1, h.2.2.1⟩

/-- The records of an answer. -/
def recordsOf : Res Answer → Option (List (Option RelationshipRecord))
  | .ok (.records l) => some l
  | _ => none

theorem a_finds : ((Call.findRelationshipRecords "p" (some allSelector)).prog gEnv |>.run aStore).1 = .ok (.records [some ⟨"p", relA, 0, []⟩]) := by
  have h : recordsOf (((Call.findRelationshipRecords "p" (some allSelector)).prog gEnv).run aStore).1 = some [some ⟨"p", relA, 0, []⟩] := by decide +kernel
  revert h
  generalize (((Call.findRelationshipRecords "p" (some allSelector)).prog gEnv).run aStore).1 = x
  intro h
  unfold recordsOf at h
  split at h
  · rw [Option.some.inj h]
  · cases h

/-- The record of `rA` read by GetRelationship. -/
example (H : String → Nat) : ∃ hist y, Sys.Flight (wEnv H) (· ∈ askedFor "p" rA) ⟨[], Store.empty⟩ (.getRelationship "p" (some rA)) hist y
    (.done (.ok (.relationship (some ⟨"p", rA, 1, [1]⟩)))) := by
  obtain ⟨h, f⟩ := (Sys.Flight.start (c := .getRelationship "p" (some rA)) (askedFor_path H (.inl rfl) (.inl ⟨rfl, rfl⟩))).own_run
  have he : ((Call.getRelationship "p" (some rA)).prog (wEnv H)).run (wStore.putRel H "p" eA [1] 1) = (.ok (.relationship (some ⟨"p", rA, 1, [1]⟩)), wStore.putRel H "p" eA [1] 1) := by
    show serve (wEnv H) _ _ = _
    rw [serve_get eA_of, show (wEnv H).H = H from rfl]
    simp [Store.putRel, kvGet_put]
  rw [he] at f
  exact ⟨h, _, f⟩

/-- The ids listed. -/
example (H : String → Nat) : ∃ hist y, Sys.Flight (wEnv H) (· ∈ askedFor "p" rA) ⟨[], Store.empty⟩ .listPolicyIds hist y (.done (.ok (.ids ["p", "q"]))) := by
  obtain ⟨h, f⟩ := (Sys.Flight.start (c := .listPolicyIds) (askedFor_path H (.inl rfl) (.inl ⟨rfl, rfl⟩))).own_run
  exact ⟨h, _, f⟩

/-- Relationships found, with data of their own. -/
example : ∃ hist y l, Sys.Flight gEnv (· ∈ setup opRels [relA]) ⟨[], Store.empty⟩ (.findRelationshipRecords "p" (some allSelector)) hist y (.done (.ok (.records l))) ∧
    some ⟨"p", relA, 0, []⟩ ∈ l := by
  have h0 : Sys.Path gEnv (· ∈ setup opRels [relA]) ⟨[], Store.empty⟩ ⟨[], aStore⟩ := Sys.Path.refl.runCalls _ (fun _ h => h)
  obtain ⟨h, f⟩ := (Sys.Flight.start (c := .findRelationshipRecords "p" (some allSelector)) h0).own_run
  have he : ((Call.findRelationshipRecords "p" (some allSelector)).prog gEnv).run aStore = (.ok (.records [some ⟨"p", relA, 0, []⟩]), aStore) :=
    Prod.ext a_finds ((Call.prog_read gEnv rfl).run aStore)
  rw [he] at f
  exact ⟨h, _, _, f, List.mem_singleton.2 rfl⟩

/-- A policy read by GetPolicy. -/
example (H : String → Nat) : ∃ hist y, Sys.Flight (wEnv H) (· ∈ askedFor "p" rA) ⟨[], Store.empty⟩ (.getPolicy "p") hist y
    (.done (.ok (.policy (some ⟨docPolicy "p", [], 0⟩)))) := by
  obtain ⟨h, f⟩ := (Sys.Flight.start (c := .getPolicy "p") (askedFor_path H (.inl rfl) (.inl ⟨rfl, rfl⟩))).own_run
  exact ⟨h, _, f⟩

/-- A check that grants, arriving before the relationship it relies on is set. -/
example : ∃ hist y, Sys.Flight gEnv (fun d => d ∈ setup opRels [⟨some doc1, "a", some (.entity usr)⟩] ∨ d = setB) ⟨[], Store.empty⟩
    (.check 10 "p" (ask ⟨doc1, "b"⟩ usr)) hist y (.done (.ok (.authorized true))) ∧ (Call.check 10 "p" (ask ⟨doc1, "b"⟩ usr)).asks "p" (some usr) := by
  have h0 : Sys.Path gEnv (fun d => d ∈ setup opRels [⟨some doc1, "a", some (.entity usr)⟩] ∨ d = setB) ⟨[], Store.empty⟩ ⟨[], aStore⟩ :=
    Sys.Path.refl.runCalls _ (fun _ h => .inl h)
  obtain ⟨h1, f1⟩ := (Sys.Flight.start (c := .check 10 "p" (ask ⟨doc1, "b"⟩ usr)) h0).served setB (.inr rfl)
  rw [← abStore_set] at f1
  obtain ⟨h2, f2⟩ := f1.own_run
  have he : ((Call.check 10 "p" (ask ⟨doc1, "b"⟩ usr)).prog gEnv).run abStore = (.ok (.authorized true), abStore) :=
    Prod.ext ab_checks_b ((Call.prog_read gEnv rfl).run abStore)
  rw [he] at f2
  exact ⟨h2, _, f2, rfl, fun a h => by cases h; rfl⟩

end Zanzi
