import Verif.Lemmas.Abstract
import Verif.Props.Unions

/-
Properties C77 and C78: answers depend on which relationships are stored, not on how they came to be stored, and only on
those of the usersets a request consults.
-/

namespace Zanzi

open Spec

section
variable {env : Env} {s s' : Store} {pid : String} {rec : PolicyRecord} {x : USet}

/-- Two sorted lists with the same members are equal. -/
theorem sorted_ext {V : Type} : ∀ {l l' : List (EdgeKey × V)}, KeysSorted edgeLt l → KeysSorted edgeLt l' → (∀ p, p ∈ l ↔ p ∈ l') → l = l'
  | [], [], _, _, _ => rfl
  | [], q :: l', _, _, h => by have := (h q).2 List.mem_cons_self; cases this
  | p :: l, [], _, _, h => by have := (h p).1 List.mem_cons_self; cases this
  | p :: l, q :: l', h1, h2, h => by
    have h1' := List.pairwise_cons.1 h1
    have h2' := List.pairwise_cons.1 h2
    have asym : ∀ {a b : EdgeKey}, edgeLt a b = true → edgeLt b a = true → False := by
      intro a b ha hb
      have := edgeLt_trans ha hb
      rw [edgeLt_irrefl] at this
      cases this
    have hpq : p = q := by
      rcases List.mem_cons.1 ((h p).1 List.mem_cons_self) with e | hp
      · exact e
      · rcases List.mem_cons.1 ((h q).2 List.mem_cons_self) with e | hq
        · exact e.symm
        · exact (asym (h1'.1 q hq) (h2'.1 p hp)).elim
    subst hpq
    have ht : l = l' := sorted_ext h1'.2 h2'.2 (fun r => by
      constructor
      · intro hr
        rcases List.mem_cons.1 ((h r).1 (List.mem_cons_of_mem _ hr)) with e | hr'
        · subst e; exact (asym (h1'.1 _ hr) (h1'.1 _ hr)).elim
        · exact hr'
      · intro hr
        rcases List.mem_cons.1 ((h r).2 (List.mem_cons_of_mem _ hr)) with e | hr'
        · subst e; exact (asym (h2'.1 _ hr) (h2'.1 _ hr)).elim
        · exact hr')
    rw [ht]

/-- A stored entry and the relationship it stands for. -/
theorem WF.mem_edges (hs : WF env s) {k : EdgeKey} {e : IRel} (hn : NormRel e) (hk : k = e.key env.H) :
    (k, e) ∈ s.edges pid ↔ Present s pid (fromInternal e) := by
  constructor
  · exact fun h => List.mem_map.2 ⟨_, h, rfl⟩
  · intro h
    obtain ⟨⟨k', e'⟩, h1, h2⟩ := List.mem_map.1 h
    have he := fromInternal_inj (hs.edgeNorm _ _ _ h1) hn h2
    have hk' := hs.edgeKey _ _ _ h1
    subst he
    rw [hk, ← hk']
    exact h1

/-- C77: the stored form of a policy's relationships is determined by which they are. -/
theorem WF.edges_of_present (hs : WF env s) (hs' : WF env s') (h : ∀ r, Present s pid r ↔ Present s' pid r) : s.edges pid = s'.edges pid := by
  refine sorted_ext (hs.edgeSorted pid) (hs'.edgeSorted pid) (fun p => ?_)
  obtain ⟨k, e⟩ := p
  constructor
  · intro hm
    have hn := hs.edgeNorm _ _ _ hm
    have hk := hs.edgeKey _ _ _ hm
    exact (hs'.mem_edges hn hk).2 ((h _).1 ((hs.mem_edges hn hk).1 hm))
  · intro hm
    have hn := hs'.edgeNorm _ _ _ hm
    have hk := hs'.edgeKey _ _ _ hm
    exact (hs.mem_edges hn hk).2 ((h _).2 ((hs'.mem_edges hn hk).1 hm))

/-- C77: two histories of calls after which a policy and the set of its relationships are the same give the same answers, errors included, to
every Check, ExplainCheck, Expand and DumpRelationships of it. -/
theorem C77_history (env : Env) (cs cs' : List Call) (pid : String)
    (hp : policyAt (runCalls env cs Store.empty).2 pid = policyAt (runCalls env cs' Store.empty).2 pid)
    (hr : ∀ r, Present (runCalls env cs Store.empty).2 pid r ↔ Present (runCalls env cs' Store.empty).2 pid r) (c : Call) (hc : c.graphQuery pid) :
    (serve env c (runCalls env cs Store.empty).2).1 = (serve env c (runCalls env cs' Store.empty).2).1 := by
  have hs := (WF.empty env).runCalls cs
  have hs' := (WF.empty env).runCalls cs'
  rw [policyAt_eq, policyAt_eq] at hp
  exact graphQuery_agree (fun rec h => hs.polKey _ _ (kvGet_mem h)) hp (hs.edges_of_present hs' hr) hc

/-! ### C78: relationships elsewhere -/

/-- Storage key of the relationships of a userset. -/
abbrev srcKey (H : String → Nat) (o : Entity) (rel : String) : Nat := H (o.resource ++ o.id ++ rel)

/-- Two stores agree on the relationships stored under the keys a request starting at `x` reads. -/
def AgreeFrom (env : Env) (p : Policy) (s s' : Store) (pid : String) (x : USet) : Prop :=
  ∀ y z r o, Reaches env.U p (Present s pid) x y.node → Consulted env.U p y z → r.object = some o →
    srcKey env.H o r.relation = srcKey env.H z.object z.relation → (Present s pid r ↔ Present s' pid r)

theorem succs_of_agree (hs : WF env s) (hs' : WF env s') {z : USet}
    (h : ∀ r o, r.object = some o → srcKey env.H o r.relation = srcKey env.H z.object z.relation → (Present s pid r ↔ Present s' pid r)) :
    succs env.H s pid z = succs env.H s' pid z := by
  unfold succs
  congr 2
  refine sorted_ext (List.Pairwise.sublist List.filter_sublist (hs.edgeSorted pid)) (List.Pairwise.sublist List.filter_sublist (hs'.edgeSorted pid)) (fun p => ?_)
  obtain ⟨k, e⟩ := p
  simp only [List.mem_filter, decide_eq_true_eq]
  refine and_congr_left (fun hkey => ?_)
  have hag : k = e.key env.H → (Present s pid (fromInternal e) ↔ Present s' pid (fromInternal e)) := by
    intro hk
    subst hk
    exact h _ ⟨e.source.resource, e.source.id⟩ rfl hkey
  constructor
  · intro hm
    have hn := hs.edgeNorm _ _ _ hm
    have hk := hs.edgeKey _ _ _ hm
    exact (hs'.mem_edges hn hk).2 ((hag hk).1 ((hs.mem_edges hn hk).1 hm))
  · intro hm
    have hn := hs'.edgeNorm _ _ _ hm
    have hk := hs'.edgeKey _ _ _ hm
    exact (hs.mem_edges hn hk).2 ((hag hk).2 ((hs'.mem_edges hn hk).1 hm))

/-- The answers to Check, ExplainCheck and Expand at `x` are the same in both stores. -/
def SameAnswers (env : Env) (s s' : Store) (pid : String) (x : USet) : Prop :=
  ∀ fuel,
    (∀ u, (serve env (.check fuel pid (ask x u)) s).1 = (serve env (.check fuel pid (ask x u)) s').1) ∧
    (∀ u f, (serve env (.explainCheck fuel pid (ask x u) f) s).1 = (serve env (.explainCheck fuel pid (ask x u) f) s').1) ∧
    (∀ f, (serve env (.expand fuel pid (some x.node) f) s).1 = (serve env (.expand fuel pid (some x.node) f) s').1)

theorem same_answers (hs : WF env s) (hs' : WF env s') (hp : policyAt s pid = some rec) (hp' : policyAt s' pid = some rec)
    (hk : KeysClear env.U env.H rec.policy (Present s pid) x) (ha : AgreeFrom env rec.policy s s' pid x) : SameAnswers env s s' pid x := by
  intro fuel
  have hid := hs.policy_id hp
  have hb : ∀ y : USet, Reaches env.U rec.policy (Present s pid) x y.node → bld env rec.policy s y.node = bld env rec.policy s' y.node := by
    intro y hy
    refine bld_congr (hs.policy_valid hp) (fun z _ hc => ?_)
    rw [hid]
    exact succs_of_agree hs hs' (fun r o => ha y z r o hy hc)
  have hq : ∀ g, pSearch env rec.policy s fuel (some x.node) g = pSearch env rec.policy s' fuel (some x.node) g := by
    intro g
    unfold pSearch
    rw [Res.deref_some]
    simp only [Res.bind_ok]
    rw [pPath_congr (build' := bld env rec.policy s') (P := Reaches env.U rec.policy (Present s pid) x) (fun n hn ht => ?_) fuel _ _ _ (fun _ _ => .start)]
    obtain ⟨o, rel, rfl⟩ := isTerminal_false ht
    cases o with
    | none => exact ⟨rfl, fun t h => by cases h⟩
    | some o =>
      refine ⟨hb ⟨o, rel⟩ hn, fun t hbt => ?_⟩
      obtain ⟨_, _, _, _, _, _, _, _, h⟩ := expand_facts hs hp hk hn ht hbt
      exact h
  refine ⟨fun u => ?_, fun u f => ?_, fun f => ?_⟩
  · rw [serve_check hp, serve_check hp', hq]
  · rw [serve_explainCheck hp, serve_explainCheck hp', hq]
  · rw [serve_expand hp, serve_expand hp', hq]

/-- The relationship is one of userset `z`. -/
def OfUserset (z : USet) (r : Relationship) : Prop := r.object = some z.object ∧ r.relation = z.relation

/-- C78: stores with the same policy that hold the same relationships of every userset the request consults answer it alike, whatever else they
hold. -/
theorem C78_local (hs : WF env s) (hs' : WF env s') (hp : policyAt s pid = some rec) (hp' : policyAt s' pid = some rec)
    (hk : KeysClear env.U env.H rec.policy (Present s pid) x) (hk' : KeysClear env.U env.H rec.policy (Present s' pid) x)
    (ha : ∀ y z r, Reaches env.U rec.policy (Present s pid) x y.node → Consulted env.U rec.policy y z → OfUserset z r →
      (Present s pid r ↔ Present s' pid r)) : SameAnswers env s s' pid x := by
  have hre : ∀ n, Reaches env.U rec.policy (Present s pid) x n → Reaches env.U rec.policy (Present s' pid) x n := by
    intro n h
    induction h with
    | start => exact .start
    | @step y n h1 h2 ih =>
      refine .step ih ?_
      rcases h2 with ⟨a, b, c⟩ | ⟨a, b⟩ | ⟨a, b, c, d⟩
      · exact .this a b ((ha y y _ h1 (.inl rfl) ⟨rfl, rfl⟩).1 c)
      · exact .cu a b
      · exact .arrow a b ((ha y _ _ h1 (.inr ⟨_, _, _, a, b, rfl⟩) ⟨rfl, rfl⟩).1 c) d
  refine same_answers hs hs' hp hp' hk (fun y z r o hy hz ho hkey => ?_)
  by_cases hof : OfUserset z r
  · exact ha y z r hy hz hof
  · have no : ∀ R, KeyClear env.H R z → ¬ R r := fun R hc hr => by
      obtain ⟨h1, h2⟩ := hc r o hr ho hkey
      exact hof ⟨by rw [ho, h1], h2⟩
    exact ⟨fun h => (no _ (hk y z hy hz) h).elim, fun h => (no _ (hk' y z (hre _ hy) hz) h).elim⟩

/-- The request sets or deletes relationship `r` of policy `pid`. -/
def Writes (pid : String) (r : Relationship) (c : Call) : Prop :=
  (∃ now a, c = .setRelationship now pid (some r) a) ∨ c = .deleteRelationship pid (some r)

theorem present_after_write (hs : WF env s) {r : Relationship} {c : Call} (hc : Writes pid r c) (q : Relationship)
    (hq : ∀ e, toInternal r = .ok e → relKey env.H q ≠ relKey env.H r) :
    policyAt (serve env c s).2 pid = policyAt s pid ∧ (Present (serve env c s).2 pid q ↔ Present s pid q) := by
  have hqr : ∀ e, toInternal r = .ok e → q ≠ r := fun e he h => hq e he (by rw [h])
  rcases hc with ⟨now, a, rfl⟩ | rfl
  · cases hres : serve env (.setRelationship now pid (some r) a) s with
    | mk res s1 =>
      cases res with
      | ok ans =>
        obtain ⟨r', e, rc, h1, he, _, hal, _, h5⟩ := serve_set_inv hres
        cases h1
        subst h5
        refine ⟨rfl, ?_⟩
        rw [present_putRel hs he (allowed_subject_set hal)]
        simp [hqr e he, hq e he]
      | _ => rw [serve_set_unchanged hres (by simp)]; exact ⟨rfl, Iff.rfl⟩
  · rcases toInternal_normal_or_panic r with ⟨e, he⟩ | he
    · rw [serve_delete he]
      refine ⟨rfl, ?_⟩
      rw [present_delRels hs]
      have := hq e he
      rw [relKey_of he] at this
      simp [this]
    · rw [serve_delete_panic he]
      exact ⟨rfl, Iff.rfl⟩

theorem relKey_src {q : Relationship} {e : IRel} {o : Entity} (he : toInternal q = .ok e) (ho : q.object = some o) (H : String → Nat) :
    (e.key H).1 = srcKey H o q.relation := by
  have := fromInternal_toInternal he
  subst this
  cases ho
  rfl

theorem policy_after_write {r : Relationship} {c : Call} (hc : Writes pid r c) : policyAt (serve env c s).2 pid = policyAt s pid := by
  rcases hc with ⟨now, a, rfl⟩ | rfl
  · cases hres : serve env (.setRelationship now pid (some r) a) s with
    | mk res s1 =>
      cases res with
      | ok ans =>
        obtain ⟨_, _, _, _, _, _, _, _, h5⟩ := serve_set_inv hres
        subst h5
        rfl
      | _ => rw [serve_set_unchanged hres (by simp)]
  · rcases toInternal_normal_or_panic r with ⟨e, he⟩ | he
    · rw [serve_delete he]; rfl
    · rw [serve_delete_panic he]

/-- C78 for a write: setting or deleting a relationship of a userset the request does not consult changes no answer to it. -/
theorem C78_write (hs : WF env s) (hp : policyAt s pid = some rec) {r : Relationship}
    (hk : ∀ y z, Reaches env.U rec.policy (Present s pid) x y.node → Consulted env.U rec.policy y z → KeyClear env.H (fun q => Present s pid q ∨ q = r) z)
    (hr : ∀ y z, Reaches env.U rec.policy (Present s pid) x y.node → Consulted env.U rec.policy y z → ¬ OfUserset z r)
    {c : Call} (hc : Writes pid r c) : SameAnswers env s (serve env c s).2 pid x := by
  have hpol : policyAt (serve env c s).2 pid = some rec := (policy_after_write hc).trans hp
  refine same_answers hs (hs.run c) hp hpol (fun y z hy hz r o h1 => hk y z hy hz r o (.inl h1)) (fun y z q o hy hz ho hkey => ?_)
  rcases Classical.em (RelationshipComplete q) with hqc | hqc
  rotate_left
  · exact ⟨fun h => (hqc (present_complete h)).elim, fun h => (hqc (present_complete h)).elim⟩
  obtain ⟨eq, heq⟩ := toInternal_complete.2 hqc
  refine (present_after_write hs hc q (fun e he hkk => ?_)).2.symm
  have hro : ∃ o', r.object = some o' := by
    have := fromInternal_toInternal he
    subst this
    exact ⟨_, rfl⟩
  obtain ⟨o', ho'⟩ := hro
  have hsrc : srcKey env.H o' r.relation = srcKey env.H z.object z.relation := by
    rw [← relKey_src he ho', ← relKey_of he, ← hkk, ← hkey, relKey_of heq, relKey_src heq ho]
  obtain ⟨h1, h2⟩ := hk y z hy hz r o' (.inr rfl) ho' hsrc
  exact hr y z hy hz ⟨by rw [ho', h1], h2⟩

end

/-! ### Cases -/

/-- Two histories of different length and order that end with the same relationships: both check alike. -/
def backCalls : List Call :=
  setup opRels [hold "b" "u", hold "a" "v", hold "a" "u"] ++ [.deleteRelationship "p" (some (hold "a" "v"))]

example : (serve gEnv (.check 10 "p" (ask ⟨doc1, "both"⟩ usr)) (runCalls gEnv backCalls Store.empty).2).1 =
    (serve gEnv (.check 10 "p" (ask ⟨doc1, "both"⟩ usr)) abStore).1 := by
  refine C77_history gEnv backCalls (setup opRels abRels) "p" ?_ (fun r => ?_) (.check 10 "p" (ask ⟨doc1, "both"⟩ usr)) (by simp [Call.graphQuery])
  · decide +kernel
  · have h1 : ∀ r ∈ relationships (runCalls gEnv backCalls Store.empty).2 "p", r ∈ relationships abStore "p" := by decide +kernel
    have h2 : ∀ r ∈ relationships abStore "p", r ∈ relationships (runCalls gEnv backCalls Store.empty).2 "p" := by decide +kernel
    exact ⟨h1 r, h2 r⟩

/-- The same relation on another document. -/
def elsewhere : Relationship := ⟨some ⟨"doc", "2"⟩, "a", some (.entity usr)⟩

theorem both_doc1 {y z : USet} (hy : Reaches U0 (gPolicy opRels) (Present abStore "p") ⟨doc1, "both"⟩ y.node)
    (hz : Consulted U0 (gPolicy opRels) y z) : z.object = doc1 := by
  have hm := reaches_list (env := gEnv) (rec := ⟨gPolicy opRels, [], 0⟩) (L := abNodes "both") (gStore_wf _ _ _) abStore_pol (by simp [abNodes, USet.node])
    (by decide +kernel) hy
  have hyo : y.object = doc1 := by
    obtain ⟨o, rl⟩ := y
    simp [abNodes, USet.node] at hm
    rcases hm with h | h | h <;> simp_all
  rcases hz with rfl | ⟨t, a, b, _, _, rfl⟩
  · exact hyo
  · exact hyo

/-- The request about doc:1 does not consult doc:2; its answers survive writing there. -/
example : SameAnswers gEnv abStore (serve gEnv (.setRelationship 0 "p" (some elsewhere) []) abStore).2 "p" ⟨doc1, "both"⟩ ∧
    Present (serve gEnv (.setRelationship 0 "p" (some elsewhere) []) abStore).2 "p" elsewhere := by
  constructor
  · refine C78_write (rec := ⟨gPolicy opRels, [], 0⟩) (r := elsewhere) (gStore_wf _ _ _) abStore_pol (fun y z hy hz => ?_) (fun y z hy hz h => ?_) (.inl ⟨_, _, rfl⟩)
    · rintro q o (hq | rfl) ho hkey
      · exact (ab_clear "both" (.inl rfl)).1 y z hy hz q o hq ho hkey
      · cases ho
        have := Hx_inj hkey
        rw [both_doc1 hy hz] at this
        have := congrArg String.toList this
        simp [doc1, elsewhere] at this
    · have := h.1
      rw [both_doc1 hy hz] at this
      simp [elsewhere, doc1] at this
  · show elsewhere ∈ relationships _ "p"
    decide +kernel

/-- Stores that differ on doc:2 answer requests about doc:1 alike. -/
example : SameAnswers gEnv abStore (gStore gEnv opRels (elsewhere :: abRels)) "p" ⟨doc1, "both"⟩ := by
  have hpol : policyAt (gStore gEnv opRels (elsewhere :: abRels)) "p" = some ⟨gPolicy opRels, [], 0⟩ := by decide +kernel
  have hrels : relationships (gStore gEnv opRels (elsewhere :: abRels)) "p" = abRels ++ [elsewhere] := by decide +kernel
  refine C78_local (env := gEnv) (rec := ⟨gPolicy opRels, [], 0⟩) (gStore_wf _ _ _) (gStore_wf _ _ _) abStore_pol hpol (ab_clear "both" (.inl rfl)).1
    (clear_of (env := gEnv) (L := abNodes "both") (gStore_wf _ _ _) hpol (by simp [abNodes, USet.node]) (by decide +kernel)).1 (fun y z r hy hz hr => ?_)
  have hne : r ≠ elsewhere := by
    rintro rfl
    have := hr.1
    rw [both_doc1 hy hz] at this
    simp [elsewhere, doc1] at this
  unfold Present
  rw [abStore_rels, hrels]
  simp [hne]

end Zanzi
