import Verif.Lemmas.Busy
import Verif.Props.Cost

/-
Property C104: requests on a busy server.
-/

namespace Zanzi

open Spec

section
variable {env : Env} {A : Call → Prop} {x y : Sys} {c : Call} {n : Nat} {hist : List Store} {t : Prog Answer}

theorem Prog.Ends.over {I : Store → Prop} {F : Prop} {P : Nat → Answer → Prop} {N : Nat} (h : t.Ends I F (N - n) P) (hN : N ≤ n) : ∃ r, t = .done r := by
  cases t with
  | done r => exact ⟨r, rfl⟩
  | call op k => have := h.1; omega

/-- What C104 says of queries, as far as it holds: a Check, ExplainCheck or Expand on a server where other requests arrive, make their storage calls in between, fail and crash as they like
is over once it has made a number of storage calls itself that depends only on how much is stored meanwhile.  `L` holds every relationship the policy has at some moment of the
request, `m` and `k` bound the policy's relations and the stored relations an expression refers to.  The answer is not that the recursion bound of the model is exhausted.
Missing: if the others write new relationships without end (`C104_starved_violated`). -/
theorem C104_queries_partial (hx : Sys.Reachable env x) {fuel : Nat} {pid : String} (hc : searches c = some (fuel, pid)) {L : List Relationship} {m k : Nat}
    (hf : (L.length + 1) * m < fuel) (h : Sys.Attended env A x c n hist y t) (hl : ∀ s ∈ hist, Limited env.U pid L m k s) :
    n ≤ 1 + (L.length + 1) * m * k ∧ (n = 1 + (L.length + 1) * m * k → ∃ r, t = .done r) ∧ t ≠ .done .fuel := by
  have hget : ∀ {β : Type} {f : PolicyRecord → Prog β} {Q : Nat → β → Prop}, (∀ rec, rec.policy.id = pid → (rec.policy.resources.flatMap (·.relations)).length ≤ m →
      (∀ y t, DefinedBy env.U rec.policy y t → lookups t ≤ k) → (f rec).Ends (fun s => WF env s ∧ Limited env.U pid L m k s) False ((L.length + 1) * m * k) Q) →
      (GraphService.getPolicy pid >>= f).Ends (fun s => WF env s ∧ Limited env.U pid L m k s) False (1 + (L.length + 1) * m * k) Q := by
    intro β f Q hq
    refine .bind (P := fun j rec => j = (L.length + 1) * m * k ∧ rec.policy.id = pid ∧ (rec.policy.resources.flatMap (·.relations)).length ≤ m ∧
      ∀ y t, DefinedBy env.U rec.policy y t → lookups t ≤ k) ?_ (fun j rec hj => by rw [hj.1]; exact hq rec hj.2.1 hj.2.2.1 hj.2.2.2)
    refine .op_bind (o := .polGet pid) (Nat.le_add_right _ _) (fun s hs => ?_)
    show Prog.Ends _ _ (match kvGet s.policies pid with | none => Prog.lift (.err .policyNotFound) | some rec => pure rec : Prog PolicyRecord) _ _
    cases hp : kvGet s.policies pid with
    | none => trivial
    | some rec =>
      have hp' : policyAt s pid = some rec := by rw [policyAt_eq]; exact hp
      exact ⟨by omega, hs.1.policy_id hp', hs.2.2 rec hp'⟩
  have hsearch : ∀ (rec : PolicyRecord) (root goal : Option RelationNode), rec.policy.id = pid → (rec.policy.resources.flatMap (·.relations)).length ≤ m →
      (∀ y t, DefinedBy env.U rec.policy y t → lookups t ≤ k) →
      (searchGoal env fuel rec.policy root goal).Ends (fun s => WF env s ∧ Limited env.U pid L m k s) False ((L.length + 1) * m * k) (fun _ _ => True) :=
    fun rec root goal hid hm hk => searchGoal_ends (fun s hs r hr => hs.2.1 r (hid ▸ hr)) hk hm hf root goal (Nat.le_refl _)
  have hd : ∀ {α : Type} {o : Option α}, Res.deref o = .fuel → False := by intro α o h; cases o <;> cases h
  have hfac : ∀ {f : ExplainFormat}, serializerFactory f = .fuel → False := by intro f h; cases f <;> cases h
  have key : (c.prog env).Ends (fun s => WF env s ∧ Limited env.U pid L m k s) False (1 + (L.length + 1) * m * k) (fun _ _ => True) := by
    cases c with
    | check f q req =>
      cases hc
      refine .bind (P := fun _ _ => True) (hget (fun rec h1 h2 h3 => ?_)) (fun _ _ _ => trivial)
      exact .bind (P := fun _ _ => True) (.lift_bind hd (fun _ _ => hsearch rec _ _ h1 h2 h3)) (fun _ _ _ => trivial)
    | explainCheck f q req fmt =>
      cases hc
      refine .bind (P := fun _ _ => True) (.lift_bind hfac (fun _ _ => hget (fun rec h1 h2 h3 => ?_))) (fun _ _ _ => trivial)
      exact .bind (P := fun _ _ => True) (.lift_bind hd (fun _ _ => hsearch rec _ _ h1 h2 h3))
        (fun _ _ _ => .lift_bind (fun h => absurd h (serialize_ne_fuel _ _)) (fun _ _ => trivial))
    | expand f q root fmt =>
      cases hc
      refine .bind (P := fun _ _ => True) (.lift_bind hfac (fun _ _ => hget (fun rec h1 h2 h3 => ?_))) (fun _ _ _ => trivial)
      exact (hsearch rec _ _ h1 h2 h3).bind (fun _ _ _ => .lift_bind (fun h => absurd h (serialize_ne_fuel _ _)) (fun _ _ => trivial))
    | _ => cases hc
  obtain ⟨h1, h2⟩ := h.ends (fun s hs => ⟨h.flight.wf hx s hs, hl s hs⟩) key
  exact ⟨h1, fun hn => h2.over (Nat.le_of_eq hn.symm), fun ht => by rw [ht] at h2; exact h2⟩

/-- The recursion bound of the model has no influence: an answer other than its exhaustion is the answer for every larger bound, on the same schedule. -/
theorem C104_bound_irrelevant {fuel fuel' : Nat} {pid : String} (hc : searches c = some (fuel, pid)) (hf : fuel ≤ fuel') {r : Res Answer} (hr : r ≠ .fuel)
    (h : Sys.Attended env A x c n hist y (.done r)) : Sys.Attended env A x (withFuel fuel' c) n hist y (.done r) := by
  obtain ⟨t', h1, h2⟩ := h.cut (Call.prog_cut env hc hf) (fun e => hr (by cases e; rfl))
  cases h2 with
  | same => exact h1
  | fuel => exact absurd rfl hr

theorem find_ends {I : Store → Prop} {pid : String} {R : Nat} (hI : ∀ s, I s → (relationships s pid).length ≤ R) (sel : Option Selector) {n : Nat} (hn : 1 ≤ n) :
    (Repo.findRelationships pid sel).Ends I True n (fun j l => j = n - 1 ∧ l.length ≤ R) := by
  refine .op_bind (o := .edgeList pid) hn (fun s hs => ?_)
  refine .lift_bind (fun _ => trivial) (fun spec _ => .lift (fun _ => trivial) (fun l hl => ⟨rfl, ?_⟩))
  refine Nat.le_trans (filterRes_length hl) ?_
  have := hI s hs
  unfold relationships at this
  simpa [Op.exec] using this

theorem deleteOne_ends {I : Store → Prop} {pid : String} (r : Option Relationship) (n : Nat) (hn : 3 ≤ n) :
    (Repo.deleteRelationship env.H pid r).Ends I True n (fun m _ => n - 3 ≤ m) := by
  refine .lift_bind (fun _ => trivial) (fun _ _ => .lift_bind (fun _ => trivial) (fun i _ => ?_))
  refine .op_bind (o := .edgeGet pid _) (by omega) (fun s _ => ?_)
  refine .op_bind (o := .edgeDel pid _) (by omega) (fun s _ => ?_)
  refine .op_bind (o := .dataDel _) (by omega) (fun s _ => ?_)
  show n - 3 ≤ n - 1 - 1 - 1
  omega

theorem deleteAll_ends {I : Store → Prop} {pid : String} {R : Nat} (hI : ∀ s, I s → (relationships s pid).length ≤ R) (sel : Option Selector) {n : Nat}
    (hn : 1 + 3 * R ≤ n) : (Repo.deleteRelationships env.H pid sel).Ends I True n (fun _ _ => True) := by
  refine (find_ends hI sel (by omega)).bind (fun j l hj => ?_)
  exact (Prog.Ends.mapSlice (c := 3) l (fun r n hn => deleteOne_ends (some r) n hn) j (by omega)).bind (fun _ _ _ => trivial)

theorem getOne_ends {I : Store → Prop} {pid : String} (r : Option Relationship) (n : Nat) (hn : 1 ≤ n) :
    (Repo.getRelationship env.H pid r).Ends I True n (fun m _ => n - 1 ≤ m) := by
  refine .lift_bind (fun _ => trivial) (fun _ _ => .lift_bind (fun _ => trivial) (fun i _ => ?_))
  refine .op_bind (o := .dataGet _) hn (fun s _ => ?_)
  show Prog.Ends _ _ (match kvGet s.data _ with | none => pure none | some d => pure _ : Prog (Option RelationshipRecord)) _ _
  cases kvGet s.data (i.key env.H) <;> exact Nat.le_refl _

/-- C104 for every other request: it is over after a fixed number of storage calls of its own, or one or three for every relationship the policy has when they are listed, whatever the
other requests do; a bulk request does not chase relationships that are written after it listed them.  (A DumpRelationships makes two calls, and may then not return, C50.) -/
theorem C104_others {R N : Nat} {q : Option String} (hb : budget R c = some (N, q)) (h : Sys.Attended env A x c n hist y t)
    (hl : ∀ pid, q = some pid → ∀ s ∈ hist, (relationships s pid).length ≤ R) : n ≤ N ∧ (n = N → ∃ r, t = .done r) := by
  have key : (c.prog env).Ends (fun s => ∀ pid, q = some pid → (relationships s pid).length ≤ R) True N (fun _ _ => True) := by
    have ret : ∀ {α : Type} {p : Prog α} {f : α → Answer} {I : Store → Prop} {m : Nat}, p.Ends I True m (fun _ _ => True) →
        (p >>= fun a => (pure (f a) : Prog Answer)).Ends I True m (fun _ _ => True) := fun hp => hp.bind (fun _ _ _ => trivial)
    cases c with
    | createPolicy now d a =>
      cases hb
      refine ret (.lift_bind (fun _ => trivial) (fun p _ => .op_bind (o := .polGet _) (by omega) (fun s _ => ?_)))
      show Prog.Ends _ _ (match kvGet s.policies p.id with | some _ => _ | none => _ : Prog PolicyRecord) _ _
      cases kvGet s.policies p.id with
      | some _ => trivial
      | none =>
        refine .lift_bind (fun _ => trivial) (fun _ _ => .bind (P := fun _ _ => True) ?_ (fun _ _ _ => trivial))
        exact .op_bind (o := .polHas _) (by omega) (fun s _ => .op_bind (o := .polSet _) (by omega) (fun s _ => trivial))
    | updatePolicy d a =>
      cases hb
      refine ret (.lift_bind (fun _ => trivial) (fun p _ => .op_bind (o := .polGet _) (by omega) (fun s _ => ?_)))
      show Prog.Ends _ _ (match kvGet s.policies p.id with | none => _ | some _ => _ : Prog Unit) _ _
      cases kvGet s.policies p.id with
      | none => trivial
      | some _ =>
        refine .lift_bind (fun _ => trivial) (fun _ _ => .bind (P := fun _ _ => True) ?_ (fun _ _ _ => trivial))
        exact .op_bind (o := .polHas _) (by omega) (fun s _ => .op_bind (o := .polSet _) (by omega) (fun s _ => trivial))
    | deletePolicy id =>
      cases hb
      refine ret (.bind (P := fun m _ => 1 + 3 * R ≤ m) ?_ (fun m found hm => ?_))
      · refine .op_bind (o := .polHas id) (by omega) (fun s _ => ?_)
        show Prog.Ends _ _ (if (kvGet s.policies id).isSome then _ else _ : Prog Bool) _ _
        split
        · exact .op_bind (o := .polDel id) (by omega) (fun s _ => by show 1 + 3 * R ≤ 3 + 3 * R - 1 - 1; omega)
        · show 1 + 3 * R ≤ 3 + 3 * R - 1; omega
      · cases found
        · trivial
        · exact (deleteAll_ends (fun s hs => hs id rfl) _ hm).bind (fun _ _ _ => trivial)
    | getPolicy id => cases hb; exact ret (.op (Nat.le_refl _) (fun _ _ => trivial))
    | listPolicyIds => cases hb; exact ret (.op (Nat.le_refl _) (fun _ _ => trivial))
    | setRelationship now pid r a =>
      cases hb
      refine ret (.op_bind (o := .polGet pid) (by omega) (fun s _ => ?_))
      show Prog.Ends _ _ (match kvGet s.policies pid with | none => _ | some _ => _ : Prog Bool) _ _
      cases kvGet s.policies pid with
      | none => trivial
      | some _ =>
        refine .lift_bind (fun _ => trivial) (fun _ _ => .lift_bind (fun _ => trivial) (fun r _ => .lift_bind (fun _ => trivial) (fun i _ => ?_)))
        exact .op_bind (o := .edgeGet pid _) (by omega) (fun s _ => .op_bind (o := .edgeSet pid _ _) (by omega) (fun s _ =>
          .op_bind (o := .dataSet _) (by omega) (fun s _ => trivial)))
    | deleteRelationship pid r => cases hb; exact ret ((deleteOne_ends r 3 (Nat.le_refl _)).mono (fun _ _ _ _ => trivial))
    | getRelationship pid r => cases hb; exact ret ((getOne_ends r 1 (Nat.le_refl _)).mono (fun _ _ _ _ => trivial))
    | findRelationshipRecords pid sel =>
      cases hb
      refine ret (.op_bind (o := .polGet pid) (by omega) (fun s _ => ?_))
      show Prog.Ends _ _ (match kvGet s.policies pid with | none => _ | some _ => _ : Prog (List (Option RelationshipRecord))) _ _
      cases kvGet s.policies pid with
      | none => trivial
      | some _ =>
        refine .lift_bind (fun _ => trivial) (fun _ _ => (find_ends (R := R) (fun s hs => hs pid rfl) sel (by omega)).bind (fun j l hj => ?_))
        exact (Prog.Ends.mapSlice (c := 1) l (fun r n hn => getOne_ends (some r) n hn) j (by omega)).mono (fun _ _ _ _ => trivial)
    | deleteRelationships pid sel => cases hb; exact ret (deleteAll_ends (fun s hs => hs pid rfl) sel (Nat.le_refl _))
    | dumpRelationships fuel order pid f =>
      cases hb
      refine ret (.bind (P := fun m _ => m = 1) ?_ (fun m rec hm => ?_))
      · refine .op_bind (o := .polGet pid) (by omega) (fun s _ => ?_)
        show Prog.Ends _ _ (match kvGet s.policies pid with | none => _ | some _ => _ : Prog PolicyRecord) _ _
        cases kvGet s.policies pid with
        | none => trivial
        | some _ => exact rfl
      · subst hm
        refine .bind (P := fun _ _ => True) (.op_bind (o := .edgeList _) (by omega) (fun s _ => trivial)) (fun _ _ _ => .lift_bind (fun _ => trivial) (fun _ _ => ?_))
        cases f with
        | dot => exact .lift (fun _ => trivial) (fun _ _ => trivial)
        | unknown => trivial
    | _ => cases hb
  obtain ⟨h1, h2⟩ := h.ends (fun s hs pid hq => hl pid hq s hs) key
  exact ⟨h1, fun hn => h2.over (Nat.le_of_eq hn.symm)⟩

end

/-! ### Examples -/

theorem op_limited {hist : List Store} (hp : ∀ s ∈ hist, ∃ rec, policyAt s "p" = some rec ∧ rec.policy = gPolicy opRels)
    (hS : StoredOnce hist "p" = Present abStore "p") : ∀ s ∈ hist, Limited U0 "p" abRels 6 1 s := by
  intro s hs
  refine ⟨fun r hr => ?_, fun rec hrec => ?_⟩
  · have : StoredOnce hist "p" r := ⟨s, hs, hr⟩
    rw [hS, Present, abStore_rels] at this
    exact this
  · obtain ⟨rec', h1, h2⟩ := hp s hs
    rw [h1] at hrec
    cases hrec
    rw [h2]
    refine ⟨by decide, ?_⟩
    rintro y t ⟨d, ⟨r, hr, _, hd, _⟩, hden⟩
    have h := List.all_eq_true.1 (show ((gPolicy opRels).resources.flatMap (·.relations)).all (fun d => match getExpressionTree U0 d with
      | .ok t => decide (lookups t ≤ 1) | _ => true) = true by decide +kernel) d (List.mem_flatMap.2 ⟨r, hr, hd⟩)
    rw [(getExpressionTree_ok_iff U0 d t).2 hden] at h
    simpa using h

/-- A check overlapping a write meets the hypotheses, and is over within 19 calls. -/
example : ∃ n hist y, Sys.Attended gEnv (fun d => d = setB) ⟨[], aStore⟩ (.check 20 "p" (ask ⟨doc1, "any"⟩ usr)) n hist y (.done (.ok (.authorized true))) ∧
    (∀ s ∈ hist, Limited U0 "p" abRels 6 1 s) ∧ n ≤ 19 := by
  obtain ⟨hist, y, f, hp, hS⟩ := ab_overlap usr true ab_checks_any
  obtain ⟨n, h⟩ := Sys.Attended.of_flight f
  have h' := C104_bound_irrelevant (fuel := 10) (fuel' := 20) (pid := "p") rfl (by omega) (by simp) h
  have hl := op_limited hp hS
  exact ⟨n, hist, y, h', hl, (C104_queries_partial (env := gEnv) (L := abRels) (m := 6) (k := 1) (gStore_reachable _ _ _) rfl (by decide) h' hl).1⟩

/-- A write overlapping a write. -/
example : ∃ n hist y, Sys.Attended gEnv (fun d => d = setB) ⟨[], aStore⟩ setB n hist y ((setB.prog gEnv).next aStore) ∧ n ≤ 4 := by
  have f0 : Sys.Attended gEnv (fun d => d = setB) ⟨[], aStore⟩ setB 0 [aStore] ⟨[], aStore⟩ (setB.prog gEnv) := .start (y := ⟨[], aStore⟩) .refl
  have f1 : Sys.Attended gEnv (fun d => d = setB) ⟨[], aStore⟩ setB 1 [aStore, aStore] ⟨[], aStore⟩ ((setB.prog gEnv).next aStore) :=
    .own (op := .polGet "p") f0 (.ok (.polGet "p") aStore)
  obtain ⟨h2, f2⟩ := f1.served setB rfl
  exact ⟨1, h2, _, f2, (C104_others (R := 0) rfl f2 nofun).1⟩

/-! ### The violation -/

/-- The search has to look up one group after the other. -/
theorem chain_step {s : Store} (hs : WF gEnv s) (hp : kvGet s.policies "p" = some ⟨gPolicy [], [], 0⟩) {k : Nat}
    (hall : ∀ r, Present s "p" r ↔ ∃ i < k + 1, r = nested i (i + 1)) :
    ∃ ts, (buildTree gEnv (gPolicy []) (nthNode k)).run s = (.ok (.or .unknown (.leaf .unknown (nthNode (k + 1)) (reasonBuilder .this) :: ts)), s) := by
  have hy : (buildTree gEnv (gPolicy []) (nthNode k)).run s = (bld gEnv (gPolicy []) s (nthNode k), s) := buildTree_yields gEnv (gPolicy []) s (nthNode k)
  have hb := bld_set gEnv (gPolicy []) s ⟨nth k, "member"⟩
  have hlut : (newLut (gPolicy [])).getRelation "group" "member" = some (rel "member" "_this") := by decide +kernel
  have hexp : getExpressionTree gEnv.U (rel "member" "_this") = .ok (.rule .this) := by decide +kernel
  have hb' : bld gEnv (gPolicy []) s (nthNode k) = .ok (.or .unknown ((succs gEnv.H s "p" ⟨nth k, "member"⟩).map (fun n => .leaf .unknown n (reasonBuilder .this)))) := by
    rw [show nthNode k = USet.node ⟨nth k, "member"⟩ from rfl, hb]
    show (match (newLut (gPolicy [])).getRelation "group" "member" with
      | none => .err .relationNotFound
      | some d => getExpressionTree gEnv.U d >>= fun t => pBuild gEnv.H s "p" ⟨nth k, "member"⟩ t : Res GoalTree) = _
    rw [hlut]
    show (getExpressionTree gEnv.U (rel "member" "_this") >>= fun t => pBuild gEnv.H s "p" ⟨nth k, "member"⟩ t) = _
    rw [hexp]
    rfl
  have hclear : KeyClear gEnv.H (Present s "p") ⟨nth k, "member"⟩ := by
    intro r o hr ho hk
    obtain ⟨i, _, rfl⟩ := (hall r).1 hr
    cases ho
    have h1 := congrArg String.length (Hx_inj hk)
    simp [nth, nested, String.length_append] at h1
    exact ⟨by rw [h1], rfl⟩
  have hmem : ∀ n, n ∈ succs gEnv.H s "p" ⟨nth k, "member"⟩ ↔ n = nthNode (k + 1) := by
    intro n
    rw [mem_succs hs hclear]
    constructor
    · rintro ⟨sub, h, rfl⟩
      obtain ⟨i, _, he⟩ := (hall _).1 h
      have hi : nth k = nth i := by injection he with h1; injection h1
      have := nth_inj hi
      subst this
      injection he with _ _ h2
      injection h2 with h2
      rw [h2]
      rfl
    · rintro rfl
      exact ⟨_, (hall _).2 ⟨k, by omega, rfl⟩, rfl⟩
  rw [hy, hb']
  cases hl : succs gEnv.H s "p" ⟨nth k, "member"⟩ with
  | nil => have := (hmem (nthNode (k + 1))).2 rfl; rw [hl] at this; cases this
  | cons a l =>
    have : a = nthNode (k + 1) := (hmem a).1 (by rw [hl]; exact List.mem_cons_self)
    subst this
    exact ⟨_, rfl⟩

/-- Members of each group are members of the one before, as far as written. -/
def linkUp (d : Call) : Prop := ∃ i, d = .setRelationship 0 "p" (some (nested i (i + 1))) []

/-- C104 is violated by queries: while other requests keep nesting another group into the last one, a Check whether user:u is a member of the first group never answers. From a store with
no relationship, for every bound on its recursion there is a schedule of nothing but such writes on which the Check exhausts the bound, having made more storage calls of its own than
the bound. -/
theorem C104_starved_violated : Sys.Reachable gEnv ⟨[], gStore gEnv [] []⟩ ∧ relationships (gStore gEnv [] []) "p" = [] ∧ ∀ fuel, ∃ n hist y, fuel < n ∧
    Sys.Attended gEnv linkUp ⟨[], gStore gEnv [] []⟩ (.check fuel "p" (ask ⟨nth 0, "member"⟩ usr)) n hist y (.done .fuel) := by
  have h0 : kvGet (gStore gEnv [] []).policies "p" = some ⟨gPolicy [], [], 0⟩ := by decide +kernel
  have h1 : relationships (gStore gEnv [] []) "p" = [] := by decide +kernel
  refine ⟨gStore_reachable _ _ _, h1, fun fuel => ?_⟩
  have step : ∀ k, k ≤ fuel → ∃ (n : Nat) (hist : List Store) (s : Store) (reason : String) (seen : List Nat) (K : GoalTree × List Nat → Prog Answer), k < n ∧ WF gEnv s ∧
      kvGet s.policies "p" = some ⟨gPolicy [], [], 0⟩ ∧ (∀ r, Present s "p" r ↔ ∃ i < k, r = nested i (i + 1)) ∧ (∀ id ∈ seen, ∃ i < k, id = nthId i) ∧
      Sys.Attended gEnv linkUp ⟨[], gStore gEnv [] []⟩ (.check fuel "p" (ask ⟨nth 0, "member"⟩ usr)) n hist ⟨[], s⟩
        (searchPath gEnv (gPolicy []) (some (.entity (some usr))) (fuel - k) (nthNode k) reason seen >>= K) := by
    intro k
    induction k with
    | zero =>
      intro _
      have f0 : Sys.Attended gEnv linkUp ⟨[], gStore gEnv [] []⟩ (.check fuel "p" (ask ⟨nth 0, "member"⟩ usr)) 0 [gStore gEnv [] []] ⟨[], gStore gEnv [] []⟩
        (GraphService.getPolicy "p" >>= fun rec => searchPath gEnv rec.policy (some (.entity (some usr))) fuel (nthNode 0) "Request" [] >>= fun a =>
          (pure (.authorized (decide (a.1.result = .success))) : Prog Answer)) := by
        have := Sys.Attended.start (env := gEnv) (A := linkUp) (x := ⟨[], gStore gEnv [] []⟩) (c := .check fuel "p" (ask ⟨nth 0, "member"⟩ usr))
          (y := ⟨[], gStore gEnv [] []⟩) .refl
        refine cast (congrArg (Sys.Attended gEnv linkUp ⟨[], gStore gEnv [] []⟩ (.check fuel "p" (ask ⟨nth 0, "member"⟩ usr)) 0 [gStore gEnv [] []] ⟨[], gStore gEnv [] []⟩) ?_) this
        rw [Call.prog, GraphService.check, Prog.bind_assoc]
        refine congrArg _ (funext fun rec => ?_)
        rw [Prog.bind_assoc, GraphService.checkTree, ask, Res.deref_some, lift_ok_bind, searchGoal, Res.deref_some, lift_ok_bind, Prog.bind_assoc]
        · rfl
        · intro r h; cases h
      obtain ⟨h', f1⟩ := f0.own_bind (a := ⟨gPolicy [], [], 0⟩) (s' := gStore gEnv [] []) (getPolicy_yields (by rw [policyAt_eq]; exact h0))
      have hc : (calls (GraphService.getPolicy "p") (gStore gEnv [] [])).length = 1 := by
        show (_ :: calls (match kvGet (gStore gEnv [] []).policies "p" with | none => Prog.lift (.err .policyNotFound) | some rec => pure rec : Prog PolicyRecord) _).length = _
        rw [h0]
        rfl
      refine ⟨_, h', _, "Request", [], _, ?_, gStore_wf _ _ _, h0, fun r => ?_, nofun, f1⟩
      · rw [hc]; omega
      · rw [Present, h1]
        constructor
        · intro h; cases h
        · rintro ⟨i, hi, _⟩; omega
    | succ k ih =>
      intro hk
      obtain ⟨n, hist, s, reason, seen, K, hn, hs, hp, hall, hseen, f⟩ := ih (by omega)
      obtain ⟨hp', _, hall'⟩ := nested_stored (rec := ⟨gPolicy [], [], 0⟩) rfl [nested k (k + 1)] (fun r hr => ⟨_, _, List.mem_singleton.1 hr⟩) hs hp
        (fun r hr => by obtain ⟨i, _, h⟩ := (hall r).1 hr; exact ⟨_, _, h⟩)
      obtain ⟨h2, f2⟩ := f.served (.setRelationship 0 "p" (some (nested k (k + 1))) []) ⟨k, rfl⟩
      have hs' : WF gEnv (serve gEnv (.setRelationship 0 "p" (some (nested k (k + 1))) []) s).2 := hs.run _
      have hrun : (runCalls gEnv ([nested k (k + 1)].map (fun r => .setRelationship 0 "p" (some r) [])) s).2 =
        (serve gEnv (.setRelationship 0 "p" (some (nested k (k + 1))) []) s).2 := rfl
      rw [hrun] at hp' hall'
      generalize (serve gEnv (.setRelationship 0 "p" (some (nested k (k + 1))) []) s).2 = s' at *
      have hall2 : ∀ r, Present s' "p" r ↔ ∃ i < k + 1, r = nested i (i + 1) := by
        intro r
        rw [hall', hall, List.mem_singleton]
        constructor
        · rintro (⟨i, hi, h⟩ | h)
          · exact ⟨i, by omega, h⟩
          · exact ⟨k, by omega, h⟩
        · rintro ⟨i, hi, h⟩
          by_cases hik : i = k
          · subst hik; exact .inr h
          · exact .inl ⟨i, by omega, h⟩
      obtain ⟨ts, htree⟩ := chain_step hs' hp' hall2
      have hnot : nthId k ∉ seen := fun h => by
        obtain ⟨i, hi, he⟩ := hseen _ h
        have := nthId_inj he
        omega
      have hunf : searchPath gEnv (gPolicy []) (some (.entity (some usr))) (fuel - k) (nthNode k) reason seen =
          buildTree gEnv (gPolicy []) (nthNode k) >>= fun tree =>
            searchTree (searchPath gEnv (gPolicy []) (some (.entity (some usr))) (fuel - (k + 1))) tree (nthId k :: seen) >>= fun p =>
              (pure (.path p.1.result (nthNode k) reason p.1, p.2) : Prog (GoalTree × List Nat)) := by
        rw [show fuel - k = fuel - (k + 1) + 1 by omega, searchPath, nthNode_id, lift_ok_bind, if_neg hnot]
        rfl
      rw [hunf, Prog.bind_assoc] at f2
      obtain ⟨h3, f3⟩ := f2.own_bind htree
      rw [Prog.bind_assoc, searchTree, Prog.bind_assoc, searchOr, Prog.bind_assoc, searchTree] at f3
      have hc : (calls (buildTree gEnv (gPolicy []) (nthNode k)) s').length = 1 := by
        have hlut : (newLut (gPolicy [])).getRelation "group" "member" = some (rel "member" "_this") := by decide +kernel
        have hexp : getExpressionTree gEnv.U (rel "member" "_this") = .ok (.rule .this) := by decide +kernel
        have hbt : buildTree gEnv (gPolicy []) (nthNode k) = buildGoalTree gEnv.H "p" (some (nth k)) "member" (.rule .this) := by
          rw [nthNode, buildTree, Res.deref_some, lift_ok_bind]
          show (match (newLut (gPolicy [])).getRelation "group" "member" with
            | none => Prog.lift (.err .relationNotFound)
            | some d => Prog.lift (getExpressionTree gEnv.U d) >>= fun t => buildGoalTree gEnv.H "p" (some (nth k)) "member" t : Prog GoalTree) = _
          rw [hlut]
          show (Prog.lift (getExpressionTree gEnv.U (rel "member" "_this")) >>= _) = _
          rw [hexp, lift_ok_bind]
        rw [hbt]
        rfl
      exact ⟨_, h3, s', _, _, _, by rw [hc]; omega, hs', hp', hall2, fun id hid => by
        rcases List.mem_cons.1 hid with rfl | hid
        · exact ⟨k, by omega, rfl⟩
        · obtain ⟨i, hi, h⟩ := hseen id hid
          exact ⟨i, by omega, h⟩, f3⟩
  obtain ⟨n, hist, s, reason, seen, K, hn, _, _, _, _, f⟩ := step fuel (Nat.le_refl _)
  rw [Nat.sub_self, searchPath] at f
  exact ⟨n, hist, _, hn, f⟩

end Zanzi
