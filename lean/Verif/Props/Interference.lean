import Verif.Lemmas.Interfere
import Verif.Props.Check

/-
Properties C60–C65: what requests answer and leave behind while other requests run.
Specification: Spec/Sched.lean, Spec/Graph.lean.
-/

namespace Zanzi

open Spec Prog

/-! ### C60: no access out of thin air -/

/-- Granting answers come from stored relationships that name the subject. -/
theorem grants_named {env : Env} {I : Store → Prop} (hwf : ∀ s, I s → WF env s) {c : Call} {pid : String} {g : Option Entity} (hc : c.asks pid g)
    {a : Answer} (h : (c.prog env).Reads I (.ok a)) (ha : a.grants) : ∃ u, g = some u ∧ ∃ s r, I s ∧ Present s pid r ∧ NamesUser u r := by
  have key : ∀ (q : AccessRequest) (s : Store) (rec : PolicyRecord) (t : GoalTree) (seen : List Nat), I s → policyAt s pid = some rec → q.subject = g →
      Ev env.H (RBuilds env rec.policy I) (some (.entity q.subject)) (.path (.entitySet q.object q.relation) "Request") [] (.tree t) seen →
      t.result = .success → ∃ u, g = some u ∧ ∃ s r, I s ∧ Present s pid r ∧ NamesUser u r := by
    intro q s rec t seen hs hp hq hev ht
    obtain ⟨u, hu, s', r, sub, h1, h2, h3, h4⟩ := ev_thin_air ((hwf s hs).policy_valid hp).1 ⟨s, hs⟩ hev ht
    rw [(hwf s hs).policy_id hp] at h2
    refine ⟨u, hq ▸ hu, s', r, h1, h2, ?_⟩
    rcases h4 with rfl | rfl
    · exact .inl h3
    · exact .inr h3
  cases c <;> simp only [Call.asks] at hc
  case check fuel q req =>
    obtain ⟨rfl, hq⟩ := hc
    obtain ⟨b, _, hb⟩ := h.map_ok
    subst hb
    obtain ⟨s, rec, q, t, seen, hs, hp, hr, hev, hb⟩ := check_reads h
    rw [show b = true from ha] at hb
    exact key q s rec t seen hs hp (hq _ hr) hev (by simpa using hb.symm)
  case explainCheck fuel q req f =>
    obtain ⟨rfl, hq⟩ := hc
    obtain ⟨b, _, hb⟩ := Reads.map_ok (p := GraphService.explainCheck env fuel q req f) (f := fun x => .explained x.1 x.2.1 x.2.2) h
    subst hb
    obtain ⟨s, rec, q, t, seen, hs, hp, hr, hev, hb⟩ := explain_reads h
    rw [show b.2.1 = true from ha] at hb
    exact key q s rec t seen hs hp (hq _ hr) hev (by simpa using hb.symm)

/-- C60: a Check or ExplainCheck that grants names a subject, and some relationship stored in that policy names this very subject, or everyone of its
resource.  It holds in every state a server can reach, for every policy (with `&`, `-`, cycles, dangling names), every hash, colliding or not, and every request, malformed or not. -/
theorem C60_no_thin_air (env : Env) (y : Sys) (hy : Sys.Reachable env y) (c : Call) (pid : String) (g : Option Entity) (hc : c.asks pid g) (a : Answer)
    (h : (serve env c y.store).1 = .ok a) (ha : a.grants) : ∃ u r, g = some u ∧ Present y.store pid r ∧ NamesUser u r := by
  have hr : (c.prog env).ReadOnly := Call.prog_read env (by cases c <;> first | rfl | exact hc.elim)
  have h1 : (c.prog env).Reads (fun s => s = y.store) (.ok a) := h ▸ Reads.of_run hr rfl
  obtain ⟨u, hu, s, r, rfl, h2, h3⟩ := grants_named (fun s hs => hs ▸ hy.wf.1) hc h1 ha
  exact ⟨u, r, hu, h2, h3⟩

/-- C60 among other requests: whatever other requests do meanwhile to the policy and its relationships, the relationship was stored at some moment
between the arrival of the request and its answer. -/
theorem C60_no_thin_air_concurrent (env : Env) (x : Sys) (hx : Sys.Reachable env x) (c : Call) (pid : String) (g : Option Entity) (hc : c.asks pid g)
    (hist : List Store) (y : Sys) (a : Answer) (h : Sys.Flight env (fun _ => True) x c hist y (.done (.ok a))) (ha : a.grants) :
    ∃ u s r, g = some u ∧ s ∈ hist ∧ Present s pid r ∧ NamesUser u r := by
  have h1 := h.reads (I := (· ∈ hist)) (fun _ h => h) .done
  obtain ⟨u, hu, s, r, hs, h2, h3⟩ := grants_named (h.wf hx) hc h1 ha
  exact ⟨u, s, r, hu, hs, h2, h3⟩

theorem gStore_reachable (env : Env) (rels : List Relation) (rs : List Relationship) : Sys.Reachable env ⟨[], gStore env rels rs⟩ := by
  rw [Sys.reachable_iff]
  exact Sys.Path.refl.runCalls _ (fun _ _ => trivial)

/-- `abStore` before user:u got relation b. -/
def aStore : Store := gStore gEnv opRels [⟨some doc1, "a", some (.entity usr)⟩]

/-- Giving user:u relation b. -/
def setB : Call := .setRelationship 0 "p" (some ⟨some doc1, "b", some (.entity usr)⟩) []

theorem abStore_set : abStore = (serve gEnv setB aStore).2 := by
  unfold abStore aStore gStore setup abRels
  simp only [List.map_cons, List.map_nil, runCalls_cons, runCalls_nil]
  rfl

theorem ab_checks_any : Checks gEnv abStore 10 "p" ⟨doc1, "any"⟩ usr true := checks_of (by decide +kernel)
theorem ab_checks_b : Checks gEnv abStore 10 "p" ⟨doc1, "b"⟩ usr true := checks_of (by decide +kernel)

/-- A check that arrives before relation b is given and answers after it. -/
theorem ab_flight : ∃ hist, Sys.Flight gEnv (fun d => d = setB) ⟨[], aStore⟩ (.check 10 "p" (ask ⟨doc1, "b"⟩ usr)) hist ⟨[], abStore⟩ (.done (.ok (.authorized true))) := by
  obtain ⟨h1, f1⟩ := Sys.Flight.served (.start (c := .check 10 "p" (ask ⟨doc1, "b"⟩ usr)) (.refl (x := ⟨[], aStore⟩) (env := gEnv) (A := fun d => d = setB))) setB rfl
  rw [← abStore_set] at f1
  obtain ⟨h2, f2⟩ := f1.own_run
  have he : ((Call.check 10 "p" (ask ⟨doc1, "b"⟩ usr)).prog gEnv).run abStore = (.ok (.authorized true), abStore) :=
    Prod.ext ab_checks_b ((Call.prog_read gEnv rfl).run abStore)
  rw [he] at f2
  exact ⟨h2, f2⟩

theorem Sys.Flight.mono {env : Env} {A B : Call → Prop} (hab : ∀ d, A d → B d) {x y : Sys} {c : Call} {h : List Store} {t : Prog Answer}
    (hf : Sys.Flight env A x c h y t) : Sys.Flight env B x c h y t := by
  induction hf with
  | start hp => exact .start (hp.mono hab)
  | own _ hs ih => exact .own ih hs
  | arrive d hd _ ih => exact .arrive d (hab _ hd) ih
  | op _ hs ih => exact .op ih hs
  | leave _ ih => exact .leave ih

example : Sys.Reachable gEnv ⟨[], abStore⟩ ∧ (Call.check 10 "p" (ask ⟨doc1, "any"⟩ usr)).asks "p" (some usr) ∧
    (serve gEnv (.check 10 "p" (ask ⟨doc1, "any"⟩ usr)) abStore).1 = .ok (.authorized true) ∧ (Answer.authorized true).grants :=
  ⟨gStore_reachable _ _ _, ⟨rfl, fun a h => by cases h; rfl⟩, ab_checks_any, rfl⟩

example : Sys.Reachable gEnv ⟨[], aStore⟩ ∧ ∃ hist y, Sys.Flight gEnv (fun _ => True) ⟨[], aStore⟩ (.check 10 "p" (ask ⟨doc1, "b"⟩ usr)) hist y
    (.done (.ok (.authorized true))) := by
  obtain ⟨h, f⟩ := ab_flight
  exact ⟨gStore_reachable _ _ _, h, _, f.mono (fun _ _ => trivial)⟩

/-! ### C61: offboarding -/

/-- No stored relationship of the policy names the user, no request sets one: no answer grants the user anything. -/
theorem C61_unnamed_never_granted (env : Env) (x : Sys) (hx : Sys.Reachable env x) (hidle : x.threads = []) (pid : String) (u : Entity)
    (h0 : ∀ r, Present x.store pid r → ¬ NamesUser u r) (c : Call) (hc : c.asks pid (some u)) (hist : List Store) (y : Sys) (a : Answer)
    (h : Sys.Flight env (fun d => ∀ now r b, d = .setRelationship now pid (some r) b → ¬ NamesUser u r) x c hist y (.done (.ok a))) : ¬ a.grants := by
  intro ha
  have h1 := h.reads (I := (· ∈ hist)) (fun _ h => h) .done
  obtain ⟨u', hu, s, r, hs, h2, h3⟩ := grants_named (h.wf hx) hc h1 ha
  obtain rfl := Option.some.inj hu
  exact h.keeps (I := fun s => ∀ r, Present s pid r → ¬ NamesUser _ r) (P := noNaming pid _) (fun o s ho hs => noNaming_exec ho hs)
    (fun d hd => prog_noNaming env hd) (prog_noNaming env (fun now r b he => by rw [he] at hc; exact hc.elim)) h0 (by simp [hidle]) s hs r h2 h3

/-- C61: once DeleteRelationships with a selector that covers every relationship naming the user has answered, no Check or ExplainCheck of that policy grants the user
anything, through any later requests — policy updates, concurrent requests, storage failures, crashes — as long as none of them sets a relationship that names the user. -/
theorem C61_offboarding (env : Env) (x : Sys) (hx : Sys.Reachable env x) (hidle : x.threads = []) (pid : String) (u : Entity) (sel : Selector)
    (hsel : SelectorComplete sel) (hset : SelectorSet sel) (hcover : ∀ r, Present x.store pid r → NamesUser u r → Matches sel r)
    (c : Call) (hc : c.asks pid (some u)) (hist : List Store) (y : Sys) (a : Answer)
    (h : Sys.Flight env (fun d => ∀ now r b, d = .setRelationship now pid (some r) b → ¬ NamesUser u r)
      ⟨[], (serve env (.deleteRelationships pid (some sel)) x.store).2⟩ c hist y (.done (.ok a))) : ¬ a.grants := by
  obtain ⟨l, s', h1, _, _, h2, _⟩ := C19_bulk_delete_partial env x.store pid sel hx.wf.1 hsel hset
  rw [h1] at h
  have hr : Sys.Reachable env ⟨[], s'⟩ := by
    have hp : Sys.Path env (fun _ => True) x ⟨[], (serve env (.deleteRelationships pid (some sel)) x.store).2⟩ := by
      obtain ⟨ts, s⟩ := x
      dsimp only at hidle
      subst hidle
      exact Sys.Path.refl.serve _ trivial
    rw [h1] at hp
    exact hp.reachable hx
  refine C61_unnamed_never_granted env _ hr rfl pid u (fun r hp hn => ?_) c hc hist y a h
  obtain ⟨h3, h4⟩ := (h2 r).1 hp
  exact h4 (hcover r h3 hn)

/-- user:v -/
def usv : Entity := ⟨"user", "v"⟩
/-- Giving user:v relation b. -/
def setV : Call := .setRelationship 0 "p" (some ⟨some doc1, "b", some (.entity usv)⟩) []

example : Sys.Reachable gEnv ⟨[], abStore⟩ ∧ SelectorComplete allSelector ∧ SelectorSet allSelector ∧
    (∃ r, Present abStore "p" r ∧ NamesUser usr r) ∧ (∀ r, Present abStore "p" r → NamesUser usr r → Matches allSelector r) ∧
    ∃ hist y, Sys.Flight gEnv (fun d => ∀ now r b, d = .setRelationship now "p" (some r) b → ¬ NamesUser usr r)
      ⟨[], (serve gEnv (.deleteRelationships "p" (some allSelector)) abStore).2⟩ (.check 10 "p" (ask ⟨doc1, "any"⟩ usr)) hist y
      (.done (.ok (.authorized false))) := by
  refine ⟨gStore_reachable _ _ _, allSelector_complete.1, allSelector_complete.2, ⟨_, ab_present.2 (.inl rfl), .inl rfl⟩, fun r _ _ => matches_all r, ?_⟩
  obtain ⟨h1, f1⟩ := Sys.Flight.served (.start (c := .check 10 "p" (ask ⟨doc1, "any"⟩ usr)) (.refl (env := gEnv)
    (x := ⟨[], (serve gEnv (.deleteRelationships "p" (some allSelector)) abStore).2⟩)
    (A := fun d => ∀ now r b, d = .setRelationship now "p" (some r) b → ¬ NamesUser usr r))) setV
    (by intro now r b h; cases h; rintro (h | h) <;> exact absurd h (by decide))
  obtain ⟨h2, f2⟩ := f1.own_run
  have he : (((Call.check 10 "p" (ask ⟨doc1, "any"⟩ usr)).prog gEnv).run
      (serve gEnv setV (serve gEnv (.deleteRelationships "p" (some allSelector)) abStore).2).2).1 = .ok (.authorized false) :=
    checks_of (by decide +kernel)
  rw [he] at f2
  exact ⟨h2, _, f2⟩

/-! ### C62: other policies are invisible -/

/-- C62: a Check, ExplainCheck, Expand, DumpRelationships or GetPolicy that runs while any number of requests addressed to other policies are served answers exactly as on
the store as it was, unless a storage call fails, which it reports. -/
theorem C62_foreign_requests_invisible (env : Env) (s : Store) (hs : Sys.Reachable env ⟨[], s⟩) (pid : String) (c : Call) (hc : c.graphQuery pid)
    (hist : List Store) (y : Sys) (r : Res Answer) (h : Sys.Flight env (fun d => d.target env ≠ some pid) ⟨[], s⟩ c hist y (.done r)) :
    r = (serve env c s).1 ∨ r = .err .store := by
  have hr : (c.prog env).ReadOnly := Call.prog_read env (by cases c <;> first | rfl | exact hc.elim)
  have hk := h.keeps (I := fun z => kvGet z.policies pid = kvGet s.policies pid ∧ z.edges pid = s.edges pid) (P := foreignOp pid)
    (fun o z ho hz => ⟨(foreignOp_exec o z ho).1.trans hz.1, (foreignOp_exec o z ho).2.trans hz.2⟩) (fun d hd => Call.prog_foreign hd) (read_foreign hr)
    ⟨rfl, rfl⟩ (by simp)
  exact graphQuery_const (I := (· ∈ hist)) hs.wf.1 hc (fun z hz => (hk z hz).1) (fun z hz => (hk z hz).2) _ (h.reads (fun _ h => h) .done)

example : Sys.Reachable gEnv ⟨[], abStore⟩ ∧ (Call.check 10 "p" (ask ⟨doc1, "any"⟩ usr)).graphQuery "p" ∧
    ∃ hist y, Sys.Flight gEnv (fun d => d.target gEnv ≠ some "p") ⟨[], abStore⟩ (.check 10 "p" (ask ⟨doc1, "any"⟩ usr)) hist y (.done (.ok (.authorized true))) := by
  refine ⟨gStore_reachable _ _ _, rfl, ?_⟩
  obtain ⟨h1, f1⟩ := Sys.Flight.served (.start (c := .check 10 "p" (ask ⟨doc1, "any"⟩ usr)) (.refl (env := gEnv) (x := ⟨[], abStore⟩)
    (A := fun d => d.target gEnv ≠ some "p"))) (.createPolicy 5 (some (.policy (docPolicy "q"))) []) (by decide)
  obtain ⟨h2, f2⟩ := f1.own_run
  have he : (((Call.check 10 "p" (ask ⟨doc1, "any"⟩ usr)).prog gEnv).run
      (serve gEnv (.createPolicy 5 (some (.policy (docPolicy "q"))) []) abStore).2).1 = .ok (.authorized true) :=
    checks_of (by decide +kernel)
  rw [he] at f2
  exact ⟨h2, _, f2⟩

/-! ### C63: checks that overlap writes -/

section
variable {env : Env} {A : Call → Prop} {x : Sys} {fuel : Nat} {pid : String} {g : USet} {u : Entity} {hist : List Store} {y : Sys} {b : Bool} {p : Policy}

/-- Full claim: a Check that overlaps writes to its policy answers as it would have at some moment while it ran.  What holds, if the policy itself is not changed meanwhile and storage keys do not collide: if it grants,
the access follows (differences aside) from relationships each of which was stored at some moment while the check ran.  Missing: that they were stored at the same moment (`C63_new_enemy_violated`). -/
theorem C63_granted_partial (hx : Sys.Reachable env x) (h : Sys.Flight env A x (.check fuel pid (ask g u)) hist y (.done (.ok (.authorized true))))
    (hp : ∀ s ∈ hist, ∃ rec, policyAt s pid = some rec ∧ rec.policy = p) (hk : KeysClear env.U env.H p (StoredOnce hist pid) g) :
    GrantedAtMost env.U p (StoredOnce hist pid) u g := by
  have hwf := h.wf hx
  obtain ⟨s, rec, q, t, seen, hs, h1, hq, hev, hb⟩ := check_reads (h.reads (I := (· ∈ hist)) (fun _ h => h) .done)
  cases hq
  obtain ⟨rec', h2, rfl⟩ := hp s hs
  rw [h1] at h2
  cases h2
  exact ev_above hwf ⟨s, hs⟩ ((hwf s hs).policy_id h1) ((hwf s hs).policy_valid h1).1 (fun s r hs hr => ⟨s, hs, hr⟩) hk hev (by simpa using hb.symm)

/-- The other direction of `C63_granted_partial`, for union-only expressions: if it denies, the access does not follow from the relationships that were stored all the time.  Missing: that it followed at no
moment (`C63_moved_user_violated`). -/
theorem C63_denied_partial (hx : Sys.Reachable env x) (h : Sys.Flight env A x (.check fuel pid (ask g u)) hist y (.done (.ok (.authorized false))))
    (hp : ∀ s ∈ hist, ∃ rec, policyAt s pid = some rec ∧ rec.policy = p) (hk : KeysClear env.U env.H p (StoredOnce hist pid) g)
    (hi : IdsClear env.U env.H p (StoredOnce hist pid) g) (hun : ExprsFrom env.U p (StoredOnce hist pid) g UnionOnly) :
    ¬ Granted env.U p (StoredThroughout hist pid) u g := by
  intro hg
  have hwf := h.wf hx
  obtain ⟨s, rec, q, t, seen, hs, h1, hq, hev, hb⟩ := check_reads (h.reads (I := (· ∈ hist)) (fun _ h => h) .done)
  cases hq
  obtain ⟨rec', h2, rfl⟩ := hp s hs
  rw [h1] at h2
  cases h2
  have := ev_below hwf ⟨s, hs⟩ ((hwf s hs).policy_id h1) ((hwf s hs).policy_valid h1).1 (fun s r hs hr => ⟨s, hs, hr⟩) hk hi hun
    (fun s r hs hr => hr s hs) hev hg
  simp [this] at hb

end

/-- A check of `any` that overlaps the giving of relation b, with the stores passed. -/
theorem ab_overlap (v : Entity) (b : Bool) (hb : Checks gEnv abStore 10 "p" ⟨doc1, "any"⟩ v b) :
    ∃ hist y, Sys.Flight gEnv (fun d => d = setB) ⟨[], aStore⟩ (.check 10 "p" (ask ⟨doc1, "any"⟩ v)) hist y (.done (.ok (.authorized b))) ∧
      (∀ s ∈ hist, ∃ rec, policyAt s "p" = some rec ∧ rec.policy = gPolicy opRels) ∧ StoredOnce hist "p" = Present abStore "p" := by
  have f0 : Sys.Flight gEnv (fun d => d = setB) ⟨[], aStore⟩ (.check 10 "p" (ask ⟨doc1, "any"⟩ v)) [aStore] _ _ := .start (y := ⟨[], aStore⟩) .refl
  obtain ⟨h1, f1, g1⟩ := f0.served_trace setB rfl
  obtain ⟨h2, f2, g2⟩ := f1.own_reads (Call.prog_read _ rfl)
  rw [← abStore_set] at f2 g2
  rw [show (((Call.check 10 "p" (ask ⟨doc1, "any"⟩ v)).prog gEnv).run abStore).1 = _ from hb] at f2
  have key : ∀ s ∈ aStore :: abStore :: (setB.prog gEnv).trace aStore, policyAt s "p" = some ⟨gPolicy opRels, [], 0⟩ ∧ ∀ r, Present s "p" r → Present abStore "p" r := by
    intro s hs
    have h := List.all_eq_true.1 (show (aStore :: abStore :: (setB.prog gEnv).trace aStore).all (fun s => decide (policyAt s "p" = some ⟨gPolicy opRels, [], 0⟩) &&
      (relationships s "p").all (fun r => decide (r ∈ abRels))) = true by decide +kernel) s hs
    rw [Bool.and_eq_true] at h
    refine ⟨by simpa using h.1, fun r hr => ?_⟩
    have := List.all_eq_true.1 h.2 r hr
    unfold Present
    rw [abStore_rels]
    simpa using this
  have hall : ∀ s ∈ h2, s ∈ aStore :: abStore :: (setB.prog gEnv).trace aStore := by
    intro s hs
    rcases g2 s hs with hs | rfl
    · rcases g1 s hs with hs | hs
      · rw [List.mem_singleton.1 hs]; exact List.mem_cons_self
      · exact List.mem_cons_of_mem _ (List.mem_cons_of_mem _ hs)
    · exact List.mem_cons_of_mem _ List.mem_cons_self
  refine ⟨h2, _, f2, fun s hs => ⟨_, (key s (hall s hs)).1, rfl⟩, ?_⟩
  funext r
  refine propext ⟨?_, fun h => ⟨abStore, f2.hist.1, h⟩⟩
  rintro ⟨s, hs, hr⟩
  exact (key s (hall s hs)).2 r hr

example : ∃ hist y, Sys.Flight gEnv (fun d => d = setB) ⟨[], aStore⟩ (.check 10 "p" (ask ⟨doc1, "any"⟩ usr)) hist y (.done (.ok (.authorized true))) ∧
    GrantedAtMost U0 (gPolicy opRels) (StoredOnce hist "p") usr ⟨doc1, "any"⟩ := by
  obtain ⟨hist, y, f, hp, hS⟩ := ab_overlap usr true ab_checks_any
  refine ⟨hist, y, f, C63_granted_partial (env := gEnv) (gStore_reachable _ _ _) f hp ?_⟩
  rw [hS]
  exact (ab_clear _ (.inr (.inr rfl))).1

example : ∃ hist y, Sys.Flight gEnv (fun d => d = setB) ⟨[], aStore⟩ (.check 10 "p" (ask ⟨doc1, "any"⟩ usv)) hist y (.done (.ok (.authorized false))) ∧
    ¬ Granted U0 (gPolicy opRels) (StoredThroughout hist "p") usv ⟨doc1, "any"⟩ := by
  obtain ⟨hist, y, f, hp, hS⟩ := ab_overlap usv false (checks_of (by decide +kernel))
  refine ⟨hist, y, f, C63_denied_partial (env := gEnv) (gStore_reachable _ _ _) f hp ?_ ?_ ?_⟩ <;> rw [hS]
  · exact (ab_clear _ (.inr (.inr rfl))).1
  · exact (ab_clear _ (.inr (.inr rfl))).2
  · exact exprs_of (env := gEnv) (f := unionOnlyB) (fun _ => unionOnly_of) (gStore_wf _ _ _) abStore_pol (L := abNodes "any")
      (by simp [abNodes, USet.node]) (by decide +kernel) (by decide +kernel)

/-- Relation `a` on documents, given to the members of group:g. -/
def neRels : List Relation := [rel "a" "_this"]
/-- doc:1 # a @ group:g # member -/
def neLink : Relationship := ⟨some doc1, "a", some (.entitySet (some ⟨"group", "g"⟩) "member")⟩
/-- group:g # member @ user:u -/
def neMember : Relationship := ⟨some ⟨"group", "g"⟩, "member", some (.entity usr)⟩
/-- Only the group has access. -/
def neStore : Store := gStore gEnv neRels [neLink]
/-- After the group lost its access. -/
def neStore1 : Store := (serve gEnv (.deleteRelationship "p" (some neLink)) neStore).2
/-- After user:u joined the group. -/
def neStore2 : Store := (serve gEnv (.setRelationship 1 "p" (some neMember) []) neStore1).2
/-- The check under observation. -/
def neCheck : Call := .check 10 "p" (ask ⟨doc1, "a"⟩ usr)

/-- C63 is violated: the group loses its access, then user:u joins the group; the two writes do not overlap.  A Check running meanwhile follows the group's old access and the user's new
membership and grants, although user:u had access at no moment. -/
theorem C63_new_enemy_violated : ∃ hist y,
    Sys.Reachable gEnv ⟨[], neStore⟩ ∧
    Sys.Flight gEnv (fun d => d = .deleteRelationship "p" (some neLink) ∨ d = .setRelationship 1 "p" (some neMember) []) ⟨[], neStore⟩ neCheck hist y
      (.done (.ok (.authorized true))) ∧
    ∀ s ∈ hist, Checks gEnv s 10 "p" ⟨doc1, "a"⟩ usr false := by
  have f0 : Sys.Flight gEnv (fun d => d = .deleteRelationship "p" (some neLink) ∨ d = .setRelationship 1 "p" (some neMember) []) ⟨[], neStore⟩ neCheck _ _ _ :=
    .start .refl
  obtain ⟨h1, f1, g1⟩ := f0.own_read (Call.prog_read _ rfl)
  obtain ⟨h2, f2, g2⟩ := f1.own_read (Call.prog_read _ rfl).next
  obtain ⟨h3, f3, g3⟩ := f2.served_trace (.deleteRelationship "p" (some neLink)) (.inl rfl)
  obtain ⟨h4, f4, g4⟩ := f3.served_trace (.setRelationship 1 "p" (some neMember) []) (.inr rfl)
  obtain ⟨h5, f5, g5⟩ := f4.own_reads (Call.prog_read _ rfl).next.next
  have hd : ((((neCheck.prog gEnv).next neStore).next neStore).run neStore2).1 = .ok (.authorized true) := answers_of (by decide +kernel)
  rw [show ((((neCheck.prog gEnv).next neStore).next neStore).run
    (serve gEnv (.setRelationship 1 "p" (some neMember) []) (serve gEnv (.deleteRelationship "p" (some neLink)) neStore).2).2).1 = _ from hd] at f5
  refine ⟨h5, _, gStore_reachable _ _ _, f5, ?_⟩
  have k0 : ∀ s ∈ [neStore], Checks gEnv s 10 "p" ⟨doc1, "a"⟩ usr false := by
    simp only [List.mem_singleton, forall_eq]
    exact checks_of (by decide +kernel)
  have k1 : ∀ s ∈ ((Call.deleteRelationship "p" (some neLink)).prog gEnv).trace neStore, Checks gEnv s 10 "p" ⟨doc1, "a"⟩ usr false :=
    checks_all (by decide +kernel)
  have k2 : ∀ s ∈ ((Call.setRelationship 1 "p" (some neMember) []).prog gEnv).trace neStore1, Checks gEnv s 10 "p" ⟨doc1, "a"⟩ usr false :=
    checks_all (by decide +kernel)
  have k3 : Checks gEnv neStore2 10 "p" ⟨doc1, "a"⟩ usr false := checks_of (by decide +kernel)
  intro s hs
  rcases g5 s hs with hs | rfl
  · rcases g4 s hs with hs | hs
    · rcases g3 s hs with hs | hs
      · rcases g2 s hs with hs | rfl
        · rcases g1 s hs with hs | rfl
          · exact k0 s hs
          · exact k0 _ List.mem_cons_self
        · exact k0 _ List.mem_cons_self
      · exact k1 s hs
    · exact k2 s hs
  · exact k3

/-- user:u has relation b, which gives `any`. -/
def mvRels : List Relationship := [⟨some doc1, "b", some (.entity usr)⟩]
/-- The relationship user:u is moved to. -/
def mvNew : Relationship := ⟨some doc1, "a", some (.entity usr)⟩
/-- The relationship user:u is moved from. -/
def mvOld : Relationship := ⟨some doc1, "b", some (.entity usr)⟩
def mvStore : Store := gStore gEnv opRels mvRels
def mvStore1 : Store := (serve gEnv (.setRelationship 1 "p" (some mvNew) []) mvStore).2
def mvStore2 : Store := (serve gEnv (.deleteRelationship "p" (some mvOld)) mvStore1).2
/-- The check under observation. -/
def mvCheck : Call := .check 10 "p" (ask ⟨doc1, "any"⟩ usr)

/-- C63 is violated in the other direction: user:u gets `a` and then loses `b`.  A Check of `any = a + b` that reads `a` before and `b` after denies, although user:u had access at
every moment. -/
theorem C63_moved_user_violated : ∃ hist y,
    Sys.Reachable gEnv ⟨[], mvStore⟩ ∧
    Sys.Flight gEnv (fun d => d = .setRelationship 1 "p" (some mvNew) [] ∨ d = .deleteRelationship "p" (some mvOld)) ⟨[], mvStore⟩ mvCheck hist y
      (.done (.ok (.authorized false))) ∧
    ∀ s ∈ hist, Checks gEnv s 10 "p" ⟨doc1, "any"⟩ usr true := by
  have f0 : Sys.Flight gEnv (fun d => d = .setRelationship 1 "p" (some mvNew) [] ∨ d = .deleteRelationship "p" (some mvOld)) ⟨[], mvStore⟩ mvCheck _ _ _ :=
    .start .refl
  obtain ⟨h1, f1, g1⟩ := f0.own_read (Call.prog_read _ rfl)
  obtain ⟨h2, f2, g2⟩ := f1.own_read (Call.prog_read _ rfl).next
  obtain ⟨h3, f3, g3⟩ := f2.served_trace (.setRelationship 1 "p" (some mvNew) []) (.inl rfl)
  obtain ⟨h4, f4, g4⟩ := f3.served_trace (.deleteRelationship "p" (some mvOld)) (.inr rfl)
  obtain ⟨h5, f5, g5⟩ := f4.own_reads (Call.prog_read _ rfl).next.next
  have hd : ((((mvCheck.prog gEnv).next mvStore).next mvStore).run mvStore2).1 = .ok (.authorized false) := answers_of (by decide +kernel)
  rw [show ((((mvCheck.prog gEnv).next mvStore).next mvStore).run
    (serve gEnv (.deleteRelationship "p" (some mvOld)) (serve gEnv (.setRelationship 1 "p" (some mvNew) []) mvStore).2).2).1 = _ from hd] at f5
  refine ⟨h5, _, gStore_reachable _ _ _, f5, ?_⟩
  have k0 : ∀ s ∈ [mvStore], Checks gEnv s 10 "p" ⟨doc1, "any"⟩ usr true := by
    simp only [List.mem_singleton, forall_eq]
    exact checks_of (by decide +kernel)
  have k1 : ∀ s ∈ ((Call.setRelationship 1 "p" (some mvNew) []).prog gEnv).trace mvStore, Checks gEnv s 10 "p" ⟨doc1, "any"⟩ usr true :=
    checks_all (by decide +kernel)
  have k2 : ∀ s ∈ ((Call.deleteRelationship "p" (some mvOld)).prog gEnv).trace mvStore1, Checks gEnv s 10 "p" ⟨doc1, "any"⟩ usr true :=
    checks_all (by decide +kernel)
  have k3 : Checks gEnv mvStore2 10 "p" ⟨doc1, "any"⟩ usr true := checks_of (by decide +kernel)
  intro s hs
  rcases g5 s hs with hs | rfl
  · rcases g4 s hs with hs | hs
    · rcases g3 s hs with hs | hs
      · rcases g2 s hs with hs | rfl
        · rcases g1 s hs with hs | rfl
          · exact k0 s hs
          · exact k0 _ List.mem_cons_self
        · exact k0 _ List.mem_cons_self
      · exact k1 s hs
    · exact k2 s hs
  · exact k3

end Zanzi
