import Verif.Lemmas.Outcome
import Verif.Props.Explain

/-
How complete requests end (C14, C49).
-/

namespace Zanzi

open Spec

section
variable {env : Env} {s : Store} {pid : String} {rec : PolicyRecord} {x : USet} {u : Entity}

/-- A search without goal that answers has built every userset shown, and visited what it leads to. -/
theorem walk_built (hs : WF env s) (hp : policyAt s pid = some rec) (hk : KeysClear env.U env.H rec.policy (Present s pid) x)
    (hi : IdsClear env.U env.H rec.policy (Present s pid) x) {reason : String} {t : GoalTree} {seen : List Nat}
    (h : Ev env.H (Builds (bld env rec.policy s)) none (.path x.node reason) [] (.tree t) seen) {y : USet}
    (hy : Shown env.U rec.policy (Present s pid) x y.node) :
    ∃ t', bld env rec.policy s y.node = .ok t' ∧ ∀ m ∈ t'.leads, Visited env.H seen m := by
  have hset := (walk_settled hs hp hk hi h y.node).2 hy
  have hw := h.walk (P := Shown env.U rec.policy (Present s pid) x) (fun n t hr hterm hb => by
    obtain ⟨y, e, rfl, h1, h2, k1, k2, hfm, _⟩ := expand_facts hs hp hk (shown_reaches hr) hterm hb
    refine ⟨hfm, (pBuild_fresh h2).settled, fun m hm id hid => ?_⟩
    rcases (pBuild_leads hs k1 k2 h2).1 m hm with ⟨r, hr', hn⟩ | ⟨c, rfl⟩
    · exact .step hr h1 hr' hn
    · cases hid)
  obtain ⟨_, hv, _, hnew⟩ := hw (fun _ _ => .start)
  have hvis : ∀ n, Shown env.U rec.policy (Present s pid) x n → ∀ z : USet, n = z.node →
      Visited env.H seen n ∧ ∃ t', bld env rec.policy s z.node = .ok t' ∧ ∀ m ∈ t'.leads, Visited env.H seen m := by
    have step : ∀ z : USet, Shown env.U rec.policy (Present s pid) x z.node → Visited env.H seen z.node →
        ∃ t', bld env rec.policy s z.node = .ok t' ∧ ∀ m ∈ t'.leads, Visited env.H seen m := by
      rintro z hz ⟨id, hid, hzid⟩
      obtain ⟨m, hm, hmr, hcl⟩ := hnew id hid (by simp)
      obtain rfl := hi _ _ _ (shown_reaches hz) (shown_reaches hmr) hzid hm
      exact hcl rfl
    have key : ∀ n, Shown env.U rec.policy (Present s pid) x n → Visited env.H seen n := by
      intro n hn
      induction hn with
      | start => exact hv
      | @step y t r n hy hd hr hn ih =>
        obtain ⟨t', hb, htv⟩ := step y hy ih
        obtain ⟨y', e, hy', h1, h2, k1, k2, _⟩ := expand_facts hs hp hk (shown_reaches hy) rfl hb
        obtain ⟨y1, y2⟩ := y
        obtain ⟨z1, z2⟩ := y'
        cases hy'
        obtain rfl := DefinedBy.unique (hs.policy_valid hp).1 hd h1
        exact htv n ((pBuild_leads hs k1 k2 h2).2 r hr n hn)
    rintro n hn z rfl
    exact ⟨key _ hn, step z hn (key _ hn)⟩
  exact (hvis _ hy y rfl).2

/-- A tree built leads to no node without object: its arrows met no wildcard. -/
theorem built_concrete (hs : WF env s) (hp : policyAt s pid = some rec) (g : Bool) {y : USet} {t : GoalTree} (hb : bld env rec.policy s y.node = .ok t)
    (hv : ∀ c, RelationNode.entitySet none c ∉ visits g t) :
    Readable env.U rec.policy y ∧ ¬ MeetsWildcard env.U rec.policy (Present s pid) (picks g) y := by
  have huniq := (hs.policy_valid hp).1
  obtain ⟨e, hd, h2⟩ := bld_ok huniq hb
  rw [hs.policy_id hp] at h2
  refine ⟨⟨e, hd, pBuild_whole h2⟩, ?_⟩
  rintro ⟨e', a, b, n, hd', hr, hn⟩
  obtain rfl := DefinedBy.unique huniq hd hd'
  have hrl : .ttu a b ∈ leaves e := by
    cases g with
    | true => exact firstLeaves_leaves hr
    | false => exact hr
  obtain ⟨ns, h1, _⟩ := leaf_tops h2 hrl
  refine hv b ((pBuild_visits g _ h2).2 ⟨_, hr, ns, h1, ?_⟩)
  obtain ⟨n', hn', he⟩ := (mapSliceErr_mem (f := buildTtuNode b) h1).2 _ (mem_succs_of_present (y := ⟨y.object, a⟩) hs hn)
  rw [ttuNode_spec he] at hn'
  exact hn'

/-! ### Expand -/

theorem serve_expand_spew (hp : policyAt s pid = some rec) (fuel : Nat) :
    (serve env (.expand fuel pid (some x.node) .spew) s).1 =
      (pSearch env rec.policy s fuel (some x.node) none >>= fun t => .ok (.expanded (.spew t) .spew)) := by
  rw [serve_expand hp]
  rfl

/-- C49 and C14 for Expand, every operator: Expand answers exactly when every userset it shows is declared by a whole expression and meets no wildcard in a
tupleset; it errs only because of the former and panics only because of the latter.  Missing: storage key and visit identifier collisions. -/
theorem C49_expand_exact_partial (hs : WF env s) (hp : policyAt s pid = some rec) (hk : KeysClear env.U env.H rec.policy (Present s pid) x)
    (hi : IdsClear env.U env.H rec.policy (Present s pid) x) :
    (∀ fuel t, Expands env s fuel pid x.node t → Expandable env.U rec.policy (Present s pid) firstLeaves x) ∧
    ∃ n, ∀ fuel, n ≤ fuel →
      (Expandable env.U rec.policy (Present s pid) firstLeaves x → ∃ t, Expands env s fuel pid x.node t) ∧
      (∀ e, (serve env (.expand fuel pid (some x.node) .spew) s).1 = .err e →
        ∃ y : USet, Shown env.U rec.policy (Present s pid) x y.node ∧ ¬ Readable env.U rec.policy y) ∧
      ((serve env (.expand fuel pid (some x.node) .spew) s).1 = .panic →
        ∃ y : USet, Shown env.U rec.policy (Present s pid) x y.node ∧ MeetsWildcard env.U rec.policy (Present s pid) firstLeaves y) ∧
      (serve env (.expand fuel pid (some x.node) .spew) s).1 ≠ .fuel := by
  refine ⟨?_, searchBound env rec.policy s (some x.node), fun fuel hf => ?_⟩
  · intro fuel t h y hy
    obtain ⟨seen, h1⟩ := expands_ev hp h
    obtain ⟨t', hb, hv⟩ := walk_built hs hp hk hi h1 hy
    refine built_concrete hs hp true hb (fun c hc => ?_)
    obtain ⟨id, _, hid⟩ := hv _ hc
    cases hid
  have hst := (pSearch_stable env rec.policy s (some x.node) none fuel hf).2
  have hends := search_ends hs hp hk (goal := none) trivial (g := true) (fun _ => rfl) fuel
  refine ⟨fun hx => ?_, ?_, ?_, ?_⟩
  · unfold Expands
    rw [serve_expand_spew hp]
    cases hr : pSearch env rec.policy s fuel (some x.node) none with
    | ok t => exact ⟨t, rfl⟩
    | err e =>
      rw [hr] at hends
      obtain ⟨y, hy, hn⟩ := hends
      exact absurd (hx y hy).1 hn
    | panic =>
      rw [hr] at hends
      obtain ⟨y, hy, hn⟩ := hends
      exact absurd hn (hx y hy).2
    | fuel => exact absurd hr hst
  all_goals rw [serve_expand_spew hp]
  all_goals
    cases hr : pSearch env rec.policy s fuel (some x.node) none with
    | ok t => nofun
    | err e => rw [hr] at hends; first | exact fun _ _ => hends | nofun
    | panic => rw [hr] at hends; first | exact fun _ => hends | nofun
    | fuel => exact absurd hr hst

/-- C14 for Expand as a drawing: once Expand answers, drawing the tree panics exactly when an arrow of a userset shown, even one in a right operand of an
intersection, meets a wildcard in a tupleset. -/
theorem C14_expand_drawing_partial (hs : WF env s) (hp : policyAt s pid = some rec) (hk : KeysClear env.U env.H rec.policy (Present s pid) x)
    (hi : IdsClear env.U env.H rec.policy (Present s pid) x) {fuel : Nat} {t : GoalTree} (h : Expands env s fuel pid x.node t) :
    ((∃ cs, (serve env (.expand fuel pid (some x.node) .dot) s).1 = .ok (.expanded (.dot cs) .dot)) ↔
      Expandable env.U rec.policy (Present s pid) leaves x) ∧
    ((serve env (.expand fuel pid (some x.node) .dot) s).1 = .panic ↔ ¬ Expandable env.U rec.policy (Present s pid) leaves x) := by
  obtain ⟨seen, h1⟩ := expands_ev hp h
  have hpub : pSearch env rec.policy s fuel (some x.node) none = .ok t := by
    unfold Expands at h
    rw [serve_expand_spew hp] at h
    obtain ⟨t', h2, h3⟩ := Res.bind_eq_ok.1 h
    cases h3
    exact h2
  have hserve : (serve env (.expand fuel pid (some x.node) .dot) s).1 =
      (dotSerialize t >>= fun cs => .ok (.expanded (.dot cs) .dot)) := by
    rw [serve_expand hp]
    simp only [serializerFactory, Res.bind_ok, hpub]
    rw [show serialize .dot t = (dotSerialize t >>= fun cs => Pure.pure (.dot cs)) from rfl]
    cases dotSerialize t <;> rfl
  have hkeep : Keeps (Builds (bld env rec.policy s)) [x.node] (settled t) (mentions t) := by
    refine h1.keeps (fun n t ht hb => ?_)
    obtain ⟨o, rel, rfl⟩ := isTerminal_false ht
    cases o with
    | none => cases hb
    | some o =>
      obtain ⟨e, _, h2⟩ := bld_ok (x := ⟨o, rel⟩) (hs.policy_valid hp).1 hb
      exact pBuild_fresh h2
  have hset := walk_settled hs hp hk hi h1
  have key : (∀ m ∈ mentions t, Printable m) ↔ Expandable env.U rec.policy (Present s pid) leaves x := by
    constructor
    · intro hm y hy
      obtain ⟨t0, hb, htop⟩ := hkeep.2.1 _ ((hset _).2 hy) rfl
      refine built_concrete hs hp false hb (fun c hc => ?_)
      obtain ⟨_, h⟩ := hm _ (htop _ hc)
      cases h
    · intro hx m hm
      rcases hkeep.2.2 m hm with h | ⟨n, hn, hterm, t0, hb, hm0⟩
      · rw [List.mem_singleton.1 h]
        exact ⟨_, rfl⟩
      · have hsh := (hset n).1 hn
        obtain ⟨y, e, rfl, h1, h2, _⟩ := expand_facts hs hp hk (shown_reaches hsh) hterm hb
        rcases visits_met hs hk false (shown_reaches hsh) h1 h2 hm0 with h | ⟨_, h⟩
        · exact proper_pretty (Reaches_proper hs h)
        · exact absurd h (hx y hsh).2
  rw [hserve, ← key]
  unfold dotSerialize
  rcases dotTree_ends .root t 0 with ⟨q, hq, hm⟩ | ⟨hq, m, hm, hn⟩ <;> rw [hq]
  · exact ⟨⟨fun _ => hm, fun _ => ⟨_, rfl⟩⟩, ⟨nofun, fun h => absurd hm h⟩⟩
  · exact ⟨⟨nofun, fun h => absurd (h m hm) hn⟩, ⟨fun _ h => hn (h m hm), fun _ => rfl⟩⟩

/-- `viewer = a & parent->owner`, and a wildcard is stored where the arrow looks. -/
def starRels : List Relation := [rel "parent" "_this", rel "owner" "_this", rel "a" "_this", rel "viewer" "a & parent->owner"]

def starStore : Store := gStore gEnv starRels [⟨some doc1, "parent", some (.resourceSet "user")⟩]

theorem starStore_pol : policyAt starStore "p" = some ⟨gPolicy starRels, [], 0⟩ := by decide +kernel

theorem star_clear : KeysClear U0 Hx (gPolicy starRels) (Present starStore "p") ⟨doc1, "viewer"⟩ ∧
    IdsClear U0 Hx (gPolicy starRels) (Present starStore "p") ⟨doc1, "viewer"⟩ :=
  clear_loose (env := gEnv) (gStore_wf _ _ _) starStore_pol (L := [.entitySet (some doc1) "viewer", .entitySet (some doc1) "a"])
    (by simp [USet.node]) (by decide +kernel)

/-- C14 is false even where Expand answers: the same request answered as text panics as a drawing, and the hypotheses of both theorems hold. -/
theorem C14_expand_drawing_violated :
    allAnswered (runCalls gEnv (setup starRels [⟨some doc1, "parent", some (.resourceSet "user")⟩]) Store.empty).1 = true ∧
    (∃ t, Expands gEnv starStore 10 "p" (.entitySet (some doc1) "viewer") t) ∧
    (serve gEnv (.expand 10 "p" (some (.entitySet (some doc1) "viewer")) .dot) starStore).1 = .panic ∧
    ¬ Expandable U0 (gPolicy starRels) (Present starStore "p") leaves ⟨doc1, "viewer"⟩ := by
  obtain ⟨t, h, _⟩ := expands_of (env := gEnv) (s := starStore) (pid := "p") (root := .entitySet (some doc1) "viewer") (fuel := 10)
      (f := fun _ => true) (by decide +kernel)
  have hp : (serve gEnv (.expand 10 "p" (some (.entitySet (some doc1) "viewer")) .dot) starStore).1 = .panic := eq_panic (by decide +kernel)
  exact ⟨by decide +kernel, ⟨t, h⟩, hp,
    (C14_expand_drawing_partial (env := gEnv) (x := ⟨doc1, "viewer"⟩) (gStore_wf _ _ _) starStore_pol star_clear.1 star_clear.2 h).2.1 hp⟩

/-- The hypotheses of `C49_expand_exact_partial` hold there, and the root is expandable. -/
example : Expandable U0 (gPolicy starRels) (Present starStore "p") firstLeaves ⟨doc1, "viewer"⟩ := by
  obtain ⟨t, h, _⟩ := expands_of (env := gEnv) (s := starStore) (pid := "p") (root := .entitySet (some doc1) "viewer") (fuel := 10)
      (f := fun _ => true) (by decide +kernel)
  exact (C49_expand_exact_partial (env := gEnv) (x := ⟨doc1, "viewer"⟩) (gStore_wf _ _ _) starStore_pol star_clear.1 star_clear.2).1 10 t h

/-! ### Check -/

/-- C49 and C14 for Check, every operator: Check answers, or errs because a reachable userset is not declared by a whole expression, or panics because an
arrow of a reachable userset meets a wildcard in a tupleset.  Missing: which of these when answers and such usersets are both within reach, and storage key
collisions. -/
theorem C49_check_outcome_partial (hs : WF env s) (hp : policyAt s pid = some rec) (hk : KeysClear env.U env.H rec.policy (Present s pid) x) :
    ∃ n, ∀ fuel, n ≤ fuel →
      (∃ b, Checks env s fuel pid x u b) ∨
      ((∃ e, (serve env (.check fuel pid (ask x u)) s).1 = .err e) ∧
        ∃ y : USet, Reaches env.U rec.policy (Present s pid) x y.node ∧ ¬ Readable env.U rec.policy y) ∨
      ((serve env (.check fuel pid (ask x u)) s).1 = .panic ∧
        ∃ y : USet, Reaches env.U rec.policy (Present s pid) x y.node ∧ MeetsWildcard env.U rec.policy (Present s pid) leaves y) := by
  refine ⟨searchBound env rec.policy s (some x.node), fun fuel hf => ?_⟩
  have hst := (pSearch_stable env rec.policy s (some x.node) (userGoal u) fuel hf).2
  have hends := search_ends hs hp hk (goal := userGoal u) trivial (g := false) nofun fuel
  show (∃ b, (serve env (.check fuel pid (ask x u)) s).1 = _) ∨ _
  rw [serve_check hp]
  cases hr : pSearch env rec.policy s fuel (some x.node) (userGoal u) with
  | ok t => exact .inl ⟨_, rfl⟩
  | err e => rw [hr] at hends; exact .inr (.inl ⟨⟨e, rfl⟩, hends⟩)
  | panic => rw [hr] at hends; exact .inr (.inr ⟨rfl, hends⟩)
  | fuel => exact absurd hr hst

/-- C49 and C37 for requests that meet only unions: Check denies exactly when the user is not granted the userset and every userset within reach is declared by
a whole expression and meets no wildcard in a tupleset.  Missing: intersection and difference, storage key and visit identifier collisions. -/
theorem C49_union_denial_exact_partial (hs : WF env s) (hp : policyAt s pid = some rec) (hk : KeysClear env.U env.H rec.policy (Present s pid) x)
    (hi : IdsClear env.U env.H rec.policy (Present s pid) x) (hu : ExprsFrom env.U rec.policy (Present s pid) x UnionOnly) :
    ∃ n, ∀ fuel, (Checks env s fuel pid x u false → ¬ Granted env.U rec.policy (Present s pid) u x ∧ Approachable env.U rec.policy (Present s pid) x) ∧
      (¬ Granted env.U rec.policy (Present s pid) u x ∧ Approachable env.U rec.policy (Present s pid) x → n ≤ fuel → Checks env s fuel pid x u false) := by
  obtain ⟨n, hn⟩ := C49_check_outcome_partial (u := u) hs hp hk
  refine ⟨n, fun fuel => ⟨fun h => ⟨fun hg => ?_, fun y hy => ?_⟩, fun ⟨hg, hx⟩ hf => ?_⟩⟩
  · exact absurd (C37_complete_partial hs hp hk hi hu h hg) nofun
  · obtain ⟨t, seen, _, hev, hb⟩ := check_ev hp h
    have hne : t.result ≠ .success := of_decide_eq_false hb.symm
    have hc := hev.closed (P := Reaches env.U rec.policy (Present s pid) x) (d := false) nofun
      (fun n t hr hterm hb => by
        obtain ⟨y, e, rfl, h1, h2, k1, k2, hfm, htops⟩ := expand_facts hs hp hk hr hterm hb
        exact ⟨pBuild_unionOnly (hu y e hr h1) h2, htops⟩)
    obtain ⟨hv, hnew⟩ := hc (fun _ _ => .start) hne
    have step : ∀ z : USet, Reaches env.U rec.policy (Present s pid) x z.node → Visited env.H seen z.node →
        ∃ t', bld env rec.policy s z.node = .ok t' ∧ ∀ m ∈ t'.tops, Visited env.H seen m := by
      rintro z hz ⟨id, hid, hzid⟩
      obtain ⟨m, hm, hmr, hcl⟩ := hnew id hid (by simp)
      obtain rfl := hi _ _ _ hz hmr hzid hm
      exact hcl.2 rfl
    have hvis : ∀ n, Reaches env.U rec.policy (Present s pid) x n → Visited env.H seen n := by
      intro n hn
      induction hn with
      | start => exact hv
      | @step y n hy hw ih =>
        obtain ⟨t', hb, htv⟩ := step y hy ih
        exact htv n (rewrites_tops hs hp hb hw)
    obtain ⟨t', hb', htv⟩ := step y hy (hvis _ hy)
    refine built_concrete hs hp false hb' (fun c hc => ?_)
    obtain ⟨id, _, hid⟩ := htv _ hc
    cases hid
  · rcases hn fuel hf with ⟨b, hb⟩ | ⟨_, y, hy, hno⟩ | ⟨_, y, hy, hno⟩
    · cases b with
      | false => exact hb
      | true => exact absurd ((C37_union_exact_partial hs hp hk hi hu hb).1 rfl) hg
    · exact absurd (hx y hy).1 hno
    · exact absurd hno (hx y hy).2

/-- doc:1#parent@user:u with `viewer = owner + parent->owner`: the arrow leads to a userset that users do not have. -/
def strayStore : Store := gStore gEnv arrowRels [⟨some doc1, "parent", some (.entity usr)⟩]

theorem strayStore_pol : policyAt strayStore "p" = some ⟨gPolicy arrowRels, [], 0⟩ := by decide +kernel

/-- doc:1#parent@doc:2, doc:2#owner@user:u -/
def keptStore : Store := gStore gEnv arrowRels arrowGood

theorem keptStore_pol : policyAt keptStore "p" = some ⟨gPolicy arrowRels, [], 0⟩ := by decide +kernel

/-- Nodes reached from doc:1#viewer. -/
def strayNodes : List RelationNode := [.entitySet (some doc1) "viewer", .entitySet (some doc1) "owner", .entitySet (some usr) "owner"]

def keptNodes : List RelationNode := [.entitySet (some doc1) "viewer", .entitySet (some doc1) "owner", .entitySet (some ⟨"doc", "2"⟩) "owner", .entity (some usr)]

theorem stray_clear : KeysClear U0 Hx (gPolicy arrowRels) (Present strayStore "p") ⟨doc1, "viewer"⟩ ∧
    IdsClear U0 Hx (gPolicy arrowRels) (Present strayStore "p") ⟨doc1, "viewer"⟩ :=
  clear_loose (env := gEnv) (gStore_wf _ _ _) strayStore_pol (L := strayNodes) (by simp [strayNodes, USet.node]) (by decide +kernel)

theorem kept_clear : KeysClear U0 Hx (gPolicy arrowRels) (Present keptStore "p") ⟨doc1, "viewer"⟩ ∧
    IdsClear U0 Hx (gPolicy arrowRels) (Present keptStore "p") ⟨doc1, "viewer"⟩ :=
  clear_loose (env := gEnv) (gStore_wf _ _ _) keptStore_pol (L := keptNodes) (by simp [keptNodes, USet.node]) (by decide +kernel)

/-- The hypotheses hold on both stores.  On the first another user is denied, so everything within reach can be expanded; on the second the check errs, so
not everything can. -/
example :
    (Checks gEnv keptStore 10 "p" ⟨doc1, "viewer"⟩ ⟨"user", "v"⟩ false ∧ Approachable U0 (gPolicy arrowRels) (Present keptStore "p") ⟨doc1, "viewer"⟩) ∧
    ((serve gEnv (.check 10 "p" (ask ⟨doc1, "viewer"⟩ usr)) strayStore).1 = .err .relationNotFound ∧
      ¬ Approachable U0 (gPolicy arrowRels) (Present strayStore "p") ⟨doc1, "viewer"⟩) := by
  have hc : Checks gEnv keptStore 10 "p" ⟨doc1, "viewer"⟩ ⟨"user", "v"⟩ false := checks_of (by decide +kernel)
  have hu : ExprsFrom U0 (gPolicy arrowRels) (Present keptStore "p") ⟨doc1, "viewer"⟩ UnionOnly :=
    exprs_of (env := gEnv) (f := unionOnlyB) (fun _ => unionOnly_of) (gStore_wf _ _ _) keptStore_pol (L := keptNodes)
      (by simp [keptNodes, USet.node]) (by decide +kernel) (by decide +kernel)
  obtain ⟨n, hn⟩ := C49_union_denial_exact_partial (env := gEnv) (u := ⟨"user", "v"⟩) (gStore_wf _ _ _) keptStore_pol kept_clear.1 kept_clear.2 hu
  refine ⟨⟨hc, ((hn 10).1 hc).2⟩, errOf_some (by decide +kernel), fun h => ?_⟩
  have hr : Reaches U0 (gPolicy arrowRels) (Present strayStore "p") ⟨doc1, "viewer"⟩ (USet.node ⟨usr, "owner"⟩) := by
    have hd : DefinedBy U0 (gPolicy arrowRels) ⟨doc1, "viewer"⟩ (.op (.rule (.cu "owner")) .union (.rule (.ttu "parent" "owner"))) :=
      ⟨rel "viewer" "owner + parent->owner", ⟨_, by simp [gPolicy]; exact .inr (.inr rfl), rfl, by simp [arrowRels], rfl⟩,
        (getExpressionTree_ok_iff U0 _ _).1 (by decide +kernel)⟩
    have h2 : (⟨some doc1, "parent", some (.entity usr)⟩ : Relationship) ∈ relationships strayStore "p" := by decide +kernel
    exact .step (y := ⟨doc1, "viewer"⟩) .start (.arrow (sub := .entity usr) hd (by simp [leaves]) h2 rfl)
  obtain ⟨⟨e, ⟨d, hdec, _⟩, _⟩, _⟩ := h _ hr
  have := ((C11_lookup_exact _ ((gStore_wf gEnv arrowRels [⟨some doc1, "parent", some (.entity usr)⟩]).policy_valid strayStore_pol).1 _ _).1 d).2 hdec
  replace this : (newLut (gPolicy arrowRels)).getRelation "user" "owner" = some d := this
  rw [show (newLut (gPolicy arrowRels)).getRelation "user" "owner" = none by decide +kernel] at this
  cases this

end

end Zanzi
