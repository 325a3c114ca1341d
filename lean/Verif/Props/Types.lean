import Verif.Spec.Types
import Verif.Lemmas.RelySem
import Verif.Lemmas.OneWay
import Verif.Props.Trace

/-
Property C109: subject restrictions bound who can be granted access.
Specification: Spec/Types.lean, Spec/Graph.lean, Spec/Trace.lean.
-/

namespace Zanzi

open Spec Prog

/-- Relation `d` may be given to this subject. -/
def TakesSubject (p : Policy) (d : Relation) : Subject → Prop
  | .entity e => Takes p d e.resource
  | .resourceSet n => Takes p d n
  | .entitySet (some e) rel' => TakesSet p d e.resource rel' ∧ HasResource p e.resource
  | .entitySet none _ => False
  | .unset => False

/-- What an admissible relationship's relation may be given to. -/
theorem admissible_takes {p : Policy} (hu : NamesUnique p) {x : Entity} {rel : String} {sub : Subject} (h : Admissible p ⟨some x, rel, some sub⟩) {d : Relation}
    (hd : Declares p x.resource rel d) :
    TakesSubject p d sub := by
  obtain ⟨⟨_, _, ho, hs, _, _, hk⟩, _, _, d', sr, ho', hs', hd', hsr, hp⟩ := h
  cases ho; cases hs; cases ho'; cases hs'
  obtain rfl := declares_unique hu hd hd'
  cases hp with
  | universal =>
    match sub with
    | .entity e => exact .inl ⟨hsr, hk⟩
    | .resourceSet n => exact .inl ⟨hsr, hk⟩
    | .entitySet (some e) rel' =>
      obtain ⟨d', r, h1, h2, _⟩ := hk
      exact ⟨.inl ⟨hsr, _, r, h1, h2, ‹_›⟩, r, h1, h2⟩
    | .entitySet none _ => exact hk
    | .unset => exact hk
  | entity h => exact .inr ⟨_, hsr, h⟩
  | all h => exact .inr ⟨_, hsr, h⟩
  | entitySet h =>
    obtain ⟨d', r, h1, h2, _⟩ := hk
    exact ⟨.inr ⟨_, hsr, h⟩, r, h1, h2⟩

/-- Where an admissible relationship points, its relation may. -/
theorem admissible_points {p : Policy} (hu : NamesUnique p) {x : Entity} {rel : String} {sub : Subject} (h : Admissible p ⟨some x, rel, some sub⟩) {d : Relation}
    (hd : Declares p x.resource rel d) {e : Entity} (hpt : pointsTo sub = some e) : MayPointTo p d e.resource := by
  have := admissible_takes hu h hd
  match sub, this, hpt with
  | .entity e', this, hpt =>
    cases hpt
    rcases this with h | ⟨rs, h, hm⟩
    · exact .inl h
    · exact .inr ⟨rs, h, .inl hm⟩
  | .entitySet (some e') rel', this, hpt =>
    cases hpt
    rcases this with ⟨h | ⟨rs, h, hm⟩, hres⟩
    · exact .inl ⟨h.1, hres⟩
    · exact .inr ⟨rs, h, .inr ⟨_, hm⟩⟩

/-- What the rules give from relationships the policy admits stays within its subject restrictions. -/
theorem types_sound {U : Unicode} {p : Policy} (hu : NamesUnique p) {R : Relationship → Prop} (hR : ∀ r, R r → Admissible p r) {u : Entity} {x : USet}
    (h : GrantedAtMost U p R u x) : MayHold U p u.resource x.object.resource x.relation := by
  intro V hV
  refine h (fun y => V y.object.resource y.relation) ?_
  rintro y t ⟨d, hd, ht⟩ he
  refine hV _ _ d t hd ht ?_
  clear ht
  induction t with
  | nil => exact he
  | unset => exact he
  | rule r =>
    match r, he with
    | .this, he =>
      obtain ⟨sub, hr, hs⟩ := he
      have := admissible_takes hu (hR _ hr) hd
      clear hr
      match sub, this, hs with
      | .entity e, this, hs => cases hs; exact .inl this
      | .resourceSet n, this, hs => cases hs; exact .inl this
      | .entitySet (some e) rel', this, hs => exact .inr ⟨_, _, this.1, hs⟩
    | .cu c, he => exact he
    | .ttu a b, he =>
      obtain ⟨sub, e, hr, hpt, hv⟩ := he
      obtain ⟨⟨_, _, ho, _, _, ⟨d', hd'⟩, _⟩, _⟩ := hR _ hr
      cases ho
      exact ⟨d', e.resource, hd', admissible_points hu (hR _ hr) hd' hpt, hv⟩
  | op l o r ihl ihr =>
    match o, he with
    | .union, he => exact Or.imp ihl ihr he
    | .intersection, he => exact ⟨ihl he.1, ihr he.2⟩
    | .difference, he => exact ihl he
    | .unknown, he => exact he

/-- Full claim: whatever requests a server has been given since it was empty, in whatever order their steps interleave and fail, an access check grants only users of a resource that the subject
restrictions of the policy leave room for.  Proved if only one policy was ever given under the id, and no requested relationship shares the storage key of a userset it does not belong to.  Missing:
policies updated (`C109_update_violated`), colliding storage keys (`C109_keys_violated`). -/
theorem C109_bounded_partial (env : Env) (A : Call → Prop) (pid : String) (p : Policy) (g : USet) (u : Entity)
    (hone : ∀ rec, PolicyAsked env A pid rec → rec.policy = p) (hk : KeysClear env.U env.H p (RelationshipAsked env A pid) g)
    (c : Call) (fuel : Nat) (hc : c = .check fuel pid (ask g u) ∨ ∃ f, c = .explainCheck fuel pid (ask g u) f) (hist : List Store) (y : Sys) (a : Answer)
    (h : Sys.Flight env A ⟨[], Store.empty⟩ c hist y (.done (.ok a))) (ha : a.grants) :
    MayHold env.U p u.resource g.object.resource g.relation := by
  have hwf := h.wf (by rw [Sys.reachable_iff]; exact .refl)
  have htr := traced_hist h
  have hnew : (∀ now d a, c ≠ .createPolicy now d a) ∧ (∀ d a, c ≠ .updatePolicy d a) ∧ (∀ now r a, c ≠ .setRelationship now pid r a) := by
    rcases hc with rfl | ⟨f, rfl⟩ <;> exact ⟨nofun, nofun, nofun⟩
  have hR : ∀ s r, s ∈ hist → Present s pid r → RelationshipAsked env A pid r := by
    intro s r hs hr
    obtain ⟨q, hq, rfl⟩ := List.mem_map.1 (show r ∈ (s.edges pid).map _ from hr)
    obtain ⟨⟨now, a, hset⟩, rec, h1, h2⟩ := (htr s hs).edges _ _ hq
    exact ⟨⟨now, a, hset.resolve_right (fun h => hnew.2.2 _ _ _ h.symm)⟩, rec, policyAsked_of hnew.1 hnew.2.1 h1, h2⟩
  have hadm : ∀ r, RelationshipAsked env A pid r → Admissible p r := by
    rintro r ⟨_, rec, h1, h2⟩
    exact hone rec h1 ▸ h2
  have key : ∃ s rec t seen, s ∈ hist ∧ policyAt s pid = some rec ∧
      Ev env.H (RBuilds env rec.policy (· ∈ hist)) (userGoal u) (.path g.node "Request") [] (.tree t) seen ∧ t.result = .success := by
    have hr := h.reads (I := (· ∈ hist)) (fun _ h => h) .done
    rcases hc with rfl | ⟨f, rfl⟩
    · match a, ha with
      | .authorized b, ha =>
        obtain ⟨s, rec, q, t, seen, hs, h1, hq, hev, hb⟩ := check_reads hr
        cases hq
        exact ⟨s, rec, t, seen, hs, h1, hev, by simpa [show b = true from ha] using hb.symm⟩
      | .explained z b g', ha =>
        obtain ⟨_, _, h2⟩ := Prog.Reads.map_ok hr
        cases h2
    · match a, ha with
      | .authorized b, ha =>
        obtain ⟨_, _, h2⟩ := Prog.Reads.map_ok (p := GraphService.explainCheck env fuel pid (ask g u) f) (f := fun x => Answer.explained x.1 x.2.1 x.2.2) hr
        cases h2
      | .explained z b g', ha =>
        obtain ⟨s, rec, q, t, seen, hs, h1, hq, hev, hb⟩ := explain_reads hr
        cases hq
        exact ⟨s, rec, t, seen, hs, h1, hev, by simpa [show b = true from ha] using hb.symm⟩
  obtain ⟨s, rec, t, seen, hs, h1, hev, ht⟩ := key
  have hrec : rec.policy = p := hone rec (policyAsked_of hnew.1 hnew.2.1 ((htr s hs).policies _ _ (policyAt_eq s pid ▸ h1)))
  rw [hrec] at hev
  have hval := (hwf s hs).policy_valid h1
  have hid := (hwf s hs).policy_id h1
  rw [hrec] at hval hid
  exact types_sound hval.1 hadm (ev_above hwf ⟨s, hs⟩ hid hval.1 hR hk hev ht)

/-- The same about a Check of a store that holds only relationships the present policy admits, whatever policies there were before. -/
theorem C109_store_partial {env : Env} {s : Store} {pid : String} {rec : PolicyRecord} {g : USet} {u : Entity} {fuel : Nat} (hs : WF env s) (hp : policyAt s pid = some rec)
    (hR : ∀ r, Present s pid r → Admissible rec.policy r) (hk : KeysClear env.U env.H rec.policy (Present s pid) g) (hc : Checks env s fuel pid g u true) :
    MayHold env.U rec.policy u.resource g.object.resource g.relation :=
  types_sound (hs.policy_valid hp).1 hR (C36_sound_partial hs hp hk hc)

/-- A relation of those listed, given to subjects of these kinds. -/
def kind (name : String) (rs : List Restriction) : Relation :=
  { name := name, relationExpression := some (.tree (.rule .this)), subjectRestriction := some (.restrictionSet rs) }

/-- Members of groups are users and members of groups; super_owner of documents are groups; owners of documents are `rs`. -/
def kindPolicy (rs : List Restriction) : Policy :=
  { id := "p"
    resources := [
      { name := "user", relations := [] },
      { name := "group", relations := [kind "member" [.entity "user", .entitySet "group" "member"]] },
      { name := "doc", relations := [kind "owner" rs, kind "super_owner" [.entity "group"]] }] }

/-- group:g -/
def grp : Entity := ⟨"group", "g"⟩

theorem kindPolicy_not {rs : List Restriction} (h1 : .entity "group" ∉ rs) (h2 : .entitySet "doc" "super_owner" ∉ rs) :
    ¬ MayHold U0 (kindPolicy rs) "group" "doc" "owner" := by
  intro h
  refine h (fun res rel => res = "doc" ∧ rel = "super_owner") ?_ |>.2 |> fun h => absurd h (by decide)
  rintro res rel d e ⟨r, hr, rfl, hd, rfl⟩ ht he
  have key : ∀ n rs', d = kind n rs' → .entity "group" ∈ rs' ∨ .entitySet "doc" "super_owner" ∈ rs' := by
    rintro n rs' rfl
    rcases ht with ht | ⟨text, _, ht, _⟩
    · cases ht
      rcases he with (⟨he, _⟩ | ⟨rs, he, hm⟩) | ⟨res', rel', (⟨he, _⟩ | ⟨rs, he, hm⟩), rfl, rfl⟩
      · cases he
      · cases he; exact .inl hm
      · cases he
      · cases he; exact .inr hm
    · cases ht
  simp only [kindPolicy, List.mem_cons, List.not_mem_nil, or_false] at hr
  rcases hr with rfl | rfl | rfl
  · cases hd
  · simp only [List.mem_cons, List.not_mem_nil, or_false] at hd
    have := key _ _ hd
    simp at this
  · simp only [List.mem_cons, List.not_mem_nil, or_false] at hd
    rcases hd with hd | rfl
    · exact ((key _ _ hd).elim h1 h2).elim
    · exact ⟨rfl, rfl⟩

/-- The store after these relationships were set. -/
def kindStore (rs : List Restriction) (l : List Relationship) : Store :=
  (runCalls gEnv (.createPolicy 0 (some (.policy (kindPolicy rs))) [] :: l.map (fun r => .setRelationship 0 "p" (some r) [])) Store.empty).2

/-- **C109** is violated: doc:1 has super_owner group:g, as the policy allows; owners must be users.  Check grants group:g relation owner of document "1super_", because the two relations
share their storage key, although the hash has no collisions. -/
theorem C109_keys_violated :
    policyAt (kindStore [.entity "user"] [⟨some doc1, "super_owner", some (.entity grp)⟩]) "p" = some ⟨kindPolicy [.entity "user"], [], 0⟩ ∧
    Checks gEnv (kindStore [.entity "user"] [⟨some doc1, "super_owner", some (.entity grp)⟩]) 10 "p" ⟨⟨"doc", "1super_"⟩, "owner"⟩ grp true ∧
    ¬ MayHold U0 (kindPolicy [.entity "user"]) "group" "doc" "owner" ∧ Function.Injective Hx :=
  ⟨by decide +kernel, checks_of (by decide +kernel), kindPolicy_not (by decide) (by decide), fun _ _ => Hx_inj⟩

/-- Owners could be users and groups; now they must be users. -/
def narrowedStore : Store :=
  (serve gEnv (.updatePolicy (some (.policy (kindPolicy [.entity "user"]))) []) (kindStore [.entity "user", .entity "group"] [⟨some doc1, "owner", some (.entity grp)⟩])).2

/-- **C109** is violated: after an update that no longer allows groups as owners, a group that was one still is. -/
theorem C109_update_violated :
    policyAt narrowedStore "p" = some ⟨kindPolicy [.entity "user"], [], 0⟩ ∧ Checks gEnv narrowedStore 10 "p" ⟨doc1, "owner"⟩ grp true ∧
    ¬ MayHold U0 (kindPolicy [.entity "user"]) "group" "doc" "owner" :=
  ⟨by decide +kernel, checks_of (by decide +kernel), kindPolicy_not (by decide) (by decide)⟩

/-- Document 1 is owned by the members of group:g, one of whom is user:u. -/
def kindRels : List Relationship :=
  [⟨some doc1, "owner", some (.entitySet (some grp) "member")⟩, ⟨some grp, "member", some (.entity usr)⟩]
/-- The requests. -/
def kindCalls : List Call :=
  .createPolicy 0 (some (.policy (kindPolicy [.entitySet "group" "member"]))) [] :: kindRels.map (fun r => .setRelationship 0 "p" (some r) [])

/-- The hypotheses of `C109_bounded_partial` hold, and its conclusion excludes groups. -/
example : (∀ rec, PolicyAsked gEnv (· ∈ kindCalls) "p" rec → rec.policy = kindPolicy [.entitySet "group" "member"]) ∧
    KeysClear U0 Hx (kindPolicy [.entitySet "group" "member"]) (RelationshipAsked gEnv (· ∈ kindCalls) "p") ⟨doc1, "owner"⟩ ∧
    (∃ hist y, Sys.Flight gEnv (· ∈ kindCalls) ⟨[], Store.empty⟩ (.check 10 "p" (ask ⟨doc1, "owner"⟩ usr)) hist y (.done (.ok (.authorized true)))) ∧
    ¬ MayHold U0 (kindPolicy [.entitySet "group" "member"]) "group" "doc" "owner" := by
  refine ⟨?_, ?_, ?_, kindPolicy_not (by decide) (by decide)⟩
  · rintro rec ⟨_, _, ⟨d, hg, hd⟩, _⟩
    rcases hg with ⟨now, hg⟩ | hg <;> simp [kindCalls, kindRels] at hg
    obtain ⟨_, rfl, _⟩ := hg
    rcases hd with hd | ⟨_, hd, _⟩
    · simpa using hd.symm
    · cases hd
  · have hpol : policyAt (kindStore [.entitySet "group" "member"] kindRels) "p" = some ⟨kindPolicy [.entitySet "group" "member"], [], 0⟩ := by decide +kernel
    have hrel : relationships (kindStore [.entitySet "group" "member"] kindRels) "p" = kindRels := by decide +kernel
    refine KeysClear.mono ?_ (clear_of (env := gEnv) (rec := ⟨kindPolicy [.entitySet "group" "member"], [], 0⟩)
      (L := [.entitySet (some doc1) "owner", .entitySet (some grp) "member", .entity (some usr)]) ((WF.empty gEnv).runCalls _) hpol (by simp [USet.node]) (by decide +kernel)).1
    rintro r ⟨⟨now, a, hset⟩, _⟩
    show r ∈ relationships (kindStore [.entitySet "group" "member"] kindRels) "p"
    rw [hrel]
    simp only [kindCalls, List.mem_cons, List.mem_map] at hset
    rcases hset with h | ⟨r', h1, h2⟩
    · cases h
    · cases h2; exact h1
  · have h0 : Sys.Path gEnv (· ∈ kindCalls) ⟨[], Store.empty⟩ ⟨[], kindStore [.entitySet "group" "member"] kindRels⟩ := Sys.Path.refl.runCalls kindCalls (fun _ h => h)
    obtain ⟨h, f⟩ := (Sys.Flight.start (c := .check 10 "p" (ask ⟨doc1, "owner"⟩ usr)) h0).own_run
    have hb : Checks gEnv (kindStore [.entitySet "group" "member"] kindRels) 10 "p" ⟨doc1, "owner"⟩ usr true := checks_of (by decide +kernel)
    have he : ((Call.check 10 "p" (ask ⟨doc1, "owner"⟩ usr)).prog gEnv).run (kindStore [.entitySet "group" "member"] kindRels) =
        (.ok (.authorized true), kindStore [.entitySet "group" "member"] kindRels) := Prod.ext hb ((Call.prog_read gEnv rfl).run _)
    rw [he] at f
    exact ⟨h, _, f⟩

/-- The hypotheses of `C109_store_partial` in the same store. -/
example : policyAt (kindStore [.entitySet "group" "member"] kindRels) "p" = some ⟨kindPolicy [.entitySet "group" "member"], [], 0⟩ ∧
    (∀ r, Present (kindStore [.entitySet "group" "member"] kindRels) "p" r → Admissible (kindPolicy [.entitySet "group" "member"]) r) ∧
    KeysClear U0 Hx (kindPolicy [.entitySet "group" "member"]) (Present (kindStore [.entitySet "group" "member"] kindRels) "p") ⟨doc1, "owner"⟩ ∧
    Checks gEnv (kindStore [.entitySet "group" "member"] kindRels) 10 "p" ⟨doc1, "owner"⟩ usr true := by
  have hpol : policyAt (kindStore [.entitySet "group" "member"] kindRels) "p" = some ⟨kindPolicy [.entitySet "group" "member"], [], 0⟩ := by decide +kernel
  have hrel : relationships (kindStore [.entitySet "group" "member"] kindRels) "p" = kindRels := by decide +kernel
  have hdoc : Declares (kindPolicy [.entitySet "group" "member"]) "doc" "owner" (kind "owner" [.entitySet "group" "member"]) :=
    ⟨_, .tail _ (.tail _ (.head _)), rfl, .head _, rfl⟩
  have hgrp : Declares (kindPolicy [.entitySet "group" "member"]) "group" "member" (kind "member" [.entity "user", .entitySet "group" "member"]) :=
    ⟨_, .tail _ (.head _), rfl, .head _, rfl⟩
  refine ⟨hpol, fun r hr => ?_, (clear_of (env := gEnv) (rec := ⟨kindPolicy [.entitySet "group" "member"], [], 0⟩)
    (L := [.entitySet (some doc1) "owner", .entitySet (some grp) "member", .entity (some usr)]) ((WF.empty gEnv).runCalls _) hpol (by simp [USet.node]) (by decide +kernel)).1,
    checks_of (by decide +kernel)⟩
  unfold Present at hr
  rw [hrel] at hr
  simp only [kindRels, List.mem_cons, List.not_mem_nil, or_false] at hr
  rcases hr with rfl | rfl
  · exact ⟨⟨_, _, rfl, rfl, ⟨_, .tail _ (.tail _ (.head _)), rfl⟩, ⟨_, hdoc⟩, ⟨_, hgrp⟩⟩, _, _, _, _, rfl, rfl, hdoc, rfl, .entitySet (.head _)⟩
  · exact ⟨⟨_, _, rfl, rfl, ⟨_, .tail _ (.head _), rfl⟩, ⟨_, hgrp⟩, ⟨_, .head _, rfl⟩⟩, _, _, _, _, rfl, rfl, hgrp, rfl, .entity (.head _)⟩

end Zanzi
