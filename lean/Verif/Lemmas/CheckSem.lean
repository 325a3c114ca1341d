import Verif.Lemmas.CheckRun

/-
What a check answer means, in terms of the specification.
-/

namespace Zanzi

open Spec

mutual
theorem Plain.sem_top {N : RelationNode → Prop} {t : GoalTree} (hp : t.Plain false) (h : t.Sem N) : ∃ m ∈ t.tops, N m := by
  match t with
  | .or _ ps =>
    rw [GoalTree.Plain] at hp
    rw [GoalTree.Sem] at h
    rw [GoalTree.tops]
    exact PlainList.sem_top hp h
  | .and _ _ => rw [GoalTree.Plain] at hp; exact hp.elim
  | .diff _ _ _ => rw [GoalTree.Plain] at hp; cases hp.1
  | .leaf _ n _ => exact ⟨n, by simp [GoalTree.tops], h⟩
  | .path _ n _ _ => exact ⟨n, by simp [GoalTree.tops], h⟩

theorem PlainList.sem_top {N : RelationNode → Prop} {ts : List GoalTree} (hp : PlainList false ts) (h : SemAny N ts) : ∃ m ∈ topsList ts, N m := by
  match ts with
  | [] => exact h.elim
  | t :: ts =>
    rw [PlainList] at hp
    rw [SemAny] at h
    rcases h with h | h
    · obtain ⟨m, h1, h2⟩ := Plain.sem_top hp.1 h
      exact ⟨m, by simp [topsList, h1], h2⟩
    · obtain ⟨m, h1, h2⟩ := PlainList.sem_top hp.2 h
      exact ⟨m, by simp [topsList, h1], h2⟩
end

theorem pBuild_plain_rule {d : Bool} {ns : List RelationNode} {reason : String} :
    (GoalTree.or .unknown (ns.map (fun n => .leaf .unknown n reason))).Plain d := by
  rw [GoalTree.Plain, plainList_iff]
  intro t ht
  obtain ⟨n, _, rfl⟩ := List.mem_map.1 ht
  rw [GoalTree.Plain]
  trivial
  all_goals nofun

theorem pBuild_unionOnly {H s pid x} : ∀ {e : ExprTree} {t : GoalTree}, UnionOnly e → pBuild H s pid x e = .ok t → t.Plain false := by
  intro e
  induction e with
  | nil => intro t _ h; cases h
  | unset => intro t _ h; cases h
  | rule r =>
    intro t _ h
    unfold pBuild at h
    obtain ⟨ns, _, h⟩ := Res.bind_eq_ok.1 h
    cases h
    exact pBuild_plain_rule
  | op l o r ihl ihr =>
    intro t hu h
    unfold pBuild at h
    obtain ⟨a, ha, h⟩ := Res.bind_eq_ok.1 h
    obtain ⟨b, hb, h⟩ := Res.bind_eq_ok.1 h
    cases o
    · cases h
      rw [GoalTree.Plain]
      exact ⟨ihl hu.1 ha, ihr hu.2 hb, trivial⟩
    · exact hu.elim
    · exact hu.elim
    · cases h

theorem pBuild_andFree {H s pid x} : ∀ {e : ExprTree} {t : GoalTree}, AndFree e → pBuild H s pid x e = .ok t → t.Plain true := by
  intro e
  induction e with
  | nil => intro t _ h; cases h
  | unset => intro t _ h; cases h
  | rule r =>
    intro t _ h
    unfold pBuild at h
    obtain ⟨ns, _, h⟩ := Res.bind_eq_ok.1 h
    cases h
    exact pBuild_plain_rule
  | op l o r ihl ihr =>
    intro t hu h
    unfold pBuild at h
    obtain ⟨a, ha, h⟩ := Res.bind_eq_ok.1 h
    obtain ⟨b, hb, h⟩ := Res.bind_eq_ok.1 h
    cases o
    · cases h
      rw [GoalTree.Plain]
      exact ⟨ihl hu.1 ha, ihr hu.2 hb, trivial⟩
    · exact hu.elim
    · cases h
      rw [GoalTree.Plain]
      exact ⟨rfl, ihl hu.1 ha, ihr hu.2 hb⟩
    · cases h

theorem positive_of_diffFree {e : ExprTree} (h : DiffFree e) : positive e = e := by
  induction e with
  | nil => rfl
  | unset => rfl
  | rule r => rfl
  | op l o r ihl ihr =>
    cases o
    · rw [positive, ihl h.1, ihr h.2]; nofun
    · rw [positive, ihl h.1, ihr h.2]; nofun
    · exact h.elim
    · rw [positive, ihl h.1, ihr h.2]; nofun

theorem unionOnly_diffFree {e : ExprTree} (h : UnionOnly e) : DiffFree e := by
  induction e with
  | nil => trivial
  | unset => trivial
  | rule r => trivial
  | op l o r ihl ihr =>
    cases o
    · exact ⟨ihl h.1, ihr h.2⟩
    all_goals exact h.elim

section
variable {env : Env} {s : Store} {pid : String} {rec : PolicyRecord} {x : USet} {u : Entity}

/-- Soundness for any property of usersets closed under the positive rules along the request. -/
theorem check_sound (hs : WF env s) (hp : policyAt s pid = some rec) (hk : KeysClear env.U env.H rec.policy (Present s pid) x)
    {V : USet → Prop} (hV : ∀ y t, Reaches env.U rec.policy (Present s pid) x y.node → DefinedBy env.U rec.policy y t →
      ExprIn (Present s pid) u V y (positive t) → V y)
    {t : GoalTree} {seen : List Nat} (h : Ev env.H (Builds (bld env rec.policy s)) (userGoal u) (.path x.node "Request") [] (.tree t) seen)
    (ht : t.result = .success) : V x := by
  have := h.sound (N := NodeIn V u) (P := Reaches env.U rec.policy (Present s pid) x)
    (fun n _ hf => (goalFound_user hf rfl).2 rfl)
    (fun n t hr hterm hb => by
      obtain ⟨y, e, rfl, h1, h2, k1, k2, hfm, htops⟩ := expand_facts hs hp hk hr hterm hb
      exact ⟨hfm, htops, fun hsem => hV y e hr h1 (((pBuild_sem hs V u k1 k2 h2).2).1 hsem)⟩)
  exact this (fun _ _ => .start) ht

/-- Completeness for union-only expressions. -/
theorem check_complete (hs : WF env s) (hp : policyAt s pid = some rec) (hk : KeysClear env.U env.H rec.policy (Present s pid) x)
    (hi : IdsClear env.U env.H rec.policy (Present s pid) x) (hu : ExprsFrom env.U rec.policy (Present s pid) x UnionOnly)
    {t : GoalTree} {seen : List Nat} (h : Ev env.H (Builds (bld env rec.policy s)) (userGoal u) (.path x.node "Request") [] (.tree t) seen)
    (hg : Granted env.U rec.policy (Present s pid) u x) : t.result = .success := by
  refine Classical.byContradiction (fun hne => ?_)
  have hc := h.closed (P := Reaches env.U rec.policy (Present s pid) x) (d := false) nofun
    (fun n t hr hterm hb => by
      obtain ⟨y, e, rfl, h1, h2, k1, k2, hfm, htops⟩ := expand_facts hs hp hk hr hterm hb
      exact ⟨pBuild_unionOnly (hu y e hr h1) h2, htops⟩)
  obtain ⟨hv, hnew⟩ := hc (fun _ _ => .start) hne
  refine hg (fun y => ¬ (Reaches env.U rec.policy (Present s pid) x y.node ∧ Visited env.H seen y.node)) ?_ ⟨.start, hv⟩
  rintro y ⟨e, hd, he⟩ ⟨hr, id, hid, hyid⟩
  obtain ⟨n, hn, hnr, hcl⟩ := hnew id hid (by simp)
  obtain rfl := hi _ _ _ hr hnr hyid hn
  obtain ⟨t', hb, htv⟩ := hcl.2 rfl
  obtain ⟨y', e', hy', h1, h2, k1, k2, hfm, htops⟩ := expand_facts hs hp hk hr rfl hb
  obtain ⟨y1, y2⟩ := y
  obtain ⟨z1, z2⟩ := y'
  cases hy'
  obtain rfl := DefinedBy.unique (hs.policy_valid hp).1 hd h1
  have hsem := ((pBuild_sem hs _ u k1 k2 h2).1).2 he
  obtain ⟨m, hm, hN⟩ := Plain.sem_top (pBuild_unionOnly (hu _ e hr h1) h2) hsem
  obtain ⟨mid, hmid, hmv⟩ := htv m hm
  have hmr := htops m hm mid hmv
  obtain ⟨n, hn, hnr, hcl'⟩ := hnew mid hmid (by simp)
  obtain rfl := hi _ _ _ hmr hnr hmv hn
  cases hterm : m.isTerminal with
  | true => exact absurd ((goalFound_user hcl'.1 (by simp [hterm])).1 hN) (by simp)
  | false =>
    obtain ⟨o, rel, rfl⟩ := isTerminal_false hterm
    cases o with
    | none => exact hN
    | some o => exact hN ⟨hmr, mid, hmid, hmv⟩

/-- Exactness when no branch was cut. -/
theorem check_exact (hs : WF env s) (hp : policyAt s pid = some rec) (hk : KeysClear env.U env.H rec.policy (Present s pid) x)
    {V : USet → Prop} (hV : Solution env.U rec.policy (Present s pid) u V)
    {t : GoalTree} {seen : List Nat} (h : Ev env.H (Builds (bld env rec.policy s)) (userGoal u) (.path x.node "Request") [] (.tree t) seen)
    (hc : Clean t) : t.result = .success ↔ V x := by
  have := h.exact (N := NodeIn V u) (P := Reaches env.U rec.policy (Present s pid) x)
    (fun n b _ hf hb => goalFound_user hf hb)
    (fun n t hr hterm hb => by
      obtain ⟨y, e, rfl, h1, h2, k1, k2, hfm, htops⟩ := expand_facts hs hp hk hr hterm hb
      refine ⟨htops, ((pBuild_sem hs V u k1 k2 h2).1).trans ?_⟩
      refine Iff.trans ?_ (hV y).symm
      constructor
      · intro he; exact ⟨e, h1, he⟩
      · rintro ⟨e', h1', he⟩
        obtain rfl := DefinedBy.unique (hs.policy_valid hp).1 h1 h1'
        exact he)
  exact (this (fun _ _ => .start) hc).2

theorem pBuild_fresh {H : String → Nat} {y : USet} : ∀ {e : ExprTree} {t : GoalTree}, pBuild H s pid y e = .ok t → t.Fresh := by
  intro e
  induction e with
  | nil => intro t h; cases h
  | unset => intro t h; cases h
  | rule r =>
    intro t h
    unfold pBuild at h
    obtain ⟨ns, _, h⟩ := Res.bind_eq_ok.1 h
    cases h
    rw [GoalTree.Fresh, freshList_iff]
    refine ⟨rfl, fun t ht => ?_⟩
    obtain ⟨n, _, rfl⟩ := List.mem_map.1 ht
    rw [GoalTree.Fresh]
  | op l o r ihl ihr =>
    intro t h
    unfold pBuild at h
    obtain ⟨a, ha, h⟩ := Res.bind_eq_ok.1 h
    obtain ⟨b, hb, h⟩ := Res.bind_eq_ok.1 h
    cases o <;> cases h <;> rw [GoalTree.Fresh]
    · exact ⟨rfl, ihl ha, ihr hb, trivial⟩
    · exact ⟨rfl, ihl ha, ihr hb, trivial⟩
    · exact ⟨rfl, ihl ha, ihr hb⟩

theorem found_once {n : RelationNode} {x : USet} {p : Policy} {R : Relationship → Prop} (hw : NoWildcardFor env.U p R x u)
    (hr : Reaches env.U p R x n) (hf : goalFound n (userGoal u) = .ok true) : n = .entity (some u) := by
  have hn : NodeIn (fun _ => False) u n := (goalFound_user hf rfl).2 rfl
  cases n with
  | unset => exact hn.elim
  | entitySet o rel => cases o <;> exact hn.elim
  | wildcard r => cases hn; exact absurd hr hw
  | entity o =>
    cases o with
    | none => exact hn.elim
    | some e => cases hn; rfl

/-- Without a wildcard covering the user, AND never succeeds and difference never excludes. -/
theorem check_toothless (hs : WF env s) (hp : policyAt s pid = some rec) (hk : KeysClear env.U env.H rec.policy (Present s pid) x)
    (hw : NoWildcardFor env.U rec.policy (Present s pid) x u)
    {t : GoalTree} {seen : List Nat} (h : Ev env.H (Builds (bld env rec.policy s)) (userGoal u) (.path x.node "Request") [] (.tree t) seen) :
    Toothless t := by
  have := h.toothless (P := Reaches env.U rec.policy (Present s pid) x) (g := env.H (u.resource ++ "/" ++ u.id ++ "/"))
    (fun n hr hf => by rw [found_once hw hr hf]; rfl)
    (fun n t hr hterm hb => by
      obtain ⟨y, e, rfl, h1, h2, k1, k2, hfm, htops⟩ := expand_facts hs hp hk hr hterm hb
      exact ⟨pBuild_fresh h2, hfm, htops⟩)
  exact this (fun _ _ => .start)

end

end Zanzi
