import Verif.Lemmas.RewriteSearch
import Verif.Props.Bystanders
import Verif.Props.Unions
import Verif.Props.Policies

/-
Property C86: rewriting a policy without changing its meaning.
-/

namespace Zanzi

open Spec

section
variable {env : Env} {s s' : Store} {pid : String} {rec rec' : PolicyRecord} {x x' : USet} {u : Entity} {al : String → String → Option String}

/-! ### Searches of regrouped policies -/

theorem bld_defined (hu : NamesUnique rec.policy) {y : USet} {e : ExprTree} (h : DefinedBy env.U rec.policy y e) :
    bld env rec.policy s y.node = pBuild env.H s rec.policy.id y e := by
  obtain ⟨d, h1, h2⟩ := h
  rw [bld_set, ((C11_lookup_exact rec.policy hu _ _).1 d).2 h1]
  simp only [(getExpressionTree_ok_iff env.U d e).2 h2, Res.bind_ok]

theorem bld_undefined (hv : ValidPolicy env.U rec.policy) {y : USet} (h : ∀ e, ¬ DefinedBy env.U rec.policy y e) :
    bld env rec.policy s y.node = .err .relationNotFound := by
  rw [bld_set]
  split
  · rfl
  · next d hd =>
    have hd' := ((C11_lookup_exact rec.policy hv.1 _ _).1 d).1 hd
    have ⟨r, hr, _, hdr, _⟩ := hd'
    obtain ⟨t, ht, _⟩ := hv.2.2 r hr d hdr
    exact absurd ⟨d, hd', ht⟩ (h t)

theorem pBuild_succs {H : String → Nat} (h : ∀ z, succs H s pid z = succs H s' pid z) (y : USet) (e : ExprTree) : pBuild H s pid y e = pBuild H s' pid y e := by
  induction e with
  | nil => rfl
  | unset => rfl
  | rule r => cases r <;> simp [pBuild, ruleNodes, h]
  | op l o r ihl ihr => simp only [pBuild, ihl, ihr]

theorem aliased_facts (hd : DefinedAs env.U rec.policy al) (n : RelationNode) (h : aliased al n ≠ n) :
    ∃ o a b, n = .entitySet (some o) a ∧ aliased al n = .entitySet (some o) b ∧ aliased al (aliased al n) = aliased al n ∧
      al o.resource a = some b := by
  cases n with
  | entitySet o a =>
    cases o with
    | none => exact absurd rfl h
    | some o =>
      cases hb : al o.resource a with
      | none => exact absurd (by simp [aliased, hb]) h
      | some b => exact ⟨o, a, b, rfl, by simp [aliased, hb], by simp [aliased, hb, (hd _ _ _ hb).1], hb⟩
  | _ => exact absurd rfl h

theorem topsList_append (a b : List GoalTree) : topsList (a ++ b) = topsList a ++ topsList b := by
  induction a with
  | nil => simp [topsList]
  | cons t ts ih => simp [topsList, ih]

theorem orItems_tops (t : GoalTree) {m : RelationNode} (h : m ∈ topsList (orItems t)) : m ∈ t.tops := by
  cases t <;> simpa [orItems, topsList, GoalTree.tops] using h

theorem andItems_tops (t : GoalTree) {m : RelationNode} (h : m ∈ topsList (andItems t)) : m ∈ t.tops := by
  cases t <;> simpa [andItems, topsList, GoalTree.tops] using h

theorem drop_tops (ts : List GoalTree) : ∀ (acc : List RelationNode) {m : RelationNode}, m ∈ topsList (dropRepeated acc ts) → m ∈ topsList ts := by
  induction ts with
  | nil => intro acc m h; exact h
  | cons t ts ih =>
    intro acc m h
    rw [topsList, List.mem_append]
    cases t with
    | leaf r n s =>
      simp only [dropRepeated] at h
      split at h
      · exact .inr (ih _ h)
      · rw [topsList, List.mem_append] at h
        exact h.imp id (ih _)
    | _ =>
      simp only [dropRepeated, topsList, List.mem_append] at h
      exact h.imp id (ih _)

mutual
theorem canon_tops {σ : RelationNode → RelationNode} (t : GoalTree) : ∀ m ∈ (canon σ t).tops, ∃ n ∈ t.tops, m = σ n := by
  match t with
  | .or _ ps =>
    intro m hm
    simp only [canon, GoalTree.tops] at hm ⊢
    exact canonOr_tops ps m (drop_tops _ _ hm)
  | .and _ ps =>
    intro m hm
    simp only [canon, GoalTree.tops] at hm ⊢
    exact canonAnd_tops ps m hm
  | .diff _ l r =>
    intro m hm
    simp only [canon, GoalTree.tops, List.mem_append] at hm ⊢
    rcases hm with hm | hm
    · obtain ⟨n, hn, rfl⟩ := canon_tops l m hm; exact ⟨n, .inl hn, rfl⟩
    · obtain ⟨n, hn, rfl⟩ := canon_tops r m hm; exact ⟨n, .inr hn, rfl⟩
  | .leaf _ n r => simp [canon, GoalTree.tops]
  | .path _ n r _ => simp [canon, GoalTree.tops]
theorem canonOr_tops {σ : RelationNode → RelationNode} (ts : List GoalTree) : ∀ m ∈ topsList (canonOr σ ts), ∃ n ∈ topsList ts, m = σ n := by
  match ts with
  | [] => simp [canonOr, topsList]
  | t :: ts =>
    intro m hm
    rw [canonOr, topsList_append, List.mem_append] at hm
    simp only [topsList, List.mem_append]
    rcases hm with hm | hm
    · obtain ⟨n, hn, rfl⟩ := canon_tops t m (orItems_tops _ hm); exact ⟨n, .inl hn, rfl⟩
    · obtain ⟨n, hn, rfl⟩ := canonOr_tops ts m hm; exact ⟨n, .inr hn, rfl⟩
theorem canonAnd_tops {σ : RelationNode → RelationNode} (ts : List GoalTree) : ∀ m ∈ topsList (canonAnd σ ts), ∃ n ∈ topsList ts, m = σ n := by
  match ts with
  | [] => simp [canonAnd, topsList]
  | t :: ts =>
    intro m hm
    rw [canonAnd, topsList_append, List.mem_append] at hm
    simp only [topsList, List.mem_append]
    rcases hm with hm | hm
    · obtain ⟨n, hn, rfl⟩ := canon_tops t m (andItems_tops _ hm); exact ⟨n, .inl hn, rfl⟩
    · obtain ⟨n, hn, rfl⟩ := canonAnd_tops ts m hm; exact ⟨n, .inr hn, rfl⟩
end

/-- One policy against its canonical trees, from a node the request reaches. -/
theorem search_canon (hs : WF env s) (hp : policyAt s pid = some rec) (hk : KeysClear env.U env.H rec.policy (Present s pid) x)
    (hi : IdsClear env.U env.H rec.policy (Present s pid) x) (hd : DefinedAs env.U rec.policy al) {n : RelationNode}
    (hn : Reaches env.U rec.policy (Present s pid) x n) (fuel : Nat) :
    Follows (fun a b => (a.1 = .success ↔ b.1 = .success)) (outcome (pPath env.H (bld env rec.policy s) (userGoal u) fuel n "Request" []))
      (outcome (pPath env.H (fun n => bld env rec.policy s n >>= fun t => .ok (canon (aliased al) t)) (userGoal u) (fuel + 1) (aliased al n) "Request" [])) := by
  have hfol := pPath_canon (u := u) (P := Reaches env.U rec.policy (Present s pid) x) (σ := aliased al) (build := bld env rec.policy s) hi
    (fun n h => by obtain ⟨o, a, b, h1, h2, h3, _⟩ := aliased_facts hd n h; exact ⟨o, a, b, h1, h2, h3⟩)
    (fun n hn h => by
      obtain ⟨o, a, b, rfl, h2, h3, h4⟩ := aliased_facts hd n h
      have hdef := (hd _ _ _ h4).2 o.id
      refine ⟨h2 ▸ .step (y := ⟨o, a⟩) hn (.cu hdef (by simp [leaves])), .unknown, .unknown, reasonBuilder (.cu b), ?_⟩
      have := bld_defined (s := s) (env := env) (rec := rec) (hs.policy_valid hp).1 hdef
      rw [h2]
      exact this)
    (fun n t hn ht hb => by
      obtain ⟨_, _, _, _, h, _, _, hf, h'⟩ := expand_facts hs hp hk hn ht hb
      exact ⟨hf, (pBuild_formed h).2, h'⟩) fuel (fuel + 1) (by omega) n "Request" "Request" [] [] (fun _ _ => hn)
      ⟨fun _ _ _ _ _ => Iff.rfl, fun _ _ _ _ _ _ _ h => by cases h⟩
  rcases hfol with h | ⟨a, b, h1, h2, h3⟩ | h | h
  · exact .inl h
  · exact .inr (.inl ⟨a, b, h1, h2, h3.1⟩)
  · exact .inr (.inr (.inl h))
  · exact .inr (.inr (.inr h))

/-- The canonical searches of regrouped policies are the same. -/
theorem canon_regrouped (hs : WF env s) (hs' : WF env s') (hp : policyAt s pid = some rec) (hp' : policyAt s' pid = some rec')
    (hR : ∀ r, Present s pid r ↔ Present s' pid r) (hk : KeysClear env.U env.H rec.policy (Present s pid) x)
    (hd : DefinedAs env.U rec.policy al) (hreg : RegroupedPolicy env.U al rec.policy rec'.policy) {n : RelationNode}
    (hn : Reaches env.U rec.policy (Present s pid) x n) (fuel : Nat) :
    pPath env.H (fun n => bld env rec.policy s n >>= fun t => .ok (canon (aliased al) t)) (userGoal u) fuel n "Request" [] =
      pPath env.H (fun n => bld env rec'.policy s' n >>= fun t => .ok (canon (aliased al) t)) (userGoal u) fuel n "Request" [] := by
  have hid := hs.policy_id hp
  have hid' := hs'.policy_id hp'
  have hedges : s.edges pid = s'.edges pid := by
    refine sorted_ext (hs.edgeSorted pid) (hs'.edgeSorted pid) (fun p => ?_)
    obtain ⟨k, e⟩ := p
    constructor
    · intro hm
      have h1 := hs.edgeNorm _ _ _ hm
      have h2 := hs.edgeKey _ _ _ hm
      exact (hs'.mem_edges h1 h2).2 ((hR _).1 ((hs.mem_edges h1 h2).1 hm))
    · intro hm
      have h1 := hs'.edgeNorm _ _ _ hm
      have h2 := hs'.edgeKey _ _ _ hm
      exact (hs.mem_edges h1 h2).2 ((hR _).2 ((hs'.mem_edges h1 h2).1 hm))
  have hsucc : ∀ z, succs env.H s pid z = succs env.H s' pid z := fun z => by unfold succs; rw [hedges]
  refine pPath_congr (P := Reaches env.U rec.policy (Present s pid) x) (fun n hn ht => ⟨?_, fun t hb => ?_⟩) fuel _ _ _ (fun _ _ => hn)
  · obtain ⟨o, rel, rfl⟩ := isTerminal_false ht
    cases o with
    | none => rfl
    | some o =>
      show (bld env rec.policy s (USet.node ⟨o, rel⟩) >>= _) = (bld env rec'.policy s' (USet.node ⟨o, rel⟩) >>= _)
      obtain ⟨g1, g2⟩ := hreg ⟨o, rel⟩
      by_cases hdef : ∃ e, DefinedBy env.U rec.policy ⟨o, rel⟩ e
      · obtain ⟨e, he⟩ := hdef
        obtain ⟨e', he', hree⟩ := g1 e he
        rw [bld_defined (hs.policy_valid hp).1 he, bld_defined (hs'.policy_valid hp').1 he', hid, hid', ← pBuild_succs hsucc]
        exact regrouped_canon (fun a b h => (hd _ a b h).1) hree
      · rw [bld_undefined (hs.policy_valid hp) (fun e h => hdef ⟨e, h⟩), bld_undefined (hs'.policy_valid hp') (fun e h => hdef (g2 e h))]
  · obtain ⟨t0, h0, h1⟩ := Res.bind_eq_ok.1 hb
    cases h1
    obtain ⟨_, _, _, _, _, _, _, _, h'⟩ := expand_facts hs hp hk hn ht h0
    intro m hm id hmid
    obtain ⟨m0, hm0, rfl⟩ := canon_tops t0 m hm
    by_cases hsame : aliased al m0 = m0
    · rw [hsame] at hmid ⊢
      exact h' m0 hm0 id hmid
    · obtain ⟨o, a, b, rfl, h2, _, h4⟩ := aliased_facts hd m0 hsame
      rw [h2]
      exact .step (y := ⟨o, a⟩) (h' _ hm0 _ rfl) (.cu ((hd _ _ _ h4).2 o.id) (by simp [leaves]))

/-- Searches of regrouped policies. -/
theorem search_regrouped (hs : WF env s) (hs' : WF env s') (hp : policyAt s pid = some rec) (hp' : policyAt s' pid = some rec')
    (hR : ∀ r, Present s pid r ↔ Present s' pid r) (hk : KeysClear env.U env.H rec.policy (Present s pid) x)
    (hk' : KeysClear env.U env.H rec'.policy (Present s' pid) x) (hi : IdsClear env.U env.H rec.policy (Present s pid) x)
    (hi' : IdsClear env.U env.H rec'.policy (Present s' pid) x) (hd : DefinedAs env.U rec.policy al) (hd' : DefinedAs env.U rec'.policy al)
    (hreg : RegroupedPolicy env.U al rec.policy rec'.policy) {z : USet} (hz : Reaches env.U rec.policy (Present s pid) x z.node)
    (hx' : Reaches env.U rec'.policy (Present s' pid) x x'.node) (he : aliased al z.node = aliased al x'.node) :
    ∃ N, ∀ fuel, N ≤ fuel → (serve env (.check fuel pid (ask z u)) s).1 = (serve env (.check fuel pid (ask x' u)) s').1 ∧
      (serve env (.check fuel pid (ask z u)) s).1 ≠ .fuel := by
  refine ⟨max (searchBound env rec.policy s (some z.node)) (searchBound env rec'.policy s' (some x'.node)), fun fuel hf => ?_⟩
  have n1 := (pSearch_stable env rec.policy s (some z.node) (userGoal u) fuel (by omega)).2
  have n2 := (pSearch_stable env rec'.policy s' (some x'.node) (userGoal u) fuel (by omega)).2
  have hz' : Reaches env.U rec.policy (Present s pid) x (aliased al z.node) := by
    by_cases hsame : aliased al z.node = z.node
    · rw [hsame]; exact hz
    · obtain ⟨o, a, b, h1, h2, _, h4⟩ := aliased_facts hd z.node hsame
      rw [h2]
      rw [h1] at hz
      exact .step (y := ⟨o, a⟩) hz (.cu ((hd _ _ _ h4).2 o.id) (by simp [leaves]))
  have f1 := search_canon (u := u) hs hp hk hi hd hz fuel
  have f2 := search_canon (u := u) hs' hp' hk' hi' hd' hx' fuel
  rw [canon_regrouped hs hs' hp hp' hR hk hd hreg hz' (fuel + 1), he] at f1
  have e1 := serve_check (env := env) hp fuel z u
  have e2 := serve_check (env := env) hp' fuel x' u
  have e : ∀ (p : Policy) s (y : USet), pSearch env p s fuel (some y.node) (userGoal u) =
      (pPath env.H (bld env p s) (userGoal u) fuel y.node "Request" [] >>= fun p => .ok p.1) := fun p s y => rfl
  rw [e] at n1 n2 e1 e2
  rw [e1, e2]
  generalize pPath env.H (bld env rec.policy s) (userGoal u) fuel z.node "Request" [] = r1 at *
  generalize pPath env.H (bld env rec'.policy s') (userGoal u) fuel x'.node "Request" [] = r2 at *
  generalize outcome (pPath env.H (fun n => bld env rec'.policy s' n >>= fun t => .ok (canon (aliased al) t)) (userGoal u) (fuel + 1) (aliased al x'.node) "Request" []) = r0 at *
  clear e e1 e2
  unfold outcome at f1 f2
  cases r1 with
  | fuel => exact absurd rfl n1
  | ok p =>
    cases r2 with
    | fuel => exact absurd rfl n2
    | ok q =>
      rcases f1 with h | ⟨a, b, h1, rfl, h3⟩ | ⟨e, h, _⟩ | ⟨h, _⟩
      · cases h
      · rcases f2 with h | ⟨a', b', h1', hb, h3'⟩ | ⟨e, h, _⟩ | ⟨h, _⟩
        · cases h
        · cases hb
          cases h1
          cases h1'
          refine ⟨?_, nofun⟩
          show Res.ok (Answer.authorized _) = Res.ok (Answer.authorized _)
          congr 2
          exact decide_eq_decide.2 (h3.trans h3'.symm)
        · cases h
        · cases h
      · cases h
      · cases h
    | err e =>
      rcases f2 with h | ⟨_, _, h, _⟩ | ⟨e', h, rfl⟩ | ⟨h, _⟩
      · cases h
      · cases h
      · rcases f1 with h | ⟨_, _, _, h, _⟩ | ⟨_, h, _⟩ | ⟨h, _⟩ <;> cases h
      · cases h
    | panic =>
      rcases f2 with h | ⟨_, _, h, _⟩ | ⟨e', h, rfl⟩ | ⟨h, rfl⟩
      · cases h
      · cases h
      · cases h
      · rcases f1 with h | ⟨_, _, _, h, _⟩ | ⟨_, h, _⟩ | ⟨h, _⟩ <;> cases h
  | err e1 =>
    rcases f1 with h | ⟨_, _, h, _⟩ | ⟨e', h, rfl⟩ | ⟨h, _⟩
    · cases h
    · cases h
    · cases h
      rcases f2 with h | ⟨_, _, _, h, _⟩ | ⟨_, h, h'⟩ | ⟨_, h⟩
      · cases r2 <;> first | exact absurd rfl n2 | cases h
      · cases h
      · cases h'
        cases r2 with
        | err e => cases h; exact ⟨rfl, nofun⟩
        | _ => cases h
      · cases h
    · cases h
  | panic =>
    rcases f1 with h | ⟨_, _, h, _⟩ | ⟨e', h, rfl⟩ | ⟨_, rfl⟩
    · cases h
    · cases h
    · cases h
    · rcases f2 with h | ⟨_, _, _, h, _⟩ | ⟨_, _, h⟩ | ⟨h, _⟩
      · cases r2 <;> first | exact absurd rfl n2 | cases h
      · cases h
      · cases h
      · cases r2 with
        | panic => exact ⟨rfl, nofun⟩
        | _ => cases h

/-! ### C86 -/

/-- C86 for every operator: a policy with unions and intersections grouped differently, alternatives repeated or not, and relations used in place of the ones they
are defined as, gives the same answers to Check, errors included.  Missing: other rewritings, see `C86_meaning_violated`. -/
theorem C86_regrouped_partial (hs : WF env s) (hs' : WF env s') (hp : policyAt s pid = some rec) (hp' : policyAt s' pid = some rec')
    (hR : ∀ r, Present s pid r ↔ Present s' pid r) (hk : KeysClear env.U env.H rec.policy (Present s pid) x)
    (hk' : KeysClear env.U env.H rec'.policy (Present s' pid) x) (hi : IdsClear env.U env.H rec.policy (Present s pid) x)
    (hi' : IdsClear env.U env.H rec'.policy (Present s' pid) x) (hd : DefinedAs env.U rec.policy al) (hd' : DefinedAs env.U rec'.policy al)
    (hreg : RegroupedPolicy env.U al rec.policy rec'.policy) :
    ∃ N, ∀ fuel, N ≤ fuel → (serve env (.check fuel pid (ask x u)) s).1 = (serve env (.check fuel pid (ask x u)) s').1 ∧
      (serve env (.check fuel pid (ask x u)) s).1 ≠ .fuel :=
  search_regrouped hs hs' hp hp' hR hk hk' hi hi' hd hd' hreg .start .start rfl

/-- C86 for an accepted UpdatePolicy that regroups the policy: answers to Check are the same before and after. -/
theorem C86_update_partial (hs : WF env s) (hp : policyAt s pid = some rec) {d : Option PolicyDefinition} {a : Bytes} {p : Policy} (hdef : Defines env d p)
    (hpid : p.id = pid) (hv : ValidPolicy env.U p) (hk : KeysClear env.U env.H rec.policy (Present s pid) x)
    (hk' : KeysClear env.U env.H p (Present s pid) x) (hi : IdsClear env.U env.H rec.policy (Present s pid) x)
    (hi' : IdsClear env.U env.H p (Present s pid) x) (hd : DefinedAs env.U rec.policy al) (hd' : DefinedAs env.U p al)
    (hreg : RegroupedPolicy env.U al rec.policy p) :
    (serve env (.updatePolicy d a) s).1 = .ok .updated ∧ ∃ N, ∀ fuel, N ≤ fuel →
      (serve env (.check fuel pid (ask x u)) s).1 = (serve env (.check fuel pid (ask x u)) (serve env (.updatePolicy d a) s).2).1 := by
  subst hpid
  obtain ⟨s', h1, h2, _, h4, _⟩ := (C24_update env s d a p hdef).2.1 rec hp hv
  have hs' : WF env s' := by have := hs.run (.updatePolicy d a); rwa [show ((Call.updatePolicy d a).prog env).run s = serve env (.updatePolicy d a) s from rfl, h1] at this
  have hp' : policyAt s' p.id = some ⟨p, a, rec.createdAt⟩ := by
    rw [serve_getPolicy] at h2
    rw [policyAt_eq]
    exact Answer.policy.inj (Res.ok.inj (Prod.mk.inj h2).1)
  have hR : Present s p.id = Present s' p.id := by unfold Present relationships; rw [h4]
  rw [h1]
  refine ⟨rfl, ?_⟩
  obtain ⟨N, h⟩ := C86_regrouped_partial (u := u) hs hs' hp hp' (fun r => by rw [hR]) hk (hR ▸ hk') hi (hR ▸ hi') hd hd' hreg
  exact ⟨N, fun fuel hf => (h fuel hf).1⟩

theorem regrouped_self (U : Unicode) (p : Policy) : RegroupedPolicy U al p p :=
  fun _ => ⟨fun e h => ⟨e, h, .refl e⟩, fun e h => ⟨e, h⟩⟩

/-- C86 for a relation defined as another one: whatever operators are met, and even when the other relation leads back to it, both give every user the same
answer to Check, errors included. -/
theorem C86_renamed_partial (hs : WF env s) (hp : policyAt s pid = some rec) (hk : KeysClear env.U env.H rec.policy (Present s pid) x)
    (hi : IdsClear env.U env.H rec.policy (Present s pid) x) {b : String} (hd : DefinedBy env.U rec.policy x (.rule (.cu b))) (hne : b ≠ x.relation) :
    ∃ N, ∀ fuel, N ≤ fuel → (serve env (.check fuel pid (ask x u)) s).1 = (serve env (.check fuel pid (ask ⟨x.object, b⟩ u)) s).1 ∧
      (serve env (.check fuel pid (ask x u)) s).1 ≠ .fuel := by
  have hal : DefinedAs env.U rec.policy (fun n a => if n = x.object.resource ∧ a = x.relation then some b else none) := by
    intro n a c h
    dsimp only at h
    split at h
    · next hh =>
      cases h
      refine ⟨if_neg (fun h => hne h.2), fun i => ?_⟩
      rw [hh.1, hh.2]
      exact hd
    · cases h
  refine search_regrouped (x' := ⟨x.object, b⟩) hs hs hp hp (fun _ => Iff.rfl) hk hk hi hi hal hal (regrouped_self _ _) .start (.step .start (.cu hd (by simp [leaves]))) ?_
  simp [aliased, USet.node, hne]

theorem derived_sameSet {U : Unicode} {p p' : Policy} {R : Relationship → Prop}
    (hm : ∀ y, ((∃ e, DefinedBy U p y e) ↔ ∃ e, DefinedBy U p' y e) ∧ ∀ e e', DefinedBy U p y e → DefinedBy U p' y e' → SameSet R y e e') (V : USet → Prop)
    (y : USet) : Derived U p R u V y ↔ Derived U p' R u V y := by
  constructor
  · rintro ⟨e, he, hin⟩
    obtain ⟨e', he'⟩ := (hm y).1.1 ⟨e, he⟩
    exact ⟨e', he', ((hm y).2 e e' he he' u V).1 hin⟩
  · rintro ⟨e', he', hin⟩
    obtain ⟨e, he⟩ := (hm y).1.2 ⟨e', he'⟩
    exact ⟨e, he, ((hm y).2 e e' he he' u V).2 hin⟩

theorem granted_sameSet {U : Unicode} {p p' : Policy} {R : Relationship → Prop}
    (hm : ∀ y, ((∃ e, DefinedBy U p y e) ↔ ∃ e, DefinedBy U p' y e) ∧ ∀ e e', DefinedBy U p y e → DefinedBy U p' y e' → SameSet R y e e') :
    Granted U p R u x ↔ Granted U p' R u x :=
  ⟨fun g V hV => g V (fun y hy => hV y ((derived_sameSet hm V y).1 hy)), fun g V hV => g V (fun y hy => hV y ((derived_sameSet hm V y).2 hy))⟩

/-- C86 for requests that meet only unions: policies whose expressions mean the same sets of users give the same answers to Check. -/
theorem C86_union_partial (hs : WF env s) (hs' : WF env s') (hp : policyAt s pid = some rec) (hp' : policyAt s' pid = some rec')
    (hR : ∀ r, Present s pid r ↔ Present s' pid r) (hk : KeysClear env.U env.H rec.policy (Present s pid) x)
    (hk' : KeysClear env.U env.H rec'.policy (Present s' pid) x) (hi : IdsClear env.U env.H rec.policy (Present s pid) x)
    (hi' : IdsClear env.U env.H rec'.policy (Present s' pid) x) (hu : ExprsFrom env.U rec.policy (Present s pid) x UnionOnly)
    (hu' : ExprsFrom env.U rec'.policy (Present s' pid) x UnionOnly)
    (hm : ∀ y, ((∃ e, DefinedBy env.U rec.policy y e) ↔ ∃ e, DefinedBy env.U rec'.policy y e) ∧
      ∀ e e', DefinedBy env.U rec.policy y e → DefinedBy env.U rec'.policy y e' → SameSet (Present s pid) y e e')
    {fuel fuel' : Nat} {b b' : Bool} (h : Checks env s fuel pid x u b) (h' : Checks env s' fuel' pid x u b') : b = b' := by
  have hRe : Present s' pid = Present s pid := funext (fun r => propext (hR r).symm)
  have h1 := C37_union_exact_partial hs hp hk hi hu h
  have h2 := C37_union_exact_partial hs' hp' hk' hi' hu' h'
  rw [hRe] at h2
  rw [Bool.eq_iff_iff, h1, h2, granted_sameSet hm]

end

/-! ### Concrete policies -/

/-- doc relations a, b, c, `w = c`, and v defined by `e`. -/
def formRels (e : String) : List Relation := [rel "a" "_this", rel "b" "_this", rel "c" "_this", rel "w" "c", rel "v" e]

theorem form_def {e : String} {E : ExprTree} (hE : getExpressionTree U0 (rel "v" e) = .ok E) {y : USet} {t : ExprTree}
    (h : DefinedBy U0 (gPolicy (formRels e)) y t) :
    (t = .rule .this ∧ ∀ e' E', getExpressionTree U0 (rel "v" e') = .ok E' → DefinedBy U0 (gPolicy (formRels e')) y (.rule .this)) ∨
    (t = .rule (.cu "c") ∧ ∀ e' E', getExpressionTree U0 (rel "v" e') = .ok E' → DefinedBy U0 (gPolicy (formRels e')) y (.rule (.cu "c"))) ∨
    (t = E ∧ (∀ e' E', getExpressionTree U0 (rel "v" e') = .ok E' → DefinedBy U0 (gPolicy (formRels e')) y E') ∧ y.object.resource = "doc") := by
  obtain ⟨d, ⟨r, hr, h1, h2, h3⟩, h4⟩ := h
  rw [← getExpressionTree_ok_iff] at h4
  have k1 : getExpressionTree U0 (rel "a" "_this") = .ok (.rule .this) := by decide +kernel
  have k2 : getExpressionTree U0 (rel "b" "_this") = .ok (.rule .this) := by decide +kernel
  have k3 : getExpressionTree U0 (rel "c" "_this") = .ok (.rule .this) := by decide +kernel
  have k4 : getExpressionTree U0 (rel "member" "_this") = .ok (.rule .this) := by decide +kernel
  have k5 : getExpressionTree U0 (rel "w" "c") = .ok (.rule (.cu "c")) := by decide +kernel
  obtain ⟨⟨res, i⟩, rl⟩ := y
  dsimp only at h1 h3
  subst h1 h3
  simp only [gPolicy, List.mem_cons, List.not_mem_nil, or_false] at hr
  rcases hr with rfl | rfl | rfl
  · cases h2
  · simp only [List.mem_cons, List.not_mem_nil, or_false] at h2
    subst h2
    rw [k4] at h4
    cases h4
    exact .inl ⟨rfl, fun e' E' _ => ⟨_, ⟨_, List.mem_cons_of_mem _ List.mem_cons_self, rfl, List.mem_cons_self, rfl⟩, (getExpressionTree_ok_iff _ _ _).1 k4⟩⟩
  · simp only [formRels, List.mem_cons, List.not_mem_nil, or_false] at h2
    rcases h2 with rfl | rfl | rfl | rfl | rfl
    · rw [k1] at h4; cases h4
      exact .inl ⟨rfl, fun e' E' _ => doc_def _ (by simp [formRels]) k1 i⟩
    · rw [k2] at h4; cases h4
      exact .inl ⟨rfl, fun e' E' _ => doc_def _ (by simp [formRels]) k2 i⟩
    · rw [k3] at h4; cases h4
      exact .inl ⟨rfl, fun e' E' _ => doc_def _ (by simp [formRels]) k3 i⟩
    · rw [k5] at h4; cases h4
      exact .inr (.inl ⟨rfl, fun e' E' _ => doc_def _ (by simp [formRels]) k5 i⟩)
    · rw [hE] at h4; cases h4
      exact .inr (.inr ⟨rfl, fun e' E' h => doc_def _ (by simp [formRels]) h i, rfl⟩)

/-- `v` as `(a - b) + c` and the other way round. -/
def diffFirst : ExprTree := .op (.op (.rule (.cu "a")) .difference (.rule (.cu "b"))) .union (.rule (.cu "c"))
def diffLast : ExprTree := .op (.rule (.cu "c")) .union (.op (.rule (.cu "a")) .difference (.rule (.cu "b")))

theorem form_unique {e : String} (h : verifyPolicy U0 (gPolicy (formRels e)) = .ok ()) : NamesUnique (gPolicy (formRels e)) :=
  ((C09_validation_exact U0 _).1 h).1

/-- Policies that differ in the expression of `v` only. -/
theorem form_same {e e' : String} {E E' : ExprTree} (hE : getExpressionTree U0 (rel "v" e) = .ok E) (hE' : getExpressionTree U0 (rel "v" e') = .ok E')
    (hv' : verifyPolicy U0 (gPolicy (formRels e')) = .ok ()) (Q : USet → ExprTree → ExprTree → Prop) (hQ : ∀ y t, Q y t t) (hQE : ∀ y : USet, y.object.resource = "doc" → Q y E E') (y : USet) :
    ((∃ t, DefinedBy U0 (gPolicy (formRels e)) y t) ↔ ∃ t, DefinedBy U0 (gPolicy (formRels e')) y t) ∧
      ∀ t t', DefinedBy U0 (gPolicy (formRels e)) y t → DefinedBy U0 (gPolicy (formRels e')) y t' → Q y t t' := by
  refine ⟨⟨?_, ?_⟩, ?_⟩
  · rintro ⟨t, ht⟩
    rcases form_def hE ht with ⟨_, h⟩ | ⟨_, h⟩ | ⟨_, h, _⟩ <;> exact ⟨_, h e' E' hE'⟩
  · rintro ⟨t, ht⟩
    rcases form_def hE' ht with ⟨_, h⟩ | ⟨_, h⟩ | ⟨_, h, _⟩ <;> exact ⟨_, h e E hE⟩
  · intro t t' ht ht'
    rcases form_def hE ht with ⟨rfl, h⟩ | ⟨rfl, h⟩ | ⟨rfl, h, hdoc⟩
    · rw [DefinedBy.unique (form_unique hv') ht' (h e' E' hE')]; exact hQ _ _
    · rw [DefinedBy.unique (form_unique hv') ht' (h e' E' hE')]; exact hQ _ _
    · rw [DefinedBy.unique (form_unique hv') ht' (h e' E' hE')]; exact hQE _ hdoc

/-- C86 is false: writing `c + (a - b)` for `(a - b) + c`, or `a` for `a & a`, changes answers, although the expressions mean the same users whatever is stored. -/
theorem C86_meaning_violated :
    ((∀ y, ((∃ t, DefinedBy U0 (gPolicy (formRels "(a - b) + c")) y t) ↔ ∃ t, DefinedBy U0 (gPolicy (formRels "c + (a - b)")) y t) ∧
        ∀ t t', DefinedBy U0 (gPolicy (formRels "(a - b) + c")) y t → DefinedBy U0 (gPolicy (formRels "c + (a - b)")) y t' → ∀ R, SameSet R y t t') ∧
      relationships (gStore gEnv (formRels "(a - b) + c") [hold "b" "u", hold "c" "u"]) "p" =
        relationships (gStore gEnv (formRels "c + (a - b)") [hold "b" "u", hold "c" "u"]) "p" ∧
      Checks gEnv (gStore gEnv (formRels "(a - b) + c") [hold "b" "u", hold "c" "u"]) 10 "p" ⟨doc1, "v"⟩ usr false ∧
      Checks gEnv (gStore gEnv (formRels "c + (a - b)") [hold "b" "u", hold "c" "u"]) 10 "p" ⟨doc1, "v"⟩ usr true) ∧
    ((∀ y, ((∃ t, DefinedBy U0 (gPolicy (formRels "a & a")) y t) ↔ ∃ t, DefinedBy U0 (gPolicy (formRels "a")) y t) ∧
        ∀ t t', DefinedBy U0 (gPolicy (formRels "a & a")) y t → DefinedBy U0 (gPolicy (formRels "a")) y t' → ∀ R, SameSet R y t t') ∧
      relationships (gStore gEnv (formRels "a & a") [hold "a" "u"]) "p" = relationships (gStore gEnv (formRels "a") [hold "a" "u"]) "p" ∧
      Checks gEnv (gStore gEnv (formRels "a & a") [hold "a" "u"]) 10 "p" ⟨doc1, "v"⟩ usr false ∧
      Checks gEnv (gStore gEnv (formRels "a") [hold "a" "u"]) 10 "p" ⟨doc1, "v"⟩ usr true) := by
  refine ⟨⟨form_same (E := diffFirst) (E' := diffLast) (by decide +kernel) (by decide +kernel) (by decide +kernel) _ (fun _ _ _ _ _ => Iff.rfl) (fun y _ R u V => ?_),
      by decide +kernel, checks_of (by decide +kernel), checks_of (by decide +kernel)⟩,
    form_same (E := .op (.rule (.cu "a")) .intersection (.rule (.cu "a"))) (E' := .rule (.cu "a")) (by decide +kernel) (by decide +kernel) (by decide +kernel) _
      (fun _ _ _ _ _ => Iff.rfl) (fun y _ R u V => ?_),
    by decide +kernel, checks_of (by decide +kernel), checks_of (by decide +kernel)⟩
  · simp only [diffFirst, diffLast, ExprIn]
    exact or_comm
  · simp only [ExprIn, and_self_iff]

/-- `w` is defined as `c`. -/
def formAlias : String → String → Option String := fun n a => if n = "doc" ∧ a = "w" then some "c" else none

theorem form_alias (e : String) : DefinedAs U0 (gPolicy (formRels e)) formAlias := by
  intro n a b h
  unfold formAlias at h ⊢
  split at h
  · next hh =>
    cases h
    refine ⟨by simp, fun i => ?_⟩
    rw [hh.1, hh.2]
    exact doc_def (rel "w" "c") (by simp [formRels]) (by decide +kernel) i
  · cases h

/-- `((a - b) + a) + (w + a)` -/
def longForm : ExprTree :=
  .op (.op (.op (.rule (.cu "a")) .difference (.rule (.cu "b"))) .union (.rule (.cu "a"))) .union (.op (.rule (.cu "w")) .union (.rule (.cu "a")))
/-- `(a - b) + (a + c)` -/
def shortForm : ExprTree :=
  .op (.op (.rule (.cu "a")) .difference (.rule (.cu "b"))) .union (.op (.rule (.cu "a")) .union (.rule (.cu "c")))

theorem long_short : Regrouped (formAlias "doc") longForm shortForm :=
  .trans (.symm (.unions _ _ _)) (.trans (.repeated trivial trivial (by simp [leaves, alternatives]))
    (.trans (.unions _ _ _) (.operands (.refl _) (.operands (.refl _) (.renamed rfl)))))

/-- user:u has b and, through doc:1#w, which is c, nothing more; user:v has c. -/
def formRelations : List Relationship := [hold "b" "u", ⟨some doc1, "c", some (.entitySet (some doc1) "w")⟩, hold "c" "v"]

def formNodes : List RelationNode :=
  [.entitySet (some doc1) "v", .entitySet (some doc1) "w", .entitySet (some doc1) "a", .entitySet (some doc1) "b", .entitySet (some doc1) "c", .entity (some usr),
    .entity (some ⟨"user", "v"⟩)]

/-- The hypotheses of `C86_regrouped_partial` hold for `v = ((a - b) + a) + (w + a)` and `v = (a - b) + (a + c)` with `w = c`: user:v is authorized and user:u is not. -/
example :
    (∀ u, ∃ N, ∀ fuel, N ≤ fuel →
      (serve gEnv (.check fuel "p" (ask ⟨doc1, "v"⟩ u)) (gStore gEnv (formRels "((a - b) + a) + (w + a)") formRelations)).1 =
      (serve gEnv (.check fuel "p" (ask ⟨doc1, "v"⟩ u)) (gStore gEnv (formRels "(a - b) + (a + c)") formRelations)).1 ∧
      (serve gEnv (.check fuel "p" (ask ⟨doc1, "v"⟩ u)) (gStore gEnv (formRels "((a - b) + a) + (w + a)") formRelations)).1 ≠ .fuel) ∧
    Checks gEnv (gStore gEnv (formRels "((a - b) + a) + (w + a)") formRelations) 10 "p" ⟨doc1, "v"⟩ ⟨"user", "v"⟩ true ∧
    Checks gEnv (gStore gEnv (formRels "(a - b) + (a + c)") formRelations) 10 "p" ⟨doc1, "v"⟩ usr false := by
  refine ⟨fun u => ?_, checks_of (by decide +kernel), checks_of (by decide +kernel)⟩
  have h1 : policyAt (gStore gEnv (formRels "((a - b) + a) + (w + a)") formRelations) "p" = some ⟨gPolicy (formRels "((a - b) + a) + (w + a)"), [], 0⟩ := by
    decide +kernel
  have h2 : policyAt (gStore gEnv (formRels "(a - b) + (a + c)") formRelations) "p" = some ⟨gPolicy (formRels "(a - b) + (a + c)"), [], 0⟩ := by decide +kernel
  have c1 := clear_of (env := gEnv) (pid := "p") (x := ⟨doc1, "v"⟩) (L := formNodes) (gStore_wf _ _ _) h1 (by simp [formNodes, USet.node]) (by decide +kernel)
  have c2 := clear_of (env := gEnv) (pid := "p") (x := ⟨doc1, "v"⟩) (L := formNodes) (gStore_wf _ _ _) h2 (by simp [formNodes, USet.node]) (by decide +kernel)
  refine C86_regrouped_partial (env := gEnv) (gStore_wf _ _ _) (gStore_wf _ _ _) h1 h2 ?_ c1.1 c2.1 c1.2 c2.2 (form_alias _) (form_alias _) (fun y => ?_)
  · have : relationships (gStore gEnv (formRels "((a - b) + a) + (w + a)") formRelations) "p" = relationships (gStore gEnv (formRels "(a - b) + (a + c)") formRelations) "p" := by
      decide +kernel
    exact fun r => by unfold Present; rw [this]
  · have hE : getExpressionTree U0 (rel "v" "((a - b) + a) + (w + a)") = .ok longForm := by decide +kernel
    have hE' : getExpressionTree U0 (rel "v" "(a - b) + (a + c)") = .ok shortForm := by decide +kernel
    have h := form_same hE hE' (by decide +kernel) (fun y e e' => Regrouped (formAlias y.object.resource) e e') (fun _ _ => .refl _) (fun y h => h ▸ long_short) y
    refine ⟨fun e he => ?_, fun e' he' => h.1.2 ⟨e', he'⟩⟩
    obtain ⟨e', he'⟩ := h.1.1 ⟨e, he⟩
    exact ⟨e', he', h.2 e e' he he'⟩

/-- The hypotheses of `C86_update_partial` hold for the update from one to the other. -/
example (u : Entity) : ∃ N, ∀ fuel, N ≤ fuel →
    (serve gEnv (.check fuel "p" (ask ⟨doc1, "v"⟩ u)) (gStore gEnv (formRels "((a - b) + a) + (w + a)") formRelations)).1 =
    (serve gEnv (.check fuel "p" (ask ⟨doc1, "v"⟩ u)) (serve gEnv (.updatePolicy (some (.policy (gPolicy (formRels "(a - b) + (a + c)")))) [])
      (gStore gEnv (formRels "((a - b) + a) + (w + a)") formRelations)).2).1 := by
  have h1 : policyAt (gStore gEnv (formRels "((a - b) + a) + (w + a)") formRelations) "p" = some ⟨gPolicy (formRels "((a - b) + a) + (w + a)"), [], 0⟩ := by
    decide +kernel
  have h2 : policyAt (gStore gEnv (formRels "(a - b) + (a + c)") formRelations) "p" = some ⟨gPolicy (formRels "(a - b) + (a + c)"), [], 0⟩ := by decide +kernel
  have c1 := clear_of (env := gEnv) (pid := "p") (x := ⟨doc1, "v"⟩) (L := formNodes) (gStore_wf _ _ _) h1 (by simp [formNodes, USet.node]) (by decide +kernel)
  have c2 := clear_of (env := gEnv) (pid := "p") (x := ⟨doc1, "v"⟩) (L := formNodes) (gStore_wf _ _ _) h2 (by simp [formNodes, USet.node]) (by decide +kernel)
  have hR : Present (gStore gEnv (formRels "(a - b) + (a + c)") formRelations) "p" = Present (gStore gEnv (formRels "((a - b) + a) + (w + a)") formRelations) "p" := by
    have : relationships (gStore gEnv (formRels "(a - b) + (a + c)") formRelations) "p" = relationships (gStore gEnv (formRels "((a - b) + a) + (w + a)") formRelations) "p" := by
      decide +kernel
    unfold Present; rw [this]
  rw [hR] at c2
  refine (C86_update_partial (env := gEnv) (gStore_wf _ _ _) h1 (p := gPolicy (formRels "(a - b) + (a + c)")) (by simp [Defines]) rfl
    ((C09_validation_exact U0 _).1 (by decide +kernel)) c1.1 c2.1 c1.2 c2.2 (form_alias _) (form_alias _) (fun y => ?_)).2
  have hE : getExpressionTree U0 (rel "v" "((a - b) + a) + (w + a)") = .ok longForm := by decide +kernel
  have hE' : getExpressionTree U0 (rel "v" "(a - b) + (a + c)") = .ok shortForm := by decide +kernel
  have h := form_same hE hE' (by decide +kernel) (fun y e e' => Regrouped (formAlias y.object.resource) e e') (fun _ _ => .refl _) (fun y h => h ▸ long_short) y
  refine ⟨fun e he => ?_, fun e' he' => h.1.2 ⟨e', he'⟩⟩
  obtain ⟨e', he'⟩ := h.1.1 ⟨e, he⟩
  exact ⟨e', he', h.2 e e' he he'⟩

/-- The hypotheses of `C86_renamed_partial` hold for `w = c` when doc:1#w itself is stored as having c: user:v is authorized for both. -/
example :
    (∀ u, ∃ N, ∀ fuel, N ≤ fuel →
      (serve gEnv (.check fuel "p" (ask ⟨doc1, "w"⟩ u)) (gStore gEnv (formRels "a") formRelations)).1 =
      (serve gEnv (.check fuel "p" (ask ⟨doc1, "c"⟩ u)) (gStore gEnv (formRels "a") formRelations)).1 ∧
      (serve gEnv (.check fuel "p" (ask ⟨doc1, "w"⟩ u)) (gStore gEnv (formRels "a") formRelations)).1 ≠ .fuel) ∧
    Checks gEnv (gStore gEnv (formRels "a") formRelations) 10 "p" ⟨doc1, "w"⟩ ⟨"user", "v"⟩ true ∧
    Checks gEnv (gStore gEnv (formRels "a") formRelations) 10 "p" ⟨doc1, "c"⟩ ⟨"user", "v"⟩ true := by
  refine ⟨fun u => ?_, checks_of (by decide +kernel), checks_of (by decide +kernel)⟩
  have h1 : policyAt (gStore gEnv (formRels "a") formRelations) "p" = some ⟨gPolicy (formRels "a"), [], 0⟩ := by decide +kernel
  have c1 := clear_of (env := gEnv) (pid := "p") (x := ⟨doc1, "w"⟩) (L := formNodes) (gStore_wf _ _ _) h1 (by simp [formNodes, USet.node]) (by decide +kernel)
  exact C86_renamed_partial (env := gEnv) (gStore_wf _ _ _) h1 c1.1 c1.2 (doc_def (rel "w" "c") (by simp [formRels]) (by decide +kernel) "1") (by decide)

/-- The hypotheses of `C86_union_partial` hold for `v = (a + b) + c` and `v = c + (b + a)`. -/
example (u : Entity) {fuel fuel' : Nat} {b b' : Bool}
    (h : Checks gEnv (gStore gEnv (formRels "(a + b) + c") formRelations) fuel "p" ⟨doc1, "v"⟩ u b)
    (h' : Checks gEnv (gStore gEnv (formRels "c + (b + a)") formRelations) fuel' "p" ⟨doc1, "v"⟩ u b') : b = b' := by
  have h1 : policyAt (gStore gEnv (formRels "(a + b) + c") formRelations) "p" = some ⟨gPolicy (formRels "(a + b) + c"), [], 0⟩ := by decide +kernel
  have h2 : policyAt (gStore gEnv (formRels "c + (b + a)") formRelations) "p" = some ⟨gPolicy (formRels "c + (b + a)"), [], 0⟩ := by decide +kernel
  have c1 := clear_of (env := gEnv) (pid := "p") (x := ⟨doc1, "v"⟩) (L := formNodes) (gStore_wf _ _ _) h1 (by simp [formNodes, USet.node]) (by decide +kernel)
  have c2 := clear_of (env := gEnv) (pid := "p") (x := ⟨doc1, "v"⟩) (L := formNodes) (gStore_wf _ _ _) h2 (by simp [formNodes, USet.node]) (by decide +kernel)
  refine C86_union_partial (env := gEnv) (gStore_wf _ _ _) (gStore_wf _ _ _) h1 h2 ?_ c1.1 c2.1 c1.2 c2.2
    (exprs_of (env := gEnv) (f := unionOnlyB) (fun _ => unionOnly_of) (gStore_wf _ _ _) h1 (L := formNodes) (by simp [formNodes, USet.node]) (by decide +kernel)
      (by decide +kernel))
    (exprs_of (env := gEnv) (f := unionOnlyB) (fun _ => unionOnly_of) (gStore_wf _ _ _) h2 (L := formNodes) (by simp [formNodes, USet.node]) (by decide +kernel)
      (by decide +kernel)) ?_ h h'
  · have : relationships (gStore gEnv (formRels "(a + b) + c") formRelations) "p" = relationships (gStore gEnv (formRels "c + (b + a)") formRelations) "p" := by
      decide +kernel
    exact fun r => by unfold Present; rw [this]
  · refine form_same (E := .op (.op (.rule (.cu "a")) .union (.rule (.cu "b"))) .union (.rule (.cu "c")))
      (E' := .op (.rule (.cu "c")) .union (.op (.rule (.cu "b")) .union (.rule (.cu "a")))) (by decide +kernel) (by decide +kernel) (by decide +kernel)
      _ (fun _ _ _ _ => Iff.rfl) (fun y _ u V => ?_)
    simp only [ExprIn]
    constructor <;> grind

/-- Both answer: user:v is authorized. -/
example : Checks gEnv (gStore gEnv (formRels "(a + b) + c") formRelations) 10 "p" ⟨doc1, "v"⟩ ⟨"user", "v"⟩ true ∧
    Checks gEnv (gStore gEnv (formRels "c + (b + a)") formRelations) 10 "p" ⟨doc1, "v"⟩ ⟨"user", "v"⟩ true :=
  ⟨checks_of (by decide +kernel), checks_of (by decide +kernel)⟩

end Zanzi
