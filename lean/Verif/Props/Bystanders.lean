import Verif.Lemmas.Bystander
import Verif.Props.Locality
import Verif.Props.Search

/-
Property C80: what other users hold does not change a user's answers.
-/

namespace Zanzi

open Spec

section
variable {env : Env} {s s' : Store} {pid : String} {rec : PolicyRecord} {x : USet} {u : Entity}

/-- Two stores agree on what concerns user `u` in a request starting at `x`: on the relationships of every userset reached whose subject is not another
user, and on the objects every arrow passes through. -/
def AgreeOn (U : Unicode) (p : Policy) (R R' : Relationship → Prop) (x : USet) (u : Entity) : Prop :=
  ∀ y, Reaches U p R x y.node →
    (∀ sub, ¬ Bystander u sub → (R ⟨some y.object, y.relation, some sub⟩ ↔ R' ⟨some y.object, y.relation, some sub⟩)) ∧
    (∀ t a b sub, DefinedBy U p y t → .ttu a b ∈ leaves t → (R ⟨some y.object, a, some sub⟩ ↔ R' ⟨some y.object, a, some sub⟩))

theorem bystands_subject (sub : Subject) : bystands u (subjectNode sub) = true ↔ Bystander u sub := by
  cases sub with
  | entity e => simp [bystands, subjectNode, Bystander]
  | entitySet e r => simp [bystands, subjectNode, Bystander]
  | resourceSet n => simp [bystands, subjectNode, Bystander]
  | unset => simp [bystands, subjectNode, Bystander]

theorem AgreeOn.reaches {U : Unicode} {p : Policy} {R R' : Relationship → Prop} (h : AgreeOn U p R R' x u) {n : RelationNode}
    (hn : Reaches U p R x n) : ∀ y : USet, n = y.node → Reaches U p R' x n := by
  induction hn with
  | start => exact fun _ _ => .start
  | @step y n h1 h2 ih =>
    intro z hz
    refine .step (ih y rfl) ?_
    cases h2 with
    | @this t sub a b c =>
      refine .this a b (((h y h1).1 sub (fun hb => ?_)).1 c)
      cases sub with
      | entitySet _ _ => exact hb
      | unset => exact hb
      | _ => cases hz
    | cu a b => exact .cu a b
    | arrow a b c d => exact .arrow a b (((h y h1).2 _ _ _ _ a b).1 c) d

/-- Stored successors that pass a filter. -/
theorem succs_filter_of_agree (hs : WF env s) (hs' : WF env s') {z : USet} (q : RelationNode → Bool) (hk : KeyClear env.H (Present s pid) z)
    (hk' : KeyClear env.H (Present s' pid) z)
    (h : ∀ sub, q (subjectNode sub) = true → (Present s pid ⟨some z.object, z.relation, some sub⟩ ↔ Present s' pid ⟨some z.object, z.relation, some sub⟩)) :
    (succs env.H s pid z).filter q = (succs env.H s' pid z).filter q := by
  unfold succs
  rw [List.map_map, List.map_map, List.filter_map, List.filter_map, List.filter_filter, List.filter_filter]
  congr 1
  refine sorted_ext (List.Pairwise.sublist List.filter_sublist (hs.edgeSorted pid)) (List.Pairwise.sublist List.filter_sublist (hs'.edgeSorted pid)) (fun p => ?_)
  obtain ⟨k, e⟩ := p
  simp only [List.mem_filter, Bool.and_eq_true, Function.comp, decide_eq_true_eq]
  have one : ∀ {s s' : Store}, WF env s → WF env s' → KeyClear env.H (Present s pid) z →
      (∀ sub, q (subjectNode sub) = true → Present s pid ⟨some z.object, z.relation, some sub⟩ → Present s' pid ⟨some z.object, z.relation, some sub⟩) →
      (k, e) ∈ s.edges pid ∧ q (toPublicNode e.dest) = true ∧ k.1 = env.H (z.object.resource ++ z.object.id ++ z.relation) → (k, e) ∈ s'.edges pid := by
    rintro s s' hs hs' hk h ⟨hm, hq, hkey⟩
    have hn := hs.edgeNorm _ _ _ hm
    have hke := hs.edgeKey _ _ _ hm
    have hpres := (hs.mem_edges hn hke).1 hm
    rw [hke] at hkey
    obtain ⟨h1, h2⟩ := hk (fromInternal e) ⟨e.source.resource, e.source.id⟩ hpres rfl hkey
    have he : fromInternal e = ⟨some z.object, z.relation, some (subjectFromInternal e.dest)⟩ := by rw [← h1, ← h2]; rfl
    refine (hs'.mem_edges hn hke).2 ?_
    rw [he]
    rw [he] at hpres
    exact h _ (by rw [subjectNode_fromInternal]; exact hq) hpres
  exact ⟨fun hh => ⟨one hs hs' hk (fun sub hq => (h sub hq).1) hh, hh.2⟩, fun hh => ⟨one hs' hs hk' (fun sub hq => (h sub hq).2) hh, hh.2⟩⟩

theorem bld_leaveOut {p : Policy} (hu : NamesUnique p) {y : USet}
    (h : (succs env.H s p.id y).filter (fun n => !bystands u n) = (succs env.H s' p.id y).filter (fun n => !bystands u n))
    (h' : ∀ t a b, DefinedBy env.U p y t → .ttu a b ∈ leaves t → succs env.H s p.id ⟨y.object, a⟩ = succs env.H s' p.id ⟨y.object, a⟩) :
    (bld env p s y.node >>= fun t => .ok (leaveOut u t)) = (bld env p s' y.node >>= fun t => (.ok (leaveOut u t) : Res GoalTree)) := by
  rw [bld_set, bld_set]
  split
  · rfl
  · next d hd =>
    cases he : getExpressionTree env.U d with
    | ok e =>
      have hde : DefinedBy env.U p y e := ⟨d, ((C11_lookup_exact p hu _ _).1 d).1 hd, (getExpressionTree_ok_iff env.U d e).1 he⟩
      simp only [Res.bind_ok]
      exact pBuild_leaveOut h (fun a b hl => h' e a b hde hl)
    | _ => rfl

/-- One store against its search without other users. -/
theorem search_leaveOut (hs : WF env s) (hp : policyAt s pid = some rec) (hk : KeysClear env.U env.H rec.policy (Present s pid) x)
    (hi : IdsClear env.U env.H rec.policy (Present s pid) x) (fuel : Nat) :
    Follows (TreeR env.H (Reaches env.U rec.policy (Present s pid) x) u) (pPath env.H (bld env rec.policy s) (userGoal u) fuel x.node "Request" [])
      (pPath env.H (fun n => bld env rec.policy s n >>= fun t => .ok (leaveOut u t)) (userGoal u) fuel x.node "Request" []) := by
  refine pPath_alike hi (fun n t hn ht hb => ?_) fuel _ _ _ _ rfl (fun _ _ => .start) (fun _ _ _ _ _ => Iff.rfl)
  obtain ⟨_, _, _, _, h, _, _, _, h'⟩ := expand_facts hs hp hk hn ht hb
  exact ⟨(pBuild_fits h).1, h'⟩

/-- The searches of two stores that agree on what concerns the user. -/
theorem search_bystanders (hs : WF env s) (hs' : WF env s') (hp : policyAt s pid = some rec) (hp' : policyAt s' pid = some rec)
    (hk : KeysClear env.U env.H rec.policy (Present s pid) x) (hk' : KeysClear env.U env.H rec.policy (Present s' pid) x)
    (hi : IdsClear env.U env.H rec.policy (Present s pid) x) (hi' : IdsClear env.U env.H rec.policy (Present s' pid) x)
    (ha : AgreeOn env.U rec.policy (Present s pid) (Present s' pid) x u) :
    ∃ N, ∀ fuel, N ≤ fuel →
      Follows (fun t t' => leaveOut u t = leaveOut u t') (pSearch env rec.policy s fuel (some x.node) (userGoal u))
        (pSearch env rec.policy s' fuel (some x.node) (userGoal u)) ∧ pSearch env rec.policy s fuel (some x.node) (userGoal u) ≠ .fuel := by
  have hid := hs.policy_id hp
  refine ⟨max (searchBound env rec.policy s (some x.node)) (searchBound env rec.policy s' (some x.node)), fun fuel hf => ?_⟩
  have n1 := (pSearch_stable env rec.policy s (some x.node) (userGoal u) fuel (by omega)).2
  have n2 := (pSearch_stable env rec.policy s' (some x.node) (userGoal u) fuel (by omega)).2
  refine ⟨?_, n1⟩
  have hmid : pPath env.H (fun n => bld env rec.policy s n >>= fun t => .ok (leaveOut u t)) (userGoal u) fuel x.node "Request" [] =
      pPath env.H (fun n => bld env rec.policy s' n >>= fun t => .ok (leaveOut u t)) (userGoal u) fuel x.node "Request" [] := by
    refine pPath_congr (P := Reaches env.U rec.policy (Present s pid) x) (fun n hn ht => ⟨?_, fun t hb => ?_⟩) fuel _ _ _ (fun _ _ => .start)
    · obtain ⟨o, rel, rfl⟩ := isTerminal_false ht
      cases o with
      | none => rfl
      | some o =>
        have hy : Reaches env.U rec.policy (Present s pid) x (USet.node ⟨o, rel⟩) := hn
        have hy' := ha.reaches hy _ rfl
        refine bld_leaveOut (y := ⟨o, rel⟩) (hs.policy_valid hp).1 ?_ (fun t a b hd hl => ?_)
        · rw [hid]
          refine succs_filter_of_agree hs hs' _ (hk _ _ hy (.inl rfl)) (hk' _ _ hy' (.inl rfl)) (fun sub hq => (ha _ hy).1 sub (fun hb => ?_))
          rw [(bystands_subject sub).2 hb] at hq
          cases hq
        · rw [hid]
          have := succs_filter_of_agree (z := ⟨o, a⟩) hs hs' (fun _ => true) (hk _ _ hy (.inr ⟨t, a, b, hd, hl, rfl⟩)) (hk' _ _ hy' (.inr ⟨t, a, b, hd, hl, rfl⟩))
            (fun sub _ => (ha _ hy).2 t a b sub hd hl)
          rwa [List.filter_eq_self.2 (by simp), List.filter_eq_self.2 (by simp)] at this
    · obtain ⟨t0, h0, h1⟩ := Res.bind_eq_ok.1 hb
      cases h1
      obtain ⟨_, _, _, _, _, _, _, _, h'⟩ := expand_facts hs hp hk hn ht h0
      exact fun m hm => h' m (leaveOut_tops _ _ hm)
  have f1 := search_leaveOut (u := u) hs hp hk hi fuel
  have f2 := search_leaveOut (u := u) hs' hp' hk' hi' fuel
  rw [← hmid] at f2
  have e : ∀ s, pSearch env rec.policy s fuel (some x.node) (userGoal u) =
      (pPath env.H (bld env rec.policy s) (userGoal u) fuel x.node "Request" [] >>= fun p => .ok p.1) := fun s => rfl
  rw [e] at n1 n2 ⊢
  rw [e]
  generalize pPath env.H (bld env rec.policy s) (userGoal u) fuel x.node "Request" [] = r1 at *
  generalize pPath env.H (bld env rec.policy s') (userGoal u) fuel x.node "Request" [] = r2 at *
  generalize pPath env.H (fun n => bld env rec.policy s n >>= fun t => .ok (leaveOut u t)) (userGoal u) fuel x.node "Request" [] = r0 at *
  clear hmid e
  rcases f1 with rfl | ⟨a, b, rfl, rfl, h1⟩ | ⟨e, rfl, rfl⟩ | ⟨rfl, rfl⟩
  · exact absurd rfl n1
  · rcases f2 with rfl | ⟨a', b', rfl, h, h2⟩ | ⟨e, rfl, h⟩ | ⟨rfl, h⟩
    · exact absurd rfl n2
    · cases h
      exact .ok (h1.2.1.trans h2.2.1.symm)
    · cases h
    · cases h
  · rcases f2 with rfl | ⟨a', b', rfl, h, h2⟩ | ⟨e, rfl, h⟩ | ⟨rfl, h⟩
    · exact absurd rfl n2
    · cases h
    · cases h; exact .inr (.inr (.inl ⟨_, rfl, rfl⟩))
    · cases h
  · rcases f2 with rfl | ⟨a', b', rfl, h, h2⟩ | ⟨e, rfl, h⟩ | ⟨rfl, h⟩
    · exact absurd rfl n2
    · cases h
    · cases h
    · exact .inr (.inr (.inr ⟨rfl, rfl⟩))

/-- C80: two stores with the same policy that agree on what concerns the user give the same answer to Check, errors included, under any operators; and
the same explanation, other users apart. -/
theorem C80_bystanders_partial (hs : WF env s) (hs' : WF env s') (hp : policyAt s pid = some rec) (hp' : policyAt s' pid = some rec)
    (hk : KeysClear env.U env.H rec.policy (Present s pid) x) (hk' : KeysClear env.U env.H rec.policy (Present s' pid) x)
    (hi : IdsClear env.U env.H rec.policy (Present s pid) x) (hi' : IdsClear env.U env.H rec.policy (Present s' pid) x)
    (ha : AgreeOn env.U rec.policy (Present s pid) (Present s' pid) x u) :
    ∃ N, ∀ fuel, N ≤ fuel →
      (serve env (.check fuel pid (ask x u)) s).1 = (serve env (.check fuel pid (ask x u)) s').1 ∧
      (serve env (.check fuel pid (ask x u)) s).1 ≠ .fuel ∧
      ∀ t b, Explains env s fuel pid x u t b → ∃ t', Explains env s' fuel pid x u t' b ∧ leaveOut u t = leaveOut u t' := by
  obtain ⟨N, h⟩ := search_bystanders hs hs' hp hp' hk hk' hi hi' ha
  refine ⟨N, fun fuel hf => ?_⟩
  obtain ⟨h, hn⟩ := h fuel hf
  have e1 := serve_check (env := env) hp fuel x u
  have e2 := serve_check (env := env) hp' fuel x u
  have e3 := serve_explainCheck (env := env) hp fuel x u .spew
  have e4 := serve_explainCheck (env := env) hp' fuel x u .spew
  unfold Explains
  rw [show ((Call.explainCheck fuel pid (ask x u) .spew).prog env).run s = serve env (.explainCheck fuel pid (ask x u) .spew) s from rfl,
    show ((Call.explainCheck fuel pid (ask x u) .spew).prog env).run s' = serve env (.explainCheck fuel pid (ask x u) .spew) s' from rfl]
  rw [e1, e2, e3, e4]
  rcases h with h | ⟨a, b, h1, h2, h3⟩ | ⟨e, h1, h2⟩ | ⟨h1, h2⟩
  · exact absurd h hn
  · have hr : a.result = b.result := by rw [← leaveOut_result (u := u), h3, leaveOut_result]
    rw [h1, h2]
    simp only [Res.bind_ok, hr, true_and]
    refine ⟨nofun, fun t x hx => ⟨b, ?_, ?_⟩⟩
    · cases hx; rfl
    · cases hx; exact h3
  · rw [h1, h2]
    exact ⟨rfl, nofun, fun t x hx => by cases hx⟩
  · rw [h1, h2]
    exact ⟨rfl, nofun, fun t x hx => by cases hx⟩

/-- What is stored after a write, when no other relationship shares the storage key. -/
theorem present_of_write (hs : WF env s) {r : Relationship} (hn : NoAlias env s pid r) {c : Call} (hc : Writes pid r c) (q : Relationship) :
    (Present (serve env c s).2 pid q → Present s pid q ∨ q = r) ∧ (q ≠ r → (Present (serve env c s).2 pid q ↔ Present s pid q)) := by
  rcases hc with ⟨now, a, rfl⟩ | rfl
  · cases hres : serve env (.setRelationship now pid (some r) a) s with
    | mk res s1 =>
      cases res with
      | ok ans =>
        obtain ⟨r', e, rc, h1, he, _, hal, _, h5⟩ := serve_set_inv hres
        cases h1
        subst h5
        rw [present_putRel hs he (allowed_subject_set hal)]
        simp only [true_and]
        exact ⟨fun h => h.elim .inr (fun h => .inl h.1), fun hq => ⟨fun h => h.elim (fun h => (hq h).elim) (·.1), fun h => .inr ⟨h, fun hk => hq (hn q h hk)⟩⟩⟩
      | _ => rw [serve_set_unchanged hres (by simp)]; exact ⟨.inl, fun _ => Iff.rfl⟩
  · rcases toInternal_normal_or_panic r with ⟨e, he⟩ | he
    · rw [serve_delete he]
      dsimp only
      rw [present_delRels hs]
      refine ⟨fun h => .inl h.1, fun hq => ⟨fun h => h.1, fun h => ⟨h, fun hk => hq (hn q h ?_)⟩⟩⟩
      have := hk.2
      rw [List.mem_singleton] at this
      rw [this, relKey_of he]
    · rw [serve_delete_panic he]
      exact ⟨.inl, fun _ => Iff.rfl⟩

theorem Reaches.mono {U : Unicode} {p : Policy} {R R' : Relationship → Prop} (h : ∀ r, R r → R' r) {n : RelationNode} (hn : Reaches U p R x n) :
    Reaches U p R' x n := by
  induction hn with
  | start => exact .start
  | step _ h2 ih =>
    refine .step ih ?_
    cases h2 with
    | this a b c => exact .this a b (h _ c)
    | cu a b => exact .cu a b
    | arrow a b c d => exact .arrow a b (h _ c) d

/-- C80 for a write: setting or deleting a relationship whose subject is another user, or all entities of another resource, does not change the user's
answers, whatever operators the policy uses.  Partial: the relationship is not one through which an arrow of the request passes, shares no storage key, and
no two nodes met share the visit identifier (`C80_bystanders_violated`). -/
theorem C80_write_partial (hs : WF env s) (hp : policyAt s pid = some rec) {o : Entity} {rel : String} {sub : Subject} (hb : Bystander u sub)
    (hn : NoAlias env s pid ⟨some o, rel, some sub⟩)
    (hk : KeysClear env.U env.H rec.policy (fun q => Present s pid q ∨ q = ⟨some o, rel, some sub⟩) x)
    (hi : IdsClear env.U env.H rec.policy (fun q => Present s pid q ∨ q = ⟨some o, rel, some sub⟩) x)
    (ht : ∀ y t a b, Reaches env.U rec.policy (Present s pid) x y.node → DefinedBy env.U rec.policy y t → .ttu a b ∈ leaves t → ¬ (y.object = o ∧ a = rel))
    {c : Call} (hc : Writes pid ⟨some o, rel, some sub⟩ c) :
    ∃ N, ∀ fuel, N ≤ fuel →
      (serve env (.check fuel pid (ask x u)) s).1 = (serve env (.check fuel pid (ask x u)) (serve env c s).2).1 ∧
      (serve env (.check fuel pid (ask x u)) s).1 ≠ .fuel ∧
      ∀ t b, Explains env s fuel pid x u t b → ∃ t', Explains env (serve env c s).2 fuel pid x u t' b ∧ leaveOut u t = leaveOut u t' := by
  have sub1 : ∀ q, Present s pid q → Present s pid q ∨ q = ⟨some o, rel, some sub⟩ := fun q h => .inl h
  have sub2 : ∀ q, Present (serve env c s).2 pid q → Present s pid q ∨ q = ⟨some o, rel, some sub⟩ := fun q => (present_of_write hs hn hc q).1
  have clear : ∀ {R : Relationship → Prop}, (∀ q, R q → Present s pid q ∨ q = ⟨some o, rel, some sub⟩) →
      KeysClear env.U env.H rec.policy R x ∧ IdsClear env.U env.H rec.policy R x := fun hR =>
    ⟨fun y z hy hz r o hr => hk y z (Reaches.mono hR hy) hz r o (hR r hr), fun m n id hm hn' => hi m n id (Reaches.mono hR hm) (Reaches.mono hR hn')⟩
  refine C80_bystanders_partial hs (hs.run c) hp ((policy_after_write hc).trans hp) (clear sub1).1 (clear sub2).1 (clear sub1).2 (clear sub2).2
    (fun y hy => ⟨fun sub' hb' => ?_, fun t a b sub' hd hl => ?_⟩)
  · refine ((present_of_write hs hn hc _).2 (fun he => hb' ?_)).symm
    simp only [Relationship.mk.injEq, Option.some.injEq] at he
    rw [he.2.2]
    exact hb
  · refine ((present_of_write hs hn hc _).2 (fun he => ht y t a b hy hd hl ?_)).symm
    simp only [Relationship.mk.injEq, Option.some.injEq] at he
    exact ⟨he.1, he.2.1⟩

end

/-! ### Cases -/

/-- doc relations a, b and `v = b + a`. -/
def lateRels : List Relation := [rel "a" "_this", rel "b" "_this", rel "v" "b + a"]

/-- doc relations parent, owner and `viewer = parent->owner + owner`. -/
def earlyRels : List Relation := [rel "parent" "_this", rel "owner" "_this", rel "viewer" "parent->owner + owner"]

/-- C80 is false.  Everybody has a on doc:1; giving b to the user with the empty id takes v away from user:u.  And user:u owns doc:1; making another user a
parent of doc:1 turns their grant into an error. -/
theorem C80_bystanders_violated :
    (Checks gEnv (gStore gEnv lateRels [⟨some doc1, "a", some (.resourceSet "user")⟩]) 10 "p" ⟨doc1, "v"⟩ usr true ∧
      Bystander usr (.entity ⟨"user", ""⟩) ∧
      Checks gEnv (serve gEnv (.setRelationship 0 "p" (some ⟨some doc1, "b", some (.entity ⟨"user", ""⟩)⟩) [])
        (gStore gEnv lateRels [⟨some doc1, "a", some (.resourceSet "user")⟩])).2 10 "p" ⟨doc1, "v"⟩ usr false) ∧
    (Checks gEnv (gStore gEnv earlyRels [hold "owner" "u"]) 10 "p" ⟨doc1, "viewer"⟩ usr true ∧
      Bystander usr (.entity ⟨"user", "v"⟩) ∧
      (serve gEnv (.check 10 "p" (ask ⟨doc1, "viewer"⟩ usr))
        (serve gEnv (.setRelationship 0 "p" (some (hold "parent" "v")) []) (gStore gEnv earlyRels [hold "owner" "u"])).2).1 = .err .relationNotFound) := by
  refine ⟨⟨checks_of (by decide +kernel), by simp [Bystander, usr], checks_of (by decide +kernel)⟩, checks_of (by decide +kernel),
    by simp [Bystander, usr], errOf_some (by decide +kernel)⟩

/-- Giving a to user:v leaves the answer for user:u and `both = a & b` unchanged. -/
example : ∃ N, ∀ fuel, N ≤ fuel →
    (serve gEnv (.check fuel "p" (ask ⟨doc1, "both"⟩ usr)) abStore).1 =
      (serve gEnv (.check fuel "p" (ask ⟨doc1, "both"⟩ usr)) (serve gEnv (.setRelationship 0 "p" (some (hold "a" "v")) []) abStore).2).1 := by
  have hpol : policyAt (gStore gEnv opRels (abRels ++ [hold "a" "v"])) "p" = some ⟨gPolicy opRels, [], 0⟩ := by decide +kernel
  have hrels : ∀ q, Present (gStore gEnv opRels (abRels ++ [hold "a" "v"])) "p" q ↔ (Present abStore "p" q ∨ q = hold "a" "v") := by
    intro q
    unfold Present
    have h1 : ∀ q ∈ relationships (gStore gEnv opRels (abRels ++ [hold "a" "v"])) "p", q ∈ relationships abStore "p" ++ [hold "a" "v"] := by decide +kernel
    have h2 : ∀ q ∈ relationships abStore "p" ++ [hold "a" "v"], q ∈ relationships (gStore gEnv opRels (abRels ++ [hold "a" "v"])) "p" := by decide +kernel
    rw [← List.mem_singleton, ← List.mem_append]
    exact ⟨h1 q, h2 q⟩
  have hc := clear_of (env := gEnv) (rec := ⟨gPolicy opRels, [], 0⟩) (x := ⟨doc1, "both"⟩)
    (L := .entity (some ⟨"user", "v"⟩) :: abNodes "both") (gStore_wf _ _ _) hpol (by simp [abNodes, USet.node]) (by decide +kernel)
  have he : Present (gStore gEnv opRels (abRels ++ [hold "a" "v"])) "p" = (fun q => Present abStore "p" q ∨ q = hold "a" "v") := funext (fun q => propext (hrels q))
  rw [he] at hc
  have hna : NoAlias gEnv abStore "p" (hold "a" "v") := by
    intro q hq hk
    have : ∀ q ∈ relationships abStore "p", relKey Hx q ≠ relKey Hx (hold "a" "v") := by decide +kernel
    exact (this q hq hk).elim
  obtain ⟨N, h⟩ := C80_write_partial (env := gEnv) (rec := ⟨gPolicy opRels, [], 0⟩) (u := usr) (x := ⟨doc1, "both"⟩) (o := doc1) (rel := "a")
    (sub := .entity ⟨"user", "v"⟩) (gStore_wf _ _ _) abStore_pol (by simp [Bystander, usr]) hna hc.1 hc.2
    (fun y t a b hy hd hl => by
      rcases op_defined hd with ⟨_, _, rfl⟩ | ⟨_, ⟨_, rfl⟩ | ⟨_, rfl⟩ | ⟨_, rfl⟩ | ⟨_, rfl⟩ | ⟨_, rfl⟩⟩ <;> simp [leaves] at hl)
    (.inl ⟨0, [], rfl⟩)
  exact ⟨N, fun fuel hf => (h fuel hf).1⟩

end Zanzi
