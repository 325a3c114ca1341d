import Verif.Lemmas.BusyExplain
import Verif.Props.FirstMention
import Verif.Lemmas.OneWay

/-
Property C127: explanations given while other requests change the store.
-/

namespace Zanzi

open Spec Prog

section
variable {env : Env} {A : Call → Prop} {x y : Sys} {fuel : Nat} {pid : String} {g : USet} {u : Entity} {hist : List Store} {sx : Serialized} {b : Bool} {f : ExplainFormat}

theorem justified_settled {build : RelationNode → GoalTree → Prop} {goal : Option RelationNode} {T : RelationNode → Prop} {X : USet → GoalTree → Prop} {k : Task} {t : GoalTree}
    {seen : List Nat} (h : Ev env.H build goal k [] (.tree t) seen) (hj : Justified T X (fun n => ∃ id, n.nodeId env.H = .ok id ∧ id ∈ seen) t) :
    Justified T X (fun n => ∃ m ∈ settled t, ∃ id, m.nodeId env.H = .ok id ∧ n.nodeId env.H = .ok id) t := by
  refine Justified.mono (fun _ _ h => h) (fun n _ hn => ?_) hj
  obtain ⟨id, h4, h5⟩ := hn
  rcases h.seen_settled id h5 with h6 | ⟨m, h6, h7⟩
  · cases h6
  · exact ⟨m, h6, id, h7, h4⟩

/-- C127: whatever other requests do meanwhile, the tree ExplainCheck returns is coherent.  Its root is the userset asked about, the answer is the result of the tree, every visited result is justified by its
children, and each node is decided where its identifier is met first and nowhere else. -/
theorem C127_coherent (hx : Sys.Reachable env x) (h : Sys.Flight env A x (.explainCheck fuel pid (ask g u) .spew) hist y (.done (.ok (.explained sx b f)))) :
    ∃ t, sx = .spew t ∧
      Justified (Names u) (fun _ _ => True) (fun n => ∃ m ∈ settled t, ∃ id, m.nodeId env.H = .ok id ∧ n.nodeId env.H = .ok id) t ∧
      (b = true ↔ t.result = .success) ∧ topNode t = some g.node ∧ topReason t = some "Request" ∧
      ∀ l k m d, visits t = l ++ (m, d) :: k → (d = true ↔ ∀ p ∈ l, p.1.nodeId env.H ≠ m.nodeId env.H) := by
  have hwf := h.wf hx
  obtain ⟨s, rec, q, t, seen, hs, h1, hq, rfl, hev, hb⟩ := spew_reads (h.reads (I := (· ∈ hist)) (fun _ h => h) .done)
  cases hq
  have hu := ((hwf s hs).policy_valid h1).1
  have ho := hev.outline
  refine ⟨t, rfl, justified_settled hev ?_, by rw [hb]; simp, ?_, ?_, fun l k m d hv => first_mention hev hv⟩
  · exact hev.justified (T := Names u) (X := fun _ _ => True) (P := fun _ => True)
      (fun n t _ ht hb => by
        obtain ⟨y, e, rfl, _, hsh⟩ := rbuilds_shape hu ⟨s, hs⟩ ht hb
        exact ⟨fun _ _ => trivial, hsh.fresh, hsh.formed.1, y, rfl, fun _ _ => trivial⟩)
      (fun n b _ hg => goalFound_names hg) seen (fun _ h => h) trivial
  · rw [← topNode_outline, show outline t = _ from ho]
    rfl
  · rw [← topReason_outline, show outline t = _ from ho]
    rfl

/-- C127 for Expand: the tree is rooted at the node asked about, shows nobody as found, and is as coherent. -/
theorem C127_expand_coherent (hx : Sys.Reachable env x) {root : Option RelationNode}
    (h : Sys.Flight env A x (.expand fuel pid root .spew) hist y (.done (.ok (.expanded sx f)))) :
    ∃ t, sx = .spew t ∧
      Justified (fun _ => False) (fun _ _ => True) (fun n => ∃ m ∈ settled t, ∃ id, m.nodeId env.H = .ok id ∧ n.nodeId env.H = .ok id) t ∧
      topNode t = root ∧ topReason t = some "Request" ∧
      ∀ l k m d, visits t = l ++ (m, d) :: k → (d = true ↔ ∀ p ∈ l, p.1.nodeId env.H ≠ m.nodeId env.H) := by
  have hwf := h.wf hx
  obtain ⟨s, rec, o, t, seen, hs, h1, rfl, rfl, hev⟩ := expand_reads (h.reads (I := (· ∈ hist)) (fun _ h => h) .done)
  have hu := ((hwf s hs).policy_valid h1).1
  have ho := hev.outline
  refine ⟨t, rfl, justified_settled hev ?_, ?_, ?_, fun l k m d hv => first_mention hev hv⟩
  · exact hev.justified (T := fun _ => False) (X := fun _ _ => True) (P := fun _ => True)
      (fun n t _ ht hb => by
        obtain ⟨y, e, rfl, _, hsh⟩ := rbuilds_shape hu ⟨s, hs⟩ ht hb
        exact ⟨fun _ _ => trivial, hsh.fresh, hsh.formed.1, y, rfl, fun _ _ => trivial⟩)
      (fun n b _ hg => by cases hg; exact ⟨nofun, nofun⟩) seen (fun _ h => h) trivial
  · rw [← topNode_outline, show outline t = _ from ho]
    rfl
  · rw [← topReason_outline, show outline t = _ from ho]
    rfl

/-- Trees searched for a goal while the store passes through a history. -/
theorem justified_during (hwf : ∀ s ∈ hist, WF env s) {s : Store} (hs : s ∈ hist) {rec : PolicyRecord} (h1 : policyAt s pid = some rec)
    (hk : KeysClear env.U env.H rec.policy (StoredOnce hist pid) g) (hw : TuplesetsConcrete env.U rec.policy (StoredOnce hist pid) g)
    {goal : Option RelationNode} {T : RelationNode → Prop} (hT : ∀ n b, goalFound n goal = .ok b → (b = true ↔ T n)) {t : GoalTree} {seen : List Nat}
    (hev : Ev env.H (RBuilds env rec.policy (· ∈ hist)) goal (.path g.node "Request") [] (.tree t) seen) :
    Justified T (ExpansionDuring env.U rec.policy hist pid) (fun n => ∃ m ∈ settled t, ∃ id, m.nodeId env.H = .ok id ∧ n.nodeId env.H = .ok id) t := by
  have hu := ((hwf s hs).policy_valid h1).1
  have hid := (hwf s hs).policy_id h1
  refine justified_settled hev ?_
  refine hev.justified (T := T) (X := ExpansionDuring env.U rec.policy hist pid) (P := Reaches env.U rec.policy (StoredOnce hist pid) g)
      (fun n t hn ht hb => ?_) (fun n b _ hg => hT n b hg) seen (fun _ h => h) .start
  obtain ⟨z, e, rfl, hd, hsh⟩ := rbuilds_shape hu ⟨s, hs⟩ ht hb
  rw [hid] at hsh
  have key : ∀ r ∈ leaves e, ∀ ns, RuleReads env.H (· ∈ hist) pid z r ns → ∃ s ∈ hist, ∀ n, n ∈ ns ↔ RuleNode (Present s pid) z n r := by
    rintro r hr ns ⟨s', hs', hns⟩
    have hmono : ∀ r, Present s' pid r → StoredOnce hist pid r := fun r h => ⟨s', hs', h⟩
    exact ⟨s', hs', ruleNodes_prescribed (hwf s' hs') (KeyClear.mono hmono (hk z z hn (.inl rfl)))
      (fun a b hab => KeyClear.mono hmono (hk z ⟨z.object, a⟩ hn (.inr ⟨e, a, b, hd, hab ▸ hr, rfl⟩)))
      (fun a b hab n hp => hw z e a b n hn hd (hab ▸ hr) (hmono _ hp)) hns⟩
  refine ⟨fun m hm => ?_, hsh.fresh, hsh.formed.1, z, rfl, fun t' ht' => ⟨e, hd, hsh.during key ht'⟩⟩
  obtain ⟨r, hr, ns, hns, hmem⟩ := hsh.mentioned m hm
  obtain ⟨s', hs', hiff⟩ := key r hr ns hns
  have hrn := (hiff m).1 hmem
  cases r with
  | unset => exact hrn.elim
  | this => obtain ⟨sub, h2, rfl⟩ := hrn; exact .step hn (.this hd hr ⟨s', hs', h2⟩)
  | cu c => cases hrn; exact .step hn (.cu hd hr)
  | ttu a b => obtain ⟨sub, o, h2, h3, rfl⟩ := hrn; exact .step hn (.arrow hd hr ⟨s', hs', h2⟩ h3)

/-- C127, expansions: one policy stored under the id at some moment while the request ran explains the whole tree.  Every userset expanded in it is expanded by its definition there, and what is shown for
each rule is exactly what the rule prescribed at some moment while the request ran.  Missing: colliding storage keys (`C44_expansion_violated`), wildcards in tuplesets. -/
theorem C127_moments_partial (hx : Sys.Reachable env x) (h : Sys.Flight env A x (.explainCheck fuel pid (ask g u) .spew) hist y (.done (.ok (.explained sx b f))))
    (hk : ∀ s ∈ hist, ∀ rec, policyAt s pid = some rec → KeysClear env.U env.H rec.policy (StoredOnce hist pid) g)
    (hw : ∀ s ∈ hist, ∀ rec, policyAt s pid = some rec → TuplesetsConcrete env.U rec.policy (StoredOnce hist pid) g) :
    ∃ t, sx = .spew t ∧ (b = true ↔ t.result = .success) ∧ ∃ s ∈ hist, ∃ rec, policyAt s pid = some rec ∧
      Justified (Names u) (ExpansionDuring env.U rec.policy hist pid) (fun n => ∃ m ∈ settled t, ∃ id, m.nodeId env.H = .ok id ∧ n.nodeId env.H = .ok id) t := by
  obtain ⟨s, rec, q, t, seen, hs, h1, hq, rfl, hev, hb⟩ := spew_reads (h.reads (I := (· ∈ hist)) (fun _ h => h) .done)
  cases hq
  exact ⟨t, rfl, by rw [hb]; simp, s, hs, rec, h1, justified_during (h.wf hx) hs h1 (hk s hs rec h1) (hw s hs rec h1) (fun n b hg => goalFound_names hg) hev⟩

/-- C127, expansions, for Expand.  Missing: as above. -/
theorem C127_expand_moments_partial (hx : Sys.Reachable env x) (h : Sys.Flight env A x (.expand fuel pid (some g.node) .spew) hist y (.done (.ok (.expanded sx f))))
    (hk : ∀ s ∈ hist, ∀ rec, policyAt s pid = some rec → KeysClear env.U env.H rec.policy (StoredOnce hist pid) g)
    (hw : ∀ s ∈ hist, ∀ rec, policyAt s pid = some rec → TuplesetsConcrete env.U rec.policy (StoredOnce hist pid) g) :
    ∃ t, sx = .spew t ∧ ∃ s ∈ hist, ∃ rec, policyAt s pid = some rec ∧
      Justified (fun _ => False) (ExpansionDuring env.U rec.policy hist pid) (fun n => ∃ m ∈ settled t, ∃ id, m.nodeId env.H = .ok id ∧ n.nodeId env.H = .ok id) t := by
  obtain ⟨s, rec, o, t, seen, hs, h1, ho, rfl, hev⟩ := expand_reads (h.reads (I := (· ∈ hist)) (fun _ h => h) .done)
  cases ho
  exact ⟨t, rfl, s, hs, rec, h1, justified_during (h.wf hx) hs h1 (hk s hs rec h1) (hw s hs rec h1) (fun n b hg => by cases hg; exact ⟨nofun, nofun⟩) hev⟩

end

/-- The explanation asked for while the group loses its access and user:u joins it. -/
def neExplain : Call := .explainCheck 10 "p" (ask ⟨doc1, "a"⟩ usr) .spew

/-- The tree returned: the group from the store before, its member from the store after. -/
def neTree : GoalTree :=
  .path .success (.entitySet (some doc1) "a") "Request" (.or .success [.path .success (.entitySet (some ⟨"group", "g"⟩) "member") "Rule This"
    (.or .success [.leaf .success (.entity (some usr)) "Rule This"])])

theorem ne_explained : ∃ hist y, Sys.Flight gEnv (fun d => d = .deleteRelationship "p" (some neLink) ∨ d = .setRelationship 1 "p" (some neMember) []) ⟨[], neStore⟩ neExplain hist y
    (.done (.ok (.explained (.spew neTree) true .spew))) ∧
    ∀ s ∈ hist, s = neStore ∨ s ∈ ((Call.deleteRelationship "p" (some neLink)).prog gEnv).trace neStore ∨
      s ∈ ((Call.setRelationship 1 "p" (some neMember) []).prog gEnv).trace neStore1 ∨ s = neStore2 := by
  have f0 : Sys.Flight gEnv (fun d => d = .deleteRelationship "p" (some neLink) ∨ d = .setRelationship 1 "p" (some neMember) []) ⟨[], neStore⟩ neExplain _ _ _ :=
    .start .refl
  obtain ⟨h1, f1, g1⟩ := f0.own_read (Call.prog_read _ rfl)
  obtain ⟨h2, f2, g2⟩ := f1.own_read (Call.prog_read _ rfl).next
  obtain ⟨h3, f3, g3⟩ := f2.served_trace (.deleteRelationship "p" (some neLink)) (.inl rfl)
  obtain ⟨h4, f4, g4⟩ := f3.served_trace (.setRelationship 1 "p" (some neMember) []) (.inr rfl)
  obtain ⟨h5, f5, g5⟩ := f4.own_reads (Call.prog_read _ rfl).next.next
  have hd : ((((neExplain.prog gEnv).next neStore).next neStore).run neStore2).1 = .ok (.explained (.spew neTree) true .spew) := by
    have hb : explB (fun t b => sameTree t neTree && b) ((((neExplain.prog gEnv).next neStore).next neStore).run neStore2).1 = true := by decide +kernel
    generalize ((((neExplain.prog gEnv).next neStore).next neStore).run neStore2).1 = r at hb
    unfold explB at hb
    split at hb
    · simp only [Bool.and_eq_true] at hb
      obtain ⟨h, rfl⟩ := hb
      cases sameTree_eq h
      rfl
    · cases hb
  rw [show ((((neExplain.prog gEnv).next neStore).next neStore).run
    (serve gEnv (.setRelationship 1 "p" (some neMember) []) (serve gEnv (.deleteRelationship "p" (some neLink)) neStore).2).2).1 = _ from hd] at f5
  refine ⟨h5, _, f5, fun s hs => ?_⟩
  rcases g5 s hs with hs | rfl
  · rcases g4 s hs with hs | hs
    · rcases g3 s hs with hs | hs
      · rcases g2 s hs with hs | rfl
        · rcases g1 s hs with hs | rfl
          · exact .inl (List.mem_singleton.1 hs)
          · exact .inl rfl
        · exact .inl rfl
      · exact .inr (.inl hs)
    · exact .inr (.inr (.inl hs))
  · exact .inr (.inr (.inr rfl))

/-- The hypotheses of `C127_coherent` on an explanation that no single moment would have given. -/
example : ∃ hist y, Sys.Reachable gEnv ⟨[], neStore⟩ ∧
    Sys.Flight gEnv (fun d => d = .deleteRelationship "p" (some neLink) ∨ d = .setRelationship 1 "p" (some neMember) []) ⟨[], neStore⟩ neExplain hist y
      (.done (.ok (.explained (.spew neTree) true .spew))) ∧
    Justified (Names usr) (fun _ _ => True) (fun n => ∃ m ∈ settled neTree, ∃ id, m.nodeId gEnv.H = .ok id ∧ n.nodeId gEnv.H = .ok id) neTree := by
  obtain ⟨hist, y, h, _⟩ := ne_explained
  obtain ⟨t, ht, hj, _⟩ := C127_coherent (gStore_reachable _ _ _) h
  cases ht
  exact ⟨hist, y, gStore_reachable _ _ _, h, hj⟩

/-- Both relationships at once, and what is reached there. -/
def neAll : Store := gStore gEnv neRels [neLink, neMember]
theorem neAll_pol : policyAt neAll "p" = some ⟨gPolicy neRels, [], 0⟩ := by decide +kernel
theorem neAll_rels : ∀ r ∈ [neLink, neMember], r ∈ relationships neAll "p" := by decide +kernel
def neNodes : List RelationNode := [.entitySet (some doc1) "a", .entitySet (some ⟨"group", "g"⟩) "member", .entity (some usr)]

/-- What the examples need of a history: the policy, and no relationship but these two. -/
theorem ne_clear {hist : List Store} (key : ∀ s ∈ hist, policyAt s "p" = some ⟨gPolicy neRels, [], 0⟩ ∧ ∀ r, Present s "p" r → r ∈ [neLink, neMember]) :
    ∀ s ∈ hist, ∀ rec, policyAt s "p" = some rec → KeysClear gEnv.U gEnv.H rec.policy (StoredOnce hist "p") ⟨doc1, "a"⟩ ∧
      TuplesetsConcrete gEnv.U rec.policy (StoredOnce hist "p") ⟨doc1, "a"⟩ := by
  have hS : ∀ r, StoredOnce hist "p" r → r ∈ [neLink, neMember] := fun r ⟨s, hs, hr⟩ => (key s hs).2 r hr
  intro s hs rec hp
  rw [(key s hs).1] at hp
  cases hp
  refine ⟨KeysClear.mono (fun r hr => neAll_rels r (hS r hr))
    (clear_of (env := gEnv) (rec := ⟨gPolicy neRels, [], 0⟩) (L := neNodes) (gStore_wf _ _ _) neAll_pol (by simp [neNodes, USet.node]) (by decide +kernel)).1, ?_⟩
  intro y e a b n _ _ _ hr
  have := hS _ hr
  simp [neLink, neMember] at this

/-- The history of that explanation. -/
theorem ne_history : ∃ hist y, Sys.Flight gEnv (fun d => d = .deleteRelationship "p" (some neLink) ∨ d = .setRelationship 1 "p" (some neMember) []) ⟨[], neStore⟩ neExplain hist y
      (.done (.ok (.explained (.spew neTree) true .spew))) ∧
    ∀ s ∈ hist, policyAt s "p" = some ⟨gPolicy neRels, [], 0⟩ ∧ ∀ r, Present s "p" r → r ∈ [neLink, neMember] := by
  obtain ⟨hist, y, h, hh⟩ := ne_explained
  have key : ∀ s ∈ hist, policyAt s "p" = some ⟨gPolicy neRels, [], 0⟩ ∧ ∀ r, Present s "p" r → r ∈ [neLink, neMember] := by
    intro s hs
    have hm : s ∈ neStore :: neStore2 :: (((Call.deleteRelationship "p" (some neLink)).prog gEnv).trace neStore ++
        ((Call.setRelationship 1 "p" (some neMember) []).prog gEnv).trace neStore1) := by
      rcases hh s hs with rfl | h | h | rfl <;> simp [*]
    have h := List.all_eq_true.1 (show (neStore :: neStore2 :: (((Call.deleteRelationship "p" (some neLink)).prog gEnv).trace neStore ++
        ((Call.setRelationship 1 "p" (some neMember) []).prog gEnv).trace neStore1)).all (fun s => decide (policyAt s "p" = some ⟨gPolicy neRels, [], 0⟩) &&
      (relationships s "p").all (fun r => decide (r ∈ [neLink, neMember]))) = true by decide +kernel) s hm
    rw [Bool.and_eq_true] at h
    exact ⟨of_decide_eq_true h.1, fun r hr => of_decide_eq_true (List.all_eq_true.1 h.2 r hr)⟩
  exact ⟨hist, y, h, key⟩

/-- The hypotheses of `C127_moments_partial` there, and its conclusion. -/
example : ∃ hist y, Sys.Flight gEnv (fun d => d = .deleteRelationship "p" (some neLink) ∨ d = .setRelationship 1 "p" (some neMember) []) ⟨[], neStore⟩ neExplain hist y
      (.done (.ok (.explained (.spew neTree) true .spew))) ∧ ∃ s ∈ hist, ∃ rec, policyAt s "p" = some rec ∧
    Justified (Names usr) (ExpansionDuring gEnv.U rec.policy hist "p") (fun n => ∃ m ∈ settled neTree, ∃ id, m.nodeId gEnv.H = .ok id ∧ n.nodeId gEnv.H = .ok id) neTree := by
  obtain ⟨hist, y, h, key⟩ := ne_history
  obtain ⟨t, ht, _, s, hs, rec, hp, hj⟩ := C127_moments_partial (gStore_reachable _ _ _) h (fun s hs rec hp => (ne_clear key s hs rec hp).1)
    (fun s hs rec hp => (ne_clear key s hs rec hp).2)
  cases ht
  exact ⟨hist, y, h, s, hs, rec, hp, hj⟩

/-- An expansion asked for while user:u joins the group: hypotheses and conclusion of the C127 theorems for Expand. -/
example : ∃ hist y t, Sys.Flight gEnv (fun d => d = .setRelationship 1 "p" (some neMember) []) ⟨[], neStore⟩ (.expand 10 "p" (some (USet.node ⟨doc1, "a"⟩)) .spew) hist y
    (.done (.ok (.expanded (.spew t) .spew))) ∧ (RelationNode.entity (some usr), true) ∈ visits t ∧ ∃ s ∈ hist, ∃ rec, policyAt s "p" = some rec ∧
      Justified (fun _ => False) (ExpansionDuring gEnv.U rec.policy hist "p") (fun n => ∃ m ∈ settled t, ∃ id, m.nodeId gEnv.H = .ok id ∧ n.nodeId gEnv.H = .ok id) t := by
  have f0 : Sys.Flight gEnv (fun d => d = .setRelationship 1 "p" (some neMember) []) ⟨[], neStore⟩ (.expand 10 "p" (some (USet.node ⟨doc1, "a"⟩)) .spew) [neStore] _ _ :=
    .start (y := ⟨[], neStore⟩) .refl
  obtain ⟨h1, f1, g1⟩ := f0.own_read (Call.prog_read _ rfl)
  obtain ⟨h2, f2, g2⟩ := f1.served_trace (.setRelationship 1 "p" (some neMember) []) rfl
  obtain ⟨h3, f3, g3⟩ := f2.own_reads (Call.prog_read _ rfl).next
  have hd : (match (((((Call.expand 10 "p" (some (USet.node ⟨doc1, "a"⟩)) .spew).prog gEnv).next neStore).run
      (serve gEnv (.setRelationship 1 "p" (some neMember) []) neStore).2).1) with
    | .ok (.expanded (.spew t) .spew) => decide ((RelationNode.entity (some usr), true) ∈ visits t)
    | _ => false) = true := by decide +kernel
  have key : ∀ s ∈ h3, policyAt s "p" = some ⟨gPolicy neRels, [], 0⟩ ∧ ∀ r, Present s "p" r → r ∈ [neLink, neMember] := by
    intro s hs
    have hm : s ∈ neStore :: (serve gEnv (.setRelationship 1 "p" (some neMember) []) neStore).2 :: ((Call.setRelationship 1 "p" (some neMember) []).prog gEnv).trace neStore := by
      rcases g3 s hs with hs | rfl
      · rcases g2 s hs with hs | hs
        · rcases g1 s hs with hs | rfl
          · rw [List.mem_singleton.1 hs]; exact List.mem_cons_self
          · exact List.mem_cons_self
        · exact List.mem_cons_of_mem _ (List.mem_cons_of_mem _ hs)
      · exact List.mem_cons_of_mem _ List.mem_cons_self
    have h := List.all_eq_true.1 (show (neStore :: (serve gEnv (.setRelationship 1 "p" (some neMember) []) neStore).2 ::
        ((Call.setRelationship 1 "p" (some neMember) []).prog gEnv).trace neStore).all (fun s => decide (policyAt s "p" = some ⟨gPolicy neRels, [], 0⟩) &&
      (relationships s "p").all (fun r => decide (r ∈ [neLink, neMember]))) = true by decide +kernel) s hm
    rw [Bool.and_eq_true] at h
    exact ⟨of_decide_eq_true h.1, fun r hr => of_decide_eq_true (List.all_eq_true.1 h.2 r hr)⟩
  split at hd
  · next t he =>
    rw [he] at f3
    obtain ⟨t', ht, hj⟩ := C127_expand_moments_partial (g := ⟨doc1, "a"⟩) (gStore_reachable _ _ _) f3 (fun s hs rec hp => (ne_clear key s hs rec hp).1)
      (fun s hs rec hp => (ne_clear key s hs rec hp).2)
    cases ht
    exact ⟨h3, _, t, f3, of_decide_eq_true hd, hj⟩
  · cases hd

end Zanzi
