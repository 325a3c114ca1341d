import Verif.Spec.Cost
import Verif.Lemmas.RelySem

/-
Counting the storage calls of a search.
-/

namespace Zanzi

open Spec

theorem calls_bind {α β : Type} (p : Prog α) (k : α → Prog β) (s : Store) :
    calls (p >>= k) s = calls p s ++ (match p.run s with | (.ok a, s') => calls (k a) s' | _ => []) := by
  show calls (p.bind k) s = _
  induction p generalizing s with
  | done r => cases r <;> simp [Prog.bind, calls, Prog.run_done]
  | call op f ih =>
    show op :: calls ((f _).bind k) _ = _
    rw [ih]
    rfl

theorem calls_lift {α : Type} (r : Res α) (s : Store) : calls (Prog.lift r) s = [] := rfl

theorem calls_allOps {α : Type} {P : Op → Prop} {p : Prog α} (h : p.AllOps P) : ∀ s, ∀ o ∈ calls p s, P o := by
  induction h with
  | done r => intro s o ho; cases ho
  | call hp _ ih =>
    intro s o ho
    rcases List.mem_cons.1 ho with rfl | ho
    · exact hp
    · exact ih _ _ _ ho

/-! ### Building -/

theorem calls_succs (H : String → Nat) (pid : String) (o : Entity) (rel : String) (s : Store) :
    (calls (Repo.getSuccessors H pid (some o) rel) s).length = 1 := rfl

/-- A rule costs one lookup, if it is one. -/
theorem calls_rule (H : String → Nat) (pid : String) (o : Entity) (rel : String) (r : Rule) (s : Store) :
    (calls (evaluateRule H pid (some o) rel r) s).length = lookups (.rule r) := by
  cases r with
  | unset => rfl
  | this => rfl
  | cu t => rfl
  | ttu a b =>
    show (calls (Repo.getSuccessors H pid (some o) a >>= fun succs => Prog.lift (mapSliceErr (buildTtuNode b) succs)) s).length = 1
    rw [calls_bind]
    rfl

theorem calls_build (H : String → Nat) (pid : String) (x : USet) (e : ExprTree) (s : Store) :
    (calls (buildGoalTree H pid (some x.object) x.relation e) s).length ≤ lookups e ∧
      ∀ t, pBuild H s pid x e = .ok t → (calls (buildGoalTree H pid (some x.object) x.relation e) s).length = lookups e := by
  induction e with
  | nil => exact ⟨Nat.le_refl _, nofun⟩
  | unset => exact ⟨Nat.le_refl _, nofun⟩
  | rule r =>
    have : (calls (buildGoalTree H pid (some x.object) x.relation (.rule r)) s).length = lookups (.rule r) := by
      rw [buildGoalTree, calls_bind, List.length_append, calls_rule, evaluateRule_yields H s pid x r]
      cases ruleNodes H s pid x r <;> rfl
    exact ⟨Nat.le_of_eq this, fun _ _ => this⟩
  | op l o r ihl ihr =>
    rw [buildGoalTree, calls_bind, buildGoalTree_yields H s pid x l, lookups]
    cases hl : pBuild H s pid x l with
    | ok a =>
      dsimp only
      rw [calls_bind, buildGoalTree_yields H s pid x r, List.length_append, List.length_append]
      cases hr : pBuild H s pid x r with
      | ok b =>
        rw [ihl.2 a hl, ihr.2 b hr]
        cases o <;> exact ⟨Nat.le_refl _, fun _ _ => rfl⟩
      | _ =>
        refine ⟨?_, fun t h => ?_⟩
        · dsimp only [List.length_nil]
          have := ihl.1
          have := ihr.1
          omega
        · rw [pBuild, hl, Res.bind_ok, hr] at h
          cases h
    | _ =>
      refine ⟨?_, fun t h => ?_⟩
      · rw [List.append_nil]
        have := ihl.1
        omega
      · rw [pBuild, hl] at h
        cases h

/-! ### Searching -/

/-- The identifier of a userset. -/
def Spec.USet.ident (H : String → Nat) (y : USet) : Nat := H (y.object.resource ++ "/" ++ y.object.id ++ "/" ++ y.relation)

theorem Spec.USet.ident_node (H : String → Nat) (y : USet) : y.node.nodeId H = .ok (y.ident H) := rfl

/-- A program makes the lookups of some usersets not yet visited, and marks them. -/
def Spends {α : Type} (env : Env) (pol : Policy) (s : Store) (E : Entity → Prop) (seenOf : α → List Nat) (seen : List Nat) (p : Prog α) : Prop :=
  (p.run s).2 = s ∧ ∃ L : List (USet × ExprTree), (L.map (fun e => e.1.ident env.H)).Nodup ∧ (∀ e ∈ L, e.1.ident env.H ∉ seen) ∧
    (∀ e ∈ L, DefinedBy env.U pol e.1 e.2 ∧ E e.1.object) ∧ (calls p s).length ≤ lookupsOf L ∧
    ∀ a, (p.run s).1 = .ok a → (calls p s).length = lookupsOf L ∧ seen ⊆ seenOf a ∧ ∀ e ∈ L, e.1.ident env.H ∈ seenOf a

section
variable {env : Env} {pol : Policy} {s : Store} {E : Entity → Prop}

theorem lookupsOf_append (L L' : List (USet × ExprTree)) : lookupsOf (L ++ L') = lookupsOf L + lookupsOf L' := by
  unfold lookupsOf
  rw [List.map_append, List.sum_append]

theorem lookupsOf_singleton (e : USet × ExprTree) : lookupsOf [e] = lookups e.2 := by simp [lookupsOf]

theorem Spends.free {α : Type} {f : α → List Nat} {seen : List Nat} {r : Res α} (h : ∀ a, r = .ok a → seen ⊆ f a) : Spends env pol s E f seen (Prog.lift r) :=
  ⟨rfl, [], .nil, nofun, nofun, Nat.le_refl _, fun a ha => ⟨rfl, h a ha, nofun⟩⟩

theorem Spends.pure {α : Type} {f : α → List Nat} {seen : List Nat} {a : α} (h : seen ⊆ f a) : Spends env pol s E f seen (Pure.pure a : Prog α) :=
  Spends.free (r := .ok a) (fun _ h' => by cases h'; exact h)

theorem Spends.bind {α β : Type} {f : α → List Nat} {g : β → List Nat} {seen : List Nat} {p : Prog α} {k : α → Prog β} (hp : Spends env pol s E f seen p)
    (hk : ∀ a, (p.run s).1 = .ok a → seen ⊆ f a → Spends env pol s E g (f a) (k a)) : Spends env pol s E g seen (p >>= k) := by
  obtain ⟨h1, L, h2, h3, h4, h5, h6⟩ := hp
  unfold Spends
  rw [calls_bind, Prog.run_bind]
  generalize hrun : p.run s = x at h1 h6 hk
  obtain ⟨r, s'⟩ := x
  have h1 : s' = s := h1
  subst h1
  cases r with
  | ok a =>
    obtain ⟨h7, h8, h9⟩ := h6 a rfl
    obtain ⟨k1, L', k2, k3, k4, k5, k6⟩ := hk a rfl h8
    refine ⟨k1, L ++ L', ?_, ?_, ?_, ?_, fun b hb => ?_⟩
    · rw [List.map_append]
      refine List.nodup_append.2 ⟨h2, k2, ?_⟩
      intro i hi j hj hij
      subst hij
      obtain ⟨e, he, rfl⟩ := List.mem_map.1 hi
      obtain ⟨e', he', hij⟩ := List.mem_map.1 hj
      exact k3 e' he' (hij ▸ h9 e he)
    · intro e he
      rcases List.mem_append.1 he with he | he
      · exact h3 e he
      · exact fun hs => k3 e he (h8 hs)
    · intro e he
      exact (List.mem_append.1 he).elim (h4 e) (k4 e)
    · dsimp only
      rw [List.length_append, lookupsOf_append]
      omega
    · obtain ⟨k7, k8, k9⟩ := k6 b hb
      dsimp only
      refine ⟨by rw [List.length_append, lookupsOf_append, h7, k7], List.Subset.trans h8 k8, fun e he => ?_⟩
      exact (List.mem_append.1 he).elim (fun he => k8 (h9 e he)) (k9 e)
  | _ =>
    refine ⟨rfl, L, h2, h3, h4, ?_, nofun⟩
    dsimp only
    rw [List.append_nil]
    exact h5

section
variable {d : RelationNode → String → List Nat → Prog (GoalTree × List Nat)} {P : RelationNode → Prop}

mutual
theorem searchTree_spends (h : ∀ n r seen, P n → Spends env pol s E (·.2) seen (d n r seen)) (t : GoalTree) (seen : List Nat) (ht : ∀ n ∈ t.tops, P n) :
    Spends env pol s E (·.2) seen (searchTree d t seen) := by
  match t with
  | .or _ ps =>
    rw [searchTree]
    exact (searchOr_spends h ps seen (by simpa [GoalTree.tops] using ht)).bind (fun a _ _ => .pure (fun _ h => h))
  | .and _ ps =>
    rw [searchTree]
    exact (searchAnd_spends h ps seen (by simpa [GoalTree.tops] using ht)).bind (fun a _ _ => .pure (fun _ h => h))
  | .diff _ l r =>
    have hl : ∀ n ∈ l.tops, P n := fun n hn => ht n (by simp [GoalTree.tops, hn])
    have hr : ∀ n ∈ r.tops, P n := fun n hn => ht n (by simp [GoalTree.tops, hn])
    rw [searchTree]
    exact (searchTree_spends h l seen hl).bind (fun a _ _ => (searchTree_spends h r a.2 hr).bind (fun b _ _ => .pure (fun _ h => h)))
  | .leaf _ n r => rw [searchTree]; exact h n r seen (ht n (by simp [GoalTree.tops]))
  | .path _ n r _ => rw [searchTree]; exact h n r seen (ht n (by simp [GoalTree.tops]))

theorem searchOr_spends (h : ∀ n r seen, P n → Spends env pol s E (·.2) seen (d n r seen)) (ts : List GoalTree) (seen : List Nat) (ht : ∀ n ∈ topsList ts, P n) :
    Spends env pol s E (·.2.2) seen (searchOr d ts seen) := by
  match ts with
  | [] => rw [searchOr]; exact .free (fun a ha => by cases ha; exact fun _ h => h)
  | t :: ts =>
    have hl : ∀ n ∈ t.tops, P n := fun n hn => ht n (by simp [topsList, hn])
    have hr : ∀ n ∈ topsList ts, P n := fun n hn => ht n (by simp [topsList, hn])
    rw [searchOr]
    refine (searchTree_spends h t seen hl).bind (fun a _ _ => ?_)
    obtain ⟨t', s'⟩ := a
    dsimp only
    split
    · exact .pure (fun _ h => h)
    · exact (searchOr_spends h ts s' hr).bind (fun b _ _ => .pure (fun _ h => h))

theorem searchAnd_spends (h : ∀ n r seen, P n → Spends env pol s E (·.2) seen (d n r seen)) (ts : List GoalTree) (seen : List Nat) (ht : ∀ n ∈ topsList ts, P n) :
    Spends env pol s E (·.2.2) seen (searchAnd d ts seen) := by
  match ts with
  | [] => rw [searchAnd]; exact .free (fun a ha => by cases ha; exact fun _ h => h)
  | t :: ts =>
    have hl : ∀ n ∈ t.tops, P n := fun n hn => ht n (by simp [topsList, hn])
    have hr : ∀ n ∈ topsList ts, P n := fun n hn => ht n (by simp [topsList, hn])
    rw [searchAnd]
    refine (searchTree_spends h t seen hl).bind (fun a _ _ => ?_)
    obtain ⟨t', s'⟩ := a
    dsimp only
    split
    · exact .pure (fun _ h => h)
    · exact (searchAnd_spends h ts s' hr).bind (fun b _ _ => .pure (fun _ h => h))
end
end

/-- Reading the tree of a userset: the lookups of its expression. -/
theorem buildTree_calls {x : USet} :
    (calls (buildTree env pol x.node) s = [] ∧ ∀ t, bld env pol s x.node ≠ .ok t) ∨
      ∃ e, DefinedBy env.U pol x e ∧ (calls (buildTree env pol x.node) s).length ≤ lookups e ∧
        ∀ t, bld env pol s x.node = .ok t → (calls (buildTree env pol x.node) s).length = lookups e := by
  rw [bld_set]
  have hb : buildTree env pol x.node = (match (newLut pol).getRelation x.object.resource x.relation with
      | none => Prog.lift (.err .relationNotFound)
      | some d => Prog.lift (getExpressionTree env.U d) >>= fun t => buildGoalTree env.H pol.id (some x.object) x.relation t) := rfl
  rw [hb]
  cases hr : (newLut pol).getRelation x.object.resource x.relation with
  | none => exact .inl ⟨rfl, nofun⟩
  | some d =>
    obtain ⟨r, hr1, hr2, hd, hname⟩ := newLut_relation hr
    dsimp only
    cases he : getExpressionTree env.U d with
    | ok e =>
      refine .inr ⟨e, ⟨d, ⟨r, hr1, hr2, hd, hname⟩, (getExpressionTree_ok_iff _ _ _).1 he⟩, ?_⟩
      rw [lift_ok_bind, Res.bind_ok]
      exact calls_build env.H pol.id x e s
    | _ => exact .inl ⟨rfl, nofun⟩

/-- The nodes over objects of `E`. -/
def Over (E : Entity → Prop) : RelationNode → Prop
  | .entitySet (some o) _ => E o
  | _ => True

/-- `E` has the objects the policy's relationships point to. -/
def Pointed (s : Store) (pid : String) (E : Entity → Prop) : Prop :=
  ∀ r sub o, Present s pid r → r.subject = some sub → pointsTo sub = some o → E o

theorem ruleNodes_over {x : USet} (hE : Pointed s pol.id E) (hx : E x.object) {r : Rule} {ns : List RelationNode}
    (h : ruleNodes env.H s pol.id x r = .ok ns) : ∀ n ∈ ns, Over E n := by
  intro n hn
  cases r with
  | unset => cases h
  | cu t => cases h; cases List.mem_singleton.1 hn; exact hx
  | this =>
    cases h
    obtain ⟨r, sub, h1, h2, rfl⟩ := mem_succs_present hn
    cases sub with
    | entitySet o rel => cases o with | none => trivial | some o => exact hE r _ o h1 h2 rfl
    | _ => trivial
  | ttu a b =>
    obtain ⟨m, hm, he⟩ := (mapSliceErr_mem h).1 n hn
    obtain ⟨r, sub, h1, h2, rfl⟩ := mem_succs_present hm
    cases sub with
    | entitySet o rel => cases he; cases o with | none => trivial | some o => exact hE r _ o h1 h2 rfl
    | entity o => cases he; exact hE r _ o h1 h2 rfl
    | resourceSet w => cases he; trivial
    | unset => cases he

theorem pBuild_over {x : USet} (hE : Pointed s pol.id E) (hx : E x.object) {e : ExprTree} : ∀ {t : GoalTree},
    pBuild env.H s pol.id x e = .ok t → ∀ n ∈ t.tops, Over E n := by
  induction e with
  | nil => nofun
  | unset => nofun
  | rule r =>
    intro t h n hn
    unfold pBuild at h
    cases hr : ruleNodes env.H s pol.id x r with
    | ok ns =>
      rw [hr] at h
      cases h
      rw [GoalTree.tops, mem_topsList] at hn
      obtain ⟨t, ht, hn⟩ := hn
      obtain ⟨m, hm, rfl⟩ := List.mem_map.1 ht
      simp only [GoalTree.tops, List.mem_singleton] at hn
      subst hn
      exact ruleNodes_over hE hx hr n hm
    | _ => rw [hr] at h; cases h
  | op l o r ihl ihr =>
    intro t h n hn
    unfold pBuild at h
    cases hl : pBuild env.H s pol.id x l with
    | ok a =>
      cases hr : pBuild env.H s pol.id x r with
      | ok b =>
        rw [hl, hr] at h
        simp only [Res.bind_ok] at h
        cases o with
        | unknown => cases h
        | _ =>
          cases h
          simp only [GoalTree.tops, topsList, List.append_nil, List.mem_append] at hn
          exact hn.elim (ihl hl n) (ihr hr n)
      | _ => rw [hl, hr] at h; cases h
    | _ => rw [hl] at h; cases h

theorem bld_over {x : USet} (hE : Pointed s pol.id E) (hx : E x.object) {t : GoalTree} (h : bld env pol s x.node = .ok t) : ∀ n ∈ t.tops, Over E n := by
  rw [bld_set] at h
  cases hr : (newLut pol).getRelation x.object.resource x.relation with
  | none => rw [hr] at h; cases h
  | some d =>
    rw [hr] at h
    dsimp only at h
    cases he : getExpressionTree env.U d with
    | ok e => rw [he] at h; exact pBuild_over hE hx h
    | _ => rw [he] at h; cases h

theorem searchPath_spends {goal : Option RelationNode} (hE : Pointed s pol.id E) (fuel : Nat) : ∀ n r seen, Over E n →
    Spends env pol s E (·.2) seen (searchPath env pol goal fuel n r seen) := by
  induction fuel with
  | zero => intro n r seen _; exact .free nofun
  | succ fuel ih =>
    intro n r seen hn
    rw [searchPath]
    cases hid : n.nodeId env.H with
    | ok id =>
      rw [lift_ok_bind]
      split
      · exact .pure (fun _ h => h)
      · next hseen =>
        dsimp only
        cases hg : goalFound n goal with
        | ok b =>
          rw [lift_ok_bind]
          split
          · exact .pure (List.subset_cons_self _ _)
          · next hterm =>
            have hterm : n.isTerminal = false := by simp at hterm; exact hterm.2
            obtain ⟨o, rel, rfl⟩ := isTerminal_false hterm
            cases o with
            | none => cases hid
            | some o =>
              have hid' : USet.ident env.H ⟨o, rel⟩ = id := Res.ok.inj ((USet.ident_node env.H ⟨o, rel⟩).symm.trans hid)
              have hrun : (buildTree env pol (.entitySet (some o) rel)).run s = (bld env pol s (.entitySet (some o) rel), s) := buildTree_yields _ _ _ _
              have hb : Spends env pol s E (fun _ : GoalTree => id :: seen) seen (buildTree env pol (.entitySet (some o) rel)) := by
                rw [Spends, hrun]
                refine ⟨rfl, ?_⟩
                rcases buildTree_calls (env := env) (pol := pol) (s := s) (x := ⟨o, rel⟩) with ⟨h1, h2⟩ | ⟨e, h1, h2, h3⟩
                · refine ⟨[], .nil, nofun, nofun, ?_, fun t ht => absurd ht (h2 t)⟩
                  exact Nat.le_of_eq (congrArg List.length h1)
                · refine ⟨[(⟨o, rel⟩, e)], (by simp), ?_, ?_, ?_, fun t ht => ⟨?_, List.subset_cons_self _ _, ?_⟩⟩
                  · intro e' he'
                    cases List.mem_singleton.1 he'
                    rw [hid']
                    exact hseen
                  · intro e' he'
                    cases List.mem_singleton.1 he'
                    exact ⟨h1, hn⟩
                  · rw [lookupsOf_singleton]; exact h2
                  · rw [lookupsOf_singleton]; exact h3 t ht
                  · intro e' he'
                    cases List.mem_singleton.1 he'
                    rw [hid']
                    exact List.mem_cons_self
              refine hb.bind (fun t ht _ => ?_)
              rw [hrun] at ht
              exact (searchTree_spends (P := Over E) ih t (id :: seen) (bld_over (x := ⟨o, rel⟩) hE hn ht)).bind (fun a _ _ => .pure (fun _ h => h))
        | _ => exact .free (α := GoalTree × List Nat) nofun
    | _ => exact .free (α := GoalTree × List Nat) nofun

/-- A program makes the lookups of some usersets. -/
def Pays {α : Type} (env : Env) (pol : Policy) (s : Store) (E : Entity → Prop) (p : Prog α) : Prop :=
  ∃ L : List (USet × ExprTree), (L.map (·.1)).Nodup ∧ (∀ e ∈ L, DefinedBy env.U pol e.1 e.2 ∧ E e.1.object) ∧
    (calls p s).length ≤ lookupsOf L ∧ ∀ a, (p.run s).1 = .ok a → (calls p s).length = lookupsOf L

theorem Spends.pays {α : Type} {f : α → List Nat} {seen : List Nat} {p : Prog α} (h : Spends env pol s E f seen p) : Pays env pol s E p := by
  obtain ⟨_, L, h2, _, h4, h5, h6⟩ := h
  refine ⟨L, ?_, h4, h5, fun a ha => (h6 a ha).1⟩
  rw [show L.map (fun e => e.1.ident env.H) = (L.map (·.1)).map (fun y => y.ident env.H) by rw [List.map_map]; rfl] at h2
  exact List.Pairwise.of_map _ (fun a b hab he => hab (by rw [he])) h2

theorem Pays.bind_lift {α β : Type} {p : Prog α} {k : α → Res β} (h : Pays env pol s E p) : Pays env pol s E (p >>= fun a => Prog.lift (k a)) := by
  obtain ⟨L, h1, h2, h3, h4⟩ := h
  have hc : calls (p >>= fun a => Prog.lift (k a)) s = calls p s := by
    rw [calls_bind]
    split
    · rw [calls_lift, List.append_nil]
    · rw [List.append_nil]
  refine ⟨L, h1, h2, by rw [hc]; exact h3, fun b hb => ?_⟩
  rw [hc]
  rw [Prog.run_bind] at hb
  generalize hr : p.run s = r at h4 hb
  obtain ⟨r, s'⟩ := r
  cases r with
  | ok a => exact h4 a rfl
  | _ => cases hb

theorem searchGoal_pays {goal : Option RelationNode} (hE : Pointed s pol.id E) (fuel : Nat) {x : USet} (hx : E x.object) :
    Pays env pol s E (searchGoal env fuel pol (some x.node) goal) := by
  unfold searchGoal
  split
  · exact ⟨[], .nil, nofun, Nat.le_refl _, nofun⟩
  · exact ((searchPath_spends hE fuel x.node "Request" [] hx).pays).bind_lift (k := fun a => .ok a.1)

mutual
theorem dotTree_size (parent : DotId) (t : GoalTree) (c : Nat) {cs : List DotCall} {c' : Nat} (h : dotTree parent t c = .ok (cs, c')) : cs.length = 2 * treeNodes t := by
  match t with
  | .leaf r n reason =>
    rw [dotTree] at h
    cases hp : n.prettyString with
    | ok p => rw [hp] at h; cases h; rfl
    | err e => rw [hp] at h; cases h
    | panic => rw [hp] at h; cases h
    | fuel => rw [hp] at h; cases h
  | .path r n reason child =>
    rw [dotTree] at h
    cases hp : n.prettyString with
    | ok p =>
      rw [hp, Res.bind_ok] at h
      cases hc : dotTree (.num c) child (c + 1) with
      | ok a =>
        have := dotTree_size (.num c) child (c + 1) (cs := a.1) (c' := a.2) hc
        rw [hc] at h
        cases h
        simp only [List.length_cons, treeNodes]
        omega
      | err e => rw [hc] at h; cases h
      | panic => rw [hc] at h; cases h
      | fuel => rw [hc] at h; cases h
    | err e => rw [hp] at h; cases h
    | panic => rw [hp] at h; cases h
    | fuel => rw [hp] at h; cases h
  | .or r ps =>
    rw [dotTree] at h
    cases hc : dotList (.num c) ps (c + 1) with
    | ok a =>
      have := dotList_size (.num c) ps (c + 1) (cs := a.1) (c' := a.2) hc
      rw [hc] at h
      cases h
      simp only [List.length_cons, treeNodes]
      omega
    | err e => rw [hc] at h; cases h
    | panic => rw [hc] at h; cases h
    | fuel => rw [hc] at h; cases h
  | .and r ps =>
    rw [dotTree] at h
    cases hc : dotList (.num c) ps (c + 1) with
    | ok a =>
      have := dotList_size (.num c) ps (c + 1) (cs := a.1) (c' := a.2) hc
      rw [hc] at h
      cases h
      simp only [List.length_cons, treeNodes]
      omega
    | err e => rw [hc] at h; cases h
    | panic => rw [hc] at h; cases h
    | fuel => rw [hc] at h; cases h
  | .diff r a b =>
    rw [dotTree] at h
    cases ha : dotTree (.num c) a (c + 1) with
    | ok x =>
      have h1 := dotTree_size (.num c) a (c + 1) (cs := x.1) (c' := x.2) ha
      rw [ha, Res.bind_ok] at h
      dsimp only at h
      cases hb : dotTree (.num c) b x.2 with
      | ok y =>
        have h2 := dotTree_size (.num c) b x.2 (cs := y.1) (c' := y.2) hb
        rw [hb] at h
        cases h
        simp only [List.length_cons, List.length_append, treeNodes]
        omega
      | err e => rw [hb] at h; cases h
      | panic => rw [hb] at h; cases h
      | fuel => rw [hb] at h; cases h
    | err e => rw [ha] at h; cases h
    | panic => rw [ha] at h; cases h
    | fuel => rw [ha] at h; cases h

theorem dotList_size (parent : DotId) (ts : List GoalTree) (c : Nat) {cs : List DotCall} {c' : Nat} (h : dotList parent ts c = .ok (cs, c')) : cs.length = 2 * treesNodes ts := by
  match ts with
  | [] => cases h; rfl
  | t :: ts =>
    rw [dotList] at h
    cases ha : dotTree parent t c with
    | ok x =>
      have h1 := dotTree_size parent t c (cs := x.1) (c' := x.2) ha
      rw [ha, Res.bind_ok] at h
      dsimp only at h
      cases hb : dotList parent ts x.2 with
      | ok y =>
        have h2 := dotList_size parent ts x.2 (cs := y.1) (c' := y.2) hb
        rw [hb] at h
        cases h
        simp only [List.length_append, treesNodes]
        omega
      | err e => rw [hb] at h; cases h
      | panic => rw [hb] at h; cases h
      | fuel => rw [hb] at h; cases h
    | err e => rw [ha] at h; cases h
    | panic => rw [ha] at h; cases h
    | fuel => rw [ha] at h; cases h
end

/-- A drawing has two parts for each node of the tree, and the root. -/
theorem serialize_size {f : ExplainFormat} {t : GoalTree} {d : Serialized} (h : serialize f t = .ok d) : drawnSize d ≤ 1 + 2 * treeNodes t := by
  cases f with
  | unknown => cases h
  | spew => cases h; simp only [drawnSize]; omega
  | json =>
    replace h : (if t.hasChild then .err .json else .ok (.json t) : Res Serialized) = .ok d := h
    split at h
    · cases h
    · cases h; simp only [drawnSize]; omega
  | dot =>
    replace h : ((dotTree .root t 0 >>= fun a => .ok (.node .root "" :: a.1)) >>= fun cs => .ok (.dot cs) : Res Serialized) = .ok d := h
    cases hc : dotTree .root t 0 with
    | ok a =>
      have := dotTree_size .root t 0 (cs := a.1) (c' := a.2) hc
      rw [hc] at h
      cases h
      simp only [drawnSize, List.length_cons]
      omega
    | err e => rw [hc] at h; cases h
    | panic => rw [hc] at h; cases h
    | fuel => rw [hc] at h; cases h

/-- Check, ExplainCheck and Expand: what they have in common. -/
theorem asks_prog (env : Env) {c : Call} {pid : String} {x : USet} (hc : asks c = some (pid, x)) :
    ∃ (fuel : Nat) (goal : Option RelationNode) (pre : Res Unit) (fin : GoalTree → Res Answer),
      c.prog env = (Prog.lift pre >>= fun _ => GraphService.getPolicy pid >>= fun rec => searchGoal env fuel rec.policy (some x.node) goal >>= fun t => Prog.lift (fin t)) ∧
      ∀ t a d, fin t = .ok a → drawn a = some d → drawnSize d ≤ 1 + 2 * treeNodes t := by
  have hser : ∀ (f : ExplainFormat) (k : GoalTree → Serialized → Answer), (∀ t d, drawn (k t d) = some d) → ∀ t a d,
      (serialize f t >>= fun d => .ok (k t d)) = .ok a → drawn a = some d → drawnSize d ≤ 1 + 2 * treeNodes t := by
    intro f k hk t a d h hd
    cases hs : serialize f t with
    | ok d' =>
      rw [hs] at h
      cases h
      rw [hk] at hd
      cases hd
      exact serialize_size hs
    | err e => rw [hs] at h; cases h
    | panic => rw [hs] at h; cases h
    | fuel => rw [hs] at h; cases h
  unfold asks at hc
  split at hc
  · next fuel pid' o rel sub =>
    cases hc
    refine ⟨fuel, some (.entity sub), .ok (), fun t => .ok (.authorized (decide (t.result = .success))), ?_, fun t a d h hd => (by cases h; cases hd)⟩
    rw [lift_ok_bind, Call.prog, GraphService.check, Prog.bind_assoc]
    refine congrArg (GraphService.getPolicy pid >>= ·) (funext fun rec => ?_)
    rw [GraphService.checkTree, Res.deref_some, lift_ok_bind, Prog.bind_assoc]
    rfl
  · next fuel pid' o rel sub f =>
    cases hc
    refine ⟨fuel, some (.entity sub), serializerFactory f,
      fun t => serialize f t >>= fun d => .ok (.explained d (decide (t.result = .success)) .spew), ?_,
      hser f (fun t d => .explained d (decide (t.result = .success)) .spew) (fun _ _ => rfl)⟩
    rw [Call.prog, GraphService.explainCheck, Prog.bind_assoc]
    refine congrArg (Prog.lift (serializerFactory f) >>= ·) (funext fun _ => ?_)
    rw [Prog.bind_assoc]
    refine congrArg (GraphService.getPolicy pid >>= ·) (funext fun rec => ?_)
    rw [GraphService.checkTree, Res.deref_some, lift_ok_bind, Prog.bind_assoc]
    refine congrArg (_ >>= ·) (funext fun t => ?_)
    dsimp only
    cases serialize f t <;> rfl
  · next fuel pid' o rel f =>
    cases hc
    refine ⟨fuel, none, serializerFactory f, fun t => serialize f t >>= fun d => .ok (.expanded d f), ?_, hser f (fun _ d => .expanded d f) (fun _ _ => rfl)⟩
    rw [Call.prog, GraphService.expand, Prog.bind_assoc]
    refine congrArg (Prog.lift (serializerFactory f) >>= ·) (funext fun _ => ?_)
    rw [Prog.bind_assoc]
    refine congrArg (GraphService.getPolicy pid >>= ·) (funext fun rec => ?_)
    rw [Prog.bind_assoc]
    refine congrArg (_ >>= ·) (funext fun t => ?_)
    dsimp only
    cases serialize f t <;> rfl
  · cases hc

end

/-! ### Other requests -/

theorem calls_length_bind {α β : Type} {p : Prog α} {k : α → Prog β} {s : Store} {m n : Nat} (hp : (calls p s).length ≤ m)
    (hk : ∀ a s', p.run s = (.ok a, s') → (calls (k a) s').length ≤ n) : (calls (p >>= k) s).length ≤ m + n := by
  rw [calls_bind, List.length_append]
  split
  · next a s' h => exact Nat.add_le_add hp (hk a s' h)
  · rw [List.length_nil]; omega

theorem calls_mapSlice {α β : Type} {f : α → Prog β} {m : Nat} (h : ∀ a s, (calls (f a) s).length ≤ m) (l : List α) (s : Store) :
    (calls (Prog.mapSlice f l) s).length ≤ m * l.length := by
  induction l generalizing s with
  | nil => exact Nat.zero_le _
  | cons a l ih =>
    have := calls_length_bind (p := f a) (k := fun b => Prog.mapSlice f l >>= fun bs => pure (b :: bs)) (s := s) (h a s)
      (fun b s' _ => calls_length_bind (n := 0) (ih s') (fun _ _ _ => Nat.le_refl _))
    rw [List.length_cons, Nat.mul_succ]
    refine Nat.le_trans this ?_
    omega

theorem filterRes_length {α : Type} {f : α → Res Bool} : ∀ {l l' : List α}, filterRes f l = .ok l' → l'.length ≤ l.length := by
  intro l
  induction l with
  | nil => intro l' h; cases h; exact Nat.le_refl _
  | cons a l ih =>
    intro l' h
    unfold filterRes at h
    cases hb : f a with
    | ok b =>
      cases h1 : filterRes f l with
      | ok as' =>
        rw [hb, h1] at h
        have := ih h1
        cases b <;> cases h <;> simp only [List.length_cons, if_true, Bool.false_eq_true, if_false] <;> omega
      | _ => rw [hb, h1] at h; cases h
    | _ => rw [hb] at h; cases h

theorem calls_lift_bind {α β : Type} {r : Res α} {k : α → Prog β} {s : Store} {m : Nat} (h : ∀ a, r = .ok a → (calls (k a) s).length ≤ m) :
    (calls (Prog.lift r >>= k) s).length ≤ m := by
  cases r with
  | ok a => exact h a rfl
  | _ => exact Nat.zero_le _

theorem calls_repoDelete (H : String → Nat) (pid : String) (r : Option Relationship) (s : Store) :
    (calls (Repo.deleteRelationship H pid r) s).length ≤ 3 :=
  calls_lift_bind (fun _ _ => calls_lift_bind (fun _ _ => Nat.le_refl _))

theorem calls_repoGet (H : String → Nat) (pid : String) (r : Option Relationship) (s : Store) :
    (calls (Repo.getRelationship H pid r) s).length ≤ 1 := by
  refine calls_lift_bind (fun _ _ => calls_lift_bind (fun i _ => ?_))
  refine calls_length_bind (p := Prog.dataGet _) (m := 1) (n := 0) (Nat.le_refl _) (fun a s' _ => ?_)
  cases a <;> exact Nat.le_refl _

theorem calls_repoFind (pid : String) (sel : Option Selector) (s : Store) : (calls (Repo.findRelationships pid sel) s).length ≤ 1 := by
  refine calls_length_bind (p := Prog.edgeList pid) (m := 1) (n := 0) (Nat.le_refl _) (fun a s' _ => ?_)
  exact calls_lift_bind (fun _ _ => Nat.le_refl _)

/-- The relationships found are among those stored. -/
theorem find_length {pid : String} {sel : Option Selector} {s s' : Store} {l : List Relationship} (h : (Repo.findRelationships pid sel).run s = (.ok l, s')) :
    l.length ≤ (relationships s pid).length ∧ s' = s := by
  have h1 : (Repo.findRelationships pid sel).run s = (newSelectorSpec sel >>= fun spec => filterRes (selectorSatisfies spec) (relationships s pid), s) := by
    show (Prog.lift (newSelectorSpec sel) >>= fun spec => Prog.lift (filterRes (selectorSatisfies spec) (((s.edges pid).map (·.2)).map fromInternal))).run s = _
    rw [List.map_map]
    cases newSelectorSpec sel <;> rfl
  rw [h1] at h
  obtain ⟨h2, h3⟩ := Prod.mk.inj h
  obtain ⟨spec, _, h2⟩ := Res.bind_eq_ok.1 h2
  exact ⟨filterRes_length h2, h3.symm⟩

theorem calls_repoDeleteAll (H : String → Nat) (pid : String) (sel : Option Selector) (s : Store) :
    (calls (Repo.deleteRelationships H pid sel) s).length ≤ 1 + 3 * (relationships s pid).length := by
  refine calls_length_bind (calls_repoFind _ _ _) (fun l s' h => ?_)
  obtain ⟨h1, rfl⟩ := find_length h
  refine Nat.le_trans (calls_length_bind (n := 0) (calls_mapSlice (fun r s => calls_repoDelete H pid (some r) s) l _) (fun _ _ _ => Nat.le_refl _)) ?_
  omega

theorem calls_repoFindAll (H : String → Nat) (pid : String) (sel : Option Selector) (s : Store) :
    (calls (Repo.findRelationshipRecords H pid sel) s).length ≤ 1 + (relationships s pid).length := by
  refine calls_length_bind (calls_repoFind _ _ _) (fun l s' h => ?_)
  obtain ⟨h1, rfl⟩ := find_length h
  refine Nat.le_trans (calls_mapSlice (fun r s => calls_repoGet H pid (some r) s) l _) ?_
  omega

/-- A policy lookup and what follows. -/
theorem calls_polGet {β : Type} {k : Option PolicyRecord → Prog β} {s : Store} {id : String} {m : Nat} (h : ∀ a, (calls (k a) s).length ≤ m) :
    (calls (Repo.getPolicy id >>= k) s).length ≤ 1 + m :=
  calls_length_bind (p := Prog.polGet id) (m := 1) (Nat.le_refl _) (fun a s' h' => by cases h'; exact h _)

end Zanzi
