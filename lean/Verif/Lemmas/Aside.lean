import Verif.Lemmas.OneWay
import Verif.Props.Elsewhere

/-
Requests in flight among others that leave alone what they come across.
-/

namespace Zanzi

open Spec Prog

theorem Res.bind_assoc {α β γ : Type} (r : Res α) (f : α → Res β) (g : β → Res γ) : (r >>= f) >>= g = r >>= fun a => f a >>= g := by
  cases r <;> rfl

section consts
variable {I : Store → Prop} {s : Store} {H : String → Nat} {pid : String} {x : USet}

/-- Every store of `I` shows of userset `z` what `s` does. -/
def Steady (I : Store → Prop) (s : Store) (H : String → Nat) (pid : String) (z : USet) : Prop :=
  ∀ s', I s' → (Op.exec (.edgeSucc pid (srcKey H z.object z.relation)) s').1 = (Op.exec (.edgeSucc pid (srcKey H z.object z.relation)) s).1

theorem getSuccessors_const {z : USet} (h : Steady I s H pid z) : (Repo.getSuccessors H pid (some z.object) z.relation).Const I s := by
  intro r hr
  refine Reads.const (P := fun o => o = .edgeSucc pid (srcKey H z.object z.relation)) ?_ ?_ (Repo.getSuccessors_fs _ _ _ _) hr
  · rintro o rfl
    exact ⟨rfl, h⟩
  · exact AllOps.bind (p := Prog.edgeSucc pid (srcKey H z.object z.relation)) (AllOps.op rfl) (fun _ => .done _)

theorem evaluateRule_const {r : Rule} (h : Steady I s H pid x) (h' : ∀ a b, r = .ttu a b → Steady I s H pid ⟨x.object, a⟩) :
    (evaluateRule H pid (some x.object) x.relation r).Const I s := by
  cases r with
  | unset => exact .lift _
  | this => exact getSuccessors_const h
  | cu t => exact .lift _
  | ttu a b => exact Const.bind (getSuccessors_const (z := ⟨x.object, a⟩) (h' a b rfl)) (Repo.getSuccessors_read _ _ _ _) (fun _ _ => .lift _)

theorem buildGoalTree_const {t : ExprTree} (h : Steady I s H pid x) (h' : ∀ a b, .ttu a b ∈ leaves t → Steady I s H pid ⟨x.object, a⟩) :
    (buildGoalTree H pid (some x.object) x.relation t).Const I s := by
  induction t with
  | nil => exact .lift _
  | unset => exact .lift _
  | rule r =>
    unfold buildGoalTree
    exact Const.bind (evaluateRule_const h (fun a b he => h' a b (by simp [leaves, he]))) (evaluateRule_ops (P := fun o => o.isRead = true) (fun _ => rfl) _ _ _) (fun _ _ => .pure _)
  | op l o r ihl ihr =>
    unfold buildGoalTree
    refine Const.bind (ihl (fun a b h => h' a b (List.mem_append_left _ h))) (buildGoalTree_ops (P := fun o => o.isRead = true) (fun _ => rfl) _ _ _) (fun _ _ => ?_)
    refine Const.bind (ihr (fun a b h => h' a b (List.mem_append_right _ h))) (buildGoalTree_ops (P := fun o => o.isRead = true) (fun _ => rfl) _ _ _) (fun _ _ => ?_)
    cases o
    · exact .pure _
    · exact .pure _
    · exact .pure _
    · exact .lift _

theorem buildTree_const {env : Env} {p : Policy} (hu : NamesUnique p) (h : ∀ z, Consulted env.U p x z → Steady I s env.H p.id z) : (buildTree env p x.node).Const I s := by
  unfold buildTree USet.node
  refine Const.bind (.lift _) (AllOps.lift _) (fun o ho => ?_)
  cases ho
  cases hd : (newLut p).getRelation x.object.resource x.relation with
  | none => exact .lift _
  | some d =>
    refine Const.bind (.lift _) (AllOps.lift _) (fun e he => ?_)
    replace he : getExpressionTree env.U d = .ok e := he
    have hde : DefinedBy env.U p x e := ⟨d, ((C11_lookup_exact p hu _ _).1 d).1 hd, (getExpressionTree_ok_iff env.U d e).1 he⟩
    exact buildGoalTree_const (h _ (.inl rfl)) (fun a b hl => h _ (.inr ⟨e, a, b, hde, hl, rfl⟩))

section twin
variable {d : RelationNode → String → List Nat → Prog (GoalTree × List Nat)} {P : RelationNode → Prop}

mutual
theorem searchTree_const (hr : ∀ n r seen, (d n r seen).ReadOnly) (h : ∀ n r seen, P n → (d n r seen).Const I s) (t : GoalTree) (seen : List Nat)
    (ht : ∀ n ∈ t.tops, P n) : (searchTree d t seen).Const I s := by
  match t with
  | .or _ ps =>
    unfold searchTree
    exact Const.bind (searchOr_const hr h ps seen (by simpa [GoalTree.tops] using ht)) (searchOr_ops hr _ _) (fun _ _ => .pure _)
  | .and _ ps =>
    unfold searchTree
    exact Const.bind (searchAnd_const hr h ps seen (by simpa [GoalTree.tops] using ht)) (searchAnd_ops hr _ _) (fun _ _ => .pure _)
  | .diff _ l r =>
    have h1 : ∀ n ∈ l.tops, P n := fun n hn => ht n (by simp [GoalTree.tops, hn])
    have h2 : ∀ n ∈ r.tops, P n := fun n hn => ht n (by simp [GoalTree.tops, hn])
    unfold searchTree
    exact Const.bind (searchTree_const hr h l seen h1) (searchTree_ops hr _ _) (fun a _ =>
      Const.bind (searchTree_const hr h r _ h2) (searchTree_ops hr _ _) (fun _ _ => .pure _))
  | .leaf _ n r => unfold searchTree; exact h _ _ _ (ht n (by simp [GoalTree.tops]))
  | .path _ n r _ => unfold searchTree; exact h _ _ _ (ht n (by simp [GoalTree.tops]))

theorem searchOr_const (hr : ∀ n r seen, (d n r seen).ReadOnly) (h : ∀ n r seen, P n → (d n r seen).Const I s) (ts : List GoalTree) (seen : List Nat)
    (ht : ∀ n ∈ topsList ts, P n) : (searchOr d ts seen).Const I s := by
  match ts with
  | [] => unfold searchOr; exact .lift _
  | t :: ts =>
    have h1 : ∀ n ∈ t.tops, P n := fun n hn => ht n (by simp [topsList, hn])
    have h2 : ∀ n ∈ topsList ts, P n := fun n hn => ht n (by simp [topsList, hn])
    unfold searchOr
    refine Const.bind (searchTree_const hr h t seen h1) (searchTree_ops hr _ _) (fun a _ => ?_)
    obtain ⟨t', seen'⟩ := a
    dsimp only
    split
    · exact .pure _
    · exact Const.bind (searchOr_const hr h ts _ h2) (searchOr_ops hr _ _) (fun _ _ => .pure _)

theorem searchAnd_const (hr : ∀ n r seen, (d n r seen).ReadOnly) (h : ∀ n r seen, P n → (d n r seen).Const I s) (ts : List GoalTree) (seen : List Nat)
    (ht : ∀ n ∈ topsList ts, P n) : (searchAnd d ts seen).Const I s := by
  match ts with
  | [] => unfold searchAnd; exact .lift _
  | t :: ts =>
    have h1 : ∀ n ∈ t.tops, P n := fun n hn => ht n (by simp [topsList, hn])
    have h2 : ∀ n ∈ topsList ts, P n := fun n hn => ht n (by simp [topsList, hn])
    unfold searchAnd
    refine Const.bind (searchTree_const hr h t seen h1) (searchTree_ops hr _ _) (fun a _ => ?_)
    obtain ⟨t', seen'⟩ := a
    dsimp only
    split
    · exact .pure _
    · exact Const.bind (searchAnd_const hr h ts _ h2) (searchAnd_ops hr _ _) (fun _ _ => .pure _)
end
end twin

theorem searchPath_const {env : Env} {p : Policy} {goal : Option RelationNode} {P : RelationNode → Prop}
    (hb : ∀ n, P n → n.isTerminal = false → (buildTree env p n).Const I s ∧ ∀ t, bld env p s n = .ok t → ∀ m ∈ t.tops, Ok env.H P m) :
    ∀ fuel n r seen, Ok env.H P n → (searchPath env p goal fuel n r seen).Const I s := by
  intro fuel
  induction fuel with
  | zero => intro n r seen _; exact .lift _
  | succ k ih =>
    intro n r seen hn
    unfold searchPath
    refine Const.bind (.lift _) (AllOps.lift _) (fun id hid => ?_)
    replace hid : n.nodeId env.H = .ok id := hid
    split
    · exact .pure _
    · refine Const.bind (.lift _) (AllOps.lift _) (fun found _ => ?_)
      split
      · exact .pure _
      · next hterm =>
        obtain ⟨h1, h2⟩ := hb n (hn id hid) (by simp at hterm; exact hterm.2)
        refine Const.bind h1 (buildTree_ops (fun _ => rfl) n) (fun t ht => ?_)
        have hro : ∀ n r seen, (searchPath env p goal k n r seen).ReadOnly := searchPath_ops (fun _ => rfl) _ _
        exact Const.bind (searchTree_const hro ih t _ (h2 t ht)) (searchTree_ops hro _ _) (fun _ _ => .pure _)

/-- A search that reads stores showing alike all that it comes across. -/
theorem searchGoal_const {env : Env} {p : Policy} (hs : WF env s) (hid : p.id = pid) (hv : ValidPolicy env.U p)
    (h : ∀ y z, Reaches env.U p (Looked env.H (Present s pid)) x y.node → Consulted env.U p y z → Steady I s env.H pid z) (fuel : Nat) (goal : Option RelationNode) :
    (searchGoal env fuel p (some x.node) goal).Const I s := by
  have key : (do
      let origin ← Prog.lift (Res.deref (some x.node))
      let (tree, _) ← searchPath env p goal fuel origin "Request" []
      return tree : Prog GoalTree).Const I s := by
    refine Const.bind (.lift _) (AllOps.lift _) (fun o ho => ?_)
    cases ho
    refine Const.bind (searchPath_const (P := Reaches env.U p (Looked env.H (Present s pid)) x) (fun n hn ht => ?_) fuel _ _ _ (fun _ _ => .start))
      (searchPath_ops (fun _ => rfl) _ _ _ _ _) (fun _ _ => .pure _)
    obtain ⟨o, rel, rfl⟩ := isTerminal_false ht
    cases o with
    | none => exact ⟨.lift _, fun t h => by cases h⟩
    | some o =>
      refine ⟨buildTree_const (x := ⟨o, rel⟩) hv.1 (fun z hz => hid ▸ h ⟨o, rel⟩ z hn hz), fun t hbt m hm id hmid => ?_⟩
      obtain ⟨e, h1, h2⟩ := bld_ok (x := ⟨o, rel⟩) hv.1 hbt
      rw [hid] at h2
      rcases tops_looked hs h1 (fun _ h => h) h2 m hm with hw | ⟨c, rfl⟩
      · exact .step (y := ⟨o, rel⟩) hn hw
      · cases hmid
  unfold searchGoal
  split
  · exact .lift _
  · exact key

end consts

/-! ### What the others write -/

section
variable {env : Env} {pid : String} {K : Nat → Prop} {G : Policy → Prop}

/-- Writes of the policy keep `G`, and relationships under keys in `K` are left alone. -/
def asideOp (pid : String) (K : Nat → Prop) (G : Policy → Prop) : Op → Prop
  | .polSet rec => rec.policy.id = pid → G rec.policy
  | .polDel id => id ≠ pid
  | .edgeSet q k _ | .edgeDel q k => q = pid → ¬ K k.1
  | _ => True

/-- The policy is there, satisfies `G`, and the relationships under keys in `K` are those of `s`. -/
def AsideInv (s : Store) (pid : String) (K : Nat → Prop) (G : Policy → Prop) (z : Store) : Prop :=
  (∃ rec, kvGet z.policies pid = some rec ∧ G rec.policy) ∧ ∀ p : EdgeKey × IRel, K p.1.1 → (p ∈ z.edges pid ↔ p ∈ s.edges pid)

theorem asideOp_exec {s : Store} {o : Op} (ho : asideOp pid K G o) {z : Store} (h : AsideInv s pid K G z) : AsideInv s pid K G (o.exec z).2 := by
  cases o <;> try exact h
  case polSet rec =>
    refine ⟨?_, h.2⟩
    show ∃ rec', kvGet (kvPut strLt z.policies rec.policy.id rec) pid = some rec' ∧ G rec'.policy
    rw [kvGet_put]
    split
    · next he => exact ⟨rec, rfl, ho he.symm⟩
    · exact h.1
  case polDel id =>
    refine ⟨?_, h.2⟩
    show ∃ rec', kvGet (kvDel z.policies id) pid = some rec' ∧ G rec'.policy
    rw [kvGet_del, if_neg (Ne.symm ho)]
    exact h.1
  case edgeSet q k e =>
    refine ⟨h.1, fun p hp => ?_⟩
    show p ∈ (z.setEdges q _).edges pid ↔ _
    rw [setEdges_edges, ← h.2 p hp]
    split
    · next he =>
      have hk := ho he.symm
      subst he
      refine ⟨fun hm => ?_, fun hm => ?_⟩
      · rcases kvPut_mem hm with rfl | hm
        · exact absurd hp hk
        · exact hm
      · rcases kvPut_keeps (lt := edgeLt) (k := k) (v := e) hm with h | ⟨h1, _⟩
        · exact h
        · exact absurd (h1 ▸ hp) hk
    · exact Iff.rfl
  case edgeDel q k =>
    refine ⟨h.1, fun p hp => ?_⟩
    show p ∈ (z.setEdges q _).edges pid ↔ _
    rw [setEdges_edges, ← h.2 p hp]
    split
    · next he =>
      have hk := ho he.symm
      subst he
      refine ⟨kvDel_mem, fun hm => ?_⟩
      unfold kvDel
      refine List.mem_filter.2 ⟨hm, ?_⟩
      simp only [decide_eq_true_eq]
      exact fun he => hk (he ▸ hp)
    · exact Iff.rfl

theorem relKey_fst {H : String → Nat} {r : Relationship} {e : IRel} (h : toInternal r = .ok e) :
    ∃ o, r.object = some o ∧ (e.key H).1 = H (o.resource ++ o.id ++ r.relation) := by
  rw [← fromInternal_toInternal h]
  exact ⟨_, rfl, rfl⟩

/-- What requests about `x` read. -/
def readKeys (env : Env) (p : Policy) (R : Relationship → Prop) (x : USet) (k : Nat) : Prop :=
  ∃ y z, Reaches env.U p (Looked env.H R) x y.node ∧ Consulted env.U p y z ∧ k = srcKey env.H z.object z.relation

theorem prog_aside {p : Policy} {R : Relationship → Prop} {x : USet} {d : Call} (h : d.Aside env pid p R x) :
    (d.prog env).AllOps (asideOp pid (readKeys env p R x) (fun p' => AlikeFrom env.U env.H p p' R x)) := by
  obtain ⟨h1, h2, h3⟩ := h
  have key : ∀ {r : Relationship} {e : IRel}, toInternal r = .ok e → ¬ ReadFrom env.U env.H p R x r → ¬ readKeys env p R x (e.key env.H).1 := by
    rintro r e he hn ⟨y, z, hy, hz, hk⟩
    obtain ⟨o, ho, hk'⟩ := relKey_fst (H := env.H) he
    exact hn ⟨y, z, o, hy, hz, ho, hk'.symm.trans hk⟩
  refine prog_ops_exact env d (fun o ho => ?_) (fun rec hw hid => h3 _ hw hid) (fun id hd => ?_) (fun now q r a e hd he => ⟨fun hq => ?_, trivial⟩)
    (fun q r e hm he => ⟨fun hq => ?_, trivial⟩)
  · cases o <;> first | trivial | cases ho
  · subst hd
    rintro rfl
    exact h2 ⟨some x.object, x.relation, none⟩ rfl ⟨x, x, x.object, .start, .inl rfl, rfl, rfl⟩
  · subst hq
    exact key he (h1 _ _ _ hd)
  · subst hq
    exact key he (h2 _ hm)

/-- Stores that agree under a key show the same of it. -/
theorem steady_of {s : Store} {I : Store → Prop} (hs : WF env s) (hwf : ∀ z, I z → WF env z) (hI : ∀ z, I z → AsideInv s pid K G z) {z : USet}
    (hz : K (srcKey env.H z.object z.relation)) : Steady I s env.H pid z := by
  intro s' hs'
  show (List.filter _ (s'.edges pid)).map _ = (List.filter _ (s.edges pid)).map _
  congr 1
  refine sorted_ext (List.Pairwise.sublist List.filter_sublist ((hwf s' hs').edgeSorted pid)) (List.Pairwise.sublist List.filter_sublist (hs.edgeSorted pid)) (fun p => ?_)
  simp only [List.mem_filter, decide_eq_true_eq]
  exact and_congr_left (fun hk => (hI s' hs').2 p (hk ▸ hz))

end

/-- The policies agree on what is reached. -/
theorem reaches_alike {U : Unicode} {H : String → Nat} {p p' : Policy} {R : Relationship → Prop} {x : USet} (h : AlikeFrom U H p p' R x) {n : RelationNode}
    (hn : Reaches U p' (Looked H R) x n) : Reaches U p (Looked H R) x n := by
  induction hn with
  | start => exact .start
  | @step y n _ h2 ih =>
    refine .step ih ?_
    rcases h2 with ⟨a, b, c⟩ | ⟨a, b⟩ | ⟨a, b, c, d⟩
    · exact .this ((h _ _ ih).2 a) b c
    · exact .cu ((h _ _ ih).2 a) b
    · exact .arrow ((h _ _ ih).2 a) b c d

theorem consulted_alike {U : Unicode} {H : String → Nat} {p p' : Policy} {R : Relationship → Prop} {x y z : USet} (h : AlikeFrom U H p p' R x)
    (hy : Reaches U p (Looked H R) x y.node) (hz : Consulted U p' y z) : Consulted U p y z := by
  rcases hz with rfl | ⟨t, a, b, h1, h2, h3⟩
  · exact .inl rfl
  · exact .inr ⟨t, a, b, (h _ _ hy).2 h1, h2, h3⟩

end Zanzi
