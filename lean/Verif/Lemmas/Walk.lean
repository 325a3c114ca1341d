import Verif.Lemmas.Explain
import Verif.Lemmas.Concrete

/-
What a search without goal visits (C47, C76).
-/

namespace Zanzi

open Spec

mutual
/-- Nodes a tree's search without goal visits directly: an AND stops after its first operand. -/
def GoalTree.leads : GoalTree → List RelationNode
  | .or _ ps => leadsList ps
  | .and _ ps => leadsHead ps
  | .diff _ l r => l.leads ++ r.leads
  | .leaf _ n _ => [n]
  | .path _ n _ _ => [n]
def leadsList : List GoalTree → List RelationNode
  | [] => []
  | t :: ts => t.leads ++ leadsList ts
def leadsHead : List GoalTree → List RelationNode
  | [] => []
  | t :: _ => t.leads
end

theorem mem_leadsList {ts : List GoalTree} {n : RelationNode} : n ∈ leadsList ts ↔ ∃ t ∈ ts, n ∈ t.leads := by
  induction ts with
  | nil => simp [leadsList]
  | cons t ts ih => simp [leadsList, ih]

section
variable {H : String → Nat} {build : RelationNode → GoalTree → Prop}

/-- Identifiers seen since `s` belong to nodes of `P` whose direct nodes are visited. -/
def NewWalked (H : String → Nat) (build : RelationNode → GoalTree → Prop) (P : RelationNode → Prop) (s s' : List Nat) : Prop :=
  ∀ id ∈ s', id ∉ s → ∃ n, n.nodeId H = .ok id ∧ P n ∧ (n.isTerminal = false → ∃ t, build n t ∧ ∀ m ∈ t.leads, Visited H s' m)

theorem NewWalked.refl {P : RelationNode → Prop} (s : List Nat) : NewWalked H build P s s := fun _ h hn => absurd h hn

theorem NewWalked.trans {P : RelationNode → Prop} {s s' s'' : List Nat} (h : s' ⊆ s'') (h1 : NewWalked H build P s s')
    (h2 : NewWalked H build P s' s'') : NewWalked H build P s s'' := by
  intro id hid hn
  by_cases hm : id ∈ s'
  · obtain ⟨n, a, b, c⟩ := h1 id hm hn
    refine ⟨n, a, b, fun ht => ?_⟩
    obtain ⟨t, d, e⟩ := c ht
    exact ⟨t, d, fun m hm => (e m hm).mono h⟩
  · exact h2 id hid hm

def WalkAt (H : String → Nat) (build : RelationNode → GoalTree → Prop) (P : RelationNode → Prop) (s s' : List Nat) : Task → Out → Prop
  | .tree t, .tree t' => t.Formed → settled t = [] → (∀ m ∈ t.leads, Ok H P m) →
      (t'.result ≠ .success ∧ (t.isOp = true → t'.result = .failure)) ∧ (∀ m ∈ t.leads, Visited H s' m) ∧ (∀ m ∈ settled t', P m) ∧ NewWalked H build P s s'
  | .or ts, .list ts' b => FormedList ts → settledList ts = [] → (∀ m ∈ leadsList ts, Ok H P m) →
      b = false ∧ (∀ m ∈ leadsList ts, Visited H s' m) ∧ (∀ m ∈ settledList ts', P m) ∧ NewWalked H build P s s'
  | .and ts, .list ts' b => FormedList ts → (∀ t ∈ ts, t.isOp = true) → ts ≠ [] → settledList ts = [] → (∀ m ∈ leadsHead ts, Ok H P m) →
      b = false ∧ (∀ m ∈ leadsHead ts, Visited H s' m) ∧ (∀ m ∈ settledList ts', P m) ∧ NewWalked H build P s s'
  | .path n _, .tree t' => Ok H P n → t'.result ≠ .success ∧ Visited H s' n ∧ (∀ m ∈ settled t', P m) ∧ NewWalked H build P s s'
  | _, _ => True

/-- A search without goal visits what its trees lead to, and nothing else. -/
theorem Ev.walk {P : RelationNode → Prop}
    (hb : ∀ n t, P n → n.isTerminal = false → build n t → t.Formed ∧ settled t = [] ∧ ∀ m ∈ t.leads, Ok H P m)
    {k s o s'} (h : Ev H build none k s o s') : WalkAt H build P s s' k o := by
  induction h with
  | or _ ih =>
    intro hf hs hl
    rw [settled] at hs
    obtain ⟨rfl, h2⟩ := ih hf hs hl
    exact ⟨⟨nofun, fun _ => rfl⟩, h2.1, by simpa [settled] using h2.2.1, h2.2.2⟩
  | and _ ih =>
    intro hf hs hl
    rw [settled] at hs
    rw [GoalTree.Formed] at hf
    obtain ⟨rfl, h2⟩ := ih hf.1 hf.2.1 (by rintro rfl; exact absurd hf.2.2 (by simp)) hs hl
    exact ⟨⟨nofun, fun _ => rfl⟩, h2.1, by simpa [settled] using h2.2.1, h2.2.2⟩
  | diff h1 h2 ih1 ih2 =>
    intro hf hs hl
    rw [settled, List.append_eq_nil_iff] at hs
    rw [GoalTree.Formed] at hf
    obtain ⟨r1, v1, t1, c1⟩ := ih1 hf.1 hs.1 (fun m hm => hl m (by simp [GoalTree.leads, hm]))
    obtain ⟨r2, v2, t2, c2⟩ := ih2 hf.2.1 hs.2 (fun m hm => hl m (by simp [GoalTree.leads, hm]))
    have hm := h2.seen_mono
    refine ⟨?_, fun m hmem => ?_, fun m hmem => ?_, c1.trans hm c2⟩
    · rw [decide_eq_false r1.1]
      exact ⟨nofun, fun _ => rfl⟩
    · rw [GoalTree.leads, List.mem_append] at hmem
      rcases hmem with hmem | hmem
      · exact (v1 m hmem).mono hm
      · exact v2 m hmem
    · rw [settled, List.mem_append] at hmem
      exact hmem.elim (t1 m) (t2 m)
  | leaf _ ih =>
    intro _ _ hl
    obtain ⟨r, v, t, c⟩ := ih (hl _ (by simp [GoalTree.leads]))
    exact ⟨⟨r, nofun⟩, by simpa [GoalTree.leads] using v, t, c⟩
  | inner _ ih =>
    intro _ _ hl
    obtain ⟨r, v, t, c⟩ := ih (hl _ (by simp [GoalTree.leads]))
    exact ⟨⟨r, nofun⟩, by simpa [GoalTree.leads] using v, t, c⟩
  | orNil => exact fun _ _ _ => ⟨rfl, by simp [leadsList], by simp [settledList], .refl _⟩
  | orStop _ hr ih =>
    intro hf hs hl
    simp only [settledList, List.append_eq_nil_iff] at hs
    exact absurd hr (ih hf.1 hs.1 (fun m hm => hl m (by simp [leadsList, hm]))).1.1
  | orGo h1 hr h2 ih1 ih2 =>
    intro hf hs hl
    simp only [settledList, List.append_eq_nil_iff] at hs
    obtain ⟨r1, v1, t1, c1⟩ := ih1 hf.1 hs.1 (fun m hm => hl m (by simp [leadsList, hm]))
    obtain ⟨r2, v2, t2, c2⟩ := ih2 hf.2 hs.2 (fun m hm => hl m (by simp [leadsList, hm]))
    have hm := h2.seen_mono
    refine ⟨r2, fun m hmem => ?_, fun m hmem => ?_, c1.trans hm c2⟩
    · rw [leadsList, List.mem_append] at hmem
      rcases hmem with hmem | hmem
      · exact (v1 m hmem).mono hm
      · exact v2 m hmem
    · rw [settledList, List.mem_append] at hmem
      exact hmem.elim (t1 m) (t2 m)
  | andNil => exact fun _ _ h => absurd rfl h
  | andStop _ hr ih =>
    intro hf hop _ hs hl
    simp only [settledList, List.append_eq_nil_iff] at hs
    obtain ⟨r1, v1, t1, c1⟩ := ih hf.1 hs.1 (fun m hm => hl m (by simp [leadsHead, hm]))
    refine ⟨rfl, by simpa [leadsHead] using v1, fun m hmem => ?_, c1⟩
    rw [settledList, hs.2, List.append_nil] at hmem
    exact t1 m hmem
  | andGo h1 hr h2 ih1 ih2 =>
    intro hf hop _ hs hl
    simp only [settledList, List.append_eq_nil_iff] at hs
    exact absurd ((ih1 hf.1 hs.1 (fun m hm => hl m (by simp [leadsHead, hm]))).1.2 (hop _ List.mem_cons_self)) hr
  | repeated hid hin => exact fun _ => ⟨nofun, ⟨_, hin, hid⟩, by simp [settled], .refl _⟩
  | @ended n reason id b s hid hnot hg hterm =>
    intro hq
    cases hg
    refine ⟨nofun, ⟨_, List.mem_cons_self, hid⟩, fun m hm => ?_, fun id' hid' hn => ?_⟩
    · have : m = n := by simpa [settled, verdict] using hm
      exact this ▸ hq _ hid
    · rcases List.mem_cons.1 hid' with rfl | h
      · refine ⟨_, hid, hq _ hid, fun ht => ?_⟩
        rw [ht] at hterm
        cases hterm
      · exact absurd h hn
  | @expanded n reason id b t t' s s' hid hnot hg hterm hbd h1 ih =>
    intro hq
    simp only [Bool.or_eq_false_iff] at hterm
    obtain ⟨p1, p2, p3⟩ := hb _ _ (hq _ hid) hterm.2 hbd
    obtain ⟨r, v, t, c⟩ := ih p1 p2 p3
    have hm := h1.seen_mono
    refine ⟨r.1, ⟨_, hm List.mem_cons_self, hid⟩, fun m hmem => ?_, fun id' hid' hn => ?_⟩
    · rw [settled, List.mem_cons] at hmem
      rcases hmem with rfl | hmem
      · exact hq _ hid
      · exact t m hmem
    · by_cases he : id' = id
      · subst he
        exact ⟨_, hid, hq _ hid, fun _ => ⟨_, hbd, v⟩⟩
      · exact c id' hid' (by simp only [List.mem_cons, not_or]; exact ⟨he, hn⟩)

end

section
variable {env : Env} {s : Store} {pid : String} {rec : PolicyRecord} {x : USet} {u : Entity}

/-- The nodes a built tree leads to are those of the first rules, or a node without object. -/
theorem pBuild_leads (hs : WF env s) (hx : KeyClear env.H (Present s pid) x) : ∀ {e : ExprTree} {t : GoalTree},
    (∀ a b, .ttu a b ∈ leaves e → KeyClear env.H (Present s pid) ⟨x.object, a⟩) → pBuild env.H s pid x e = .ok t →
    (∀ n ∈ t.leads, (∃ r ∈ firstLeaves e, RuleNode (Present s pid) x n r) ∨ ∃ c, n = .entitySet none c) ∧
    (∀ r ∈ firstLeaves e, ∀ n, RuleNode (Present s pid) x n r → n ∈ t.leads) := by
  intro e
  induction e with
  | nil => intro t _ h; cases h
  | unset => intro t _ h; cases h
  | rule r =>
    intro t hk h
    unfold pBuild at h
    obtain ⟨ns, hns, h⟩ := Res.bind_eq_ok.1 h
    cases h
    have key : ∀ n, n ∈ leadsList (ns.map (fun n => GoalTree.leaf .unknown n (reasonBuilder r))) ↔ n ∈ ns := by
      intro n
      rw [mem_leadsList]
      constructor
      · rintro ⟨t, ht, hn⟩
        obtain ⟨m, hm, rfl⟩ := List.mem_map.1 ht
        rw [GoalTree.leads, List.mem_singleton] at hn
        exact hn ▸ hm
      · exact fun hn => ⟨_, List.mem_map.2 ⟨n, hn, rfl⟩, by simp [GoalTree.leads]⟩
    have hm := mem_ruleNodes hs hx (fun a b h => hk a b (by simp [leaves, h])) hns
    constructor
    · intro n hn
      rw [GoalTree.leads, key] at hn
      rcases (hm n).1 hn with ⟨rfl, sub, hp, rfl⟩ | ⟨c, rfl, rfl⟩ | ⟨a, b, sub, rfl, hp, rfl⟩
      · exact .inl ⟨.this, by simp [firstLeaves], sub, hp, rfl⟩
      · exact .inl ⟨.cu c, by simp [firstLeaves], rfl⟩
      · cases he : pointsTo sub with
        | none => exact .inr ⟨b, rfl⟩
        | some e => exact .inl ⟨.ttu a b, by simp [firstLeaves], sub, e, hp, he, rfl⟩
    · intro r' hr n hn
      rw [firstLeaves, List.mem_singleton] at hr
      subst hr
      rw [GoalTree.leads, key, hm]
      cases r' with
      | unset => exact hn.elim
      | this => obtain ⟨sub, h1, h2⟩ := hn; exact .inl ⟨rfl, sub, h1, h2⟩
      | cu t => exact .inr (.inl ⟨t, rfl, hn⟩)
      | ttu a b =>
        obtain ⟨sub, e, h1, h2, h3⟩ := hn
        exact .inr (.inr ⟨a, b, sub, rfl, h1, by rw [h2]; exact h3⟩)
  | op l o r ihl ihr =>
    intro t hk h
    unfold pBuild at h
    obtain ⟨a, ha, h⟩ := Res.bind_eq_ok.1 h
    obtain ⟨b, hb, h⟩ := Res.bind_eq_ok.1 h
    obtain ⟨l1, l2⟩ := ihl (fun a b h => hk a b (by simp [leaves, h])) ha
    obtain ⟨r1, r2⟩ := ihr (fun a b h => hk a b (by simp [leaves, h])) hb
    cases o
    · cases h
      simp only [GoalTree.leads, leadsList, List.append_nil, firstLeaves, List.mem_append]
      refine ⟨fun n hn => ?_, fun q hq n hn => hq.imp (fun h => l2 q h n hn) (fun h => r2 q h n hn)⟩
      rcases hn with hn | hn
      · exact (l1 n hn).imp (fun ⟨q, h1, h2⟩ => ⟨q, .inl h1, h2⟩) id
      · exact (r1 n hn).imp (fun ⟨q, h1, h2⟩ => ⟨q, .inr h1, h2⟩) id
    · cases h
      simp only [GoalTree.leads, leadsHead, firstLeaves]
      exact ⟨l1, l2⟩
    · cases h
      simp only [GoalTree.leads, firstLeaves, List.mem_append]
      refine ⟨fun n hn => ?_, fun q hq n hn => hq.imp (fun h => l2 q h n hn) (fun h => r2 q h n hn)⟩
      rcases hn with hn | hn
      · exact (l1 n hn).imp (fun ⟨q, h1, h2⟩ => ⟨q, .inl h1, h2⟩) id
      · exact (r1 n hn).imp (fun ⟨q, h1, h2⟩ => ⟨q, .inr h1, h2⟩) id
    · cases h

theorem firstLeaves_leaves {r : Rule} {e : ExprTree} (h : r ∈ firstLeaves e) : r ∈ leaves e := by
  induction e with
  | nil => cases h
  | unset => cases h
  | rule r' => simpa [firstLeaves, leaves] using h
  | op a o b iha ihb =>
    cases o
    all_goals
      simp only [firstLeaves, List.mem_append] at h
      simp only [leaves, List.mem_append]
    · exact h.imp iha ihb
    · exact .inl (iha h)
    · exact h.imp iha ihb
    · exact h.imp iha ihb

theorem ruleNode_rewrites {U : Unicode} {p : Policy} {R : Relationship → Prop} {y : USet} {t : ExprTree} {r : Rule} {n : RelationNode}
    (hd : DefinedBy U p y t) (hr : r ∈ leaves t) (h : RuleNode R y n r) : Rewrites U p R y n := by
  cases r with
  | unset => exact h.elim
  | this => obtain ⟨sub, h1, rfl⟩ := h; exact .this hd hr h1
  | cu c => cases h; exact .cu hd hr
  | ttu a b => obtain ⟨sub, e, h1, h2, rfl⟩ := h; exact .arrow hd hr h1 h2

theorem shown_reaches {U : Unicode} {p : Policy} {R : Relationship → Prop} {n : RelationNode} (h : Shown U p R x n) : Reaches U p R x n := by
  induction h with
  | start => exact .start
  | step _ hd hr hn ih => exact .step ih (ruleNode_rewrites hd (firstLeaves_leaves hr) hn)

theorem shown_trans {U : Unicode} {p : Policy} {R : Relationship → Prop} {x y : USet} (hy : Shown U p R x y.node) {n : RelationNode}
    (h : Shown U p R y n) : Shown U p R x n := by
  induction h with
  | start => exact hy
  | step _ hd hr hn ih => exact .step ih hd hr hn

/-- The nodes settled by a search without goal. -/
theorem walk_settled (hs : WF env s) (hp : policyAt s pid = some rec) (hk : KeysClear env.U env.H rec.policy (Present s pid) x)
    (hi : IdsClear env.U env.H rec.policy (Present s pid) x) {reason : String} {t : GoalTree} {seen : List Nat}
    (h : Ev env.H (Builds (bld env rec.policy s)) none (.path x.node reason) [] (.tree t) seen) (n : RelationNode) :
    n ∈ settled t ↔ Shown env.U rec.policy (Present s pid) x n := by
  have hw := h.walk (P := Shown env.U rec.policy (Present s pid) x) (fun n t hr hterm hb => by
    obtain ⟨y, e, rfl, h1, h2, k1, k2, hfm, _⟩ := expand_facts hs hp hk (shown_reaches hr) hterm hb
    refine ⟨hfm, (pBuild_fresh h2).settled, fun m hm id hid => ?_⟩
    rcases (pBuild_leads hs k1 k2 h2).1 m hm with ⟨r, hr', hn⟩ | ⟨c, rfl⟩
    · exact .step hr h1 hr' hn
    · cases hid)
  obtain ⟨_, hv, hset, hnew⟩ := hw (fun _ _ => .start)
  refine ⟨hset n, fun hn => ?_⟩
  have hvis : ∀ n, Shown env.U rec.policy (Present s pid) x n → Visited env.H seen n := by
    intro n hn
    induction hn with
    | start => exact hv
    | @step y t r n hy hd hr hn ih =>
      obtain ⟨id, hid, hyid⟩ := ih
      obtain ⟨m, hm, hmr, hcl⟩ := hnew id hid (by simp)
      obtain rfl := hi _ _ _ (shown_reaches hy) (shown_reaches hmr) hyid hm
      obtain ⟨t', hb, htv⟩ := hcl rfl
      obtain ⟨y', e, hy', h1, h2, k1, k2, _⟩ := expand_facts hs hp hk (shown_reaches hy) rfl hb
      obtain ⟨y1, y2⟩ := y
      obtain ⟨z1, z2⟩ := y'
      cases hy'
      obtain rfl := DefinedBy.unique (hs.policy_valid hp).1 hd h1
      exact htv n ((pBuild_leads hs k1 k2 h2).2 r hr n hn)
  obtain ⟨id, hid, hnid⟩ := hvis n hn
  rcases h.seen_settled id hid with h3 | ⟨m, hm, hmid⟩
  · cases h3
  · rw [hi n m id (shown_reaches hn) (shown_reaches (hset m hm)) hnid hmid]
    exact hm

end

end Zanzi
