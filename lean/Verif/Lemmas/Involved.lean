import Verif.Lemmas.Agree
import Verif.Lemmas.Concrete
import Verif.Spec.Involved

/-
Searches in which intersections and subtractions do not concern the goal.
-/

namespace Zanzi

open Spec

mutual
/-- Nodes of a tree outside of ANDs and of what differences subtract. -/
def GoalTree.opens : GoalTree → List RelationNode
  | .or _ ps => opensList ps
  | .and _ _ => []
  | .diff _ l _ => l.opens
  | .leaf _ n _ => [n]
  | .path _ n _ _ => [n]
def opensList : List GoalTree → List RelationNode
  | [] => []
  | t :: ts => t.opens ++ opensList ts
end

mutual
/-- No node in an AND or in what a difference subtracts has property `L`. -/
def GoalTree.Aside (L : RelationNode → Prop) : GoalTree → Prop
  | .or _ ps => AsideList L ps
  | .and _ ps => ∀ m ∈ topsList ps, ¬ L m
  | .diff _ l r => l.Aside L ∧ ∀ m ∈ r.tops, ¬ L m
  | .leaf _ _ _ => True
  | .path _ _ _ _ => True
def AsideList (L : RelationNode → Prop) : List GoalTree → Prop
  | [] => True
  | t :: ts => t.Aside L ∧ AsideList L ts
end

theorem asideList_iff {L : RelationNode → Prop} {ts : List GoalTree} : AsideList L ts ↔ ∀ t ∈ ts, t.Aside L := by
  induction ts with
  | nil => simp [AsideList]
  | cons t ts ih => simp [AsideList, ih]

theorem mem_opensList {ts : List GoalTree} {n : RelationNode} : n ∈ opensList ts ↔ ∃ t ∈ ts, n ∈ t.opens := by
  induction ts with
  | nil => simp [opensList]
  | cons t ts ih => simp [opensList, ih]

section
variable {H : String → Nat} {build : RelationNode → GoalTree → Prop} {goal : Option RelationNode} {P L : RelationNode → Prop}

def NewCold (H : String → Nat) (P L : RelationNode → Prop) (s s' : List Nat) : Prop :=
  ∀ id ∈ s', id ∉ s → ∃ n, n.nodeId H = .ok id ∧ P n ∧ ¬ L n

theorem NewCold.trans {s s' s'' : List Nat} (h1 : NewCold H P L s s') (h2 : NewCold H P L s' s'') : NewCold H P L s s'' := by
  intro id hid hn
  by_cases hm : id ∈ s'
  · exact h1 id hm hn
  · exact h2 id hid hm

theorem NewCold.refl (s : List Nat) : NewCold H P L s s := fun _ h hn => absurd h hn

def ColdAt (H : String → Nat) (P L : RelationNode → Prop) (s s' : List Nat) : Task → Out → Prop
  | .tree t, .tree t' => t.Formed → (∀ m ∈ t.tops, Ok H P m) → (∀ m ∈ t.tops, ¬ L m) → t'.result ≠ .success ∧ NewCold H P L s s'
  | .or ts, .list _ b => FormedList ts → (∀ m ∈ topsList ts, Ok H P m) → (∀ m ∈ topsList ts, ¬ L m) → b = false ∧ NewCold H P L s s'
  | .and ts, .list _ b => FormedList ts → (∀ t ∈ ts, t.isOp = true) → (∀ m ∈ topsList ts, Ok H P m) → (∀ m ∈ topsList ts, ¬ L m) →
      (ts ≠ [] → b = false) ∧ NewCold H P L s s'
  | .path n _, .tree t' => Ok H P n → ¬ L n → t'.result ≠ .success ∧ NewCold H P L s s'
  | _, _ => True

/-- Where the goal is not involved the search finds nothing and visits only nodes that do not involve it. -/
theorem Ev.cold (hg : ∀ n, P n → goalFound n goal = .ok true → L n)
    (hb : ∀ n t, P n → n.isTerminal = false → build n t → t.Formed ∧ (∀ m ∈ t.tops, Ok H P m) ∧ (¬ L n → ∀ m ∈ t.tops, ¬ L m))
    {k s o s'} (h : Ev H build goal k s o s') : ColdAt H P L s s' k o := by
  induction h with
  | or _ ih =>
    intro hf hq hl
    obtain ⟨a, b⟩ := ih hf hq hl
    exact ⟨by simp [result_or, a, verdict], b⟩
  | and _ ih =>
    intro hf hq hl
    obtain ⟨a, b⟩ := ih hf.1 hf.2.1 hq hl
    exact ⟨by rw [result_and, a (fun h => by simp [h, GoalTree.Formed] at hf)]; nofun, b⟩
  | diff h1 h2 ih1 ih2 =>
    intro hf hq hl
    obtain ⟨a1, b1⟩ := ih1 hf.1 (fun m hm => hq m (by simp [GoalTree.tops, hm])) (fun m hm => hl m (by simp [GoalTree.tops, hm]))
    obtain ⟨a2, b2⟩ := ih2 hf.2.1 (fun m hm => hq m (by simp [GoalTree.tops, hm])) (fun m hm => hl m (by simp [GoalTree.tops, hm]))
    exact ⟨by simp [result_diff, a1, verdict], b1.trans b2⟩
  | leaf _ ih => exact fun _ hq hl => ih (hq _ (by simp [GoalTree.tops])) (hl _ (by simp [GoalTree.tops]))
  | inner _ ih => exact fun _ hq hl => ih (hq _ (by simp [GoalTree.tops])) (hl _ (by simp [GoalTree.tops]))
  | orNil => exact fun _ _ _ => ⟨rfl, .refl _⟩
  | orStop _ hr ih =>
    intro hf hq hl
    exact absurd hr (ih hf.1 (fun m hm => hq m (by simp [topsList, hm])) (fun m hm => hl m (by simp [topsList, hm]))).1
  | orGo _ _ _ ih1 ih2 =>
    intro hf hq hl
    have h1 := ih1 hf.1 (fun m hm => hq m (by simp [topsList, hm])) (fun m hm => hl m (by simp [topsList, hm]))
    have h2 := ih2 hf.2 (fun m hm => hq m (by simp [topsList, hm])) (fun m hm => hl m (by simp [topsList, hm]))
    exact ⟨h2.1, h1.2.trans h2.2⟩
  | andNil => exact fun _ _ _ _ => ⟨fun h => absurd rfl h, .refl _⟩
  | andStop _ _ ih =>
    intro hf _ hq hl
    exact ⟨fun _ => rfl, (ih hf.1 (fun m hm => hq m (by simp [topsList, hm])) (fun m hm => hl m (by simp [topsList, hm]))).2⟩
  | andGo h1 hr _ ih1 _ =>
    intro hf ho hq hl
    have h := ih1 hf.1 (fun m hm => hq m (by simp [topsList, hm])) (fun m hm => hl m (by simp [topsList, hm]))
    exact absurd (result_success_of (h1.op_known (ho _ List.mem_cons_self)) hr) h.1
  | repeated => exact fun _ _ => ⟨nofun, .refl _⟩
  | @ended n reason id b s hid hnot hgf _ =>
    intro hq hl
    cases b with
    | true => exact absurd (hg _ (hq _ hid) hgf) hl
    | false =>
      refine ⟨nofun, fun id' hid' hn => ?_⟩
      rcases List.mem_cons.1 hid' with rfl | h
      · exact ⟨_, hid, hq _ hid, hl⟩
      · exact absurd h hn
  | @expanded n reason id b t t' s s' hid hnot _ hterm hbd h1 ih =>
    intro hq hl
    simp only [Bool.or_eq_false_iff] at hterm
    obtain ⟨p1, p2, p3⟩ := hb _ _ (hq _ hid) hterm.2 hbd
    obtain ⟨a, b⟩ := ih p1 p2 (p3 hl)
    refine ⟨a, fun id' hid' hn => ?_⟩
    by_cases he : id' = id
    · subst he
      exact ⟨_, hid, hq _ hid, hl⟩
    · exact b id' hid' (by simp only [List.mem_cons, not_or]; exact ⟨he, hn⟩)

/-- Node `n` was examined without success and what it leads to outside of ANDs and subtractions is visited if it involves the goal. -/
def WarmClosed (H : String → Nat) (build : RelationNode → GoalTree → Prop) (goal : Option RelationNode) (L : RelationNode → Prop) (s : List Nat)
    (n : RelationNode) : Prop :=
  goalFound n goal = .ok false ∧ (n.isTerminal = false → ∃ t, build n t ∧ ∀ m ∈ t.opens, L m → Visited H s m)

theorem WarmClosed.mono {s s' : List Nat} (h : s ⊆ s') {n : RelationNode} (hn : WarmClosed H build goal L s n) : WarmClosed H build goal L s' n :=
  ⟨hn.1, fun ht => by
    obtain ⟨t, h1, h2⟩ := hn.2 ht
    exact ⟨t, h1, fun m hm hl => (h2 m hm hl).mono h⟩⟩

def NewWarm (H : String → Nat) (build : RelationNode → GoalTree → Prop) (goal : Option RelationNode) (P L : RelationNode → Prop) (s s' : List Nat) : Prop :=
  ∀ id ∈ s', id ∉ s → ∃ n, n.nodeId H = .ok id ∧ P n ∧ (L n → WarmClosed H build goal L s' n)

theorem NewWarm.trans {s s' s'' : List Nat} (h : s' ⊆ s'') (h1 : NewWarm H build goal P L s s') (h2 : NewWarm H build goal P L s' s'') :
    NewWarm H build goal P L s s'' := by
  intro id hid hn
  by_cases hm : id ∈ s'
  · obtain ⟨n, a, b, c⟩ := h1 id hm hn
    exact ⟨n, a, b, fun hl => (c hl).mono h⟩
  · exact h2 id hid hm

theorem NewWarm.refl (s : List Nat) : NewWarm H build goal P L s s := fun _ h hn => absurd h hn

theorem NewCold.warm {s s' : List Nat} (h : NewCold H P L s s') : NewWarm H build goal P L s s' := by
  intro id hid hn
  obtain ⟨n, a, b, c⟩ := h id hid hn
  exact ⟨n, a, b, fun hl => absurd hl c⟩

def WarmAt (H : String → Nat) (build : RelationNode → GoalTree → Prop) (goal : Option RelationNode) (P L : RelationNode → Prop) (s s' : List Nat) :
    Task → Out → Prop
  | .tree t, .tree t' => t.Formed → (∀ m ∈ t.tops, Ok H P m) → t.Aside L → t'.result ≠ .success →
      (∀ m ∈ t.opens, L m → Visited H s' m) ∧ NewWarm H build goal P L s s'
  | .or ts, .list _ b => FormedList ts → (∀ m ∈ topsList ts, Ok H P m) → AsideList L ts → b = false →
      (∀ m ∈ opensList ts, L m → Visited H s' m) ∧ NewWarm H build goal P L s s'
  | .path n _, .tree t' => Ok H P n → t'.result ≠ .success → Visited H s' n ∧ NewWarm H build goal P L s s'
  | _, _ => True

/-- A search that does not succeed has visited everything that involves the goal. -/
theorem Ev.warm (hg : ∀ n, P n → goalFound n goal = .ok true → L n)
    (hb : ∀ n t, P n → n.isTerminal = false → build n t → t.Formed ∧ (∀ m ∈ t.tops, Ok H P m) ∧ (¬ L n → ∀ m ∈ t.tops, ¬ L m) ∧ t.Aside L)
    {k s o s'} (h : Ev H build goal k s o s') : WarmAt H build goal P L s s' k o := by
  have hb' := fun n t h1 h2 h3 => (⟨(hb n t h1 h2 h3).1, (hb n t h1 h2 h3).2.1, (hb n t h1 h2 h3).2.2.1⟩ :
    t.Formed ∧ (∀ m ∈ t.tops, Ok H P m) ∧ (¬ L n → ∀ m ∈ t.tops, ¬ L m))
  induction h with
  | or _ ih =>
    intro hf hq hl hr
    exact ih hf hq hl (by simpa [result_or] using hr)
  | and h _ =>
    intro hf hq hl hr
    exact ⟨by simp [GoalTree.opens], (h.cold hg hb' hf.1 hf.2.1 hq hl).2.warm⟩
  | diff h1 h2 ih1 _ =>
    intro hf hq hl hr
    rw [GoalTree.Aside] at hl
    obtain ⟨a2, b2⟩ := h2.cold hg hb' hf.2.1 (fun m hm => hq m (by simp [GoalTree.tops, hm])) hl.2
    have hm := h2.seen_mono
    obtain ⟨a1, b1⟩ := ih1 hf.1 (fun m hm => hq m (by simp [GoalTree.tops, hm])) hl.1 (fun hs => hr (by
      simp [result_diff, hs, result_failure_of (h2.op_known hf.2.2.2) a2, verdict]))
    exact ⟨fun m hmem hlm => (a1 m hmem hlm).mono hm, b1.trans hm b2.warm⟩
  | leaf _ ih =>
    intro _ hq _ hr
    obtain ⟨v, c⟩ := ih (hq _ (by simp [GoalTree.tops])) hr
    exact ⟨by simpa [GoalTree.opens] using fun _ => v, c⟩
  | inner _ ih =>
    intro _ hq _ hr
    obtain ⟨v, c⟩ := ih (hq _ (by simp [GoalTree.tops])) hr
    exact ⟨by simpa [GoalTree.opens] using fun _ => v, c⟩
  | orNil => exact fun _ _ _ _ => ⟨by simp [opensList], .refl _⟩
  | orStop => exact nofun
  | orGo h1 hr h2 ih1 ih2 =>
    intro hf hq hl hbf
    obtain ⟨v1, c1⟩ := ih1 hf.1 (fun m hm => hq m (by simp [topsList, hm])) hl.1 hr
    obtain ⟨v2, c2⟩ := ih2 hf.2 (fun m hm => hq m (by simp [topsList, hm])) hl.2 hbf
    have hm := h2.seen_mono
    refine ⟨fun m hmem hlm => ?_, c1.trans hm c2⟩
    rw [opensList, List.mem_append] at hmem
    rcases hmem with hmem | hmem
    · exact (v1 m hmem hlm).mono hm
    · exact v2 m hmem hlm
  | andNil => trivial
  | andStop => trivial
  | andGo => trivial
  | repeated hid hin => exact fun _ _ => ⟨⟨_, hin, hid⟩, .refl _⟩
  | @ended n reason id b s hid hnot hgf hterm =>
    intro hq hr
    refine ⟨⟨_, List.mem_cons_self, hid⟩, fun id' hid' hn => ?_⟩
    rcases List.mem_cons.1 hid' with rfl | h
    · cases b with
      | true => exact absurd rfl hr
      | false =>
        refine ⟨_, hid, hq _ hid, fun _ => ⟨hgf, fun ht => ?_⟩⟩
        rw [ht] at hterm
        cases hterm
    · exact absurd h hn
  | @expanded n reason id b t t' s s' hid hnot hgf hterm hbd h1 ih =>
    intro hq hr
    simp only [Bool.or_eq_false_iff] at hterm
    obtain ⟨p1, p2, _, p4⟩ := hb _ _ (hq _ hid) hterm.2 hbd
    obtain ⟨v, c⟩ := ih p1 p2 p4 hr
    have hm := h1.seen_mono
    refine ⟨⟨_, hm List.mem_cons_self, hid⟩, fun id' hid' hn => ?_⟩
    by_cases he : id' = id
    · subst he
      exact ⟨_, hid, hq _ hid, fun _ => ⟨hterm.1 ▸ hgf, fun _ => ⟨_, hbd, v⟩⟩⟩
    · exact c id' hid' (by simp only [List.mem_cons, not_or]; exact ⟨he, hn⟩)

end

/-! ### Rules and what they lead to -/

theorem leaves_guarded {r : Rule} {e : ExprTree} (h : r ∈ leaves e) : r ∈ guarded e ∨ r ∈ unguarded e := by
  induction e with
  | nil => simp [leaves] at h
  | unset => simp [leaves] at h
  | rule r' => exact .inr (by simpa [leaves, unguarded] using h)
  | op l o r' ihl ihr =>
    simp only [leaves, List.mem_append] at h
    cases o
    · simp only [guarded, unguarded, List.mem_append]
      rcases h with h | h
      · rcases ihl h with h | h <;> simp [h]
      · rcases ihr h with h | h <;> simp [h]
    · exact .inl (by simpa [guarded] using h)
    · simp only [guarded, unguarded, List.mem_append]
      rcases h with h | h
      · rcases ihl h with h | h <;> simp [h]
      · simp [h]
    · exact .inl (by simpa [guarded] using h)

theorem unguarded_leaves {r : Rule} {e : ExprTree} (h : r ∈ unguarded e) : r ∈ leaves e := by
  induction e with
  | nil => simp [unguarded] at h
  | unset => simp [unguarded] at h
  | rule r' => simpa [leaves, unguarded] using h
  | op l o r' ihl ihr =>
    simp only [leaves, List.mem_append]
    cases o
    · exact (List.mem_append.1 h).imp ihl ihr
    · cases h
    · exact .inl (ihl h)
    · cases h

section
variable {env : Env} {s : Store} {pid : String} {rec : PolicyRecord} {x y : USet} {u : Entity} {U : Unicode} {p : Policy} {R : Relationship → Prop}

theorem rewrites_leads {n : RelationNode} : Rewrites U p R y n ↔ ∃ e r, DefinedBy U p y e ∧ r ∈ leaves e ∧ RuleLeads R y r n := by
  constructor
  · intro h
    cases h with
    | this hd hl hr => exact ⟨_, _, hd, hl, .this hr⟩
    | cu hd hl => exact ⟨_, _, hd, hl, .cu⟩
    | arrow hd hl hr he => exact ⟨_, _, hd, hl, .arrow hr he⟩
  · rintro ⟨e, r, hd, hl, h⟩
    cases h with
    | this hr => exact .this hd hl hr
    | cu => exact .cu hd hl
    | arrow hr he => exact .arrow hd hl hr he

theorem ruleNodes_leads (hs : WF env s) {r : Rule} {ns : List RelationNode} (hy : KeyClear env.H (Present s pid) y)
    (hk : ∀ a b, r = .ttu a b → KeyClear env.H (Present s pid) ⟨y.object, a⟩) (h : ruleNodes env.H s pid y r = .ok ns) (n : RelationNode) :
    (n ∈ ns → RuleLeads (Present s pid) y r n ∨ ∃ c, n = .entitySet none c) ∧ (RuleLeads (Present s pid) y r n → n ∈ ns) := by
  have hm := mem_ruleNodes hs hy hk h n
  constructor
  · intro hn
    rcases hm.1 hn with ⟨rfl, sub, hp, rfl⟩ | ⟨c, rfl, rfl⟩ | ⟨a, b, sub, rfl, hp, rfl⟩
    · exact .inl (.this hp)
    · exact .inl .cu
    · cases he : pointsTo sub with
      | none => exact .inr ⟨b, rfl⟩
      | some e => exact .inl (.arrow hp he)
  · intro hl
    refine hm.2 ?_
    cases hl with
    | this hp => exact .inl ⟨rfl, _, hp, rfl⟩
    | cu => exact .inr (.inl ⟨_, rfl, rfl⟩)
    | arrow hp he => exact .inr (.inr ⟨_, _, _, rfl, hp, by rw [he]⟩)

theorem pBuild_ruleLeads (hs : WF env s) (hy : KeyClear env.H (Present s pid) y) : ∀ {e : ExprTree} {t : GoalTree},
    (∀ a b, .ttu a b ∈ leaves e → KeyClear env.H (Present s pid) ⟨y.object, a⟩) → pBuild env.H s pid y e = .ok t →
    (∀ n ∈ t.tops, (∃ r ∈ leaves e, RuleLeads (Present s pid) y r n) ∨ ∃ c, n = .entitySet none c) ∧
    (∀ r ∈ unguarded e, ∀ n, RuleLeads (Present s pid) y r n → n ∈ t.opens) ∧
    (∀ L : RelationNode → Prop, (∀ c, ¬ L (.entitySet none c)) → (∀ r ∈ guarded e, ∀ n, RuleLeads (Present s pid) y r n → ¬ L n) → t.Aside L) := by
  intro e
  induction e with
  | nil => intro t _ h; cases h
  | unset => intro t _ h; cases h
  | rule r =>
    intro t hk h
    unfold pBuild at h
    obtain ⟨ns, hns, h⟩ := Res.bind_eq_ok.1 h
    cases h
    have key := ruleNodes_leads hs hy (fun a b h => hk a b (by simp [leaves, h])) hns
    refine ⟨fun n hn => ?_, fun r' hr' n hl => ?_, fun L _ _ => ?_⟩
    · rw [GoalTree.tops, mem_topsList] at hn
      obtain ⟨t, ht, hn⟩ := hn
      obtain ⟨m, hm, rfl⟩ := List.mem_map.1 ht
      rw [GoalTree.tops, List.mem_singleton] at hn
      subst hn
      exact ((key n).1 hm).imp (fun h => ⟨r, by simp [leaves], h⟩) id
    · cases List.mem_singleton.1 hr'
      rw [GoalTree.opens, mem_opensList]
      exact ⟨_, List.mem_map.2 ⟨n, (key n).2 hl, rfl⟩, by simp [GoalTree.opens]⟩
    · rw [GoalTree.Aside, asideList_iff]
      intro t ht
      obtain ⟨m, _, rfl⟩ := List.mem_map.1 ht
      rw [GoalTree.Aside]
      trivial
  | op l o r ihl ihr =>
    intro t hk h
    unfold pBuild at h
    obtain ⟨a, ha, h⟩ := Res.bind_eq_ok.1 h
    obtain ⟨b, hb, h⟩ := Res.bind_eq_ok.1 h
    obtain ⟨l1, l2, l3⟩ := ihl (fun a b h => hk a b (by simp [leaves, h])) ha
    obtain ⟨r1, r2, r3⟩ := ihr (fun a b h => hk a b (by simp [leaves, h])) hb
    have away : ∀ {L : RelationNode → Prop}, (∀ c, ¬ L (.entitySet none c)) → ∀ {e' : ExprTree} {t' : GoalTree},
        (∀ n ∈ t'.tops, (∃ r ∈ leaves e', RuleLeads (Present s pid) y r n) ∨ ∃ c, n = .entitySet none c) →
        (∀ r ∈ leaves e', ∀ n, RuleLeads (Present s pid) y r n → ¬ L n) → ∀ m ∈ t'.tops, ¬ L m := by
      intro L hn e' t' h1 h2 m hm
      rcases h1 m hm with ⟨r, hr, hl⟩ | ⟨c, rfl⟩
      · exact h2 r hr m hl
      · exact hn c
    refine ⟨fun n hn => ?_, ?_⟩
    · have key : n ∈ a.tops ∨ n ∈ b.tops := by
        cases o <;> cases h <;> simpa [GoalTree.tops, topsList] using hn
      rcases key with hn | hn
      · exact (l1 n hn).imp (fun ⟨r, hr, h⟩ => ⟨r, by simp [leaves, hr], h⟩) id
      · exact (r1 n hn).imp (fun ⟨r, hr, h⟩ => ⟨r, by simp [leaves, hr], h⟩) id
    · cases o
      · cases h
        refine ⟨fun r' hr' n hl => ?_, fun L hn hg => ?_⟩
        · simp only [GoalTree.opens, opensList, List.append_nil, List.mem_append]
          exact (List.mem_append.1 hr').imp (fun h => l2 r' h n hl) (fun h => r2 r' h n hl)
        · simp only [GoalTree.Aside, AsideList]
          exact ⟨l3 L hn (fun r hr => hg r (by simp [guarded, hr])), r3 L hn (fun r hr => hg r (by simp [guarded, hr])), trivial⟩
      · cases h
        refine ⟨fun r' hr' => (by cases hr'), fun L hn hg => ?_⟩
        rw [GoalTree.Aside]
        intro m hm
        simp only [topsList, List.append_nil, List.mem_append] at hm
        rcases hm with hm | hm
        · exact away hn l1 (fun r hr => hg r (by simp [guarded, hr])) m hm
        · exact away hn r1 (fun r hr => hg r (by simp [guarded, hr])) m hm
      · cases h
        refine ⟨fun r' hr' n hl => l2 r' hr' n hl, fun L hn hg => ?_⟩
        rw [GoalTree.Aside]
        exact ⟨l3 L hn (fun r hr => hg r (by simp [guarded, hr])), away hn r1 (fun r hr => hg r (by simp [guarded, hr]))⟩
      · cases h

theorem involves_none (c : String) : ¬ Involves U p R u (.entitySet none c) := by
  rintro ((h | h) | ⟨z, m, h, _⟩) <;> cases h

theorem involves_step {n : RelationNode} (h : Rewrites U p R y n) (hn : Involves U p R u n) : Involves U p R u y.node := by
  rcases hn with hn | ⟨z, m, rfl, hr, hm⟩
  · exact .inr ⟨y, n, rfl, .step .start h, hn⟩
  · exact .inr ⟨y, m, rfl, reaches_trans (.step .start h) hr, hm⟩

theorem found_names {n : RelationNode} (hf : goalFound n (userGoal u) = .ok true) : Names u n := by
  have hn : NodeIn (fun _ => False) u n := (goalFound_user hf rfl).2 rfl
  cases n with
  | unset => exact hn.elim
  | entitySet o rel => cases o <;> exact hn.elim
  | wildcard r => cases hn; exact .inr rfl
  | entity o =>
    cases o with
    | none => exact hn.elim
    | some e => cases hn; exact .inl rfl

theorem names_found {n : RelationNode} (h : Names u n) : goalFound n (userGoal u) = .ok true := by
  rcases h with rfl | rfl <;> simp [goalFound, userGoal, Res.deref] <;> rfl

theorem involved_facts (hs : WF env s) (hp : policyAt s pid = some rec) (hk : KeysClear env.U env.H rec.policy (Present s pid) x)
    (hc : Unconcerned env.U rec.policy (Present s pid) x u) {n : RelationNode} {t : GoalTree} (hr : Reaches env.U rec.policy (Present s pid) x n)
    (hterm : n.isTerminal = false) (hb : Builds (bld env rec.policy s) n t) :
    t.Formed ∧ (∀ m ∈ t.tops, Ok env.H (Reaches env.U rec.policy (Present s pid) x) m) ∧
      (¬ Involves env.U rec.policy (Present s pid) u n → ∀ m ∈ t.tops, ¬ Involves env.U rec.policy (Present s pid) u m) ∧
      t.Aside (Involves env.U rec.policy (Present s pid) u) := by
  obtain ⟨y, e, rfl, h1, h2, k1, k2, hfm, htops⟩ := expand_facts hs hp hk hr hterm hb
  obtain ⟨b1, _, b3⟩ := pBuild_ruleLeads hs k1 k2 h2
  refine ⟨hfm, htops, fun hn m hm hi => ?_, b3 _ involves_none (fun r hrg n hl => hc y e r n hr h1 hrg hl)⟩
  rcases b1 m hm with ⟨r, hr', hl⟩ | ⟨c, rfl⟩
  · exact hn (involves_step (rewrites_leads.2 ⟨e, r, h1, hr', hl⟩) hi)
  · exact involves_none c hi

/-- What is visited, if closed under unguarded rules, includes a node naming the user. -/
theorem involved_closed (hs : WF env s) (hp : policyAt s pid = some rec) (hk : KeysClear env.U env.H rec.policy (Present s pid) x)
    (hc : Unconcerned env.U rec.policy (Present s pid) x u) {Q N : RelationNode → Prop}
    (closed : ∀ n, Reaches env.U rec.policy (Present s pid) x n → Involves env.U rec.policy (Present s pid) u n → Q n →
      ¬ N n ∧ (n.isTerminal = false → ∃ t, Builds (bld env rec.policy s) n t ∧ ∀ m ∈ t.opens, Involves env.U rec.policy (Present s pid) u m → Q m))
    (hx : Q x.node) (hi : Involves env.U rec.policy (Present s pid) u x.node) : ¬ ∀ {n}, Names u n → N n := by
  intro hN
  have all : ∀ n, Reaches env.U rec.policy (Present s pid) x n → Involves env.U rec.policy (Present s pid) u n → Q n := by
    intro n hr
    induction hr with
    | start => exact fun _ => hx
    | @step y n hr hw ih =>
      intro hn
      have hy := involves_step hw hn
      obtain ⟨_, hcl⟩ := closed _ hr hy (ih hy)
      obtain ⟨t', hb', hvis⟩ := hcl rfl
      obtain ⟨y', e, hy', h1, h2, k1, k2, hfm, htops⟩ := expand_facts hs hp hk hr rfl hb'
      obtain ⟨y1, y2⟩ := y
      obtain ⟨z1, z2⟩ := y'
      cases hy'
      obtain ⟨_, b2, _⟩ := pBuild_ruleLeads hs k1 k2 h2
      obtain ⟨e', r, hd, hrl, hl⟩ := rewrites_leads.1 hw
      obtain rfl := DefinedBy.unique (hs.policy_valid hp).1 h1 hd
      rcases leaves_guarded hrl with hg' | hg'
      · exact absurd hn (hc _ e r n hr h1 hg' hl)
      · exact hvis n (b2 r hg' n hl) hn
  rcases hi with hx | ⟨z, m, hz, hr, hm⟩
  · rcases hx with hx | hx <;> cases hx
  · obtain ⟨x1, x2⟩ := x
    obtain ⟨z1, z2⟩ := z
    cases hz
    exact (closed m hr (.inl hm) (all m hr (.inl hm))).1 (hN hm)

/-- A check nothing guarded concerns grants exactly what is reached. -/
theorem check_involved (hs : WF env s) (hp : policyAt s pid = some rec) (hk : KeysClear env.U env.H rec.policy (Present s pid) x)
    (hi : IdsClear env.U env.H rec.policy (Present s pid) x) (hc : Unconcerned env.U rec.policy (Present s pid) x u)
    {t : GoalTree} {seen : List Nat} (h : Ev env.H (Builds (bld env rec.policy s)) (userGoal u) (.path x.node "Request") [] (.tree t) seen) :
    t.result = .success ↔ Involves env.U rec.policy (Present s pid) u x.node := by
  have hg : ∀ n, Reaches env.U rec.policy (Present s pid) x n → goalFound n (userGoal u) = .ok true → Involves env.U rec.policy (Present s pid) u n :=
    fun n _ hf => .inl (found_names hf)
  have hb := fun n t (hr : Reaches env.U rec.policy (Present s pid) x n) ht hb => involved_facts (u := u) (t := t) hs hp hk hc hr ht hb
  constructor
  · intro hr
    refine Classical.byContradiction (fun hn => ?_)
    exact (h.cold hg (fun n t h1 h2 h3 => ⟨(hb n t h1 h2 h3).1, (hb n t h1 h2 h3).2.1, (hb n t h1 h2 h3).2.2.1⟩) (fun _ _ => .start) hn).1 hr
  · intro hx
    refine Classical.byContradiction (fun hne => ?_)
    obtain ⟨hv, hnew⟩ := h.warm hg hb (fun _ _ => .start) hne
    refine involved_closed hs hp hk hc (Q := fun n => Visited env.H seen n) (N := fun n => goalFound n (userGoal u) ≠ .ok false) (fun n hr hn hvis => ?_) hv hx
      (fun h => by rw [names_found h]; nofun)
    obtain ⟨id, hid, hnid⟩ := hvis
    obtain ⟨m, hm, hmr, hcl⟩ := hnew id hid (by simp)
    obtain rfl := hi _ _ _ hr hmr hnid hm
    exact ⟨fun h => h (hcl hn).1, (hcl hn).2⟩

/-! ### What the rules say -/

theorem ruleIn_leads {V : USet → Prop} {r : Rule} : RuleIn R u V y r ↔ ∃ n, RuleLeads R y r n ∧ NodeIn V u n := by
  cases r with
  | this =>
    constructor
    · rintro ⟨sub, hr, hi⟩
      exact ⟨_, .this hr, (nodeIn_subject V u sub).2 hi⟩
    · rintro ⟨n, hl, hn⟩
      cases hl with
      | this hr => exact ⟨_, hr, (nodeIn_subject V u _).1 hn⟩
  | cu t =>
    constructor
    · intro h; exact ⟨_, .cu, h⟩
    · rintro ⟨n, hl, hn⟩
      cases hl
      exact hn
  | ttu a b =>
    constructor
    · rintro ⟨sub, e, hr, he, hv⟩
      exact ⟨_, .arrow hr he, hv⟩
    · rintro ⟨n, hl, hn⟩
      cases hl with
      | arrow hr he => exact ⟨_, _, hr, he, hn⟩
  | unset =>
    constructor
    · intro h; exact h.elim
    · rintro ⟨n, hl, hn⟩
      cases hl

theorem exprIn_leaf {V : USet → Prop} {e : ExprTree} (h : ExprIn R u V y e) : ∃ r ∈ leaves e, RuleIn R u V y r := by
  induction e with
  | nil => exact h.elim
  | unset => exact h.elim
  | rule r => exact ⟨r, by simp [leaves], h⟩
  | op l o r ihl ihr =>
    have hl : ExprIn R u V y l → ∃ r' ∈ leaves (.op l o r), RuleIn R u V y r' := fun h => by
      obtain ⟨r', h1, h2⟩ := ihl h
      exact ⟨r', by simp [leaves, h1], h2⟩
    cases o
    · rcases h with h | h
      · exact hl h
      · obtain ⟨r', h1, h2⟩ := ihr h
        exact ⟨r', by simp [leaves, h1], h2⟩
    · exact hl h.1
    · exact hl h.1
    · exact h.elim

theorem nodeIn_involves {V : USet → Prop} (hV : ∀ z : USet, V z → Involves U p R u z.node) {n : RelationNode} (h : NodeIn V u n) :
    Involves U p R u n := by
  cases n with
  | unset => exact h.elim
  | entitySet o rel =>
    cases o with
    | none => exact h.elim
    | some o => exact hV ⟨o, rel⟩ h
  | wildcard r => cases h; exact .inl (.inr rfl)
  | entity o =>
    cases o with
    | none => exact h.elim
    | some e => cases h; exact .inl (.inl rfl)

theorem names_nodeIn {V : USet → Prop} {n : RelationNode} (h : Names u n) : NodeIn V u n := by
  rcases h with rfl | rfl <;> exact rfl

/-- Whatever is closed under the unguarded rules contains the usersets the user is reached from. -/
theorem involved_holds (hc : Unconcerned U p R x u) {V : USet → Prop}
    (hV : ∀ y e r, Reaches U p R x y.node → DefinedBy U p y e → r ∈ unguarded e → RuleIn R u V y r → V y)
    {w : USet} (hw : Reaches U p R x w.node) (h : Involves U p R u w.node) : V w := by
  have key : ∀ n, Reaches U p R w n → Involves U p R u n → NodeIn V u n → V w := by
    intro n hn
    induction hn with
    | start => intro _ h; exact h
    | @step y n hr hrw ih =>
      intro hi hn
      obtain ⟨e, r, hd, hl, hle⟩ := rewrites_leads.1 hrw
      have hyr := reaches_trans hw hr
      refine ih (involves_step hrw hi) (hV y e r hyr hd ?_ (ruleIn_leads.2 ⟨n, hle, hn⟩))
      exact (leaves_guarded hl).resolve_left (fun hg => hc y e r n hyr hd hg hle hi)
  rcases h with h | ⟨z, m, hz, hr, hm⟩
  · rcases h with h | h <;> cases h
  · obtain ⟨w1, w2⟩ := w
    obtain ⟨z1, z2⟩ := z
    cases hz
    exact key m hr (.inl hm) (names_nodeIn hm)

/-- An expression holds when an unguarded rule does and nothing subtracted does. -/
theorem unguarded_exprIn {V : USet → Prop} {e : ExprTree} {r : Rule} (hr : r ∈ unguarded e) (h : RuleIn R u V y r)
    (hn : ∀ r ∈ guarded e, ¬ RuleIn R u V y r) : ExprIn R u V y e := by
  induction e with
  | nil => cases hr
  | unset => cases hr
  | rule r' => cases List.mem_singleton.1 hr; exact h
  | op a o b iha ihb =>
    cases o
    · rcases List.mem_append.1 hr with hr | hr
      · exact .inl (iha hr (fun r h => hn r (by simp [guarded, h])))
      · exact .inr (ihb hr (fun r h => hn r (by simp [guarded, h])))
    · cases hr
    · refine ⟨iha hr (fun r h => hn r (by simp [guarded, h])), fun hb => ?_⟩
      obtain ⟨r', h1, h2⟩ := exprIn_leaf hb
      exact hn r' (by simp [guarded, h1]) h2
    · cases hr

theorem unguarded_diffFree {V : USet → Prop} {e : ExprTree} {r : Rule} (hr : r ∈ unguarded e) (h : RuleIn R u V y r) (hd : DiffFree e) :
    ExprIn R u V y e := by
  induction e with
  | nil => cases hr
  | unset => cases hr
  | rule r' => cases List.mem_singleton.1 hr; exact h
  | op a o b iha ihb =>
    cases o
    · exact (List.mem_append.1 hr).imp (fun h => iha h hd.1) (fun h => ihb h hd.2)
    · cases hr
    · exact hd.elim
    · cases hr

theorem involved_granted (hc : Unconcerned U p R x u) (hd : ExprsFrom U p R x DiffFree) :
    Involves U p R u x.node ↔ Granted U p R u x := by
  constructor
  · intro h V hV
    exact involved_holds hc (fun y e r hy hde hr hi => hV y ⟨e, hde, unguarded_diffFree hr hi (hd y e hy hde)⟩) .start h
  · intro h
    refine h (fun y => Involves U p R u y.node) ?_
    rintro y ⟨e, hde, he⟩
    obtain ⟨r, hr, hi⟩ := exprIn_leaf he
    obtain ⟨n, hl, hn⟩ := ruleIn_leads.1 hi
    exact involves_step (rewrites_leads.2 ⟨e, r, hde, hr, hl⟩) (nodeIn_involves (fun z hz => hz) hn)

theorem involved_solution (hc : Unconcerned U p R x u) {V : USet → Prop} (hV : Solution U p R u V) (hsup : Supported U p R u V) :
    Involves U p R u x.node ↔ V x := by
  refine ⟨fun h => involved_holds hc (fun y e r hy hde hr hi => (hV y).2 ⟨e, hde, unguarded_exprIn hr hi (fun r' hr' hi' => ?_)⟩) .start h, hsup x⟩
  obtain ⟨n, hl, hn⟩ := ruleIn_leads.1 hi'
  exact hc y e r' n hy hde hr' hl (nodeIn_involves hsup hn)

/-- Fewer relationships involve fewer. -/
theorem leads_mono {R' : Relationship → Prop} (hR : ∀ r, R r → R' r) {r : Rule} {n : RelationNode} (h : RuleLeads R y r n) : RuleLeads R' y r n := by
  cases h with
  | this h => exact .this (hR _ h)
  | cu => exact .cu
  | arrow h he => exact .arrow (hR _ h) he

/-! ### Concrete requests -/

theorem leads_ruleNodes (hs : WF env s) {r : Rule} {ns : List RelationNode} (h : ruleNodes env.H s pid y r = .ok ns) {n : RelationNode}
    (hl : RuleLeads (Present s pid) y r n) : n ∈ ns := by
  cases hl with
  | this hr => cases h; exact mem_succs_of_present hs hr
  | cu => cases h; simp
  | @arrow a c sub e hr hpt =>
    obtain ⟨n', hn', he⟩ := (mapSliceErr_mem (f := buildTtuNode c) h).2 _ (mem_succs_of_present (y := ⟨y.object, a⟩) hs hr)
    have := ttuNode_spec he
    rw [hpt] at this
    rw [← this]
    exact hn'

/-- The guarded rules of the usersets in `L` lead into `K`, which is closed and does not name the user. -/
def unconcernedB (env : Env) (pol : Policy) (s : Store) (pid : String) (u : Entity) (L K : List RelationNode) : Bool :=
  closedB env pol s L && closedB env pol s K && K.all (fun n => !decide (n = .entity (some u)) && !decide (n = .wildcard u.resource)) &&
  L.all (fun n => match n with
    | .entitySet (some o) rel => match defOf env.U pol ⟨o, rel⟩ with
      | none => true
      | some t => (guarded t).all (fun r => match ruleNodes env.H s pid ⟨o, rel⟩ r with
        | .ok ns => ns.all (fun n => decide (n ∈ K))
        | _ => false)
    | _ => true)

theorem unconcerned_of (hs : WF env s) (hp : policyAt s pid = some rec) {L K : List RelationNode} (hx : x.node ∈ L)
    (h : unconcernedB env rec.policy s pid u L K = true) : Unconcerned env.U rec.policy (Present s pid) x u := by
  simp only [unconcernedB, Bool.and_eq_true] at h
  obtain ⟨⟨⟨hL, hK⟩, hN⟩, hG⟩ := h
  have hK' : ∀ n ∈ K, ¬ Names u n := by
    intro n hn hu
    have := List.all_eq_true.1 hN n hn
    rcases hu with rfl | rfl <;> simp at this
  intro y t r n hy hd hr hl hi
  have := List.all_eq_true.1 hG _ (reaches_list hs hp hx hL hy)
  simp only [USet.node, (definedBy_iff (hs.policy_valid hp).1).1 hd] at this
  have := List.all_eq_true.1 this r hr
  split at this
  · next ns hns =>
    have hn : n ∈ K := by simpa using List.all_eq_true.1 this n (leads_ruleNodes (y := y) hs hns hl)
    rcases hi with hi | ⟨z, m, rfl, hm, hu⟩
    · exact hK' n hn hi
    · exact hK' m (reaches_list hs hp hn hK hm) hu
  · cases this

end

end Zanzi
