import Verif.Lemmas.GraphSem

/-
What completed searches mean: soundness, completeness, exactness.
-/

namespace Zanzi

open Spec

@[simp] theorem verdict_success {b : Bool} : verdict b = .success ↔ b = true := by cases b <;> simp [verdict]
@[simp] theorem verdict_failure {b : Bool} : verdict b = .failure ↔ b = false := by cases b <;> simp [verdict]
theorem verdict_known (b : Bool) : verdict b ≠ .unknown := by cases b <;> simp [verdict]

theorem result_success_of {r : SearchResult} (h1 : r ≠ .unknown) (h2 : r ≠ .failure) : r = .success := by
  cases r
  · exact absurd rfl h1
  · rfl
  · exact absurd rfl h2

theorem result_failure_of {r : SearchResult} (h1 : r ≠ .unknown) (h2 : r ≠ .success) : r = .failure := by
  cases r
  · exact absurd rfl h1
  · exact absurd rfl h2
  · rfl

theorem result_or (r ps) : (GoalTree.or r ps).result = r := rfl
theorem result_and (r ps) : (GoalTree.and r ps).result = r := rfl
theorem result_diff (r a b) : (GoalTree.diff r a b).result = r := rfl
theorem result_leaf (r n e) : (GoalTree.leaf r n e).result = r := rfl
theorem result_path (r n e c) : (GoalTree.path r n e c).result = r := rfl

section
variable {H : String → Nat} {build : RelationNode → GoalTree → Prop} {goal : Option RelationNode}

/-- The node satisfies `P` if it can be visited. -/
def Ok (H : String → Nat) (P : RelationNode → Prop) (n : RelationNode) : Prop := ∀ id, n.nodeId H = .ok id → P n

/-- Searching an operator node gives a definite result. -/
theorem Ev.op_known {k s o s'} (h : Ev H build goal k s o s') :
    match k, o with
    | .tree t, .tree t' => t.isOp = true → t'.result ≠ .unknown
    | _, _ => True := by
  cases h with
  | or => exact fun _ => verdict_known _
  | and => exact fun _ => verdict_known _
  | diff => exact fun _ => verdict_known _
  | leaf => exact nofun
  | inner => exact nofun
  | _ => trivial

/-! ### Soundness -/

def SoundAt (H : String → Nat) (N P : RelationNode → Prop) : Task → Out → Prop
  | .tree t, .tree t' => t.Formed → (∀ m ∈ t.tops, Ok H P m) → t'.result = .success → t.SemUp N
  | .or ts, .list _ b => FormedList ts → (∀ m ∈ topsList ts, Ok H P m) → b = true → SemUpAny N ts
  | .and ts, .list _ b => FormedList ts → (∀ t ∈ ts, t.isOp = true) → (∀ m ∈ topsList ts, Ok H P m) → b = true → SemUpAll N ts
  | .path n _, .tree t' => Ok H P n → t'.result = .success → N n
  | _, _ => True

theorem Ev.sound {N P : RelationNode → Prop} (hf : ∀ n, P n → goalFound n goal = .ok true → N n)
    (hb : ∀ n t, P n → n.isTerminal = false → build n t → t.Formed ∧ (∀ m ∈ t.tops, Ok H P m) ∧ (t.SemUp N → N n))
    {k s o s'} (h : Ev H build goal k s o s') : SoundAt H N P k o := by
  induction h with
  | or _ ih =>
    intro hfm hq hr
    simp only [result_or, result_and, result_diff, result_leaf, verdict_success] at hr
    rw [GoalTree.SemUp]
    exact ih hfm hq hr
  | and _ ih =>
    intro hfm hq hr
    simp only [result_or, result_and, result_diff, result_leaf, verdict_success] at hr
    rw [GoalTree.SemUp]
    exact ih hfm.1 hfm.2.1 hq hr
  | diff _ _ ih _ =>
    intro hfm hq hr
    simp only [result_or, result_and, result_diff, result_leaf, verdict_success, Bool.and_eq_true, decide_eq_true_eq] at hr
    rw [GoalTree.SemUp]
    exact ih hfm.1 (fun m hm => hq m (by simp [GoalTree.tops, hm])) hr.1
  | leaf _ ih => exact fun _ hq hr => ih (hq _ (by simp [GoalTree.tops])) hr
  | inner _ ih => exact fun _ hq hr => ih (hq _ (by simp [GoalTree.tops])) hr
  | orNil => exact nofun
  | orStop _ hr ih => exact fun hfm hq _ => .inl (ih hfm.1 (fun m hm => hq m (by simp [topsList, hm])) hr)
  | orGo _ _ _ _ ih => exact fun hfm hq hb => .inr (ih hfm.2 (fun m hm => hq m (by simp [topsList, hm])) hb)
  | andNil => exact fun _ _ _ _ => trivial
  | andStop => exact nofun
  | andGo h1 hr _ ih1 ih2 =>
    intro hfm ho hq hb
    refine ⟨ih1 hfm.1 (fun m hm => hq m (by simp [topsList, hm])) (result_success_of (h1.op_known (ho _ List.mem_cons_self)) hr), ?_⟩
    exact ih2 hfm.2 (fun t ht => ho t (List.mem_cons_of_mem _ ht)) (fun m hm => hq m (by simp [topsList, hm])) hb
  | repeated => exact nofun
  | ended hid _ hg _ =>
    intro hq hr
    simp only [result_or, result_and, result_diff, result_leaf, verdict_success] at hr
    exact hf _ (hq _ hid) (hr ▸ hg)
  | expanded hid _ _ hterm hbd _ ih =>
    intro hq hr
    simp only [Bool.or_eq_false_iff] at hterm
    obtain ⟨h1, h2, h3⟩ := hb _ _ (hq _ hid) hterm.2 hbd
    exact h3 (ih h1 h2 hr)

/-! ### Exactness when nothing was cut off -/

def ExactAt (H : String → Nat) (N P : RelationNode → Prop) : Task → Out → Prop
  | .tree t, .tree t' => (∀ m ∈ t.tops, Ok H P m) → Clean t' → t'.result ≠ .unknown ∧ (t'.result = .success ↔ t.Sem N)
  | .or ts, .list ts' b => (∀ m ∈ topsList ts, Ok H P m) → CleanOr ts' → (b = true ↔ SemAny N ts)
  | .and ts, .list ts' b => (∀ m ∈ topsList ts, Ok H P m) → CleanAnd ts' → (b = true ↔ SemAll N ts)
  | .path n _, .tree t' => Ok H P n → Clean t' → t'.result ≠ .unknown ∧ (t'.result = .success ↔ N n)
  | _, _ => True

theorem Ev.exact {N P : RelationNode → Prop}
    (hf : ∀ n b, P n → goalFound n goal = .ok b → (b || n.isTerminal) = true → (N n ↔ b = true))
    (hb : ∀ n t, P n → n.isTerminal = false → build n t → (∀ m ∈ t.tops, Ok H P m) ∧ (t.Sem N ↔ N n))
    {k s o s'} (h : Ev H build goal k s o s') : ExactAt H N P k o := by
  induction h with
  | or _ ih =>
    intro hq hc
    rw [GoalTree.Sem]
    rw [Clean] at hc
    exact ⟨verdict_known _, by simpa [result_or, result_and, result_diff, result_leaf] using ih hq hc⟩
  | and _ ih =>
    intro hq hc
    rw [GoalTree.Sem]
    rw [Clean] at hc
    exact ⟨verdict_known _, by simpa [result_or, result_and, result_diff, result_leaf] using ih hq hc⟩
  | diff _ _ ih1 ih2 =>
    intro hq hc
    rw [GoalTree.Sem]
    rw [Clean] at hc
    obtain ⟨k1, e1⟩ := ih1 (fun m hm => hq m (by simp [GoalTree.tops, hm])) hc.1
    obtain ⟨k2, e2⟩ := ih2 (fun m hm => hq m (by simp [GoalTree.tops, hm])) hc.2
    refine ⟨verdict_known _, ?_⟩
    simp only [result_or, result_and, result_diff, result_leaf, verdict_success, Bool.and_eq_true, decide_eq_true_eq]
    rw [e1, ← e2]
    refine and_congr_right (fun _ => ⟨fun h h' => ?_, fun h => result_failure_of k2 h⟩)
    rw [h] at h'
    cases h'
  | leaf _ ih => exact fun hq hc => ih (hq _ (by simp [GoalTree.tops])) hc
  | inner _ ih => exact fun hq hc => ih (hq _ (by simp [GoalTree.tops])) hc
  | orNil => intro _ _; simp [SemAny]
  | orStop _ hr ih =>
    intro hq hc
    rw [CleanOr] at hc
    have := (ih (fun m hm => hq m (by simp [topsList, hm])) hc.1).2.1 hr
    simp [SemAny, this]
  | orGo _ hr _ ih1 ih2 =>
    intro hq hc
    rw [CleanOr] at hc
    have h1 := (ih1 (fun m hm => hq m (by simp [topsList, hm])) hc.1).2
    have h2 := ih2 (fun m hm => hq m (by simp [topsList, hm])) (hc.2.resolve_left hr)
    rw [SemAny, h2, ← h1]
    simp [hr]
  | andNil => intro _ _; simp [SemAll]
  | andStop _ hr ih =>
    intro hq hc
    rw [CleanAnd] at hc
    have h1 := (ih (fun m hm => hq m (by simp [topsList, hm])) hc.1).2
    rw [SemAll, ← h1, hr]
    simp
  | andGo _ hr _ ih1 ih2 =>
    intro hq hc
    rw [CleanAnd] at hc
    obtain ⟨k1, h1⟩ := ih1 (fun m hm => hq m (by simp [topsList, hm])) hc.1
    have h2 := ih2 (fun m hm => hq m (by simp [topsList, hm])) (hc.2.resolve_left hr)
    rw [SemAll, h2, ← h1]
    simp [result_success_of k1 hr]
  | repeated => exact fun _ hc => absurd rfl hc
  | ended hid _ hg hterm =>
    intro hq _
    refine ⟨verdict_known _, ?_⟩
    rw [hf _ _ (hq _ hid) hg hterm]
    simp [result_or, result_and, result_diff, result_leaf]
  | expanded hid _ _ hterm hbd _ ih =>
    intro hq hc
    simp only [Bool.or_eq_false_iff] at hterm
    obtain ⟨h1, h2⟩ := hb _ _ (hq _ hid) hterm.2 hbd
    rw [Clean] at hc
    have := ih h1 hc
    exact ⟨this.1, this.2.trans h2⟩

/-! ### Completeness: a search without success leaves a closed set of visited nodes -/

mutual
/-- No AND, and (when `d` is false) no difference. -/
def GoalTree.Plain (d : Bool) : GoalTree → Prop
  | .or _ ps => PlainList d ps
  | .and _ _ => False
  | .diff _ l r => d = true ∧ l.Plain d ∧ r.Plain d
  | _ => True
def PlainList (d : Bool) : List GoalTree → Prop
  | [] => True
  | t :: ts => t.Plain d ∧ PlainList d ts
end

theorem plainList_iff {d : Bool} {ts : List GoalTree} : PlainList d ts ↔ ∀ t ∈ ts, t.Plain d := by
  induction ts with
  | nil => simp [PlainList]
  | cons t ts ih => simp [PlainList, ih]

/-- Node `n` is visited in `s`. -/
def Visited (H : String → Nat) (s : List Nat) (n : RelationNode) : Prop := ∃ id ∈ s, n.nodeId H = .ok id

theorem Visited.mono {s s' : List Nat} (h : s ⊆ s') {n : RelationNode} (hn : Visited H s n) : Visited H s' n := by
  obtain ⟨id, h1, h2⟩ := hn
  exact ⟨id, h h1, h2⟩

/-- Node `n` was examined without success and everything below it is visited. -/
def Closed (H : String → Nat) (build : RelationNode → GoalTree → Prop) (goal : Option RelationNode) (s : List Nat) (n : RelationNode) : Prop :=
  goalFound n goal = .ok false ∧ (n.isTerminal = false → ∃ t, build n t ∧ ∀ m ∈ t.tops, Visited H s m)

theorem Closed.mono {s s' : List Nat} (h : s ⊆ s') {n : RelationNode} (hn : Closed H build goal s n) : Closed H build goal s' n := by
  refine ⟨hn.1, fun ht => ?_⟩
  obtain ⟨t, h1, h2⟩ := hn.2 ht
  exact ⟨t, h1, fun m hm => (h2 m hm).mono h⟩

/-- Nodes visited between `s` and `s'` are closed. -/
def NewClosed (H : String → Nat) (build : RelationNode → GoalTree → Prop) (goal : Option RelationNode) (P : RelationNode → Prop) (s s' : List Nat) : Prop :=
  ∀ id ∈ s', id ∉ s → ∃ n, n.nodeId H = .ok id ∧ P n ∧ Closed H build goal s' n

theorem NewClosed.trans {P : RelationNode → Prop} {s s' s'' : List Nat} (h : s' ⊆ s'') (h1 : NewClosed H build goal P s s')
    (h2 : NewClosed H build goal P s' s'') : NewClosed H build goal P s s'' := by
  intro id hid hn
  by_cases hm : id ∈ s'
  · obtain ⟨n, a, b, c⟩ := h1 id hm hn
    exact ⟨n, a, b, c.mono h⟩
  · exact h2 id hid hm

theorem NewClosed.refl {P : RelationNode → Prop} (s : List Nat) : NewClosed H build goal P s s := fun _ h hn => absurd h hn

def NoneAt : Task → Out → Prop
  | .tree t, .tree t' => t.Plain true → t'.result ≠ .success
  | .or ts, .list _ b => PlainList true ts → b = false
  | .and _, .list _ _ => True
  | .path _ _, .tree t' => t'.result ≠ .success
  | _, _ => True

/-- Without a goal and without AND nothing succeeds. -/
theorem Ev.none_fails (hb : ∀ n t, build n t → t.Plain true) {k s o s'} (h : Ev H build none k s o s') : NoneAt k o := by
  induction h with
  | or _ ih => exact fun hp => by rw [GoalTree.Plain] at hp; simp [result_or, result_and, result_diff, result_leaf, ih hp]
  | and _ _ => exact fun hp => by rw [GoalTree.Plain] at hp; exact hp.elim
  | diff _ _ ih _ =>
    intro hp
    rw [GoalTree.Plain] at hp
    simp [result_or, result_and, result_diff, result_leaf, ih hp.2.1]
  | leaf _ ih => exact fun _ => ih
  | inner _ ih => exact fun _ => ih
  | orNil => exact fun _ => rfl
  | orStop _ hr ih => exact fun hp => absurd hr (ih hp.1)
  | orGo _ _ _ _ ih => exact fun hp => ih hp.2
  | andNil => trivial
  | andStop => trivial
  | andGo => trivial
  | repeated => exact nofun
  | ended _ _ hg _ =>
    cases hg
    exact nofun
  | expanded _ _ _ _ hbd _ ih => exact ih (hb _ _ hbd)

def ClosedAt (H : String → Nat) (build : RelationNode → GoalTree → Prop) (goal : Option RelationNode) (P : RelationNode → Prop) (d : Bool) (s s' : List Nat) : Task → Out → Prop
  | .tree t, .tree t' => t.Plain d → (∀ m ∈ t.tops, Ok H P m) → t'.result ≠ .success →
      (∀ m ∈ t.tops, Visited H s' m) ∧ NewClosed H build goal P s s'
  | .or ts, .list _ b => PlainList d ts → (∀ m ∈ topsList ts, Ok H P m) → b = false →
      (∀ m ∈ topsList ts, Visited H s' m) ∧ NewClosed H build goal P s s'
  | .path n _, .tree t' => Ok H P n → t'.result ≠ .success → Visited H s' n ∧ NewClosed H build goal P s s'
  | _, _ => True

theorem Ev.closed {P : RelationNode → Prop} {d : Bool} (hd : d = true → goal = none ∧ ∀ n t, build n t → t.Plain true)
    (hb : ∀ n t, P n → n.isTerminal = false → build n t → t.Plain d ∧ (∀ m ∈ t.tops, Ok H P m))
    {k s o s'} (h : Ev H build goal k s o s') : ClosedAt H build goal P d s s' k o := by
  induction h with
  | or _ ih =>
    intro hp hq hr
    rw [GoalTree.Plain] at hp
    exact ih hp hq (by simpa [result_or, result_and, result_diff, result_leaf] using hr)
  | and _ _ => exact fun hp => by rw [GoalTree.Plain] at hp; exact hp.elim
  | diff h1 h2 ih1 ih2 =>
    intro hp hq hr
    rw [GoalTree.Plain] at hp
    obtain ⟨rfl, hn⟩ := hd hp.1
    have hm := h2.seen_mono
    obtain rfl := hp.1
    obtain ⟨v1, c1⟩ := ih1 hp.2.1 (fun m hm => hq m (by simp [GoalTree.tops, hm])) (h1.none_fails hn hp.2.1)
    obtain ⟨v2, c2⟩ := ih2 hp.2.2 (fun m hm => hq m (by simp [GoalTree.tops, hm])) (h2.none_fails hn hp.2.2)
    refine ⟨fun m hmem => ?_, c1.trans hm c2⟩
    rw [GoalTree.tops, List.mem_append] at hmem
    rcases hmem with hmem | hmem
    · exact (v1 m hmem).mono hm
    · exact v2 m hmem
  | leaf _ ih =>
    intro _ hq hr
    obtain ⟨v, c⟩ := ih (hq _ (by simp [GoalTree.tops])) hr
    exact ⟨by simpa [GoalTree.tops] using v, c⟩
  | inner _ ih =>
    intro _ hq hr
    obtain ⟨v, c⟩ := ih (hq _ (by simp [GoalTree.tops])) hr
    exact ⟨by simpa [GoalTree.tops] using v, c⟩
  | orNil => exact fun _ _ _ => ⟨by simp [topsList], .refl _⟩
  | orStop => exact nofun
  | orGo h1 hr h2 ih1 ih2 =>
    intro hp hq hbf
    obtain ⟨v1, c1⟩ := ih1 hp.1 (fun m hm => hq m (by simp [topsList, hm])) hr
    obtain ⟨v2, c2⟩ := ih2 hp.2 (fun m hm => hq m (by simp [topsList, hm])) hbf
    have hm := h2.seen_mono
    refine ⟨fun m hmem => ?_, c1.trans hm c2⟩
    rw [topsList, List.mem_append] at hmem
    rcases hmem with hmem | hmem
    · exact (v1 m hmem).mono hm
    · exact v2 m hmem
  | andNil => trivial
  | andStop => trivial
  | andGo => trivial
  | repeated hid hin => exact fun _ _ => ⟨⟨_, hin, hid⟩, .refl _⟩
  | @ended n reason id b s hid hnot hg hterm =>
    intro hq hr
    refine ⟨⟨_, List.mem_cons_self, hid⟩, fun id' hid' hn => ?_⟩
    rcases List.mem_cons.1 hid' with rfl | h
    · cases b with
      | true => exact absurd rfl hr
      | false =>
        refine ⟨_, hid, hq _ hid, hg, fun ht => ?_⟩
        rw [ht] at hterm
        cases hterm
    · exact absurd h hn
  | @expanded n reason id b t t' s s' hid hnot hg hterm hbd h1 ih =>
    intro hq hr
    simp only [Bool.or_eq_false_iff] at hterm
    obtain ⟨p1, p2⟩ := hb _ _ (hq _ hid) hterm.2 hbd
    obtain ⟨v, c⟩ := ih p1 p2 hr
    have hm := h1.seen_mono
    refine ⟨⟨_, hm List.mem_cons_self, hid⟩, fun id' hid' hn => ?_⟩
    by_cases he : id' = id
    · subst he
      exact ⟨_, hid, hq _ hid, hterm.1 ▸ hg, fun _ => ⟨_, hbd, v⟩⟩
    · exact c id' hid' (by simp only [List.mem_cons, not_or]; exact ⟨he, hn⟩)

/-! ### Without wildcards only one path can succeed -/

def OnceAt (H : String → Nat) (P : RelationNode → Prop) (g : Nat) (s s' : List Nat) : Task → Out → Prop
  | .tree t, .tree t' => t.Formed → (∀ m ∈ t.tops, Ok H P m) → (g ∈ s → t'.result ≠ .success) ∧ (t'.result = .success → g ∈ s')
  | .or ts, .list _ b => FormedList ts → (∀ m ∈ topsList ts, Ok H P m) → (g ∈ s → b = false) ∧ (b = true → g ∈ s')
  | .and ts, .list _ b => FormedList ts → (∀ t ∈ ts, t.isOp = true) → (∀ m ∈ topsList ts, Ok H P m) → ts ≠ [] →
      (g ∈ s → b = false) ∧ (b = true → g ∈ s')
  | .path n _, .tree t' => Ok H P n → (g ∈ s → t'.result ≠ .success) ∧ (t'.result = .success → g ∈ s')
  | _, _ => True

theorem Ev.once {P : RelationNode → Prop} {g : Nat} (hg : ∀ n, P n → goalFound n goal = .ok true → n.nodeId H = .ok g)
    (hb : ∀ n t, P n → n.isTerminal = false → build n t → t.Formed ∧ (∀ m ∈ t.tops, Ok H P m))
    {k s o s'} (h : Ev H build goal k s o s') : OnceAt H P g s s' k o := by
  induction h with
  | or _ ih =>
    intro hfm hq
    obtain ⟨a, b⟩ := ih hfm hq
    exact ⟨fun h => by simp [result_or, result_and, result_diff, result_leaf, a h], fun h => b (by simpa [result_or, result_and, result_diff, result_leaf] using h)⟩
  | and _ ih =>
    intro hfm hq
    obtain ⟨a, b⟩ := ih hfm.1 hfm.2.1 hq (fun h => by simp [h, GoalTree.Formed] at hfm)
    exact ⟨fun h => by simp [result_or, result_and, result_diff, result_leaf, a h], fun h => b (by simpa [result_or, result_and, result_diff, result_leaf] using h)⟩
  | diff h1 h2 ih _ =>
    intro hfm hq
    obtain ⟨a, b⟩ := ih hfm.1 (fun m hm => hq m (by simp [GoalTree.tops, hm]))
    refine ⟨fun h => by simp [result_or, result_and, result_diff, result_leaf, a h], fun h => h2.seen_mono (b ?_)⟩
    simp only [result_or, result_and, result_diff, result_leaf, verdict_success, Bool.and_eq_true, decide_eq_true_eq] at h
    exact h.1
  | leaf _ ih => exact fun _ hq => ih (hq _ (by simp [GoalTree.tops]))
  | inner _ ih => exact fun _ hq => ih (hq _ (by simp [GoalTree.tops]))
  | orNil => exact fun _ _ => ⟨fun _ => rfl, nofun⟩
  | orStop _ hr ih =>
    intro hfm hq
    obtain ⟨a, b⟩ := ih hfm.1 (fun m hm => hq m (by simp [topsList, hm]))
    exact ⟨fun h => absurd hr (a h), fun _ => b hr⟩
  | orGo h1 _ _ _ ih =>
    intro hfm hq
    obtain ⟨a, b⟩ := ih hfm.2 (fun m hm => hq m (by simp [topsList, hm]))
    exact ⟨fun h => a (h1.seen_mono h), b⟩
  | andNil => exact fun _ _ _ h => absurd rfl h
  | andStop _ _ _ => exact fun _ _ _ _ => ⟨fun _ => rfl, nofun⟩
  | andGo h1 hr h2 ih1 ih2 =>
    intro hfm ho hq _
    obtain ⟨a, b⟩ := ih1 hfm.1 (fun m hm => hq m (by simp [topsList, hm]))
    have hs := result_success_of (h1.op_known (ho _ List.mem_cons_self)) hr
    exact ⟨fun h => absurd hs (a h), fun _ => h2.seen_mono (b hs)⟩
  | repeated => exact fun _ => ⟨nofun, nofun⟩
  | @ended n reason id b s hid hnot hgf _ =>
    intro hq
    cases b with
    | false => exact ⟨nofun, nofun⟩
    | true =>
      have := hg _ (hq _ hid) hgf
      rw [hid] at this
      cases this
      exact ⟨fun h => absurd h hnot, fun _ => List.mem_cons_self⟩
  | expanded hid hnot _ hterm hbd h1 ih =>
    intro hq
    simp only [Bool.or_eq_false_iff] at hterm
    obtain ⟨p1, p2⟩ := hb _ _ (hq _ hid) hterm.2 hbd
    obtain ⟨a, b⟩ := ih p1 p2
    exact ⟨fun h => a (List.mem_cons_of_mem _ h), b⟩

/-! ### AND and difference without wildcards -/

mutual
/-- Nothing has been searched yet. -/
def GoalTree.Fresh : GoalTree → Prop
  | .or r ps => r = .unknown ∧ FreshList ps
  | .and r ps => r = .unknown ∧ FreshList ps
  | .diff r a b => r = .unknown ∧ a.Fresh ∧ b.Fresh
  | .leaf r _ _ => r = .unknown
  | .path _ _ _ _ => False
def FreshList : List GoalTree → Prop
  | [] => True
  | t :: ts => t.Fresh ∧ FreshList ts
end

theorem freshList_iff {ts : List GoalTree} : FreshList ts ↔ ∀ t ∈ ts, t.Fresh := by
  induction ts with
  | nil => simp [FreshList]
  | cons t ts ih => simp [FreshList, ih]

theorem GoalTree.Fresh.result {t : GoalTree} (h : t.Fresh) : t.result = .unknown := by
  cases t with
  | or r ps => rw [GoalTree.Fresh] at h; exact h.1
  | and r ps => rw [GoalTree.Fresh] at h; exact h.1
  | diff r a b => rw [GoalTree.Fresh] at h; exact h.1
  | leaf r n e => rw [GoalTree.Fresh] at h; exact h
  | path r n e c => rw [GoalTree.Fresh] at h; exact h.elim

mutual
theorem GoalTree.Fresh.toothless {t : GoalTree} (h : t.Fresh) : Toothless t := by
  match t with
  | .or r ps => rw [GoalTree.Fresh] at h; rw [Toothless]; exact h.2.toothless
  | .and r ps =>
    rw [GoalTree.Fresh] at h
    rw [Toothless]
    exact ⟨by rw [h.1]; nofun, h.2.toothless⟩
  | .diff r a b =>
    rw [GoalTree.Fresh] at h
    rw [Toothless]
    exact ⟨by rw [h.1, h.2.1.result], h.2.1.toothless, h.2.2.toothless⟩
  | .leaf _ _ _ => rw [Toothless]; trivial
  | .path _ _ _ _ => rw [GoalTree.Fresh] at h; exact h.elim
theorem FreshList.toothless {ts : List GoalTree} (h : FreshList ts) : ToothlessList ts := by
  match ts with
  | [] => trivial
  | t :: ts => exact ⟨h.1.toothless, FreshList.toothless h.2⟩
end

def ToothlessAt (H : String → Nat) (P : RelationNode → Prop) : Task → Out → Prop
  | .tree t, .tree t' => t.Fresh → t.Formed → (∀ m ∈ t.tops, Ok H P m) → Toothless t'
  | .or ts, .list ts' _ => FreshList ts → FormedList ts → (∀ m ∈ topsList ts, Ok H P m) → ToothlessList ts'
  | .and ts, .list ts' b => FreshList ts → FormedList ts → (∀ t ∈ ts, t.isOp = true) → (∀ m ∈ topsList ts, Ok H P m) →
      ToothlessList ts' ∧ (2 ≤ ts.length → b = false)
  | .path n _, .tree t' => Ok H P n → Toothless t'
  | _, _ => True

theorem Ev.toothless {P : RelationNode → Prop} {g : Nat} (hg : ∀ n, P n → goalFound n goal = .ok true → n.nodeId H = .ok g)
    (hb : ∀ n t, P n → n.isTerminal = false → build n t → t.Fresh ∧ t.Formed ∧ (∀ m ∈ t.tops, Ok H P m))
    {k s o s'} (h : Ev H build goal k s o s') : ToothlessAt H P k o := by
  have hb' : ∀ n t, P n → n.isTerminal = false → build n t → t.Formed ∧ (∀ m ∈ t.tops, Ok H P m) := fun n t a b c => (hb n t a b c).2
  induction h with
  | or _ ih =>
    intro hfr hfm hq
    rw [GoalTree.Fresh] at hfr
    rw [Toothless]
    exact ih hfr.2 hfm hq
  | and _ ih =>
    intro hfr hfm hq
    rw [GoalTree.Fresh] at hfr
    rw [Toothless]
    have := ih hfr.2 hfm.1 hfm.2.1 hq
    exact ⟨by simp [this.2 hfm.2.2], this.1⟩
  | diff h1 h2 ih1 ih2 =>
    intro hfr hfm hq
    rw [GoalTree.Fresh] at hfr
    rw [Toothless]
    have q1 := fun m hm => hq m (by simp only [GoalTree.tops, List.mem_append]; exact .inl hm)
    have q2 := fun m hm => hq m (by simp only [GoalTree.tops, List.mem_append]; exact .inr hm)
    refine ⟨?_, ih1 hfr.2.1 hfm.1 q1, ih2 hfr.2.2 hfm.2.1 q2⟩
    simp only [verdict_success, Bool.and_eq_true, decide_eq_true_eq]
    refine ⟨fun h => h.1, fun h => ⟨h, ?_⟩⟩
    have o1 := h1.once hg hb' hfm.1 q1
    have o2 := h2.once hg hb' hfm.2.1 q2
    exact result_failure_of (h2.op_known hfm.2.2.2) (o2.1 (o1.2 h))
  | leaf _ ih => exact fun _ _ hq => ih (hq _ (by simp [GoalTree.tops]))
  | inner _ ih => exact fun _ _ hq => ih (hq _ (by simp [GoalTree.tops]))
  | orNil => exact fun _ _ _ => trivial
  | orStop _ _ ih => exact fun hfr hfm hq => ⟨ih hfr.1 hfm.1 (fun m hm => hq m (by simp [topsList, hm])), hfr.2.toothless⟩
  | orGo _ _ _ ih1 ih2 =>
    exact fun hfr hfm hq => ⟨ih1 hfr.1 hfm.1 (fun m hm => hq m (by simp [topsList, hm])),
      ih2 hfr.2 hfm.2 (fun m hm => hq m (by simp [topsList, hm]))⟩
  | andNil => exact fun _ _ _ _ => ⟨trivial, nofun⟩
  | andStop _ _ ih =>
    exact fun hfr hfm ho hq => ⟨⟨ih hfr.1 hfm.1 (fun m hm => hq m (by simp [topsList, hm])), hfr.2.toothless⟩, fun _ => rfl⟩
  | @andGo t ts t' ts' b s s' s'' h1 hr h2 ih1 ih2 =>
    intro hfr hfm ho hq
    have q1 := fun m hm => hq m (by simp only [topsList, List.mem_append]; exact .inl hm)
    have q2 := fun m hm => hq m (by simp only [topsList, List.mem_append]; exact .inr hm)
    have ho2 := fun t ht => ho t (List.mem_cons_of_mem _ ht)
    refine ⟨⟨ih1 hfr.1 hfm.1 q1, (ih2 hfr.2 hfm.2 ho2 q2).1⟩, fun hl => ?_⟩
    have hs := result_success_of (h1.op_known (ho _ List.mem_cons_self)) hr
    have o1 := (h1.once hg hb' hfm.1 q1).2 hs
    exact (h2.once hg hb' hfm.2 ho2 q2 (fun h => by simp [h] at hl)).1 o1
  | repeated => exact fun _ => by rw [Toothless]; trivial
  | ended => exact fun _ => by rw [Toothless]; trivial
  | expanded hid _ _ hterm hbd _ ih =>
    intro hq
    simp only [Bool.or_eq_false_iff] at hterm
    obtain ⟨p0, p1, p2⟩ := hb _ _ (hq _ hid) hterm.2 hbd
    rw [Toothless]
    exact ih p0 p1 p2

end

end Zanzi
