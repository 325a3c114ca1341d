import Verif.Spec.Revoke
import Verif.Props.Explain
import Verif.Lemmas.Bulk

/-
What explanations cite (C112).
-/

namespace Zanzi

open Spec

theorem cites_success {y : Option USet} {t : GoalTree} {r : Relationship} (h : Cites y t r) : t.result = .success := by
  cases h <;> rfl

theorem cites_or {y : Option USet} {x : SearchResult} {ps : List GoalTree} {r : Relationship} (h : Cites y (.or x ps) r) : ∃ p ∈ ps, Cites y p r := by
  cases h with
  | or hp hc => exact ⟨_, hp, hc⟩

theorem cites_and {y : Option USet} {x : SearchResult} {ps : List GoalTree} {r : Relationship} (h : Cites y (.and x ps) r) : ∃ p ∈ ps, Cites y p r := by
  cases h with
  | and hp hc => exact ⟨_, hp, hc⟩

theorem cites_diff {y : Option USet} {x : SearchResult} {a b : GoalTree} {r : Relationship} (h : Cites y (.diff x a b) r) : Cites y a r := by
  cases h with
  | diff hc => exact hc

theorem fresh_unknown {t : GoalTree} (h : t.Fresh) : t.result = .unknown := by
  cases t <;> rw [GoalTree.Fresh] at h
  · exact h.1
  · exact h.1
  · exact h.1
  · exact h
  · exact h.elim

theorem fresh_cites {y : Option USet} {t : GoalTree} {r : Relationship} (h : t.Fresh) : ¬ Cites y t r := by
  intro hc
  have := cites_success hc
  rw [fresh_unknown h] at this
  cases this

section
variable {H : String → Nat} {build : RelationNode → GoalTree → Prop} {u : Entity} {K : Relationship → Prop}

/-- What may be cited below userset `y` by a leaf `n`. -/
def Citable (u : Entity) (K : Relationship → Prop) (y : Option USet) (n : RelationNode) : Prop :=
  ∀ y' sub, y = some y' → Immediate sub → subjectNode sub = n → Names u n → K ⟨some y'.object, y'.relation, some sub⟩

def CitesAt (u : Entity) (K : Relationship → Prop) : Task → Out → Prop
  | .tree t, .tree t' => t.Fresh → ∀ y r, (∀ n ∈ t.tops, Citable u K y n) → Cites y t' r → K r
  | .or ts, .list ts' _ => FreshList ts → ∀ y r, (∀ n ∈ topsList ts, Citable u K y n) → ∀ p ∈ ts', Cites y p r → K r
  | .and ts, .list ts' _ => FreshList ts → ∀ y r, (∀ n ∈ topsList ts, Citable u K y n) → ∀ p ∈ ts', Cites y p r → K r
  | .path n _, .tree t' => ∀ y r, Citable u K y n → Cites y t' r → K r
  | _, _ => True

/-- What a tree cites was among the successors its expansions were built from. -/
theorem Ev.cites (hb : ∀ n t, n.isTerminal = false → build n t → ∃ y : USet, n = y.node ∧ t.Fresh ∧ ∀ m ∈ t.tops, Citable u K (some y) m) {k s o s'}
    (h : Ev H build (userGoal u) k s o s') : CitesAt u K k o := by
  induction h with
  | or _ ih =>
    intro hf y r ht hc
    rw [GoalTree.Fresh] at hf
    obtain ⟨p, hp, hc⟩ := cites_or hc
    exact ih hf.2 y r ht _ hp hc
  | and _ ih =>
    intro hf y r ht hc
    rw [GoalTree.Fresh] at hf
    obtain ⟨p, hp, hc⟩ := cites_and hc
    exact ih hf.2 y r ht _ hp hc
  | diff _ _ ih1 _ =>
    intro hf y r ht hc
    rw [GoalTree.Fresh] at hf
    exact ih1 hf.2.1 y r (fun n hn => ht n (List.mem_append_left _ hn)) (cites_diff hc)
  | leaf _ ih => exact fun _ y r ht hc => ih y r (ht _ (List.mem_singleton.2 rfl)) hc
  | inner _ ih => exact fun hf => hf.elim
  | orNil => exact fun _ _ _ _ p hp => nomatch hp
  | andNil => exact fun _ _ _ _ p hp => nomatch hp
  | orStop _ _ ih =>
    intro hf y r ht p hp hc
    rcases List.mem_cons.1 hp with rfl | hp
    · exact ih hf.1 y r (fun n hn => ht n (List.mem_append_left _ hn)) hc
    · exact (fresh_cites (freshList_iff.1 hf.2 p hp) hc).elim
  | andStop _ _ ih =>
    intro hf y r ht p hp hc
    rcases List.mem_cons.1 hp with rfl | hp
    · exact ih hf.1 y r (fun n hn => ht n (List.mem_append_left _ hn)) hc
    · exact (fresh_cites (freshList_iff.1 hf.2 p hp) hc).elim
  | orGo _ _ _ ih1 ih2 =>
    intro hf y r ht p hp hc
    rcases List.mem_cons.1 hp with rfl | hp
    · exact ih1 hf.1 y r (fun n hn => ht n (List.mem_append_left _ hn)) hc
    · exact ih2 hf.2 y r (fun n hn => ht n (List.mem_append_right _ hn)) p hp hc
  | andGo _ _ _ ih1 ih2 =>
    intro hf y r ht p hp hc
    rcases List.mem_cons.1 hp with rfl | hp
    · exact ih1 hf.1 y r (fun n hn => ht n (List.mem_append_left _ hn)) hc
    · exact ih2 hf.2 y r (fun n hn => ht n (List.mem_append_right _ hn)) p hp hc
  | repeated _ _ => exact fun _ _ _ hc => nomatch (cites_success hc)
  | @ended n reason id b s _ _ hg _ =>
    intro y r hn hc
    have hs := cites_success hc
    rw [show (GoalTree.leaf (verdict b) n reason).result = verdict b from rfl, verdict_success] at hs
    subst hs
    generalize he : GoalTree.leaf (verdict true) n reason = t at hc
    cases hc with
    | found hi =>
      cases he
      exact hn _ _ rfl hi rfl ((goalFound_names hg).1 rfl)
    | _ => cases he
  | @expanded n reason id b t t' s s' _ _ _ hfl hbd _ ih =>
    intro y r _ hc
    obtain ⟨y0, rfl, hf, htop⟩ := hb n t (by cases b <;> simp_all) hbd
    generalize he : GoalTree.path t'.result y0.node reason t' = q at hc
    cases hc with
    | @path _ y' why c _ hc =>
      have h1 := GoalTree.path.inj he
      obtain ⟨_, h2, _, rfl⟩ := h1
      have : y' = y0 := by
        obtain ⟨o, rl⟩ := y'
        obtain ⟨o', rl'⟩ := y0
        have h3 := RelationNode.entitySet.inj h2
        obtain ⟨h3, h4⟩ := h3
        cases h3
        cases h4
        rfl
      subst this
      exact ih hf _ r htop hc
    | _ => cases he

def CitedAt : Task → Out → Prop
  | .tree t, .tree t' => t.Formed → (t.isOp = true → t'.result ≠ .unknown) ∧ (t'.result = .success → ∀ y : USet, ∃ r, Cites (some y) t' r)
  | .or ts, .list ts' b => FormedList ts → b = true → ∀ y : USet, ∃ p ∈ ts', ∃ r, Cites (some y) p r
  | .and ts, .list ts' b => FormedList ts → (∀ t ∈ ts, t.isOp = true) → ts ≠ [] → b = true → ∀ y : USet, ∃ p ∈ ts', ∃ r, Cites (some y) p r
  | .path _ _, .tree t' => t'.result = .success → ∀ y : USet, ∃ r, Cites (some y) t' r
  | _, _ => True

/-- A success cites something. -/
theorem Ev.cited (hb : ∀ n t, n.isTerminal = false → build n t → (∃ y : USet, n = y.node) ∧ t.Formed) {k s o s'} (h : Ev H build (userGoal u) k s o s') : CitedAt k o := by
  induction h with
  | or _ ih =>
    refine fun hf => ⟨fun _ => verdict_known _, fun hs y => ?_⟩
    have hs' := verdict_success.1 hs
    obtain ⟨p, hp, r, hr⟩ := ih hf hs' y
    refine ⟨r, ?_⟩
    rw [hs']
    exact .or hp hr
  | and _ ih =>
    refine fun hf => ⟨fun _ => verdict_known _, fun hs y => ?_⟩
    have hs' := verdict_success.1 hs
    obtain ⟨p, hp, r, hr⟩ := ih hf.1 hf.2.1 (by rintro rfl; exact absurd hf.2.2 (by simp)) hs' y
    refine ⟨r, ?_⟩
    rw [hs']
    exact .and hp hr
  | diff _ _ ih1 _ =>
    refine fun hf => ⟨fun _ => verdict_known _, fun hs y => ?_⟩
    have hs' := verdict_success.1 hs
    obtain ⟨r, hr⟩ := (ih1 hf.1).2 (by simp only [Bool.and_eq_true, decide_eq_true_eq] at hs'; exact hs'.1) y
    refine ⟨r, ?_⟩
    rw [hs']
    exact .diff hr
  | leaf _ ih => exact fun _ => ⟨(fun h => nomatch h), ih⟩
  | inner _ ih => exact fun _ => ⟨(fun h => nomatch h), ih⟩
  | orNil => exact fun _ h => nomatch h
  | andNil => exact fun _ _ h => (h rfl).elim
  | orStop _ hs ih =>
    intro hf _ y
    exact ⟨_, List.mem_cons_self, (ih hf.1).2 hs y⟩
  | andStop => exact fun _ _ _ h => nomatch h
  | orGo _ _ _ _ ih2 =>
    intro hf hb y
    obtain ⟨p, hp, hr⟩ := ih2 hf.2 hb y
    exact ⟨p, List.mem_cons_of_mem _ hp, hr⟩
  | @andGo t ts t' ts' b _ _ _ _ hne _ ih1 _ =>
    intro hf ho _ _ y
    refine ⟨_, List.mem_cons_self, (ih1 hf.1).2 ?_ y⟩
    have := (ih1 hf.1).1 (ho t List.mem_cons_self)
    cases h : t'.result <;> simp_all
  | repeated _ _ => exact fun h => nomatch h
  | @ended n reason id b s _ _ hg _ =>
    intro hs y
    have hs' : b = true := verdict_success.1 hs
    subst hs'
    rcases (goalFound_names hg).1 rfl with rfl | rfl
    · exact ⟨_, .found (sub := .entity u) trivial⟩
    · exact ⟨_, .found (sub := .resourceSet u.resource) trivial⟩
  | @expanded n reason id b t t' s s' _ _ _ hfl hbd _ ih =>
    intro hs y
    obtain ⟨⟨y0, rfl⟩, hf⟩ := hb n t (by cases b <;> simp_all) hbd
    have hs' : t'.result = .success := hs
    obtain ⟨r, hr⟩ := (ih hf).2 hs' y0
    refine ⟨r, ?_⟩
    rw [hs']
    exact .path hr

end

end Zanzi
