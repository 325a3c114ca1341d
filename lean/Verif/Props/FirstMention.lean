import Verif.Lemmas.FirstMention
import Verif.Props.Steps

/-
Property C126: the first mention of a node decides it.
-/

namespace Zanzi

open Spec

section
variable {env : Env} {s : Store} {pid : String} {rec : PolicyRecord} {x : USet} {u : Entity}

theorem first_mention {goal : Option RelationNode} {n : RelationNode} {r : String} {t : GoalTree} {seen : List Nat} {build : RelationNode → GoalTree → Prop}
    (h : Ev env.H build goal (.path n r) [] (.tree t) seen) {l k : List (RelationNode × Bool)} {m : RelationNode} {d : Bool}
    (hv : visits t = l ++ (m, d) :: k) : d = true ↔ ∀ p ∈ l, p.1.nodeId env.H ≠ m.nodeId env.H := by
  have h1 : ReadsOff env.H [] (visits t) seen := h.readsOff
  rw [hv] at h1
  obtain ⟨id, e1, e2⟩ := h1.first
  rw [e2, e1]
  exact ⟨fun h => h.2, fun h => ⟨List.not_mem_nil, h⟩⟩

/-- C126: in the visited part of an explanation, read from top to bottom, a node is decided where its visit identifier is met first and nowhere else. -/
theorem C126_first_decides (hp : policyAt s pid = some rec) {fuel : Nat} {t : GoalTree} {b : Bool} (h : Explains env s fuel pid x u t b)
    {l k : List (RelationNode × Bool)} {m : RelationNode} {d : Bool} (hv : visits t = l ++ (m, d) :: k) :
    d = true ↔ ∀ p ∈ l, p.1.nodeId env.H ≠ m.nodeId env.H := by
  obtain ⟨_, _, h1, _⟩ := explain_ev hp h
  exact first_mention h1 hv

/-- C126 for Expand. -/
theorem C126_expand_first_decides (hp : policyAt s pid = some rec) {fuel : Nat} {root : RelationNode} {t : GoalTree} (h : Expands env s fuel pid root t)
    {l k : List (RelationNode × Bool)} {m : RelationNode} {d : Bool} (hv : visits t = l ++ (m, d) :: k) :
    d = true ↔ ∀ p ∈ l, p.1.nodeId env.H ≠ m.nodeId env.H := by
  obtain ⟨_, h1⟩ := expands_ev hp h
  exact first_mention h1 hv

/-- C126 where identifiers tell the visited nodes apart: a node is decided at its first mention and nowhere else.  Missing: nodes sharing an
identifier (`C126_collision_violated`). -/
theorem C126_first_mention_partial (hp : policyAt s pid = some rec) {fuel : Nat} {t : GoalTree} {b : Bool} (h : Explains env s fuel pid x u t b)
    (hi : ∀ p ∈ visits t, ∀ q ∈ visits t, p.1.nodeId env.H = q.1.nodeId env.H → p.1 = q.1)
    {l k : List (RelationNode × Bool)} {m : RelationNode} {d : Bool} (hv : visits t = l ++ (m, d) :: k) : d = true ↔ ∀ p ∈ l, p.1 ≠ m := by
  refine (C126_first_decides hp h hv).trans ⟨fun a p hp he => a p hp (he ▸ rfl), fun a p hp he => a p hp (hi p ?_ (m, d) ?_ he)⟩
  · rw [hv]; exact List.mem_append_left _ hp
  · rw [hv]; exact List.mem_append_right _ List.mem_cons_self

/-- C126: what is cut off was decided, or begun, at an earlier mention of its identifier. -/
theorem C126_cut_decided (hp : policyAt s pid = some rec) {fuel : Nat} {t : GoalTree} {b : Bool} (h : Explains env s fuel pid x u t b)
    {l k : List (RelationNode × Bool)} {m : RelationNode} (hv : visits t = l ++ (m, false) :: k) :
    ∃ n, (n, true) ∈ l ∧ n.nodeId env.H = m.nodeId env.H := by
  obtain ⟨_, _, h1, _⟩ := explain_ev hp h
  have h2 : ReadsOff env.H [] (visits t) _ := h1.readsOff
  rw [hv] at h2
  rcases h2.before with ⟨_, h, _⟩ | h
  · cases h
  · exact h

/-- C126 for names without slashes and ids and relations that are not empty, where the texts hashed for the visited nodes have no collision. -/
theorem C126_plain_names_partial (hp : policyAt s pid = some rec) {fuel : Nat} {t : GoalTree} {b : Bool} (h : Explains env s fuel pid x u t b)
    (hn : ∀ p ∈ visits t, PlainNode p.1) (hH : CollisionFree env.H (fun w => ∃ p ∈ visits t, p.1.idPreimage = .ok w))
    {l k : List (RelationNode × Bool)} {m : RelationNode} {d : Bool} (hv : visits t = l ++ (m, d) :: k) :
    (d = true ↔ ∀ p ∈ l, p.1 ≠ m) ∧ (d = false → (m, true) ∈ l) := by
  have hid : ∀ p ∈ visits t, ∃ id, p.1.nodeId env.H = .ok id := by
    intro p hp'
    obtain ⟨l', k', e⟩ := List.append_of_mem hp'
    obtain ⟨_, _, h1, _⟩ := explain_ev hp h
    have h2 : ReadsOff env.H [] (visits t) _ := h1.readsOff
    obtain ⟨p1, p2⟩ := p
    rw [e] at h2
    obtain ⟨id, h3, _⟩ := h2.first
    exact ⟨id, h3⟩
  have hi : ∀ p ∈ visits t, ∀ q ∈ visits t, p.1.nodeId env.H = q.1.nodeId env.H → p.1 = q.1 := by
    intro p hp' q hq he
    obtain ⟨id, h1⟩ := hid p hp'
    refine C48_identity_partial env.H p.1 q.1 ?_ (hn p hp') (hn q hq) id h1 (he ▸ h1)
    intro a b ha hb
    exact hH a b (ha.elim (fun h => ⟨p, hp', h⟩) (fun h => ⟨q, hq, h⟩)) (hb.elim (fun h => ⟨p, hp', h⟩) (fun h => ⟨q, hq, h⟩))
  refine ⟨C126_first_mention_partial hp h hi hv, ?_⟩
  rintro rfl
  obtain ⟨n, h1, h2⟩ := C126_cut_decided hp h hv
  have h3 := hi (n, true) (by rw [hv]; exact List.mem_append_left _ h1) (m, false) (by rw [hv]; exact List.mem_append_right _ List.mem_cons_self) h2
  cases h3
  exact h1

/-- C126, always: no node is decided twice. -/
theorem C126_once (hp : policyAt s pid = some rec) {fuel : Nat} {t : GoalTree} {b : Bool} (h : Explains env s fuel pid x u t b)
    {l k j : List (RelationNode × Bool)} {m n : RelationNode} (hv : visits t = l ++ (m, true) :: k ++ (n, true) :: j) : m ≠ n := by
  rintro rfl
  exact (C126_first_decides hp h hv).1 rfl (m, true) (List.mem_append_right _ List.mem_cons_self) rfl

end

/-- The explanation of v: v, a, v again, b, and the user; decided but for the second v. -/
example : ∃ t b, Explains gEnv stepStore 10 "p" ⟨doc1, "v"⟩ usr t b ∧
    visits t = [(.entitySet (some doc1) "v", true), (.entitySet (some doc1) "a", true), (.entitySet (some doc1) "v", false),
      (.entitySet (some doc1) "b", true), (.entity (some usr), true)] := by
  obtain ⟨t, b, h1, h2⟩ := explains_of (env := gEnv) (s := stepStore) (pid := "p") (x := ⟨doc1, "v"⟩) (u := usr) (fuel := 10)
    (f := fun t _ => decide (visits t = [(.entitySet (some doc1) "v", true), (.entitySet (some doc1) "a", true), (.entitySet (some doc1) "v", false),
      (.entitySet (some doc1) "b", true), (.entity (some usr), true)])) (by decide +kernel)
  exact ⟨t, b, h1, of_decide_eq_true h2⟩

/-- The hypotheses of `C126_plain_names_partial` there. -/
example : ∃ t b, Explains gEnv stepStore 10 "p" ⟨doc1, "v"⟩ usr t b ∧ (∀ p ∈ visits t, PlainNode p.1) ∧
    CollisionFree gEnv.H (fun w => ∃ p ∈ visits t, p.1.idPreimage = .ok w) := by
  obtain ⟨t, b, h1, h2⟩ := explains_of (env := gEnv) (s := stepStore) (pid := "p") (x := ⟨doc1, "v"⟩) (u := usr) (fuel := 10)
    (f := fun t _ => decide (visits t = [(.entitySet (some doc1) "v", true), (.entitySet (some doc1) "a", true), (.entitySet (some doc1) "v", false),
      (.entitySet (some doc1) "b", true), (.entity (some usr), true)])) (by decide +kernel)
  refine ⟨t, b, h1, ?_, fun a b _ _ h => Hx_inj h⟩
  rw [of_decide_eq_true h2]
  simp [PlainNode, doc1, usr]

/-- doc:1#v contains doc:1/a#b and doc:1#a/b; user:u is in the latter. -/
def slashStore : Store := gStore gEnv [rel "a/b" "_this", rel "b" "_this", rel "v" "_this"]
  [⟨some doc1, "v", some (.entitySet (some doc1) "a/b")⟩, ⟨some doc1, "v", some (.entitySet (some ⟨"doc", "1/a"⟩) "b")⟩, ⟨some doc1, "a/b", some (.entity usr)⟩]

/-- C126 is false for nodes sharing an identifier, with a hash that has no collisions: doc:1#a/b is mentioned once and cut off there. -/
theorem C126_collision_violated : ∃ t, Explains gEnv slashStore 10 "p" ⟨doc1, "v"⟩ usr t false ∧
    visits t = [(.entitySet (some doc1) "v", true), (.entitySet (some ⟨"doc", "1/a"⟩) "b", true), (.entitySet (some doc1) "a/b", false)] := by
  obtain ⟨t, b, h1, h2⟩ := explains_of (env := gEnv) (s := slashStore) (pid := "p") (x := ⟨doc1, "v"⟩) (u := usr) (fuel := 10)
    (f := fun t b => decide (visits t = [(.entitySet (some doc1) "v", true), (.entitySet (some ⟨"doc", "1/a"⟩) "b", true),
      (.entitySet (some doc1) "a/b", false)]) && !b) (by decide +kernel)
  simp only [Bool.and_eq_true, Bool.not_eq_true', decide_eq_true_eq] at h2
  obtain ⟨h2, rfl⟩ := h2
  exact ⟨t, h1, h2⟩

/-- The hypothesis of `C126_first_mention_partial` there. -/
example : ∃ t b, Explains gEnv stepStore 10 "p" ⟨doc1, "v"⟩ usr t b ∧
    (∀ p ∈ visits t, ∀ q ∈ visits t, p.1.nodeId gEnv.H = q.1.nodeId gEnv.H → p.1 = q.1) := by
  obtain ⟨t, b, h1, h2⟩ := explains_of (env := gEnv) (s := stepStore) (pid := "p") (x := ⟨doc1, "v"⟩) (u := usr) (fuel := 10)
    (f := fun t _ => decide (∀ p ∈ visits t, ∀ q ∈ visits t, p.1.nodeId gEnv.H = q.1.nodeId gEnv.H → p.1 = q.1)) (by decide +kernel)
  exact ⟨t, b, h1, of_decide_eq_true h2⟩

end Zanzi
