import Verif.Spec.Busy
import Verif.Lemmas.Term
import Verif.Lemmas.Interfere
import Verif.Props.Search

/-
Requests end after a number of their own storage calls, whatever those answer.
-/

namespace Zanzi

open Spec

/-! ### Programs that end -/

/-- The program ends after at most `n` storage calls, each of which fails or is answered by some store satisfying `I`; a final value meets `P` with the number of calls left,
and only if `F` does it run out of fuel. -/
def Prog.Ends {α : Type} (I : Store → Prop) (F : Prop) : Prog α → Nat → (Nat → α → Prop) → Prop
  | .done (.ok a), n, P => P n a
  | .done (.err _), _, _ => True
  | .done .panic, _, _ => True
  | .done .fuel, _, _ => F
  | .call op k, n, P => 1 ≤ n ∧ (k none).Ends I F (n - 1) P ∧ ∀ s, I s → (k (some (op.exec s).1)).Ends I F (n - 1) P

namespace Prog.Ends

variable {I : Store → Prop} {F : Prop} {α β : Type}

theorem mono {p : Prog α} {n : Nat} {P Q : Nat → α → Prop} (h : p.Ends I F n P) (hpq : ∀ m a, m ≤ n → P m a → Q m a) : p.Ends I F n Q := by
  induction p generalizing n with
  | done r =>
    cases r with
    | ok a => exact hpq n a (Nat.le_refl _) h
    | err e => trivial
    | panic => trivial
    | fuel => exact h
  | call op k ih =>
    obtain ⟨h1, h2, h3⟩ := h
    exact ⟨h1, ih _ h2 (fun m a hm => hpq m a (by omega)), fun s hs => ih _ (h3 s hs) (fun m a hm => hpq m a (by omega))⟩

theorem bind {p : Prog α} {f : α → Prog β} {n : Nat} {P : Nat → α → Prop} {Q : Nat → β → Prop} (h : p.Ends I F n P)
    (hf : ∀ m a, P m a → (f a).Ends I F m Q) : (p >>= f).Ends I F n Q := by
  show (p.bind f).Ends I F n Q
  induction p generalizing n with
  | done r =>
    cases r with
    | ok a => exact hf n a h
    | err e => trivial
    | panic => trivial
    | fuel => exact h
  | call op k ih =>
    obtain ⟨h1, h2, h3⟩ := h
    exact ⟨h1, ih _ h2, fun s hs => ih _ (h3 s hs)⟩

theorem lift {r : Res α} {n : Nat} {P : Nat → α → Prop} (h1 : r = .fuel → F) (h2 : ∀ a, r = .ok a → P n a) : (Prog.lift r).Ends I F n P := by
  cases r with
  | ok a => exact h2 a rfl
  | err e => trivial
  | panic => trivial
  | fuel => exact h1 rfl

theorem op {o : Op} {n : Nat} {P : Nat → o.Resp → Prop} (hn : 1 ≤ n) (h : ∀ s, I s → P (n - 1) (o.exec s).1) : (Prog.op o).Ends I F n P :=
  ⟨hn, trivial, h⟩

/-- A storage call and what follows. -/
theorem op_bind {o : Op} {f : o.Resp → Prog β} {n : Nat} {Q : Nat → β → Prop} (hn : 1 ≤ n) (h : ∀ s, I s → (f (o.exec s).1).Ends I F (n - 1) Q) :
    (Prog.op o >>= f).Ends I F n Q :=
  bind (P := fun m a => m = n - 1 ∧ ∃ s, I s ∧ a = (o.exec s).1) (op hn (fun s hs => ⟨rfl, s, hs, rfl⟩))
    (fun m a ⟨hm, s, hs, ha⟩ => hm ▸ ha ▸ h s hs)

theorem lift_bind {r : Res α} {f : α → Prog β} {n : Nat} {Q : Nat → β → Prop} (h1 : r = .fuel → F) (h2 : ∀ a, r = .ok a → (f a).Ends I F n Q) :
    (Prog.lift r >>= f).Ends I F n Q :=
  bind (P := fun m a => m = n ∧ r = .ok a) (lift h1 (fun _ h => ⟨rfl, h⟩)) (fun m a ⟨hm, ha⟩ => hm ▸ h2 a ha)

theorem mapSlice {f : α → Prog β} {c : Nat} : ∀ (l : List α), (∀ a n, c ≤ n → (f a).Ends I F n (fun m _ => n - c ≤ m)) → ∀ n, c * l.length ≤ n →
    (Prog.mapSlice f l).Ends I F n (fun m bs => n - c * l.length ≤ m ∧ bs.length = l.length) := by
  intro l hf
  induction l with
  | nil => intro n _; exact ⟨Nat.sub_le _ _, rfl⟩
  | cons a l ih =>
    intro n hn
    rw [List.length_cons, Nat.mul_add, Nat.mul_one] at hn
    unfold Prog.mapSlice
    refine (hf a n (by omega)).bind (fun m b hm => ?_)
    refine (ih m (by omega)).bind (fun m' bs hm' => ?_)
    exact ⟨by rw [List.length_cons, Nat.mul_add, Nat.mul_one]; omega, by simp [hm'.2]⟩

end Prog.Ends

/-! ### Requests in flight -/

namespace Sys.Attended

variable {env : Env} {A : Call → Prop} {x y : Sys} {c : Call} {n : Nat} {hist : List Store} {t : Prog Answer}

theorem flight (h : Attended env A x c n hist y t) : Flight env A x c hist y t := by
  induction h with
  | start hp => exact .start hp
  | own _ hs ih => exact .own ih hs
  | arrive c' hc _ ih => exact .arrive c' hc ih
  | op _ hs ih => exact .op ih hs
  | leave _ ih => exact .leave ih

/-- What remains of a request that ends ends with what is left of its calls. -/
theorem ends {I : Store → Prop} {F : Prop} {N : Nat} {P : Nat → Answer → Prop} (h : Attended env A x c n hist y t) (hI : ∀ s ∈ hist, I s)
    (hc : (c.prog env).Ends I F N P) : n ≤ N ∧ t.Ends I F (N - n) P := by
  induction h with
  | start hp => exact ⟨Nat.zero_le _, hc⟩
  | @own n o k h ts s s' resp b hf hs ih =>
    have hs0 : I s := by
      obtain ⟨l, hl⟩ := hf.flight.head
      exact hI s (List.mem_cons_of_mem _ (hl ▸ List.mem_cons_self))
    obtain ⟨h1, h2, h3, h4⟩ := ih (fun s hs => hI s (List.mem_cons_of_mem _ hs))
    have e : N - (n + 1) = N - n - 1 := by omega
    refine ⟨by omega, ?_⟩
    rw [e]
    cases hs with
    | ok => exact h4 s hs0
    | failBefore => exact h3
    | failAfter => exact h3
  | arrive c' hc' _ ih => exact ih hI
  | op _ hs ih => exact ih (fun s hs => hI s (List.mem_cons_of_mem _ hs))
  | leave _ ih => exact ih hI

/-- A flight is attended. -/
theorem of_flight (h : Flight env A x c hist y t) : ∃ n, Attended env A x c n hist y t := by
  induction h with
  | start hp => exact ⟨_, .start hp⟩
  | own _ hs ih => obtain ⟨n, ih⟩ := ih; exact ⟨_, .own ih hs⟩
  | arrive c' hc _ ih => obtain ⟨n, ih⟩ := ih; exact ⟨_, .arrive c' hc ih⟩
  | op _ hs ih => obtain ⟨n, ih⟩ := ih; exact ⟨_, .op ih hs⟩
  | leave _ ih => obtain ⟨n, ih⟩ := ih; exact ⟨_, .leave ih⟩

end Sys.Attended

/-! ### The search -/

/-- The objects relationships point to. -/
def objectsAmong (L : List Relationship) (root : Option RelationNode) : List Entity :=
  (match root with | some (.entitySet (some o) _) => [o] | _ => []) ++ L.filterMap (fun r => r.subject.bind pointsTo)

theorem objectsAmong_length (L : List Relationship) (root : Option RelationNode) : (objectsAmong L root).length ≤ L.length + 1 := by
  unfold objectsAmong
  have h1 := List.length_filterMap_le (fun r : Relationship => r.subject.bind pointsTo) L
  rw [List.length_append]
  split
  · simp only [List.length_cons, List.length_nil]; omega
  · simp only [List.length_nil]; omega

theorem expandable_length (H : String → Nat) (pol : Policy) (E : List Entity) :
    (expandable H pol E).length = E.length * (pol.resources.flatMap (·.relations)).length := by
  unfold expandable
  have h : ∀ o : Entity, (pol.resources.flatMap (fun r => r.relations.map (fun d => H (o.resource ++ "/" ++ o.id ++ "/" ++ d.name)))).length =
      (pol.resources.flatMap (·.relations)).length := by
    intro o
    induction pol.resources with
    | nil => rfl
    | cons r rs ih => simp only [List.flatMap_cons, List.length_append, List.length_map, ih]
  induction E with
  | nil => simp
  | cons o E ih => rw [List.flatMap_cons, List.length_append, ih, h, List.length_cons, Nat.add_mul, Nat.one_mul, Nat.add_comm]

section
variable {env : Env} {pid : String} {L : List Relationship} {root : Option RelationNode} {I : Store → Prop}

/-- Stored subjects point to objects of the list. -/
theorem dest_among (hI : ∀ s, I s → ∀ r, Present s pid r → r ∈ L) {s : Store} (hs : I s) {p : EdgeKey × IRel} (hp : p ∈ s.edges pid) :
    (∀ o rel, toPublicNode p.2.dest = .entitySet (some o) rel → o ∈ objectsAmong L root) ∧ (∀ o, toPublicNode p.2.dest = .entity (some o) → o ∈ objectsAmong L root) := by
  have hL : fromInternal p.2 ∈ L := hI s hs _ (List.mem_map.2 ⟨p, hp, rfl⟩)
  have key : ∀ o, pointsTo (subjectFromInternal p.2.dest) = some o → o ∈ objectsAmong L root := fun o ho =>
    List.mem_append_right _ (List.mem_filterMap.2 ⟨_, hL, ho⟩)
  constructor
  · intro o rel h
    refine key o ?_
    unfold toPublicNode at h
    unfold subjectFromInternal
    split at h <;> cases h
    rfl
  · intro o h
    refine key o ?_
    unfold toPublicNode at h
    unfold subjectFromInternal
    split at h <;> cases h
    rfl

/-- The nodes of a lookup. -/
theorem getSuccessors_ends (hI : ∀ s, I s → ∀ r, Present s pid r → r ∈ L) (o : Option Entity) (rel : String) {n : Nat} (hn : 1 ≤ n) :
    (Repo.getSuccessors env.H pid o rel).Ends I False n (fun m ns => m = n - 1 ∧ ∀ x ∈ ns,
      (∀ o rel, x = .entitySet (some o) rel → o ∈ objectsAmong L root) ∧ (∀ o, x = .entity (some o) → o ∈ objectsAmong L root)) := by
  unfold Repo.getSuccessors
  refine .lift_bind (fun h => ?_) (fun i _ => .op_bind hn (fun s hs => ?_))
  · cases o <;> cases h
  · refine ⟨rfl, fun x hx => ?_⟩
    simp only [Op.exec, List.map_map, List.mem_map, List.mem_filter, Function.comp_apply] at hx
    obtain ⟨p, ⟨hp, _⟩, rfl⟩ := hx
    exact dest_among hI hs hp

theorem evaluateRule_ends (hI : ∀ s, I s → ∀ r, Present s pid r → r ∈ L) {o : Entity} (ho : o ∈ objectsAmong L root) (rel : String) (rule : Rule) {n : Nat}
    (hn : lookups (.rule rule) ≤ n) : (evaluateRule env.H pid (some o) rel rule).Ends I False n
      (fun m ns => m = n - lookups (.rule rule) ∧ ∀ x ∈ ns, Among (objectsAmong L root) x) := by
  cases rule with
  | this =>
    refine (getSuccessors_ends (root := root) hI (some o) rel hn).mono (fun m ns _ h => ⟨h.1, fun x hx => ?_⟩)
    have := h.2 x hx
    cases x with
    | entitySet o rel => cases o with | none => trivial | some o => exact this.1 o rel rfl
    | _ => trivial
  | ttu a b =>
    refine (getSuccessors_ends (root := root) hI (some o) a hn).bind (fun m ns h => .lift (fun hf => ?_) (fun xs hxs => ⟨h.1, fun x hx => ?_⟩))
    · exact absurd hf (mapSliceErr_ne_fuel (fun n => by cases n <;> nofun) _)
    · obtain ⟨z, hz, he⟩ := (mapSliceErr_mem hxs).1 x hx
      have := h.2 z hz
      cases z with
      | entitySet o rel => cases he; cases o with | none => trivial | some o => exact this.1 o rel rfl
      | entity o => cases he; cases o with | none => trivial | some o => exact this.2 o rfl
      | wildcard r => cases he; trivial
      | unset => cases he
  | cu t => exact ⟨rfl, fun x hx => by simp only [List.mem_singleton] at hx; subst hx; exact ho⟩
  | unset => trivial

theorem buildGoalTree_ends (hI : ∀ s, I s → ∀ r, Present s pid r → r ∈ L) {o : Entity} (ho : o ∈ objectsAmong L root) (rel : String) (e : ExprTree) : ∀ {n : Nat},
    lookups e ≤ n → (buildGoalTree env.H pid (some o) rel e).Ends I False n (fun m t => m = n - lookups e ∧ ∀ x ∈ t.tops, Among (objectsAmong L root) x) := by
  induction e with
  | nil => intro n _; trivial
  | unset => intro n _; trivial
  | rule r =>
    intro n hn
    refine (evaluateRule_ends hI ho rel r hn).bind (fun m ns h => ⟨h.1, fun x hx => ?_⟩)
    rw [GoalTree.tops, mem_topsList] at hx
    obtain ⟨t, ht, hx⟩ := hx
    obtain ⟨z, hz, rfl⟩ := List.mem_map.1 ht
    simp only [GoalTree.tops, List.mem_singleton] at hx
    subst hx
    exact h.2 x hz
  | op l o r ihl ihr =>
    intro n hn
    simp only [lookups] at hn ⊢
    refine (ihl (n := n) (by omega)).bind (fun m a ha => (ihr (n := m) (by omega)).bind (fun m' b hb => ?_))
    have hm : m' = n - (lookups l + lookups r) := by omega
    cases o with
    | unknown => trivial
    | _ =>
      refine ⟨hm, fun x hx => ?_⟩
      simp only [GoalTree.tops, topsList, List.append_nil, List.mem_append] at hx
      exact hx.elim (ha.2 x) (hb.2 x)

theorem buildTree_ends {pol : Policy} {k : Nat} (hI : ∀ s, I s → ∀ r, Present s pol.id r → r ∈ L) (hk : ∀ y t, DefinedBy env.U pol y t → lookups t ≤ k)
    {x : RelationNode} (hx : Among (objectsAmong L root) x) (ht : x.isTerminal = false) {n : Nat} (hn : k ≤ n) :
    (buildTree env pol x).Ends I False n (fun m t => n - k ≤ m ∧ (∀ id, x.nodeId env.H = .ok id → id ∈ expandable env.H pol (objectsAmong L root)) ∧
      ∀ z ∈ t.tops, Among (objectsAmong L root) z) := by
  obtain ⟨o, rel, rfl⟩ := isTerminal_false ht
  cases o with
  | none => trivial
  | some o =>
    unfold buildTree
    refine .lift_bind nofun (fun o' ho' => ?_)
    cases ho'
    cases hr : (newLut pol).getRelation o.resource rel with
    | none => trivial
    | some d =>
      have hdec := newLut_relation hr
      obtain ⟨r, hr1, hr2, hd, hname⟩ := id hdec
      refine .lift_bind (fun h => absurd h (getExpressionTree_ne_fuel _ _)) (fun e he => ?_)
      have hke := hk ⟨o, rel⟩ e ⟨d, hdec, (getExpressionTree_ok_iff _ _ _).1 he⟩
      refine (buildGoalTree_ends (env := env) (pid := pol.id) hI hx rel e (n := n) (by omega)).mono (fun m t _ h => ⟨by omega, fun id hid => ?_, h.2⟩)
      cases hid
      unfold expandable
      refine List.mem_flatMap.2 ⟨o, hx, List.mem_flatMap.2 ⟨r, hr1, List.mem_map.2 ⟨d, hd, ?_⟩⟩⟩
      rw [hname]

end

/-! ### Walking the goal tree -/

section
variable {I : Store → Prop} {P : RelationNode → Prop} {k : Nat} {V : List Nat} {d : RelationNode → String → List Nat → Prog (GoalTree × List Nat)} {b : Nat}

mutual
theorem searchTree_ends (h : ∀ x r seen n, P x → unvisited V seen ≤ b → k * unvisited V seen ≤ n →
      (d x r seen).Ends I False n (fun m a => seen ⊆ a.2 ∧ k * unvisited V a.2 ≤ m))
    (t : GoalTree) (seen : List Nat) (n : Nat) (hb : unvisited V seen ≤ b) (hn : k * unvisited V seen ≤ n) (ht : ∀ x ∈ t.tops, P x) :
    (searchTree d t seen).Ends I False n (fun m a => seen ⊆ a.2 ∧ k * unvisited V a.2 ≤ m) := by
  match t with
  | .or _ ps =>
    rw [searchTree]
    exact (searchOr_ends h ps seen n hb hn (by simpa [GoalTree.tops] using ht)).bind (fun m a ha => ha)
  | .and _ ps =>
    rw [searchTree]
    exact (searchAnd_ends h ps seen n hb hn (by simpa [GoalTree.tops] using ht)).bind (fun m a ha => ha)
  | .diff _ l r =>
    have hl : ∀ n ∈ l.tops, P n := fun n hn => ht n (by simp [GoalTree.tops, hn])
    have hr : ∀ n ∈ r.tops, P n := fun n hn => ht n (by simp [GoalTree.tops, hn])
    rw [searchTree]
    refine (searchTree_ends h l seen n hb hn hl).bind (fun m a ha => ?_)
    refine (searchTree_ends h r a.2 m (Nat.le_trans (unvisited_mono V ha.1) hb) ha.2 hr).bind (fun m' c hc => ?_)
    exact ⟨List.Subset.trans ha.1 hc.1, hc.2⟩
  | .leaf _ x r => rw [searchTree]; exact h x r seen n (ht x (by simp [GoalTree.tops])) hb hn
  | .path _ x r _ => rw [searchTree]; exact h x r seen n (ht x (by simp [GoalTree.tops])) hb hn

theorem searchOr_ends (h : ∀ x r seen n, P x → unvisited V seen ≤ b → k * unvisited V seen ≤ n →
      (d x r seen).Ends I False n (fun m a => seen ⊆ a.2 ∧ k * unvisited V a.2 ≤ m))
    (ts : List GoalTree) (seen : List Nat) (n : Nat) (hb : unvisited V seen ≤ b) (hn : k * unvisited V seen ≤ n) (ht : ∀ x ∈ topsList ts, P x) :
    (searchOr d ts seen).Ends I False n (fun m a => seen ⊆ a.2.2 ∧ k * unvisited V a.2.2 ≤ m) := by
  match ts with
  | [] => rw [searchOr]; exact ⟨fun _ h => h, hn⟩
  | t :: ts =>
    have hl : ∀ n ∈ t.tops, P n := fun n hn => ht n (by simp [topsList, hn])
    have hr : ∀ n ∈ topsList ts, P n := fun n hn => ht n (by simp [topsList, hn])
    rw [searchOr]
    refine (searchTree_ends h t seen n hb hn hl).bind (fun m a ha => ?_)
    obtain ⟨t', s'⟩ := a
    dsimp only
    split
    · exact ha
    · refine (searchOr_ends h ts s' m (Nat.le_trans (unvisited_mono V ha.1) hb) ha.2 hr).bind (fun m' c hc => ?_)
      exact ⟨List.Subset.trans ha.1 hc.1, hc.2⟩

theorem searchAnd_ends (h : ∀ x r seen n, P x → unvisited V seen ≤ b → k * unvisited V seen ≤ n →
      (d x r seen).Ends I False n (fun m a => seen ⊆ a.2 ∧ k * unvisited V a.2 ≤ m))
    (ts : List GoalTree) (seen : List Nat) (n : Nat) (hb : unvisited V seen ≤ b) (hn : k * unvisited V seen ≤ n) (ht : ∀ x ∈ topsList ts, P x) :
    (searchAnd d ts seen).Ends I False n (fun m a => seen ⊆ a.2.2 ∧ k * unvisited V a.2.2 ≤ m) := by
  match ts with
  | [] => rw [searchAnd]; exact ⟨fun _ h => h, hn⟩
  | t :: ts =>
    have hl : ∀ n ∈ t.tops, P n := fun n hn => ht n (by simp [topsList, hn])
    have hr : ∀ n ∈ topsList ts, P n := fun n hn => ht n (by simp [topsList, hn])
    rw [searchAnd]
    refine (searchTree_ends h t seen n hb hn hl).bind (fun m a ha => ?_)
    obtain ⟨t', s'⟩ := a
    dsimp only
    split
    · exact ha
    · refine (searchAnd_ends h ts s' m (Nat.le_trans (unvisited_mono V ha.1) hb) ha.2 hr).bind (fun m' c hc => ?_)
      exact ⟨List.Subset.trans ha.1 hc.1, hc.2⟩
end
end

section
variable {env : Env} {pol : Policy} {L : List Relationship} {root goal : Option RelationNode} {I : Store → Prop} {k : Nat}

theorem searchPath_ends (hI : ∀ s, I s → ∀ r, Present s pol.id r → r ∈ L) (hk : ∀ y t, DefinedBy env.U pol y t → lookups t ≤ k) (b : Nat) :
    ∀ fuel, b < fuel → ∀ x r seen n, Among (objectsAmong L root) x → unvisited (expandable env.H pol (objectsAmong L root)) seen ≤ b →
      k * unvisited (expandable env.H pol (objectsAmong L root)) seen ≤ n →
      (searchPath env pol goal fuel x r seen).Ends I False n
        (fun m a => seen ⊆ a.2 ∧ k * unvisited (expandable env.H pol (objectsAmong L root)) a.2 ≤ m) := by
  induction b using Nat.strongRecOn with
  | _ b ih =>
  intro fuel hf x r seen n hx hb hn
  obtain ⟨f, rfl⟩ : ∃ f, fuel = f + 1 := ⟨fuel - 1, by omega⟩
  unfold searchPath
  refine .lift_bind (fun h => absurd h (nodeId_ne_fuel _ _)) (fun id hid => ?_)
  split
  · exact ⟨fun _ h => h, hn⟩
  · next hseen =>
    refine .lift_bind (fun h => absurd h (goalFound_ne_fuel _ _)) (fun found hg => ?_)
    split
    · exact ⟨List.subset_cons_self _ _, Nat.le_trans (Nat.mul_le_mul_left _ (unvisited_mono _ (List.subset_cons_self _ _))) hn⟩
    · next hterm =>
      have hterm : x.isTerminal = false := by simp at hterm; exact hterm.2
      by_cases hmem : id ∈ expandable env.H pol (objectsAmong L root)
      · have hlt := unvisited_lt hmem hseen
        have hmul : k * unvisited (expandable env.H pol (objectsAmong L root)) (id :: seen) + k ≤ n := by
          refine Nat.le_trans ?_ hn
          rw [← Nat.mul_succ]
          exact Nat.mul_le_mul_left _ hlt
        refine (buildTree_ends hI hk hx hterm (n := n) (by omega)).bind (fun m t ht => ?_)
        refine (searchTree_ends (P := Among (objectsAmong L root)) (k := k) (b := unvisited (expandable env.H pol (objectsAmong L root)) (id :: seen))
          (fun x r s n hx hb hn => ih _ (by omega) f (by omega) x r s n hx hb hn) t (id :: seen) m (Nat.le_refl _) (by omega) ht.2.2).bind (fun m' a ha => ?_)
        exact ⟨List.Subset.trans (List.subset_cons_self _ _) ha.1, ha.2⟩
      · refine .bind (P := fun _ _ => False) ?_ (fun _ _ h => h.elim)
        obtain ⟨o, rel, rfl⟩ := isTerminal_false hterm
        cases o with
        | none => trivial
        | some o =>
          unfold buildTree
          refine .lift_bind nofun (fun o' ho' => ?_)
          cases ho'
          cases hr : (newLut pol).getRelation o.resource rel with
          | none => trivial
          | some d =>
            obtain ⟨r, hr1, hr2, hd, hname⟩ := newLut_relation hr
            refine absurd ?_ hmem
            cases hid
            unfold expandable
            refine List.mem_flatMap.2 ⟨o, hx, List.mem_flatMap.2 ⟨r, hr1, List.mem_map.2 ⟨d, hd, ?_⟩⟩⟩
            rw [hname]

theorem searchGoal_ends (hI : ∀ s, I s → ∀ r, Present s pol.id r → r ∈ L) (hk : ∀ y t, DefinedBy env.U pol y t → lookups t ≤ k) {m fuel : Nat}
    (hm : (pol.resources.flatMap (·.relations)).length ≤ m) (hf : (L.length + 1) * m < fuel) (root goal : Option RelationNode) {n : Nat}
    (hn : (L.length + 1) * m * k ≤ n) : (searchGoal env fuel pol root goal).Ends I False n (fun _ _ => True) := by
  have hlen : (expandable env.H pol (objectsAmong L root)).length ≤ (L.length + 1) * m := by
    rw [expandable_length]
    exact Nat.mul_le_mul (objectsAmong_length L root) hm
  have key : (Prog.lift (Res.deref root) >>= fun origin => searchPath env pol goal fuel origin "Request" [] >>= fun p => (pure p.1 : Prog GoalTree)).Ends I False n (fun _ _ => True) := by
    refine .lift_bind (fun h => by cases root <;> cases h) (fun o ho => ?_)
    cases root with
    | none => cases ho
    | some x =>
      have ho : x = o := by cases ho; rfl
      subst ho
      have hx : Among (objectsAmong L (some x)) x := by
        cases x with
        | entitySet o rel => cases o with | none => trivial | some o => exact List.mem_append_left _ List.mem_cons_self
        | _ => trivial
      have hu : unvisited (expandable env.H pol (objectsAmong L (some x))) [] ≤ (L.length + 1) * m := Nat.le_trans (List.length_filter_le _ _) hlen
      refine (searchPath_ends hI hk ((L.length + 1) * m) fuel hf x "Request" [] n hx hu ?_).bind (fun _ _ _ => trivial)
      rw [Nat.mul_comm]
      exact Nat.le_trans (Nat.mul_le_mul_right _ hu) hn
  unfold searchGoal
  rcases goal with _ | g
  · exact key
  · cases g with
    | wildcard _ => trivial
    | _ => exact key

end

/-! ### Larger bounds on the recursion -/

/-- The second program continues where the first runs out of fuel, and otherwise does the same. -/
inductive Cut {α : Type} : Prog α → Prog α → Prop
  | same (r : Res α) : Cut (.done r) (.done r)
  | fuel (q : Prog α) : Cut (.done .fuel) q
  | call {op : Op} {k k' : Option op.Resp → Prog α} : (∀ r, Cut (k r) (k' r)) → Cut (.call op k) (.call op k')

namespace Cut

theorem refl {α : Type} (p : Prog α) : Cut p p := by
  induction p with
  | done r => exact .same r
  | call op k ih => exact .call ih

theorem bind {α β : Type} {p q : Prog α} {f g : α → Prog β} (h : Cut p q) (hf : ∀ a, Cut (f a) (g a)) : Cut (p >>= f) (q >>= g) := by
  show Cut (p.bind f) (q.bind g)
  induction h with
  | same r =>
    cases r with
    | ok a => exact hf a
    | err e => exact .same _
    | panic => exact .same _
    | fuel => exact .same _
  | fuel q => exact .fuel _
  | call _ ih => exact .call ih

end Cut

section
variable {d d' : RelationNode → String → List Nat → Prog (GoalTree × List Nat)}

mutual
theorem searchTree_cut (h : ∀ x r seen, Cut (d x r seen) (d' x r seen)) (t : GoalTree) (seen : List Nat) : Cut (searchTree d t seen) (searchTree d' t seen) := by
  match t with
  | .or _ ps => rw [searchTree, searchTree]; exact (searchOr_cut h ps seen).bind (fun _ => .refl _)
  | .and _ ps => rw [searchTree, searchTree]; exact (searchAnd_cut h ps seen).bind (fun _ => .refl _)
  | .diff _ l r =>
    rw [searchTree, searchTree]
    exact (searchTree_cut h l seen).bind (fun a => (searchTree_cut h r a.2).bind (fun _ => .refl _))
  | .leaf _ x r => rw [searchTree, searchTree]; exact h x r seen
  | .path _ x r _ => rw [searchTree, searchTree]; exact h x r seen

theorem searchOr_cut (h : ∀ x r seen, Cut (d x r seen) (d' x r seen)) (ts : List GoalTree) (seen : List Nat) : Cut (searchOr d ts seen) (searchOr d' ts seen) := by
  match ts with
  | [] => rw [searchOr, searchOr]; exact .refl _
  | t :: ts =>
    rw [searchOr, searchOr]
    refine (searchTree_cut h t seen).bind (fun a => ?_)
    obtain ⟨t', s'⟩ := a
    dsimp only
    split
    · exact .refl _
    · exact (searchOr_cut h ts s').bind (fun _ => .refl _)

theorem searchAnd_cut (h : ∀ x r seen, Cut (d x r seen) (d' x r seen)) (ts : List GoalTree) (seen : List Nat) : Cut (searchAnd d ts seen) (searchAnd d' ts seen) := by
  match ts with
  | [] => rw [searchAnd, searchAnd]; exact .refl _
  | t :: ts =>
    rw [searchAnd, searchAnd]
    refine (searchTree_cut h t seen).bind (fun a => ?_)
    obtain ⟨t', s'⟩ := a
    dsimp only
    split
    · exact .refl _
    · exact (searchAnd_cut h ts s').bind (fun _ => .refl _)
end
end

theorem searchPath_cut (env : Env) (pol : Policy) (goal : Option RelationNode) : ∀ (f f' : Nat), f ≤ f' → ∀ x r seen,
    Cut (searchPath env pol goal f x r seen) (searchPath env pol goal f' x r seen) := by
  intro f
  induction f with
  | zero => intro f' _ x r seen; exact .fuel _
  | succ f ih =>
    intro f' hf x r seen
    obtain ⟨f', rfl⟩ : ∃ g, f' = g + 1 := ⟨f' - 1, by omega⟩
    unfold searchPath
    refine (Cut.refl _).bind (fun id => ?_)
    split
    · exact .refl _
    · refine (Cut.refl _).bind (fun found => ?_)
      split
      · exact .refl _
      · refine (Cut.refl _).bind (fun t => ?_)
        exact (searchTree_cut (ih f' (by omega)) t _).bind (fun _ => .refl _)

theorem searchGoal_cut (env : Env) (pol : Policy) (root goal : Option RelationNode) {f f' : Nat} (hf : f ≤ f') :
    Cut (searchGoal env f pol root goal) (searchGoal env f' pol root goal) := by
  have key : Cut (Prog.lift (Res.deref root) >>= fun origin => searchPath env pol goal f origin "Request" [] >>= fun p => (pure p.1 : Prog GoalTree))
      (Prog.lift (Res.deref root) >>= fun origin => searchPath env pol goal f' origin "Request" [] >>= fun p => (pure p.1 : Prog GoalTree)) :=
    (Cut.refl _).bind (fun o => (searchPath_cut env pol goal f f' hf o "Request" []).bind (fun _ => .refl _))
  unfold searchGoal
  rcases goal with _ | g
  · exact key
  · cases g with
    | wildcard _ => exact .refl _
    | _ => exact key

theorem Call.prog_cut (env : Env) {c : Call} {fuel fuel' : Nat} {pid : String} (hc : searches c = some (fuel, pid)) (hf : fuel ≤ fuel') :
    Cut (c.prog env) ((withFuel fuel' c).prog env) := by
  cases c with
  | check f q req =>
    cases hc
    exact ((Cut.refl _).bind (fun rec => Cut.bind ((Cut.refl _).bind (fun r => searchGoal_cut env _ _ _ hf)) (fun _ => .refl _))).bind (fun _ => .refl _)
  | explainCheck f q req fmt =>
    cases hc
    exact ((Cut.refl _).bind (fun _ => (Cut.refl _).bind (fun rec => Cut.bind ((Cut.refl _).bind (fun r => searchGoal_cut env _ _ _ hf)) (fun _ => .refl _)))).bind (fun _ => .refl _)
  | expand f q root fmt =>
    cases hc
    exact ((Cut.refl _).bind (fun _ => (Cut.refl _).bind (fun rec => Cut.bind (searchGoal_cut env _ _ _ hf) (fun _ => .refl _)))).bind (fun _ => .refl _)
  | _ => cases hc

/-- The same schedule serves the program that continues, until the first one runs out of fuel. -/
theorem Sys.Attended.cut {env : Env} {A : Call → Prop} {x y : Sys} {c c' : Call} {n : Nat} {hist : List Store} {t : Prog Answer}
    (hc : Cut (c.prog env) (c'.prog env)) (h : Attended env A x c n hist y t) (ht : t ≠ .done .fuel) : ∃ t', Attended env A x c' n hist y t' ∧ Cut t t' := by
  induction h with
  | start hp => exact ⟨_, .start hp, hc⟩
  | @own n o k h ts s s' resp b hf hs ih =>
    obtain ⟨t', h1, h2⟩ := ih nofun
    cases h2 with
    | call hk => exact ⟨_, .own h1 hs, hk resp⟩
  | arrive c' hc' _ ih =>
    obtain ⟨t', h1, h2⟩ := ih ht
    exact ⟨t', .arrive c' hc' h1, h2⟩
  | op _ hs ih =>
    obtain ⟨t', h1, h2⟩ := ih ht
    exact ⟨t', .op h1 hs, h2⟩
  | leave _ ih =>
    obtain ⟨t', h1, h2⟩ := ih ht
    exact ⟨t', .leave h1, h2⟩

/-! ### The service's own and others' calls -/

namespace Sys.Attended

variable {env : Env} {A : Call → Prop} {x : Sys} {c : Call}

theorem own_bind {α : Type} {n : Nat} {h : List Store} {ts : List (Prog Answer)} {s s' : Store} {p : Prog α} {k : α → Prog Answer} {a : α}
    (hf : Attended env A x c n h ⟨ts, s⟩ (p >>= k)) (hr : p.run s = (.ok a, s')) :
    ∃ h', Attended env A x c (n + (calls p s).length) h' ⟨ts, s'⟩ (k a) := by
  replace hf : Attended env A x c n h ⟨ts, s⟩ (p.bind k) := hf
  induction p generalizing h s n with
  | done r => cases hr; exact ⟨_, hf⟩
  | call o f ih =>
    obtain ⟨h', e⟩ := ih _ hr (Attended.own hf (.ok o s))
    refine ⟨h', ?_⟩
    rw [calls, List.length_cons]
    rw [show n + ((calls (f (some (o.exec s).1)) (o.exec s).2).length + 1) = n + 1 + (calls (f (some (o.exec s).1)) (o.exec s).2).length by omega]
    exact e

theorem served {n : Nat} {h : List Store} {s : Store} {t : Prog Answer} (hf : Attended env A x c n h ⟨[], s⟩ t) (d : Call) (hd : A d) :
    ∃ h', Attended env A x c n h' ⟨[], (serve env d s).2⟩ t := by
  have : ∀ (p : Prog Answer) (h : List Store) (s : Store), Attended env A x c n h ⟨[] ++ p :: [], s⟩ t →
      ∃ h', Attended env A x c n h' ⟨[], (p.run s).2⟩ t := by
    intro p
    induction p with
    | done r => intro h s hf; exact ⟨_, .leave hf⟩
    | call o f ih => intro h s hf; exact ih _ _ _ (.op hf (.ok o s))
  exact this _ _ _ (.arrive d hd hf)

end Sys.Attended

end Zanzi
