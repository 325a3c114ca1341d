import Verif.Spec.Rewrite
import Verif.Lemmas.Bystander

/-
Searches of regrouped trees.  Every tree is compared with a canonical one: nested unions and nested intersections flattened, repeated alternatives
dropped, nodes replaced by the ones they are defined as.
-/

namespace Zanzi

open Spec

/-- The node a node is defined as. -/
def aliased (al : String → String → Option String) : RelationNode → RelationNode
  | .entitySet (some o) a => match al o.resource a with
    | some b => .entitySet (some o) b
    | none => .entitySet (some o) a
  | n => n

/-- Nodes of the leaves of a list. -/
def leafNodes : List GoalTree → List RelationNode
  | [] => []
  | .leaf _ n _ :: ts => n :: leafNodes ts
  | _ :: ts => leafNodes ts

/-- Leaves whose node has occurred are dropped. -/
def dropRepeated : List RelationNode → List GoalTree → List GoalTree
  | _, [] => []
  | acc, .leaf r n s :: ts => if n ∈ acc then dropRepeated acc ts else .leaf r n s :: dropRepeated (n :: acc) ts
  | acc, .or a ps :: ts => .or a ps :: dropRepeated acc ts
  | acc, .and a ps :: ts => .and a ps :: dropRepeated acc ts
  | acc, .diff a l r :: ts => .diff a l r :: dropRepeated acc ts
  | acc, .path a n s c :: ts => .path a n s c :: dropRepeated acc ts

def orItems : GoalTree → List GoalTree
  | .or _ ps => ps
  | t => [t]

def andItems : GoalTree → List GoalTree
  | .and _ ps => ps
  | t => [t]

mutual
def canon (σ : RelationNode → RelationNode) : GoalTree → GoalTree
  | .or _ ps => .or .unknown (dropRepeated [] (canonOr σ ps))
  | .and _ ps => .and .unknown (canonAnd σ ps)
  | .diff _ l r => .diff .unknown (canon σ l) (canon σ r)
  | .leaf _ n _ => .leaf .unknown (σ n) ""
  | .path _ n _ _ => .leaf .unknown (σ n) ""
def canonOr (σ : RelationNode → RelationNode) : List GoalTree → List GoalTree
  | [] => []
  | t :: ts => orItems (canon σ t) ++ canonOr σ ts
def canonAnd (σ : RelationNode → RelationNode) : List GoalTree → List GoalTree
  | [] => []
  | t :: ts => andItems (canon σ t) ++ canonAnd σ ts
end

theorem orItems_or (a : SearchResult) (ps : List GoalTree) : orItems (.or a ps) = ps := rfl

theorem andItems_and (a : SearchResult) (ps : List GoalTree) : andItems (.and a ps) = ps := rfl

theorem leafNodes_append (a b : List GoalTree) : leafNodes (a ++ b) = leafNodes a ++ leafNodes b := by
  induction a with
  | nil => rfl
  | cons t ts ih => cases t <;> simp [leafNodes, ih]

theorem dropRepeated_congr {l : List GoalTree} : ∀ {a b : List RelationNode}, (∀ n, n ∈ a ↔ n ∈ b) → dropRepeated a l = dropRepeated b l := by
  induction l with
  | nil => intros; rfl
  | cons t ts ih =>
    intro a b h
    cases t with
    | leaf r n s =>
      simp only [dropRepeated, h n]
      split
      · exact ih h
      · rw [ih (b := n :: b)]
        intro m; simp [h m]
    | _ => simp [dropRepeated, ih h]

theorem dropRepeated_append (l m : List GoalTree) : ∀ acc, dropRepeated acc (l ++ m) = dropRepeated acc l ++ dropRepeated (leafNodes l ++ acc) m := by
  induction l with
  | nil => intro acc; rfl
  | cons t ts ih =>
    intro acc
    cases t with
    | leaf r n s =>
      simp only [List.cons_append, dropRepeated, leafNodes]
      split
      · next h =>
        rw [ih]
        congr 1
        exact dropRepeated_congr (fun k => by simp only [List.mem_append, List.mem_cons]; constructor <;> grind)
      · rw [ih, List.cons_append]
        congr 2
        exact dropRepeated_congr (fun k => by simp only [List.mem_append, List.mem_cons]; constructor <;> grind)
    | _ => simp [dropRepeated, leafNodes, ih]

theorem dropRepeated_twice (l : List GoalTree) : ∀ {acc acc' : List RelationNode}, (∀ n ∈ acc', n ∈ acc) →
    dropRepeated acc (dropRepeated acc' l) = dropRepeated acc l := by
  induction l with
  | nil => intros; rfl
  | cons t ts ih =>
    intro acc acc' h
    cases t with
    | leaf r n s =>
      simp only [dropRepeated]
      by_cases h' : n ∈ acc'
      · rw [if_pos h', if_pos (h n h'), ih h]
      · rw [if_neg h']
        simp only [dropRepeated]
        by_cases hn : n ∈ acc
        · rw [if_pos hn, if_pos hn]
          exact ih (fun m hm => (List.mem_cons.1 hm).elim (fun e => e ▸ hn) (h m))
        · rw [if_neg hn, if_neg hn]
          congr 1
          exact ih (fun m hm => by
            rcases List.mem_cons.1 hm with rfl | hm
            · exact List.mem_cons_self
            · exact List.mem_cons_of_mem _ (h m hm))
    | _ => simp [dropRepeated, ih h]

theorem leafNodes_dropRepeated (l : List GoalTree) : ∀ (acc : List RelationNode) (n : RelationNode),
    n ∈ leafNodes (dropRepeated acc l) ∨ n ∈ acc ↔ n ∈ leafNodes l ∨ n ∈ acc := by
  induction l with
  | nil => intros; rfl
  | cons t ts ih =>
    intro acc n
    cases t with
    | leaf r m s =>
      simp only [dropRepeated, leafNodes]
      split
      · next h =>
        rw [ih, List.mem_cons]
        constructor <;> grind
      · have := ih (m :: acc) n
        simp only [leafNodes, List.mem_cons] at this ⊢
        grind
    | _ => simpa [dropRepeated, leafNodes] using ih acc n

theorem dropRepeated_nil {l : List GoalTree} : ∀ {acc : List RelationNode}, (∀ t ∈ l, ∃ r n s, t = .leaf r n s ∧ n ∈ acc) → dropRepeated acc l = [] := by
  induction l with
  | nil => intros; rfl
  | cons t ts ih =>
    intro acc h
    obtain ⟨r, n, s, rfl, hn⟩ := h t List.mem_cons_self
    rw [dropRepeated, if_pos hn]
    exact ih (fun t ht => h t (List.mem_cons_of_mem _ ht))

/-! ### Equal canonical trees -/

section
variable {H : String → Nat} {s : Store} {pid : String} {y : USet} {al : String → String → Option String}

local notation "cn" => canon (aliased al)

theorem canon_union (a b : GoalTree) : cn (.or .unknown [a, b]) = .or .unknown (dropRepeated [] (orItems (cn a) ++ orItems (cn b))) := by
  simp [canon, canonOr]

theorem canon_inter (a b : GoalTree) : cn (.and .unknown [a, b]) = .and .unknown (andItems (cn a) ++ andItems (cn b)) := by
  simp [canon, canonAnd]

theorem canonOr_leaves (ns : List RelationNode) (reason : String) :
    canonOr (aliased al) (ns.map (fun n => .leaf .unknown n reason)) = ns.map (fun n => .leaf .unknown (aliased al n) "") := by
  induction ns with
  | nil => simp [canonOr]
  | cons n ns ih => simp [canonOr, canon, orItems, ih]

theorem leafNodes_leaves (ns : List RelationNode) :
    leafNodes (ns.map (fun n => GoalTree.leaf .unknown (aliased al n) "")) = ns.map (aliased al) := by
  induction ns with
  | nil => rfl
  | cons n ns ih => simp [leafNodes, ih]

/-- Nodes of a rule's alternatives occur in the canonical tree. -/
theorem alternatives_leafNodes {x : Rule} : ∀ {l : ExprTree} {t : GoalTree}, pBuild H s pid y l = .ok t → x ∈ alternatives l →
    ∃ ns ps, ruleNodes H s pid y x = .ok ns ∧ cn t = .or .unknown (dropRepeated [] ps) ∧ ∀ n ∈ ns, aliased al n ∈ leafNodes (dropRepeated [] ps) := by
  intro l
  induction l with
  | nil => intro t h; cases h
  | unset => intro t h; cases h
  | rule r =>
    intro t h hx
    simp only [alternatives, List.mem_singleton] at hx
    subst hx
    unfold pBuild at h
    obtain ⟨ns, hns, h⟩ := Res.bind_eq_ok.1 h
    cases h
    refine ⟨ns, _, hns, by rw [canon], fun n hn => ?_⟩
    have := (leafNodes_dropRepeated (canonOr (aliased al) (ns.map (fun n => .leaf .unknown n (reasonBuilder x)))) [] (aliased al n)).2
    simp only [List.not_mem_nil, or_false] at this
    refine this ?_
    rw [canonOr_leaves, leafNodes_leaves]
    exact List.mem_map_of_mem hn
  | op l o r ihl ihr =>
    intro t h hx
    cases o with
    | union =>
      unfold pBuild at h
      obtain ⟨a, ha, h⟩ := Res.bind_eq_ok.1 h
      obtain ⟨b, hb, h⟩ := Res.bind_eq_ok.1 h
      cases h
      rw [alternatives, List.mem_append] at hx
      have key : ∀ (ns : List RelationNode) ps c, (c = a ∨ c = b) → cn c = .or .unknown (dropRepeated [] ps) → (∀ n ∈ ns, aliased al n ∈ leafNodes (dropRepeated [] ps)) →
          ∀ n ∈ ns, aliased al n ∈ leafNodes (dropRepeated [] (orItems (cn a) ++ orItems (cn b))) := by
        intro ns ps c hc hcn hps n hn
        have := (leafNodes_dropRepeated (orItems (cn a) ++ orItems (cn b)) [] (aliased al n)).2
        simp only [List.not_mem_nil, or_false] at this
        refine this ?_
        rw [leafNodes_append, List.mem_append]
        rcases hc with rfl | rfl
        · left; rw [hcn]; exact hps n hn
        · right; rw [hcn]; exact hps n hn
      rcases hx with hx | hx
      · obtain ⟨ns, ps, h1, h2, h3⟩ := ihl ha hx
        exact ⟨ns, _, h1, canon_union a b, key ns ps a (.inl rfl) h2 h3⟩
      · obtain ⟨ns, ps, h1, h2, h3⟩ := ihr hb hx
        exact ⟨ns, _, h1, canon_union a b, key ns ps b (.inr rfl) h2 h3⟩
    | intersection => cases hx
    | difference => cases hx
    | unknown => cases hx

/-- A union of rules becomes a list of their nodes. -/
theorem unionOnly_canon {acc : List RelationNode} : ∀ {r : ExprTree}, UnionOnly r → Whole r →
    (∀ x ∈ leaves r, ∃ ns, ruleNodes H s pid y x = .ok ns ∧ ∀ n ∈ ns, aliased al n ∈ acc) →
    ∃ t ps, pBuild H s pid y r = .ok t ∧ cn t = .or .unknown ps ∧ ∀ p ∈ ps, ∃ a n b, p = .leaf a n b ∧ n ∈ acc := by
  have hdrop : ∀ {l : List GoalTree} {a0 : List RelationNode} {p}, p ∈ dropRepeated a0 l → p ∈ l := by
    intro l
    induction l with
    | nil => intro a0 p h; cases h
    | cons t ts ih =>
      intro a0 p h
      cases t with
      | leaf r n s =>
        simp only [dropRepeated] at h
        split at h
        · exact List.mem_cons_of_mem _ (ih h)
        · rcases List.mem_cons.1 h with rfl | h
          · exact List.mem_cons_self
          · exact List.mem_cons_of_mem _ (ih h)
      | _ =>
        simp only [dropRepeated, List.mem_cons] at h ⊢
        exact h.imp id ih
  intro r
  induction r with
  | nil => intro _ h; cases h
  | unset => intro _ h; cases h
  | rule x =>
    intro _ _ h
    obtain ⟨ns, hns, hn⟩ := h x (by simp [leaves])
    refine ⟨_, _, by unfold pBuild; rw [hns, Res.bind_ok]; rfl, by rw [canon], fun p hp => ?_⟩
    have := hdrop hp
    rw [canonOr_leaves] at this
    obtain ⟨n, hm, rfl⟩ := List.mem_map.1 this
    exact ⟨_, _, _, rfl, hn n hm⟩
  | op l o r ihl ihr =>
    intro hu hw h
    cases o with
    | union =>
      obtain ⟨t, ps, h1, h2, h3⟩ := ihl hu.1 hw.2.1 (fun x hx => h x (List.mem_append_left _ hx))
      obtain ⟨t', ps', h1', h2', h3'⟩ := ihr hu.2 hw.2.2 (fun x hx => h x (List.mem_append_right _ hx))
      refine ⟨_, _, by unfold pBuild; rw [h1, h1', Res.bind_ok, Res.bind_ok]; rfl, canon_union _ _, fun p hp => ?_⟩
      have := hdrop hp
      rw [h2, h2', List.mem_append] at this
      exact this.elim (h3 p) (h3' p)
    | intersection => cases hu
    | difference => cases hu
    | unknown => cases hu

theorem whole_leaf : ∀ {r : ExprTree}, Whole r → ∃ x, x ∈ leaves r
  | .rule x, _ => ⟨x, by simp [leaves]⟩
  | .op l _ _, h => by obtain ⟨x, hx⟩ := whole_leaf h.2.1; exact ⟨x, List.mem_append_left _ hx⟩

/-- Canonical tree of an expression, when it can be built. -/
def cBuild (al' : String → String → Option String) (H : String → Nat) (s : Store) (pid : String) (y : USet) (e : ExprTree) : Res GoalTree :=
  pBuild H s pid y e >>= fun t => .ok (canon (aliased al') t)

theorem cBuild_cases {x x' : Res GoalTree} (hx : (x >>= fun t => Res.ok (cn t)) = (x' >>= fun t => Res.ok (cn t))) :
    (∃ a a', x = .ok a ∧ x' = .ok a' ∧ cn a = cn a') ∨ (x = x' ∧ ∀ a, x ≠ .ok a) := by
  cases x <;> cases x' <;> first | (left; exact ⟨_, _, rfl, rfl, Res.ok.inj hx⟩) | (right; exact ⟨by cases hx; rfl, nofun⟩) | cases hx

theorem regrouped_canon (hal : ∀ a b, al y.object.resource a = some b → al y.object.resource b = none) {e e' : ExprTree}
    (h : Regrouped (al y.object.resource) e e') : cBuild al H s pid y e = cBuild al H s pid y e' := by
  induction h with
  | refl => rfl
  | symm _ ih => exact ih.symm
  | trans _ _ h1 h2 => exact h1.trans h2
  | @operands l l' o r r' _ _ h1 h2 =>
    unfold cBuild at *
    unfold pBuild
    rcases cBuild_cases h1 with ⟨a, a', ha, ha', hl⟩ | ⟨hx, hno⟩
    · rcases cBuild_cases h2 with ⟨b, b', hb, hb', hr⟩ | ⟨hx, hno⟩
      · rw [ha, ha', hb, hb']
        simp only [Res.bind_ok]
        cases o with
        | union => show Res.ok _ = Res.ok _; rw [canon_union, canon_union, hl, hr]
        | intersection => show Res.ok _ = Res.ok _; rw [canon_inter, canon_inter, hl, hr]
        | difference => show Res.ok _ = Res.ok _; rw [canon, canon, hl, hr]
        | unknown => rfl
      · rw [ha, ha', ← hx]
        cases hr : pBuild H s pid y r with
        | ok b => exact absurd hr (hno b)
        | _ => rfl
    · rw [← hx]
      cases hl : pBuild H s pid y l with
      | ok b => exact absurd hl (hno b)
      | _ => rfl
  | unions l m r =>
    unfold cBuild
    simp only [pBuild]
    cases pBuild H s pid y l with
    | ok a =>
      cases pBuild H s pid y m with
      | ok b =>
        cases pBuild H s pid y r with
        | ok c =>
          show Res.ok (cn (.or .unknown [.or .unknown [a, b], c])) = Res.ok (cn (.or .unknown [a, .or .unknown [b, c]]))
          rw [canon_union, canon_union, canon_union, canon_union]
          simp only [orItems_or]
          congr 2
          rw [dropRepeated_append (dropRepeated [] _), dropRepeated_twice _ (fun _ h => h), dropRepeated_append, dropRepeated_append (orItems (cn a)) (dropRepeated [] _),
            dropRepeated_twice _ (fun _ h => by cases h), dropRepeated_append, List.append_assoc]
          congr 2
          refine dropRepeated_congr (fun n => ?_)
          have := leafNodes_dropRepeated (orItems (cn a) ++ orItems (cn b)) [] n
          rw [dropRepeated_append] at this
          simp only [List.not_mem_nil, or_false, leafNodes_append, List.mem_append, List.append_nil] at this ⊢
          grind
        | _ => rfl
      | _ => rfl
    | _ => rfl
  | intersections l m r =>
    unfold cBuild
    simp only [pBuild]
    cases pBuild H s pid y l with
    | ok a =>
      cases pBuild H s pid y m with
      | ok b =>
        cases pBuild H s pid y r with
        | ok c =>
          show Res.ok (cn (.and .unknown [.and .unknown [a, b], c])) = Res.ok (cn (.and .unknown [a, .and .unknown [b, c]]))
          rw [canon_inter, canon_inter, canon_inter, canon_inter]
          simp only [andItems_and, List.append_assoc]
        | _ => rfl
      | _ => rfl
    | _ => rfl
  | @repeated l r hu hw hx =>
    unfold cBuild
    cases hl : pBuild H s pid y l with
    | ok a =>
      obtain ⟨x0, hx0⟩ := whole_leaf hw
      obtain ⟨_, ps, _, hps, _⟩ := alternatives_leafNodes (al := al) hl (hx x0 hx0)
      obtain ⟨t, qs, ht, hqs, hq⟩ := unionOnly_canon (H := H) (s := s) (pid := pid) (y := y) (al := al) (acc := leafNodes (dropRepeated [] ps)) hu hw (fun x h => by
        obtain ⟨ns, ps', h1, h2, h3⟩ := alternatives_leafNodes (al := al) hl (hx x h)
        rw [hps] at h2
        exact ⟨ns, h1, by injection h2 with _ h2; rw [h2]; exact h3⟩)
      simp only [pBuild, hl, ht, Res.bind_ok]
      show Res.ok (cn (.or .unknown [a, t])) = Res.ok (cn a)
      rw [canon_union, hps, hqs]
      simp only [orItems_or]
      rw [dropRepeated_append, dropRepeated_twice _ (fun _ h => h), dropRepeated_nil (l := qs), List.append_nil]
      simpa using hq
    | _ => simp only [pBuild, hl]; rfl
  | @renamed a b h =>
    unfold cBuild
    simp only [pBuild, ruleNodes, Res.bind_ok]
    show Res.ok _ = Res.ok _
    simp [canon, canonOr, aliased, h, hal a b h]

end

end Zanzi
