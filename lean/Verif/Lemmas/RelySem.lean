import Verif.Lemmas.Rely

/-
Meaning of searches whose reads come from different stores.
-/

namespace Zanzi

open Spec Prog

/-- Trees built for an expression when `N` are the node lists a rule can give. -/
def Shape (N : Rule → List RelationNode → Prop) : ExprTree → GoalTree → Prop
  | .rule r, t => ∃ ns, N r ns ∧ t = .or .unknown (ns.map (fun n => .leaf .unknown n (reasonBuilder r)))
  | .op l o r, t => ∃ a b, Shape N l a ∧ Shape N r b ∧
      ((o = .union ∧ t = .or .unknown [a, b]) ∨ (o = .intersection ∧ t = .and .unknown [a, b]) ∨ (o = .difference ∧ t = .diff .unknown a b))
  | .nil, _ => False
  | .unset, _ => False

/-- Node lists rules can give when reads come from stores satisfying `I`. -/
def RuleReads (H : String → Nat) (I : Store → Prop) (pid : String) (x : USet) (r : Rule) (ns : List RelationNode) : Prop :=
  ∃ s, I s ∧ ruleNodes H s pid x r = .ok ns

section
variable {H : String → Nat} {I : Store → Prop} {pid : String} {x : USet}

theorem getSuccessors_reads {ns : List RelationNode} (h : (Repo.getSuccessors H pid (some x.object) x.relation).Reads I (.ok ns)) :
    ∃ s, I s ∧ ns = succs H s pid x := by
  unfold Repo.getSuccessors at h
  obtain ⟨n, h1, h⟩ := h.bind_ok
  cases h1.lift
  obtain ⟨es, h2, h⟩ := h.bind_ok
  obtain ⟨s, hs, rfl⟩ := Prog.Reads.op_ok (o := .edgeSucc pid _) h2
  cases h.pure
  exact ⟨s, hs, rfl⟩

theorem evaluateRule_reads (h0 : ∃ s, I s) {r : Rule} {ns : List RelationNode}
    (h : (evaluateRule H pid (some x.object) x.relation r).Reads I (.ok ns)) : RuleReads H I pid x r ns := by
  obtain ⟨s0, h0⟩ := h0
  cases r with
  | unset => cases h.lift
  | this =>
    obtain ⟨s, hs, rfl⟩ := getSuccessors_reads (x := x) h
    exact ⟨s, hs, rfl⟩
  | cu t => cases h.lift; exact ⟨s0, h0, rfl⟩
  | ttu a b =>
    obtain ⟨ms, h1, h2⟩ := Prog.Reads.bind_ok h
    obtain ⟨s, hs, rfl⟩ := getSuccessors_reads (x := ⟨x.object, a⟩) h1
    exact ⟨s, hs, h2.lift⟩

theorem buildGoalTree_reads (h0 : ∃ s, I s) : ∀ {e : ExprTree} {t : GoalTree},
    (buildGoalTree H pid (some x.object) x.relation e).Reads I (.ok t) → Shape (RuleReads H I pid x) e t := by
  intro e
  induction e with
  | nil => intro t h; cases h.lift
  | unset => intro t h; cases h.lift
  | rule r =>
    intro t h
    unfold buildGoalTree at h
    obtain ⟨ns, h1, h2⟩ := h.bind_ok
    cases h2.pure
    exact ⟨ns, evaluateRule_reads h0 h1, rfl⟩
  | op l o r ihl ihr =>
    intro t h
    unfold buildGoalTree at h
    obtain ⟨a, ha, h⟩ := h.bind_ok
    obtain ⟨b, hb, h⟩ := h.bind_ok
    refine ⟨a, b, ihl ha, ihr hb, ?_⟩
    cases o
    · cases h.pure; exact .inl ⟨rfl, rfl⟩
    · cases h.pure; exact .inr (.inl ⟨rfl, rfl⟩)
    · cases h.pure; exact .inr (.inr ⟨rfl, rfl⟩)
    · cases h.lift

theorem rbuilds_shape {env : Env} {pol : Policy} (hu : NamesUnique pol) (h0 : ∃ s, I s) {n : RelationNode} {t : GoalTree} (ht : n.isTerminal = false)
    (h : RBuilds env pol I n t) : ∃ x e, n = x.node ∧ DefinedBy env.U pol x e ∧ Shape (RuleReads env.H I pol.id x) e t := by
  obtain ⟨o, rel, rfl⟩ := isTerminal_false ht
  unfold RBuilds buildTree at h
  obtain ⟨o', h1, h⟩ := h.bind_ok
  replace h1 := h1.lift
  cases o with
  | none => cases h1
  | some o =>
    cases h1
    split at h
    · cases h.lift
    · next d hd =>
      obtain ⟨e, h2, h3⟩ := h.bind_ok
      exact ⟨⟨_, rel⟩, e, rfl, ⟨d, ((C11_lookup_exact pol hu _ _).1 d).1 hd, (getExpressionTree_ok_iff _ _ _).1 h2.lift⟩, buildGoalTree_reads h0 h3⟩

/-! ### Facts about shapes -/

variable {N : Rule → List RelationNode → Prop}

theorem Shape.formed : ∀ {e : ExprTree} {t : GoalTree}, Shape N e t → t.Formed ∧ t.isOp = true := by
  intro e
  induction e with
  | nil => intro t h; exact h.elim
  | unset => intro t h; exact h.elim
  | rule r =>
    rintro t ⟨ns, _, rfl⟩
    refine ⟨formedList_iff.2 ?_, rfl⟩
    simp only [List.mem_map]
    rintro t ⟨n, _, rfl⟩
    exact trivial
  | op l o r ihl ihr =>
    rintro t ⟨a, b, ha, hb, h⟩
    obtain ⟨fa, oa⟩ := ihl ha
    obtain ⟨fb, ob⟩ := ihr hb
    rcases h with ⟨_, rfl⟩ | ⟨_, rfl⟩ | ⟨_, rfl⟩
    · exact ⟨⟨fa, fb, trivial⟩, rfl⟩
    · exact ⟨⟨⟨fa, fb, trivial⟩, by simp [oa, ob], by simp⟩, rfl⟩
    · exact ⟨⟨fa, fb, oa, ob⟩, rfl⟩

theorem Shape.plain : ∀ {e : ExprTree} {t : GoalTree}, UnionOnly e → Shape N e t → t.Plain false := by
  intro e
  induction e with
  | nil => intro t _ h; exact h.elim
  | unset => intro t _ h; exact h.elim
  | rule r =>
    rintro t _ ⟨ns, _, rfl⟩
    exact pBuild_plain_rule
  | op l o r ihl ihr =>
    rintro t hu ⟨a, b, ha, hb, h⟩
    rcases h with ⟨rfl, rfl⟩ | ⟨rfl, _⟩ | ⟨rfl, _⟩
    · rw [GoalTree.Plain]
      exact ⟨ihl hu.1 ha, ihr hu.2 hb, trivial⟩
    · exact hu.elim
    · exact hu.elim

theorem Shape.tops : ∀ {e : ExprTree} {t : GoalTree}, Shape N e t → ∀ n ∈ t.tops, ∃ r ∈ leaves e, ∃ ns, N r ns ∧ n ∈ ns := by
  intro e
  induction e with
  | nil => intro t h; exact h.elim
  | unset => intro t h; exact h.elim
  | rule r =>
    rintro t ⟨ns, hns, rfl⟩ n hn
    rw [GoalTree.tops, mem_topsList] at hn
    obtain ⟨t, ht, hn⟩ := hn
    obtain ⟨m, hm, rfl⟩ := List.mem_map.1 ht
    rw [GoalTree.tops, List.mem_singleton] at hn
    subst hn
    exact ⟨r, by simp [leaves], ns, hns, hm⟩
  | op l o r ihl ihr =>
    rintro t ⟨a, b, ha, hb, h⟩ n hn
    have key : n ∈ a.tops ∨ n ∈ b.tops := by
      rcases h with ⟨_, rfl⟩ | ⟨_, rfl⟩ | ⟨_, rfl⟩ <;> simpa [GoalTree.tops, topsList] using hn
    rcases key with hn | hn
    · obtain ⟨q, h1, h2⟩ := ihl ha n hn
      exact ⟨q, by simp [leaves, h1], h2⟩
    · obtain ⟨q, h1, h2⟩ := ihr hb n hn
      exact ⟨q, by simp [leaves, h1], h2⟩

theorem Shape.semUp_const {P : Prop} : ∀ {e : ExprTree} {t : GoalTree}, Shape N e t → t.SemUp (fun _ => P) → P := by
  intro e
  induction e with
  | nil => intro t h; exact h.elim
  | unset => intro t h; exact h.elim
  | rule r =>
    rintro t ⟨ns, hns, rfl⟩ h
    rw [GoalTree.SemUp, semUpAny_iff] at h
    obtain ⟨t, ht, h⟩ := h
    obtain ⟨m, hm, rfl⟩ := List.mem_map.1 ht
    rw [GoalTree.SemUp] at h
    exact h
  | op l o r ihl ihr =>
    rintro t ⟨a, b, ha, hb, h⟩ hs
    rcases h with ⟨_, rfl⟩ | ⟨_, rfl⟩ | ⟨_, rfl⟩
    · simp only [GoalTree.SemUp, SemUpAny, or_false] at hs
      exact hs.elim (ihl ha) (ihr hb)
    · simp only [GoalTree.SemUp, SemUpAll, and_true] at hs
      exact ihl ha hs.1
    · simp only [GoalTree.SemUp] at hs
      exact ihl ha hs

/-- Meaning of a shape above: what may be read bounds what succeeds. -/
theorem Shape.semUp {R : Relationship → Prop} {V : USet → Prop} {u : Entity}
    (hN : ∀ r ns, N r ns → (∃ n ∈ ns, NodeIn V u n) → RuleIn R u V x r) : ∀ {e : ExprTree} {t : GoalTree},
    (Shape N e t) → t.SemUp (NodeIn V u) → ExprIn R u V x (positive e) := by
  intro e
  induction e with
  | nil => intro t h; exact h.elim
  | unset => intro t h; exact h.elim
  | rule r =>
    rintro t ⟨ns, hns, rfl⟩ h
    rw [GoalTree.SemUp, semUpAny_iff] at h
    obtain ⟨t, ht, h⟩ := h
    obtain ⟨m, hm, rfl⟩ := List.mem_map.1 ht
    rw [GoalTree.SemUp] at h
    exact hN r ns hns ⟨m, hm, h⟩
  | op l o r ihl ihr =>
    rintro t ⟨a, b, ha, hb, h⟩ hs
    rcases h with ⟨rfl, rfl⟩ | ⟨rfl, rfl⟩ | ⟨rfl, rfl⟩
    · simp only [GoalTree.SemUp, SemUpAny, or_false] at hs
      exact hs.imp (ihl ha) (ihr hb)
    · simp only [GoalTree.SemUp, SemUpAll, and_true] at hs
      exact ⟨ihl ha hs.1, ihr hb hs.2⟩
    · simp only [GoalTree.SemUp] at hs
      exact ihl ha hs

/-- Meaning of a union-only shape below: what is surely read succeeds. -/
theorem Shape.sem {R : Relationship → Prop} {V : USet → Prop} {u : Entity}
    (hN : ∀ r ns, N r ns → RuleIn R u V x r → ∃ n ∈ ns, NodeIn V u n) : ∀ {e : ExprTree} {t : GoalTree},
    UnionOnly e → (Shape N e t) → ExprIn R u V x e → t.Sem (NodeIn V u) := by
  intro e
  induction e with
  | nil => intro t _ h; exact h.elim
  | unset => intro t _ h; exact h.elim
  | rule r =>
    rintro t _ ⟨ns, hns, rfl⟩ h
    rw [GoalTree.Sem, semAny_iff]
    obtain ⟨m, hm, h⟩ := hN r ns hns h
    exact ⟨_, List.mem_map.2 ⟨m, hm, rfl⟩, h⟩
  | op l o r ihl ihr =>
    rintro t hu ⟨a, b, ha, hb, h⟩ hs
    rcases h with ⟨rfl, rfl⟩ | ⟨rfl, _⟩ | ⟨rfl, _⟩
    · simp only [GoalTree.Sem, SemAny, or_false]
      exact hs.imp (ihl hu.1 ha) (ihr hu.2 hb)
    · exact hu.elim
    · exact hu.elim

end

/-! ### No access out of thin air -/

theorem mem_succs_present {H : String → Nat} {s : Store} {pid : String} {x : USet} {n : RelationNode} (h : n ∈ succs H s pid x) :
    ∃ r sub, Present s pid r ∧ r.subject = some sub ∧ n = subjectNode sub := by
  unfold succs at h
  simp only [List.mem_map, List.mem_filter, decide_eq_true_eq] at h
  obtain ⟨e, ⟨⟨k, e'⟩, ⟨hm, hkey⟩, rfl⟩, rfl⟩ := h
  exact ⟨fromInternal e', subjectFromInternal e'.dest, List.mem_map.2 ⟨_, hm, rfl⟩, rfl, (subjectNode_fromInternal _).symm⟩

theorem goalFound_namesUser {g : Option Entity} {n : RelationNode} (h : goalFound n (some (.entity g)) = .ok true) :
    ∃ u, g = some u ∧ (n = .entity (some u) ∨ n = .wildcard u.resource) := by
  cases g with
  | none =>
    cases n with
    | entity o => cases h
    | wildcard r => cases h
    | entitySet o r => cases h
    | unset => cases h
  | some u =>
    refine ⟨u, rfl, ?_⟩
    have := (goalFound_user (V := fun _ => False) h rfl).2 rfl
    cases n with
    | unset => exact this.elim
    | entitySet o rel => cases o <;> exact this.elim
    | wildcard r => exact .inr (by rw [show u.resource = r from this])
    | entity o =>
      cases o with
      | none => exact this.elim
      | some e => exact .inl (by rw [show e = u from this])

theorem ev_thin_air {env : Env} {pol : Policy} (hu : NamesUnique pol) {I : Store → Prop} (h0 : ∃ s, I s) {g : Option Entity} {o : Option Entity} {rel : String} {t : GoalTree}
    {seen : List Nat} (h : Ev env.H (RBuilds env pol I) (some (.entity g)) (.path (.entitySet o rel) "Request") [] (.tree t) seen)
    (ht : t.result = .success) : ∃ u, g = some u ∧ ∃ s r sub, I s ∧ Present s pol.id r ∧ r.subject = some sub ∧ (sub = .entity u ∨ sub = .resourceSet u.resource) := by
  have := h.sound (N := fun _ => ∃ u, g = some u ∧ ∃ s r sub, I s ∧ Present s pol.id r ∧ r.subject = some sub ∧ (sub = .entity u ∨ sub = .resourceSet u.resource))
    (P := fun n => (∃ o rel, n = .entitySet o rel) ∨ ∃ s r sub, I s ∧ Present s pol.id r ∧ r.subject = some sub ∧ n = subjectNode sub)
    (fun n hn hf => by
      obtain ⟨u, hg, hn'⟩ := goalFound_namesUser hf
      refine ⟨u, hg, ?_⟩
      rcases hn with ⟨o, rel, rfl⟩ | ⟨s, r, sub, hs, hp, hsub, rfl⟩
      · rcases hn' with h | h <;> cases h
      · refine ⟨s, r, sub, hs, hp, hsub, ?_⟩
        cases sub with
        | unset => rcases hn' with h | h <;> cases h
        | entitySet o rel => rcases hn' with h | h <;> cases h
        | entity e => rcases hn' with h | h <;> cases h; exact .inl rfl
        | resourceSet e => rcases hn' with h | h <;> cases h; exact .inr rfl)
    (fun n t _ hterm hb => by
      obtain ⟨x, e, rfl, hd, hsh⟩ := rbuilds_shape hu h0 hterm hb
      refine ⟨hsh.formed.1, fun m hm _ _ => ?_, hsh.semUp_const⟩
      obtain ⟨r, _, ns, ⟨s, hs, hns⟩, hmem⟩ := hsh.tops m hm
      cases r with
      | unset => cases hns
      | cu t => cases hns; rw [List.mem_singleton.1 hmem]; exact .inl ⟨_, _, rfl⟩
      | this =>
        cases hns
        obtain ⟨r, sub, h1, h2, h3⟩ := mem_succs_present hmem
        exact .inr ⟨s, r, sub, hs, h1, h2, h3⟩
      | ttu a b =>
        obtain ⟨h1, _⟩ := mapSliceErr_mem (f := buildTtuNode b) hns
        obtain ⟨k, _, hk⟩ := h1 m hmem
        cases k with
        | unset => cases hk
        | entity o => cases hk; exact .inl ⟨_, _, rfl⟩
        | entitySet o r => cases hk; exact .inl ⟨_, _, rfl⟩
        | wildcard o => cases hk; exact .inl ⟨_, _, rfl⟩)
  exact this (fun _ _ => .inl ⟨_, _, rfl⟩) ht

/-! ### Bounds for checks among writes -/

theorem RuleIn.mono {R R' : Relationship → Prop} (h : ∀ r, R r → R' r) {u : Entity} {V : USet → Prop} {x : USet} {r : Rule}
    (hr : RuleIn R u V x r) : RuleIn R' u V x r := by
  cases r with
  | unset => exact hr
  | cu t => exact hr
  | this =>
    obtain ⟨sub, h1, h2⟩ := hr
    exact ⟨sub, h _ h1, h2⟩
  | ttu a b =>
    obtain ⟨sub, e, h1, h2⟩ := hr
    exact ⟨sub, e, h _ h1, h2⟩

theorem KeyClear.mono {H : String → Nat} {R R' : Relationship → Prop} (h : ∀ r, R r → R' r) {y : USet} (hk : KeyClear H R' y) : KeyClear H R y :=
  fun r o hr => hk r o (h r hr)

section
variable {env : Env} {I : Store → Prop} {pid : String} {p : Policy} {x : USet} {u : Entity} {R : Relationship → Prop}

/-- Expanding a userset reachable through the relationships `R`, which include everything that may be read. -/
theorem rbuilds_facts (hwf : ∀ s, I s → WF env s) (h0 : ∃ s, I s) (hid : p.id = pid) (hu : NamesUnique p) (hR : ∀ s r, I s → Present s pid r → R r)
    (hk : KeysClear env.U env.H p R x) {n : RelationNode} {t : GoalTree} (hr : Reaches env.U p R x n) (ht : n.isTerminal = false)
    (hb : RBuilds env p I n t) :
    ∃ y e, n = y.node ∧ DefinedBy env.U p y e ∧ Shape (RuleReads env.H I pid y) e t ∧
      (∀ m ∈ t.tops, Ok env.H (Reaches env.U p R x) m) ∧
      (∀ V r ns, r ∈ leaves e → RuleReads env.H I pid y r ns → ∃ s, I s ∧ ((∃ n ∈ ns, NodeIn V u n) ↔ RuleIn (Present s pid) u V y r)) := by
  obtain ⟨y, e, rfl, hd, hsh⟩ := rbuilds_shape hu h0 ht hb
  rw [hid] at hsh
  have k1 : KeyClear env.H R y := hk y y hr (.inl rfl)
  have k2 : ∀ a b, .ttu a b ∈ leaves e → KeyClear env.H R ⟨y.object, a⟩ := fun a b hab => hk y _ hr (.inr ⟨e, a, b, hd, hab, rfl⟩)
  refine ⟨y, e, rfl, hd, hsh, fun m hm id hmid => ?_, fun V r ns hr' hns => ?_⟩
  · obtain ⟨r, hrl, ns, ⟨s, hs, hns⟩, hmem⟩ := hsh.tops m hm
    have hmono := fun r => hR s r hs
    rcases (mem_ruleNodes (hwf s hs) (KeyClear.mono hmono k1) (fun a b h => KeyClear.mono hmono (k2 a b (h ▸ hrl))) hns m).1 hmem with
      ⟨rfl, sub, hp, rfl⟩ | ⟨c, rfl, rfl⟩ | ⟨a, b, sub, rfl, hp, rfl⟩
    · exact .step hr (.this hd hrl (hmono _ hp))
    · exact .step hr (.cu hd hrl)
    · cases he : pointsTo sub with
      | none => rw [he] at hmid; cases hmid
      | some e => exact .step hr (.arrow hd hrl (hmono _ hp) he)
  · obtain ⟨s, hs, hns⟩ := hns
    have hmono := fun r => hR s r hs
    exact ⟨s, hs, ruleNodes_in (hwf s hs) V u (KeyClear.mono hmono k1) (fun a b h => KeyClear.mono hmono (k2 a b (h ▸ hr'))) hns⟩

theorem Shape.restrict {N : Rule → List RelationNode → Prop} : ∀ {e : ExprTree} {t : GoalTree}, Shape N e t → Shape (fun r ns => r ∈ leaves e ∧ N r ns) e t := by
  have mono : ∀ {N N' : Rule → List RelationNode → Prop} (h : ∀ r ns, N r ns → N' r ns) {e : ExprTree} {t : GoalTree}, Shape N e t → Shape N' e t := by
    intro N N' h e
    induction e with
    | nil => intro t h; exact h.elim
    | unset => intro t h; exact h.elim
    | rule r => rintro t ⟨ns, h1, h2⟩; exact ⟨ns, h _ _ h1, h2⟩
    | op l o r ihl ihr => rintro t ⟨a, b, h1, h2, h3⟩; exact ⟨a, b, ihl h1, ihr h2, h3⟩
  intro e
  induction e with
  | nil => intro t h; exact h.elim
  | unset => intro t h; exact h.elim
  | rule r => rintro t ⟨ns, h1, h2⟩; exact ⟨ns, ⟨by simp [leaves], h1⟩, h2⟩
  | op l o r ihl ihr =>
    rintro t ⟨a, b, h1, h2, h3⟩
    exact ⟨a, b, mono (fun r ns h => ⟨by simp [leaves, h.1], h.2⟩) (ihl h1), mono (fun r ns h => ⟨by simp [leaves, h.1], h.2⟩) (ihr h2), h3⟩

/-- What succeeds is given by the relationships that may be read. -/
theorem ev_above (hwf : ∀ s, I s → WF env s) (h0 : ∃ s, I s) (hid : p.id = pid) (hu : NamesUnique p) (hR : ∀ s r, I s → Present s pid r → R r)
    (hk : KeysClear env.U env.H p R x) {t : GoalTree} {seen : List Nat}
    (h : Ev env.H (RBuilds env p I) (userGoal u) (.path x.node "Request") [] (.tree t) seen) (ht : t.result = .success) :
    GrantedAtMost env.U p R u x := by
  intro V hV
  have := h.sound (N := NodeIn V u) (P := Reaches env.U p R x)
    (fun n _ hf => (goalFound_user hf rfl).2 rfl)
    (fun n t hr hterm hb => by
      obtain ⟨y, e, rfl, hd, hsh, htops, hN⟩ := rbuilds_facts (u := u) hwf h0 hid hu hR hk hr hterm hb
      refine ⟨hsh.formed.1, htops, fun hsem => hV y e hd (Shape.semUp (fun r ns h hn => ?_) hsh.restrict hsem)⟩
      obtain ⟨s, hs, hiff⟩ := hN V r ns h.1 h.2
      exact RuleIn.mono (fun r => hR s r hs) (hiff.1 hn))
  exact this (fun _ _ => .start) ht

/-- What is given by the relationships that are surely read succeeds, for union-only expressions. -/
theorem ev_below (hwf : ∀ s, I s → WF env s) (h0 : ∃ s, I s) (hid : p.id = pid) (hu : NamesUnique p) (hR : ∀ s r, I s → Present s pid r → R r)
    (hk : KeysClear env.U env.H p R x) (hi : IdsClear env.U env.H p R x) (hun : ExprsFrom env.U p R x UnionOnly)
    {L : Relationship → Prop} (hL : ∀ s r, I s → L r → Present s pid r) {t : GoalTree} {seen : List Nat}
    (h : Ev env.H (RBuilds env p I) (userGoal u) (.path x.node "Request") [] (.tree t) seen) (hg : Granted env.U p L u x) :
    t.result = .success := by
  refine Classical.byContradiction (fun hne => ?_)
  have hc := h.closed (P := Reaches env.U p R x) (d := false) nofun
    (fun n t hr hterm hb => by
      obtain ⟨y, e, rfl, hd, hsh, htops, hN⟩ := rbuilds_facts (u := u) hwf h0 hid hu hR hk hr hterm hb
      exact ⟨hsh.plain (hun y e hr hd), htops⟩)
  obtain ⟨hv, hnew⟩ := hc (fun _ _ => .start) hne
  refine hg (fun y => ¬ (Reaches env.U p R x y.node ∧ Visited env.H seen y.node)) ?_ ⟨.start, hv⟩
  rintro y ⟨e, hd, he⟩ ⟨hr, id, hid', hyid⟩
  obtain ⟨n, hn, hnr, hcl⟩ := hnew id hid' (by simp)
  obtain rfl := hi _ _ _ hr hnr hyid hn
  obtain ⟨t', hb, htv⟩ := hcl.2 rfl
  obtain ⟨y', e', hy', hd', hsh, htops, hN⟩ := rbuilds_facts (u := u) hwf h0 hid hu hR hk hr rfl hb
  obtain ⟨y1, y2⟩ := y
  obtain ⟨z1, z2⟩ := y'
  cases hy'
  obtain rfl := DefinedBy.unique hu hd hd'
  have hsem := Shape.sem (R := L) (V := fun y => ¬ (Reaches env.U p R x y.node ∧ Visited env.H seen y.node)) (u := u) (x := ⟨y1, y2⟩)
    (fun r ns h hin => by
      obtain ⟨s, hs, hiff⟩ := hN (fun y => ¬ (Reaches env.U p R x y.node ∧ Visited env.H seen y.node)) r ns h.1 h.2
      exact hiff.2 (RuleIn.mono (fun r => hL s r hs) hin)) (hun _ e hr hd) hsh.restrict he
  obtain ⟨m, hm, hNm⟩ := Plain.sem_top (hsh.plain (hun _ e hr hd)) hsem
  obtain ⟨mid, hmid, hmv⟩ := htv m hm
  have hmr := htops m hm mid hmv
  obtain ⟨n, hn, hnr, hcl'⟩ := hnew mid hmid (by simp)
  obtain rfl := hi _ _ _ hmr hnr hmv hn
  cases hterm : m.isTerminal with
  | true => exact absurd ((goalFound_user hcl'.1 (by simp [hterm])).1 hNm) (by simp)
  | false =>
    obtain ⟨o, rel, rfl⟩ := isTerminal_false hterm
    cases o with
    | none => exact hNm
    | some o => exact hNm ⟨hmr, mid, hmid, hmv⟩

end

end Zanzi
