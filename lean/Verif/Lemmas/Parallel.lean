import Verif.Lemmas.Order

/-
Requests writing relationships with different storage keys, running at the same time.
-/

namespace Zanzi

open Spec Prog

/-- Storage calls reading policies, or reading and writing what is stored under keys in `K`. -/
def touchOp (K : EdgeKey → Prop) : Op → Prop
  | .polGet _ => True
  | .edgeGet _ k | .edgeSet _ k _ | .edgeDel _ k | .dataDel k => K k
  | .dataSet d => K d.relationshipId
  | _ => False

/-- What a call writes into the relationship store of `q` under `k`. -/
def effE (q : String) (k : EdgeKey) : Op → Option (Option IRel)
  | .edgeSet p k' r => if q = p ∧ k = k' then some (some r) else none
  | .edgeDel p k' => if q = p ∧ k = k' then some none else none
  | _ => none

/-- What a call writes into the record data under `k`. -/
def effD (k : EdgeKey) : Op → Option (Option RelData)
  | .dataSet d => if k = d.relationshipId then some (some d) else none
  | .dataDel k' => if k = k' then some none else none
  | _ => none

theorem effE_key {K : EdgeKey → Prop} {o : Op} (h : touchOp K o) {q : String} {k : EdgeKey} (hk : ¬ K k) : effE q k o = none := by
  cases o <;> simp only [effE] <;> (rw [if_neg]; rintro ⟨_, rfl⟩; exact hk h)

theorem effD_key {K : EdgeKey → Prop} {o : Op} (h : touchOp K o) {k : EdgeKey} (hk : ¬ K k) : effD k o = none := by
  cases o <;> simp only [effD] <;> (rw [if_neg]; rintro rfl; exact hk h)

theorem exec_edge {K : EdgeKey → Prop} {o : Op} (h : touchOp K o) (s : Store) (q : String) (k : EdgeKey) :
    kvGet ((o.exec s).2.edges q) k = (effE q k o).getD (kvGet (s.edges q) k) := by
  cases o
  case edgeSet p k' r =>
    simp only [Op.exec, Store.setEdges, effE]
    by_cases hq : q = p
    · subst hq
      simp only [if_true, kvGet_put, true_and]
      split <;> rfl
    · simp [hq]
  case edgeDel p k' =>
    simp only [Op.exec, Store.setEdges, effE]
    by_cases hq : q = p
    · subst hq
      simp only [if_true, kvGet_del, true_and]
      split <;> rfl
    · simp [hq]
  all_goals first | rfl | exact h.elim

theorem exec_data {K : EdgeKey → Prop} {o : Op} (h : touchOp K o) (s : Store) (k : EdgeKey) :
    kvGet (o.exec s).2.data k = (effD k o).getD (kvGet s.data k) := by
  cases o
  case dataSet d =>
    simp only [Op.exec, effD, kvGet_put]
    split <;> rfl
  case dataDel k' =>
    simp only [Op.exec, effD, kvGet_del]
    split <;> rfl
  all_goals first | rfl | exact h.elim

theorem exec_policies {K : EdgeKey → Prop} {o : Op} (h : touchOp K o) (s : Store) : (o.exec s).2.policies = s.policies := by
  cases o <;> first | rfl | exact h.elim

theorem exec_ordered {K : EdgeKey → Prop} (o : Op) (s : Store) (h : touchOp K o) (hs : EdgesOrdered s) : EdgesOrdered (o.exec s).2 := by
  cases o
  case edgeSet p k r =>
    intro q
    simp only [Op.exec, Store.setEdges]
    split
    · exact ⟨kvPut_nodup (hs p).1, edgePut_sorted (hs p).2 _ _⟩
    · exact hs q
  case edgeDel p k =>
    intro q
    simp only [Op.exec, Store.setEdges]
    split
    · exact ⟨kvDel_nodup (hs p).1, kvDel_sorted (hs p).2⟩
    · exact hs q
  all_goals exact hs

theorem sameMaps_of {s t : Store} (hs : EdgesOrdered s) (ht : EdgesOrdered t) (hp : s.policies = t.policies) (he : ∀ q k, kvGet (s.edges q) k = kvGet (t.edges q) k)
    (hd : ∀ k, kvGet s.data k = kvGet t.data k) : SameMaps s t := by
  refine ⟨hp, funext fun q => sorted_ext (hs q).2 (ht q).2 (fun p => ?_), hd⟩
  obtain ⟨k, e⟩ := p
  rw [mem_iff_kvGet (hs q).1, mem_iff_kvGet (ht q).1, he]

theorem op_comm {K K' : EdgeKey → Prop} {o o' : Op} (h : touchOp K o) (h' : touchOp K' o') (hk : ∀ k, K k → ¬ K' k) {s : Store} (hs : EdgesOrdered s) :
    (o'.exec (o.exec s).2).1 = (o'.exec s).1 ∧ SameMaps (o'.exec (o.exec s).2).2 (o.exec (o'.exec s).2).2 := by
  constructor
  · have hp := exec_policies h s
    have he : ∀ q k, K' k → kvGet ((o.exec s).2.edges q) k = kvGet (s.edges q) k := fun q k hk' => by
      rw [exec_edge h, effE_key h (fun h => hk k h hk')]
      rfl
    cases o'
    case polGet id => show kvGet (o.exec s).2.policies id = kvGet s.policies id; rw [hp]
    case edgeGet p k => exact he p k h'
    all_goals first | rfl | exact h'.elim
  · refine sameMaps_of (exec_ordered _ _ h' (exec_ordered _ _ h hs)) (exec_ordered _ _ h (exec_ordered _ _ h' hs)) (by simp only [exec_policies h, exec_policies h']) (fun q k => ?_) (fun k => ?_)
    · rw [exec_edge h', exec_edge h, exec_edge h, exec_edge h']
      by_cases hK : K k
      · rw [effE_key h' (hk k hK)]; rfl
      · rw [effE_key h hK]; rfl
    · rw [exec_data h', exec_data h, exec_data h, exec_data h']
      by_cases hK : K k
      · rw [effD_key h' (hk k hK)]; rfl
      · rw [effD_key h hK]; rfl

/-- Making a call before or after a program that touches other keys comes to the same. -/
theorem prog_comm {K K' : EdgeKey → Prop} {α : Type} {o : Op} {p : Prog α} (h : touchOp K o) (hp : p.AllOps (touchOp K')) (hk : ∀ k, K k → ¬ K' k) {s : Store} (hs : EdgesOrdered s) :
    (p.run (o.exec s).2).1 = (p.run s).1 ∧ (o.exec (p.run s).2).1 = (o.exec s).1 ∧ SameMaps (p.run (o.exec s).2).2 (o.exec (p.run s).2).2 := by
  induction hp generalizing s with
  | done r => exact ⟨rfl, rfl, .refl _⟩
  | call ho _ ih =>
    obtain ⟨h1, h2⟩ := op_comm h ho hk hs
    obtain ⟨h3, _⟩ := op_comm ho h (fun k h h' => hk k h' h) hs
    unfold Prog.run
    rw [h1]
    obtain ⟨i1, i2, i3⟩ := ih _ (exec_ordered _ _ ho hs)
    obtain ⟨j1, j2⟩ := SameMaps.run _ h2
    exact ⟨j1.trans i1, i2.trans h3, j2.trans i3⟩

/-- Programs run one after the other. -/
def seqRun : List (Prog Answer) → Store → List (Res Answer) × Store
  | [], s => ([], s)
  | p :: ps, s => ((p.run s).1 :: (seqRun ps (p.run s).2).1, (seqRun ps (p.run s).2).2)

theorem seqRun_calls (env : Env) (cs : List Call) (s : Store) : seqRun (cs.map (·.prog env)) s = runCalls env cs s := by
  induction cs generalizing s with
  | nil => rfl
  | cons c cs ih => simp only [List.map_cons, seqRun, ih, runCalls_cons]

theorem seqRun_done (rs : List (Res Answer)) (s : Store) : seqRun (rs.map .done) s = (rs, s) := by
  induction rs with
  | nil => rfl
  | cons r rs ih => simp only [List.map_cons, seqRun, Prog.run, ih]

theorem SameMaps.seqRun (ps : List (Prog Answer)) {s t : Store} (h : SameMaps s t) :
    (Zanzi.seqRun ps s).1 = (Zanzi.seqRun ps t).1 ∧ SameMaps (Zanzi.seqRun ps s).2 (Zanzi.seqRun ps t).2 := by
  induction ps generalizing s t with
  | nil => exact ⟨rfl, h⟩
  | cons p ps ih =>
    obtain ⟨h1, h2⟩ := SameMaps.run p h
    obtain ⟨h3, h4⟩ := ih h2
    simp only [Zanzi.seqRun]
    exact ⟨by rw [h1, h3], h4⟩

/-- What is left of requests, with the keys each may touch. -/
def Keyed (env : Env) (l : List (Call × Prog Answer)) : Prop :=
  (∀ x ∈ l, x.2.AllOps (touchOp (fun k => ∃ r, WritesRel x.1 r ∧ RelationshipComplete r ∧ relKey env.H r = k))) ∧ l.Pairwise (fun x y => Apart env x.1 y.1)

/-- One storage call of one request, the others waiting, leaves what running all of them in turn yields. -/
theorem seqRun_step {env : Env} {l₁ l₂ : List (Call × Prog Answer)} {c : Call} {o : Op} {k : Option o.Resp → Prog Answer} (hl : Keyed env (l₁ ++ (c, .call o k) :: l₂))
    {s : Store} (hs : EdgesOrdered s) :
    (seqRun ((l₁ ++ (c, .call o k) :: l₂).map (·.2)) s).1 = (seqRun ((l₁ ++ (c, k (some (o.exec s).1)) :: l₂).map (·.2)) (o.exec s).2).1 ∧
    SameMaps (seqRun ((l₁ ++ (c, .call o k) :: l₂).map (·.2)) s).2 (seqRun ((l₁ ++ (c, k (some (o.exec s).1)) :: l₂).map (·.2)) (o.exec s).2).2 := by
  have ho : touchOp (fun k => ∃ r, WritesRel c r ∧ RelationshipComplete r ∧ relKey env.H r = k) o := by
    have := hl.1 (c, .call o k) (by simp)
    cases this with
    | call ho _ => exact ho
  -- the answers and the state, whatever the earlier requests do
  suffices h : ∀ resp s', EdgesOrdered s → (o.exec s).1 = resp → SameMaps s' (o.exec s).2 →
      (seqRun ((l₁ ++ (c, .call o k) :: l₂).map (·.2)) s).1 = (seqRun ((l₁ ++ (c, k (some resp)) :: l₂).map (·.2)) s').1 ∧
      SameMaps (seqRun ((l₁ ++ (c, .call o k) :: l₂).map (·.2)) s).2 (seqRun ((l₁ ++ (c, k (some resp)) :: l₂).map (·.2)) s').2 from
    h _ _ hs rfl (.refl _)
  clear hs
  induction l₁ generalizing s with
  | nil =>
    intro resp s' hs hr hm
    subst hr
    obtain ⟨h1, h2⟩ := SameMaps.seqRun ((k (some (o.exec s).1)) :: l₂.map (·.2)) hm
    exact ⟨h1.symm, h2.symm⟩
  | cons x l₁ ih =>
    intro resp s' hs hr hm
    have hx := hl.1 x (by simp)
    have hap : Apart env x.1 c := (List.pairwise_cons.1 hl.2).1 (c, .call o k) (by simp)
    obtain ⟨h1, h2, h3⟩ := prog_comm ho hx (fun k => by
      rintro ⟨r, a1, a2, a3⟩ ⟨r', b1, b2, b3⟩
      exact hap r' r b1 a1 b2 a2 (b3.trans a3.symm)) hs
    obtain ⟨j1, j2⟩ := SameMaps.run x.2 hm
    obtain ⟨i1, i2⟩ := ih (s := (x.2.run s).2) ⟨fun y hy => hl.1 y (by simp at hy ⊢; exact .inr hy), (List.pairwise_cons.1 hl.2).2⟩ resp (x.2.run s').2
      (hx.run (I := EdgesOrdered) (fun o s h hs => exec_ordered o s h hs) hs) (h2.trans hr) (j2.trans h3)
    simp only [List.cons_append, List.map_cons, seqRun]
    exact ⟨by rw [i1, j1, h1], i2⟩

theorem interleaved_seq {env : Env} {l₀ : List (Call × Prog Answer)} (h₀ : Keyed env l₀) {s₀ : Store} (hs₀ : EdgesOrdered s₀) {ts : List (Prog Answer)} {s : Store}
    (h : Interleaved (l₀.map (·.2)) s₀ ts s) : EdgesOrdered s ∧ (∃ l, ts = l.map (·.2) ∧ Keyed env l) ∧
      (seqRun (l₀.map (·.2)) s₀).1 = (seqRun ts s).1 ∧ SameMaps (seqRun (l₀.map (·.2)) s₀).2 (seqRun ts s).2 := by
  induction h with
  | refl => exact ⟨hs₀, ⟨l₀, rfl, h₀⟩, rfl, .refl _⟩
  | @op o k ts₁ ts₂ s _ ih =>
    obtain ⟨hs, ⟨l, hl, hk⟩, h1, h2⟩ := ih
    obtain ⟨l₁, l', rfl, rfl, hl'⟩ := List.map_eq_append_iff.1 hl.symm
    obtain ⟨⟨c, p⟩, l₂, rfl, hp, rfl⟩ := List.map_eq_cons_iff.1 hl'
    cases hp
    have ho := hk.1 (c, .call o k) (by simp)
    have ⟨ho1, ho2⟩ : touchOp (fun k => ∃ r, WritesRel c r ∧ RelationshipComplete r ∧ relKey env.H r = k) o ∧
        ∀ r, (k r).AllOps (touchOp (fun k => ∃ r, WritesRel c r ∧ RelationshipComplete r ∧ relKey env.H r = k)) := by
      cases ho with
      | call a b => exact ⟨a, b⟩
    obtain ⟨h3, h4⟩ := seqRun_step hk hs
    simp only [List.map_append, List.map_cons] at h3 h4
    refine ⟨exec_ordered _ _ ho1 hs, ⟨l₁ ++ (c, k (some (o.exec s).1)) :: l₂, by simp, ?_, ?_⟩, h1.trans h3, h2.trans h4⟩
    · intro x hx
      simp only [List.mem_append, List.mem_cons] at hx
      rcases hx with hx | rfl | hx
      · exact hk.1 x (by simp [hx])
      · exact ho2 _
      · exact hk.1 x (by simp [hx])
    · have := hk.2
      rw [List.pairwise_append, List.pairwise_cons] at this ⊢
      refine ⟨this.1, this.2.1, fun a ha b hb => ?_⟩
      simp only [List.mem_cons] at hb
      rcases hb with rfl | hb
      · exact this.2.2 a ha (c, .call o k) (by simp)
      · exact this.2.2 a ha b (by simp [hb])

theorem relWrite_touch (env : Env) {c : Call} (hc : IsRelWrite c) :
    (c.prog env).AllOps (touchOp (fun k => ∃ r, WritesRel c r ∧ RelationshipComplete r ∧ relKey env.H r = k)) := by
  rcases hc with ⟨now, pid, r, a, rfl⟩ | ⟨pid, r, rfl⟩
  · refine AllOps.bind ?_ (fun _ => .done _)
    unfold Service.setRelationship Repo.getPolicy
    refine AllOps.bind (AllOps.op trivial) (fun rec => ?_)
    cases rec with
    | none => exact .done _
    | some rec =>
      refine AllOps.bind (AllOps.lift _) (fun _ => ?_)
      cases r with
      | none => exact .done _
      | some r =>
        rw [Res.deref_some, lift_ok_bind]
        unfold Repo.setRelationship
        dsimp only
        rcases toInternal_normal_or_panic r with ⟨e, he⟩ | he
        · have hK : ∃ r', WritesRel (.setRelationship now pid (some r) a) r' ∧ RelationshipComplete r' ∧ relKey env.H r' = e.key env.H :=
            ⟨r, .inl ⟨_, _, _, rfl⟩, toInternal_complete.1 ⟨e, he⟩, relKey_of he⟩
          rw [he, lift_ok_bind]
          exact AllOps.bind (AllOps.op hK) (fun _ => AllOps.bind (AllOps.op hK) (fun _ => AllOps.bind (AllOps.op hK) (fun _ => .done _)))
        · rw [he]; exact .done _
  · refine AllOps.bind ?_ (fun _ => .done _)
    unfold Service.deleteRelationship Repo.deleteRelationship
    cases r with
    | none => exact .done _
    | some r =>
      rw [Res.deref_some, lift_ok_bind]
      rcases toInternal_normal_or_panic r with ⟨e, he⟩ | he
      · have hK : ∃ r', WritesRel (.deleteRelationship pid (some r)) r' ∧ RelationshipComplete r' ∧ relKey env.H r' = e.key env.H :=
          ⟨r, .inr ⟨_, rfl⟩, toInternal_complete.1 ⟨e, he⟩, relKey_of he⟩
        rw [he, lift_ok_bind]
        exact AllOps.bind (AllOps.op hK) (fun _ => AllOps.bind (AllOps.op hK) (fun _ => AllOps.bind (AllOps.op hK) (fun _ => .done _)))
      · rw [he]; exact .done _

end Zanzi
