import Verif.Lemmas.RespellSearch
import Verif.Props.Rename
import Verif.Props.Passing
import Verif.Props.Unconcerned

/-
Property C108: no names matter, neither of policies, resources and relations nor of objects and users.
-/

namespace Zanzi

open Spec

section
variable {env : Env} {s s' : Store} {pid pid' : String} {rec rec' : PolicyRecord} {x : USet} {u : Entity} {ν : Vocab}

/-- **C108** for requests that meet only unions: a policy and its relationships under other names give the same answers under the other names. -/
theorem C108_union_partial (hν : Respelling ν) (hs : WF env s) (hs' : WF env s') (hp : policyAt s pid = some rec) (hp' : policyAt s' pid' = some rec')
    (hP : RespelledPolicy env.U ν rec.policy rec'.policy) (hR : Respelled ν (Present s pid) (Present s' pid'))
    (hk : KeysClear env.U env.H rec.policy (Present s pid) x) (hk' : KeysClear env.U env.H rec'.policy (Present s' pid') (respellUSet ν x))
    (hi : IdsClear env.U env.H rec.policy (Present s pid) x) (hi' : IdsClear env.U env.H rec'.policy (Present s' pid') (respellUSet ν x))
    (hu : ExprsFrom env.U rec.policy (Present s pid) x UnionOnly) {fuel fuel' : Nat} {b b' : Bool}
    (h : Checks env s fuel pid x u b) (h' : Checks env s' fuel' pid' (respellUSet ν x) (ν.object u) b') : b = b' := by
  have e1 := C37_union_exact_partial hs hp hk hi hu h
  have e2 := C37_union_exact_partial hs' hp' hk' hi' (exprsFrom_respell hν hP hR unionOnly_respell hu) h'
  rw [granted_respell hν hP hR] at e2
  rw [Bool.eq_iff_iff, e1, e2]

/-- **C108** for all operators, when the explanations show no branch cut off. -/
theorem C108_clean_partial (hν : Respelling ν) (hs : WF env s) (hs' : WF env s') (hp : policyAt s pid = some rec) (hp' : policyAt s' pid' = some rec')
    (hP : RespelledPolicy env.U ν rec.policy rec'.policy) (hR : Respelled ν (Present s pid) (Present s' pid'))
    (hk : KeysClear env.U env.H rec.policy (Present s pid) x) (hk' : KeysClear env.U env.H rec'.policy (Present s' pid') (respellUSet ν x))
    {V : USet → Prop} (hV : Solution env.U rec.policy (Present s pid) u V) {fuel fuel' : Nat} {t t' : GoalTree} {b b' : Bool}
    (h : Explains env s fuel pid x u t b) (hc : Clean t) (h' : Explains env s' fuel' pid' (respellUSet ν x) (ν.object u) t' b') (hc' : Clean t') : b = b' := by
  have e1 := C36_exact_partial hs hp hk h hc hV
  have e2 := C36_exact_partial hs' hp' hk' h' hc' (solution_respell hν hP hR hV)
  rw [Bool.eq_iff_iff, e1, e2]
  exact respellV_iff hν V x

/-- **C108** for all operators and any storage order, for a user whom no intersection and no subtraction concerns: the same answer to Check, and trees of Expand that
have the user or both not. -/
theorem C108_unconcerned_partial (hν : Respelling ν) (hs : WF env s) (hs' : WF env s') (hp : policyAt s pid = some rec) (hp' : policyAt s' pid' = some rec')
    (hP : RespelledPolicy env.U ν rec.policy rec'.policy) (hR : Respelled ν (Present s pid) (Present s' pid'))
    (hk : KeysClear env.U env.H rec.policy (Present s pid) x) (hk' : KeysClear env.U env.H rec'.policy (Present s' pid') (respellUSet ν x))
    (hi : IdsClear env.U env.H rec.policy (Present s pid) x) (hi' : IdsClear env.U env.H rec'.policy (Present s' pid') (respellUSet ν x))
    (hc : Unconcerned env.U rec.policy (Present s pid) x u) {fuel fuel' : Nat} :
    (∀ b b', Checks env s fuel pid x u b → Checks env s' fuel' pid' (respellUSet ν x) (ν.object u) b' → b = b') ∧
    (∀ t t', Expands env s fuel pid x.node t → Expands env s' fuel' pid' (respellUSet ν x).node t' → inSet u t = inSet (ν.object u) t') := by
  have hc' := unconcerned_respelled hν hP hR hc
  have hinv : Involves env.U rec'.policy (Present s' pid') (ν.object u) (respellUSet ν x).node ↔ Involves env.U rec.policy (Present s pid) u x.node :=
    involves_respelled (n := x.node) hν hP hR
  constructor
  · intro b b' h h'
    rw [Bool.eq_iff_iff, checks_involved hs hp hk hi hc h, checks_involved hs' hp' hk' hi' hc' h', hinv]
  · intro t t' h h'
    obtain ⟨_, e⟩ := expands_ev hp h
    obtain ⟨_, e'⟩ := expands_ev hp' h'
    rw [Bool.eq_iff_iff, expand_involved hs hp hk hi hc e, expand_involved hs' hp' hk' hi' hc' e', hinv]

theorem mem_subjectsOf {s : Store} {pid : String} {z : USet} {sub : Subject} : sub ∈ subjectsOf s pid z ↔ Present s pid ⟨some z.object, z.relation, some sub⟩ := by
  unfold subjectsOf
  rw [List.mem_filterMap]
  constructor
  · rintro ⟨⟨o, r, su⟩, h1, h2⟩
    split at h2
    · next hc =>
      obtain ⟨h3, h4⟩ := hc
      dsimp only at h2 h3 h4
      subst h2 h3 h4
      exact h1
    · cases h2
  · intro h
    exact ⟨_, h, by simp⟩

theorem ordered_reaches (hν : Respelling ν) {U : Unicode} {p p' : Policy} (hP : RespelledPolicy U ν p p') (h : RespelledInOrder U p ν pid pid' s s' x)
    {n : RelationNode} (hn : Reaches U p (Present s pid) x n) : Reaches U p' (Present s' pid') (respellUSet ν x) (respellNode ν n) := by
  induction hn with
  | start => exact .start
  | @step y n h1 h2 ih =>
    refine .step (y := respellUSet ν y) ih (respelled_rewrites hν hP (fun rel sub hr hc => ?_) h2)
    have hm := h y _ h1 hc
    have : respellSubject ν sub ∈ subjectsOf s' pid' (respellUSet ν ⟨y.object, rel⟩) := by
      rw [hm]
      exact List.mem_map_of_mem (mem_subjectsOf.2 hr)
    exact mem_subjectsOf.1 this

/-- A relation of a stored policy has an expression tree. -/
theorem tree_of_declared (hs : WF env s) (hp : policyAt s pid = some rec) {a b : String} {d : Relation} (h : Declares rec.policy a b d) :
    ∃ e, getExpressionTree env.U d = .ok e := by
  obtain ⟨r, hr, hn, hd, _⟩ := h
  obtain ⟨t, ht, _⟩ := (hs.policy_valid hp).2.2 r hr d hd
  exact ⟨t, (getExpressionTree_ok_iff env.U d t).2 ht⟩

/-- The searches of a store and of the same store under other names. -/
theorem search_respell (hν : Respelling ν) (hs : WF env s) (hs' : WF env s') (hp : policyAt s pid = some rec) (hp' : policyAt s' pid' = some rec')
    (hP : RespelledPolicy env.U ν rec.policy rec'.policy) (ho : RespelledInOrder env.U rec.policy ν pid pid' s s' x)
    (hk : KeysClear env.U env.H rec.policy (Present s pid) x) (hk' : KeysClear env.U env.H rec'.policy (Present s' pid') (respellUSet ν x))
    (hi : IdsClear env.U env.H rec.policy (Present s pid) x) (hi' : IdsClear env.U env.H rec'.policy (Present s' pid') (respellUSet ν x))
    {goal goal' : Option RelationNode} (hg : ∀ n, goalFound (respellNode ν n) goal' = goalFound n goal) (fuel : Nat) :
    Follows (SpellR env.H (Reaches env.U rec.policy (Present s pid) x) ν) (pPath env.H (bld env rec.policy s) goal fuel x.node "Request" [])
      (pPath env.H (bld env rec'.policy s') goal' fuel (respellUSet ν x).node "Request" []) := by
  have hid := hs.policy_id hp
  have hid' := hs'.policy_id hp'
  have look := C11_lookup_exact rec.policy (hs.policy_valid hp).1
  have look' := C11_lookup_exact rec'.policy (hs'.policy_valid hp').1
  refine pPath_respell hν hi (fun m n id hm hn => hi' _ _ id (ordered_reaches hν hP ho hm) (ordered_reaches hν hP ho hn)) hg (fun n hn ht => ?_) fuel x.node "Request"
    "Request" [] [] (fun _ _ => .start) (.inl rfl) (fun _ _ _ _ _ _ => by simp)
  obtain ⟨o, rel, rfl⟩ := isTerminal_false ht
  cases o with
  | none => exact .inr (.inr (.inr ⟨rfl, rfl⟩))
  | some o =>
    have hn' := ordered_reaches hν hP ho hn
    have key : Follows (TreeAs ν) (bld env rec.policy s (USet.node ⟨o, rel⟩)) (bld env rec'.policy s' (USet.node (respellUSet ν ⟨o, rel⟩))) := by
      rw [bld_set, bld_set]
      cases hd : (newLut rec.policy).getRelation o.resource rel with
      | none =>
        have hno : (newLut rec'.policy).getRelation (ν.object o).resource (ν.relation rel) = none := by
          cases hd' : (newLut rec'.policy).getRelation (ν.object o).resource (ν.relation rel) with
          | none => rfl
          | some d' =>
            obtain ⟨a, b, d, ha, hb, h1, _⟩ := hP.nothingNew _ _ _ (((look' _ _).1 d').1 hd')
            rw [hν.resource] at ha
            obtain rfl := hν.resource_inj _ _ ha
            obtain rfl := hν.relation_inj _ _ hb
            rw [((look _ _).1 d).2 h1] at hd
            cases hd
        show Follows _ (Res.err _) (match (newLut rec'.policy).getRelation (ν.object o).resource (ν.relation rel) with | none => _ | some d => _)
        rw [hno]
        exact .inr (.inr (.inl ⟨_, rfl, rfl⟩))
      | some d =>
        have hdec := ((look _ _).1 d).1 hd
        obtain ⟨d', hdec', hden⟩ := hP.kept _ _ _ hdec
        obtain ⟨e, he⟩ := tree_of_declared hs hp hdec
        have he' : getExpressionTree env.U d' = .ok (respellExpr ν e) :=
          (getExpressionTree_ok_iff _ _ _).2 (hden _ ((getExpressionTree_ok_iff _ _ _).1 he))
        have hd' : (newLut rec'.policy).getRelation (ν.object o).resource (ν.relation rel) = some d' := by
          rw [hν.resource]
          exact ((look' _ _).1 d').2 hdec'
        show Follows _ (getExpressionTree env.U d >>= fun t => pBuild env.H s rec.policy.id ⟨o, rel⟩ t)
          (match (newLut rec'.policy).getRelation (ν.object o).resource (ν.relation rel) with | none => _ | some d => _)
        rw [hd', he]
        show Follows _ _ (getExpressionTree env.U d' >>= fun t => pBuild env.H s' rec'.policy.id (respellUSet ν ⟨o, rel⟩) t)
        rw [he']
        simp only [Res.bind_ok]
        have hde : DefinedBy env.U rec.policy ⟨o, rel⟩ e := ⟨d, hdec, (getExpressionTree_ok_iff env.U d e).1 he⟩
        have hsucc : ∀ z : USet, Consulted env.U rec.policy ⟨o, rel⟩ z → Consulted env.U rec'.policy (respellUSet ν ⟨o, rel⟩) (respellUSet ν z) →
            succs env.H s' rec'.policy.id (respellUSet ν z) = (succs env.H s rec.policy.id z).map (respellNode ν) := by
          intro z hz hz'
          rw [hid, hid', succs_subjectsOf hs' (hk' (respellUSet ν ⟨o, rel⟩) _ hn' hz'), succs_subjectsOf hs (hk ⟨o, rel⟩ _ hn hz), ho ⟨o, rel⟩ _ hn hz,
            List.map_map, List.map_map]
          exact List.map_congr_left (fun sub _ => subjectNode_respell sub)
        refine pBuild_respell (y := ⟨o, rel⟩) (hsucc _ (.inl rfl) (.inl rfl)) (fun a b hl => ?_)
        exact hsucc ⟨o, a⟩ (.inr ⟨e, a, b, hde, hl, rfl⟩)
          (.inr ⟨_, ν.relation a, ν.relation b, definedBy_respell (y := ⟨o, rel⟩) hν hP hde, leaf_respell (r := .ttu a b) hl, rfl⟩)
    show Follows _ (bld env rec.policy s (USet.node ⟨o, rel⟩)) (bld env rec'.policy s' (USet.node (respellUSet ν ⟨o, rel⟩)))
    rcases key with h | ⟨t, t', h1, h2, h3⟩ | h | h
    · exact .inl h
    · obtain ⟨_, _, _, _, _, _, _, _, h'⟩ := expand_facts hs hp hk hn ht h1
      exact .inr (.inl ⟨t, t', h1, h2, h3, h'⟩)
    · exact .inr (.inr (.inl h))
    · exact .inr (.inr (.inr h))

/-- **C108** for all operators: names matter through the storage order alone.  When the relationships a request consults are stored under the other names in the same
order, Check gives the same answer, errors included, and the explanation and Expand's tree are those of the first store under the other names. -/
theorem C108_order_partial (hν : Respelling ν) (hs : WF env s) (hs' : WF env s') (hp : policyAt s pid = some rec) (hp' : policyAt s' pid' = some rec')
    (hP : RespelledPolicy env.U ν rec.policy rec'.policy) (ho : RespelledInOrder env.U rec.policy ν pid pid' s s' x)
    (hk : KeysClear env.U env.H rec.policy (Present s pid) x) (hk' : KeysClear env.U env.H rec'.policy (Present s' pid') (respellUSet ν x))
    (hi : IdsClear env.U env.H rec.policy (Present s pid) x) (hi' : IdsClear env.U env.H rec'.policy (Present s' pid') (respellUSet ν x)) :
    ∃ N, ∀ fuel, N ≤ fuel →
      (serve env (.check fuel pid' (ask (respellUSet ν x) (ν.object u))) s').1 = (serve env (.check fuel pid (ask x u)) s).1 ∧
      (serve env (.check fuel pid (ask x u)) s).1 ≠ .fuel ∧
      (∀ t b, Explains env s fuel pid x u t b → ∃ t', Explains env s' fuel pid' (respellUSet ν x) (ν.object u) t' b ∧ TreeAs ν t t') ∧
      (∀ t, Expands env s fuel pid x.node t → ∃ t', Expands env s' fuel pid' (respellUSet ν x).node t' ∧ TreeAs ν t t') := by
  refine ⟨searchBound env rec.policy s (some x.node), fun fuel hf => ?_⟩
  have n1 := (pSearch_stable env rec.policy s (some x.node) (userGoal u) fuel hf).2
  have n2 := (pSearch_stable env rec.policy s (some x.node) none fuel hf).2
  have f1 := search_respell hν hs hs' hp hp' hP ho hk hk' hi hi' (fun n => goalFound_respell hν n u) fuel
  have f2 := search_respell hν hs hs' hp hp' hP ho hk hk' hi hi' (goal := none) (goal' := none) (fun n => rfl) fuel
  have g1 : Follows (TreeAs ν) (pSearch env rec.policy s fuel (some x.node) (userGoal u))
      (pSearch env rec'.policy s' fuel (some (respellUSet ν x).node) (userGoal (ν.object u))) := f1.bind (fun a b h => .ok h.1)
  have g2 : Follows (TreeAs ν) (pSearch env rec.policy s fuel (some x.node) none)
      (pSearch env rec'.policy s' fuel (some (respellUSet ν x).node) none) := f2.bind (fun a b h => .ok h.1)
  have e1 := serve_check (env := env) hp fuel x u
  have e2 := serve_check (env := env) hp' fuel (respellUSet ν x) (ν.object u)
  have e3 := serve_explainCheck (env := env) hp fuel x u .spew
  have e4 := serve_explainCheck (env := env) hp' fuel (respellUSet ν x) (ν.object u) .spew
  have e5 := serve_expand (env := env) hp fuel (some x.node) .spew
  have e6 := serve_expand (env := env) hp' fuel (some (respellUSet ν x).node) .spew
  refine ⟨?_, ?_, fun t b h => ?_, fun t h => ?_⟩
  · rw [e1, e2]
    rcases g1 with h | ⟨a, b, h1, h2, h3⟩ | ⟨e, h1, h2⟩ | ⟨h1, h2⟩
    · exact absurd h n1
    · rw [h1, h2]
      show Res.ok _ = Res.ok _
      rw [h3.result]
    · rw [h1, h2]
    · rw [h1, h2]
  · rw [e1]
    cases hq : pSearch env rec.policy s fuel (some x.node) (userGoal u) with
    | fuel => exact absurd hq n1
    | _ => nofun
  · have h0 : (serve env (.explainCheck fuel pid (ask x u) .spew) s).1 = .ok (.explained (.spew t) b .spew) := h
    rw [e3] at h0
    rcases g1 with h | ⟨a, b', h1, h2, h3⟩ | ⟨e, h1, h2⟩ | ⟨h1, h2⟩
    · exact absurd h n1
    · rw [h1] at h0
      cases h0
      refine ⟨b', ?_, h3⟩
      show (serve env (.explainCheck fuel pid' (ask (respellUSet ν x) (ν.object u)) .spew) s').1 = _
      rw [e4, h2]
      show Res.ok (Answer.explained _ _ _) = _
      rw [h3.result]
    · rw [h1] at h0; cases h0
    · rw [h1] at h0; cases h0
  · unfold Expands at h
    rw [e5] at h
    rcases g2 with h' | ⟨a, b', h1, h2, h3⟩ | ⟨e, h1, h2⟩ | ⟨h1, h2⟩
    · exact absurd h' n2
    · rw [h1] at h
      cases h
      refine ⟨b', ?_, h3⟩
      unfold Expands
      rw [e6, h2]
      rfl
    · rw [h1] at h; cases h
    · rw [h1] at h; cases h

end

/-! ### Cases -/

/-- Relation `d'` has the expression of `d` under other names, decided by parsing. -/
def respelledB (U : Unicode) (ν : Vocab) (d d' : Relation) : Bool :=
  match getExpressionTree U d, getExpressionTree U d' with
  | .ok t, .ok t' => decide (respellExpr ν t = t')
  | _, _ => false

theorem respelledB_sound {U : Unicode} {ν : Vocab} {d d' : Relation} (h : respelledB U ν d d' = true) :
    (∀ t, Denotes U.isIdent whiteSpace d t → Denotes U.isIdent whiteSpace d' (respellExpr ν t)) ∧
    ∀ t', Denotes U.isIdent whiteSpace d' t' → ∃ t, Denotes U.isIdent whiteSpace d t ∧ respellExpr ν t = t' := by
  unfold respelledB at h
  split at h
  · next t0 t0' e e' =>
    rw [decide_eq_true_eq] at h
    subst h
    constructor
    · intro t ht
      rw [← getExpressionTree_ok_iff, e] at ht
      cases ht
      exact (getExpressionTree_ok_iff _ _ _).1 e'
    · intro t' ht
      rw [← getExpressionTree_ok_iff, e'] at ht
      cases ht
      exact ⟨t0, (getExpressionTree_ok_iff _ _ _).1 e, rfl⟩
  · cases h

/-- A policy under other names, decided on its declarations. -/
theorem respelledPolicy_of {U : Unicode} {ν : Vocab} {p p' : Policy}
    (h1 : ∀ r ∈ p.resources, ∀ d ∈ r.relations, ∃ r' ∈ p'.resources, r'.name = ν.resource r.name ∧ ∃ d' ∈ r'.relations, d'.name = ν.relation d.name ∧ respelledB U ν d d' = true)
    (h2 : ∀ r' ∈ p'.resources, ∀ d' ∈ r'.relations, ∃ r ∈ p.resources, r'.name = ν.resource r.name ∧ ∃ d ∈ r.relations, d'.name = ν.relation d.name ∧ respelledB U ν d d' = true) :
    RespelledPolicy U ν p p' := by
  constructor
  · rintro _ _ d ⟨r, hr, rfl, hd, rfl⟩
    obtain ⟨r', hr', hn, d', hd', hm, hb⟩ := h1 r hr d hd
    exact ⟨d', ⟨r', hr', hn, hd', hm⟩, (respelledB_sound hb).1⟩
  · rintro _ _ d' ⟨r', hr', rfl, hd', rfl⟩
    obtain ⟨r, hr, hn, d, hd, hm, hb⟩ := h2 r' hr' d' hd'
    exact ⟨r.name, d.name, d, hn.symm, hm.symm, ⟨r, hr, rfl, hd, rfl⟩, (respelledB_sound hb).2⟩

/-- The relationships of a store under other names, decided on its list. -/
theorem respelled_of {ν : Vocab} {s s' : Store} {pid pid' : String} (h1 : ∀ r ∈ relationships s pid, respellRelationship ν r ∈ relationships s' pid')
    (h2 : ∀ r' ∈ relationships s' pid', r' ∈ (relationships s pid).map (respellRelationship ν)) : Respelled ν (Present s pid) (Present s' pid') := by
  intro r'
  constructor
  · intro h
    obtain ⟨r, h3, h4⟩ := List.mem_map.1 (h2 r' h)
    exact ⟨r, h3, h4⟩
  · rintro ⟨r, h3, rfl⟩
    exact h1 r h3

/-- Resources get an x in front, relations an n, ids an i. -/
def markVocab : Vocab := ⟨fun e => ⟨"x" ++ e.resource, "i" ++ e.id⟩, fun n => "x" ++ n, fun n => "n" ++ n⟩

theorem markVocab_respelling : Respelling markVocab := by
  have hs : ∀ c a b : String, c ++ a = c ++ b → a = b := by
    intro c a b h
    have := congrArg String.toList h
    simp only [String.toList_append, List.append_cancel_left_eq] at this
    exact String.toList_inj.1 this
  refine ⟨fun a b h => ?_, fun a b h => hs _ _ _ h, fun a b h => hs _ _ _ h, fun a => rfl⟩
  obtain ⟨a1, a2⟩ := a
  obtain ⟨b1, b2⟩ := b
  simp only [markVocab, Entity.mk.injEq] at h
  rw [hs _ _ _ h.1, hs _ _ _ h.2]

/-- `gPolicy opRels` under other names. -/
def markPolicy : Policy :=
  { id := "q"
    resources := [
      { name := "xdoc", relations := [rel "nany" "na+nb", rel "na" "_this", rel "nb" "_this", rel "nboth" "na & nb", rel "nonly" "(na - nb)"] },
      { name := "xuser", relations := [] },
      { name := "xgroup", relations := [rel "nmember" "_this"] }] }

def markStore (rs : List Relationship) : Store :=
  (runCalls gEnv (.createPolicy 0 (some (.policy markPolicy)) [] :: rs.map (fun r => .setRelationship 0 "q" (some (respellRelationship markVocab r)) [])) Store.empty).2

theorem markStore_wf (rs : List Relationship) : WF gEnv (markStore rs) := (WF.empty _).runCalls _

theorem mark_policy : RespelledPolicy U0 markVocab (gPolicy opRels) markPolicy := respelledPolicy_of (by decide +kernel) (by decide +kernel)

theorem markAb_pol : policyAt (markStore abRels) "q" = some ⟨markPolicy, [], 0⟩ := by decide +kernel

theorem markAb_clear (r : String) (hr : r = "both" ∨ r = "any") :
    KeysClear U0 Hx markPolicy (Present (markStore abRels) "q") (respellUSet markVocab ⟨doc1, r⟩) ∧
    IdsClear U0 Hx markPolicy (Present (markStore abRels) "q") (respellUSet markVocab ⟨doc1, r⟩) := by
  refine clear_of (env := gEnv) (rec := ⟨markPolicy, [], 0⟩) (L := (abNodes r).map (respellNode markVocab)) (markStore_wf _) markAb_pol
    (by simp [abNodes, USet.node, respellUSet, respellNode]) ?_
  rcases hr with rfl | rfl <;> decide +kernel

/-- The hypotheses of `C108_union_partial`, for `any = a + b`. -/
example : Respelling markVocab ∧ RespelledPolicy U0 markVocab (gPolicy opRels) markPolicy ∧ Respelled markVocab (Present abStore "p") (Present (markStore abRels) "q") ∧
    KeysClear U0 Hx (gPolicy opRels) (Present abStore "p") ⟨doc1, "any"⟩ ∧ IdsClear U0 Hx (gPolicy opRels) (Present abStore "p") ⟨doc1, "any"⟩ ∧
    KeysClear U0 Hx markPolicy (Present (markStore abRels) "q") (respellUSet markVocab ⟨doc1, "any"⟩) ∧
    IdsClear U0 Hx markPolicy (Present (markStore abRels) "q") (respellUSet markVocab ⟨doc1, "any"⟩) ∧
    ExprsFrom U0 (gPolicy opRels) (Present abStore "p") ⟨doc1, "any"⟩ UnionOnly ∧
    Checks gEnv abStore 10 "p" ⟨doc1, "any"⟩ usr true ∧ Checks gEnv (markStore abRels) 10 "q" ⟨⟨"xdoc", "i1"⟩, "nany"⟩ ⟨"xuser", "iu"⟩ true ∧
    Checks gEnv (markStore abRels) 10 "q" ⟨⟨"xdoc", "i1"⟩, "nany"⟩ ⟨"xuser", "iv"⟩ false :=
  ⟨markVocab_respelling, mark_policy, respelled_of (by decide +kernel) (by decide +kernel), (ab_clear _ (.inr (.inr rfl))).1, (ab_clear _ (.inr (.inr rfl))).2,
    (markAb_clear _ (.inr rfl)).1, (markAb_clear _ (.inr rfl)).2,
    exprs_of (env := gEnv) (f := unionOnlyB) (fun _ => unionOnly_of) (gStore_wf _ _ _) abStore_pol (L := abNodes "any") (by simp [abNodes, USet.node]) (by decide +kernel) (by decide +kernel),
    checks_of (by decide +kernel), checks_of (by decide +kernel), checks_of (by decide +kernel)⟩

/-- The hypotheses of `C108_clean_partial` that are not among the above. -/
example : (∃ V, Solution U0 (gPolicy opRels) (Present abStore "p") usr V) ∧ (∃ t, Explains gEnv abStore 10 "p" ⟨doc1, "any"⟩ usr t true ∧ Clean t) ∧
    (∃ t, Explains gEnv (markStore abRels) 10 "q" (respellUSet markVocab ⟨doc1, "any"⟩) (markVocab.object usr) t true ∧ Clean t) := by
  refine ⟨⟨_, abSolution_is⟩, ?_, ?_⟩
  · obtain ⟨t, b, h1, h2⟩ := explains_of (env := gEnv) (s := abStore) (pid := "p") (x := ⟨doc1, "any"⟩) (u := usr) (fuel := 10)
      (f := fun t b => cleanB t && b) (by decide +kernel)
    simp only [Bool.and_eq_true] at h2
    obtain ⟨h2, rfl⟩ := h2
    exact ⟨t, h1, clean_of h2⟩
  · obtain ⟨t, b, h1, h2⟩ := explains_of (env := gEnv) (s := markStore abRels) (pid := "q") (x := respellUSet markVocab ⟨doc1, "any"⟩) (u := markVocab.object usr)
      (fuel := 10) (f := fun t b => cleanB t && b) (by decide +kernel)
    simp only [Bool.and_eq_true] at h2
    obtain ⟨h2, rfl⟩ := h2
    exact ⟨t, h1, clean_of h2⟩

/-- The hypotheses of `C108_order_partial`, for a request with an intersection, which the visit of the user cuts off in both stores. -/
example : RespelledInOrder U0 (gPolicy opRels) markVocab "p" "q" abStore (markStore abRels) ⟨doc1, "both"⟩ ∧
    KeysClear U0 Hx (gPolicy opRels) (Present abStore "p") ⟨doc1, "both"⟩ ∧ KeysClear U0 Hx markPolicy (Present (markStore abRels) "q") (respellUSet markVocab ⟨doc1, "both"⟩) ∧
    IdsClear U0 Hx (gPolicy opRels) (Present abStore "p") ⟨doc1, "both"⟩ ∧ IdsClear U0 Hx markPolicy (Present (markStore abRels) "q") (respellUSet markVocab ⟨doc1, "both"⟩) ∧
    Checks gEnv abStore 10 "p" ⟨doc1, "both"⟩ usr false ∧ Checks gEnv (markStore abRels) 10 "q" (respellUSet markVocab ⟨doc1, "both"⟩) (markVocab.object usr) false := by
  refine ⟨fun y z hy hz => ?_, (ab_clear _ (.inl rfl)).1, (markAb_clear _ (.inl rfl)).1, (ab_clear _ (.inl rfl)).2, (markAb_clear _ (.inl rfl)).2,
    checks_of (by decide +kernel), checks_of (by decide +kernel)⟩
  have h1 := reaches_list (env := gEnv) (gStore_wf _ _ _) abStore_pol (L := abNodes "both") (by simp [abNodes, USet.node]) (by decide +kernel) hy
  have h2 := consulted_mem (env := gEnv) op_unique hz
  have h3 : ∀ y ∈ [(⟨doc1, "both"⟩ : USet), ⟨doc1, "a"⟩, ⟨doc1, "b"⟩], ∀ z ∈ consultedOf gEnv (gPolicy opRels) y,
      subjectsOf (markStore abRels) "q" (respellUSet markVocab z) = (subjectsOf abStore "p" z).map (respellSubject markVocab) := by decide +kernel
  refine h3 y ?_ z h2
  obtain ⟨o, r⟩ := y
  simpa [abNodes, USet.node] using h1

/-- The hypotheses of `C108_unconcerned_partial` hold for `only = a - b` and user:u, who has a and not b. -/
example : Respelled markVocab (Present apartStore "p") (Present (markStore [hold "a" "u", hold "b" "v"]) "q") ∧
    (KeysClear U0 Hx (gPolicy opRels) (Present apartStore "p") ⟨doc1, "only"⟩ ∧ IdsClear U0 Hx (gPolicy opRels) (Present apartStore "p") ⟨doc1, "only"⟩) ∧
    (KeysClear U0 Hx markPolicy (Present (markStore [hold "a" "u", hold "b" "v"]) "q") (respellUSet markVocab ⟨doc1, "only"⟩) ∧
      IdsClear U0 Hx markPolicy (Present (markStore [hold "a" "u", hold "b" "v"]) "q") (respellUSet markVocab ⟨doc1, "only"⟩)) ∧
    Unconcerned U0 (gPolicy opRels) (Present apartStore "p") ⟨doc1, "only"⟩ usr ∧
    Checks gEnv apartStore 10 "p" ⟨doc1, "only"⟩ usr true ∧
    Checks gEnv (markStore [hold "a" "u", hold "b" "v"]) 10 "q" (respellUSet markVocab ⟨doc1, "only"⟩) (markVocab.object usr) true := by
  have hpol : policyAt apartStore "p" = some ⟨gPolicy opRels, [], 0⟩ := by decide +kernel
  have hpol' : policyAt (markStore [hold "a" "u", hold "b" "v"]) "q" = some ⟨markPolicy, [], 0⟩ := by decide +kernel
  exact ⟨respelled_of (by decide +kernel) (by decide +kernel),
    clear_of (env := gEnv) (rec := ⟨gPolicy opRels, [], 0⟩) (L := apartNodes) (gStore_wf _ _ _) hpol (by simp [apartNodes, USet.node]) (by decide +kernel),
    clear_of (env := gEnv) (rec := ⟨markPolicy, [], 0⟩) (L := apartNodes.map (respellNode markVocab)) (markStore_wf _) hpol' (by decide +kernel) (by decide +kernel),
    unconcerned_of (env := gEnv) (rec := ⟨gPolicy opRels, [], 0⟩) (L := apartNodes) (K := [.entitySet (some doc1) "b", .entity (some ⟨"user", "v"⟩)])
      (gStore_wf _ _ _) hpol (by simp [apartNodes, USet.node]) (by decide +kernel),
    checks_of (by decide +kernel), checks_of (by decide +kernel)⟩

/-- The relations member and m change names; nothing else does. -/
def memberVocab : Vocab := ⟨id, id, fun n => if n = "member" then "m" else if n = "m" then "member" else n⟩

theorem memberVocab_respelling : Respelling memberVocab := by
  have h1 : ∀ n, memberVocab.relation (memberVocab.relation n) = n := by
    intro n
    unfold memberVocab
    dsimp only
    repeat' split
    all_goals simp_all
  exact ⟨fun _ _ h => h, fun _ _ h => h, fun a b h => by rw [← h1 a, h, h1], fun _ => rfl⟩

/-- `gPolicy opRels` with relation `m` for groups. -/
def memberPolicy (m : String) : Policy :=
  { id := "p"
    resources := [
      { name := "user", relations := [] },
      { name := "group", relations := [rel m "_this"] },
      { name := "doc", relations := opRels }] }

/-- user:uuuuu and the members of group:1, which are all users, have a on doc:1; user:uuuuu has b. -/
def memberStore (m : String) : Store :=
  (runCalls gEnv (.createPolicy 0 (some (.policy (memberPolicy m))) [] :: List.map (fun r => .setRelationship 0 "p" (some r) [])
    [gives "1" "a" (.entitySet (some ⟨"group", "1"⟩) m), ⟨some ⟨"group", "1"⟩, m, some (.resourceSet "user")⟩, hold "a" "uuuuu", hold "b" "uuuuu"]) Store.empty).2

/-- **C108** is violated: user:uuuuu and the members of group:1, which all users are, have a on doc:1, and user:uuuuu has b.  Check denies them `both = a & b`, and
grants it when the same policy and data call the relation of groups m instead of member.  (Relationships are tried in the order of hashed names; the hash has no
collisions.) -/
theorem C108_names_violated :
    Respelling memberVocab ∧ RespelledPolicy U0 memberVocab (memberPolicy "member") (memberPolicy "m") ∧
    policyAt (memberStore "member") "p" = some ⟨memberPolicy "member", [], 0⟩ ∧ policyAt (memberStore "m") "p" = some ⟨memberPolicy "m", [], 0⟩ ∧
    Respelled memberVocab (Present (memberStore "member") "p") (Present (memberStore "m") "p") ∧
    Checks gEnv (memberStore "member") 10 "p" ⟨doc1, "both"⟩ ⟨"user", "uuuuu"⟩ false ∧
    Checks gEnv (memberStore "m") 10 "p" (respellUSet memberVocab ⟨doc1, "both"⟩) (memberVocab.object ⟨"user", "uuuuu"⟩) true ∧ Function.Injective Hx :=
  ⟨memberVocab_respelling, respelledPolicy_of (by decide +kernel) (by decide +kernel), by decide +kernel, by decide +kernel,
    respelled_of (by decide +kernel) (by decide +kernel), checks_of (by decide +kernel), checks_of (by decide +kernel), fun _ _ => Hx_inj⟩

end Zanzi
