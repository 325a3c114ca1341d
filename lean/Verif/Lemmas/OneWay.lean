import Verif.Lemmas.Bulk
import Verif.Props.Grants

/-
Requests in flight while the relationships of a policy only get fewer, or only get more.
-/

namespace Zanzi

open Spec Prog

section
variable {env : Env} {I : Store → Prop} {pid : String} {p : Policy} {x : USet} {u : Entity} {R : Relationship → Prop}

/-- As `ev_above`, for requests that meet no difference. -/
theorem ev_above_plain (hwf : ∀ s, I s → WF env s) (h0 : ∃ s, I s) (hid : p.id = pid) (hu : NamesUnique p) (hR : ∀ s r, I s → Present s pid r → R r)
    (hk : KeysClear env.U env.H p R x) (hdf : ExprsFrom env.U p R x DiffFree) {t : GoalTree} {seen : List Nat}
    (h : Ev env.H (RBuilds env p I) (userGoal u) (.path x.node "Request") [] (.tree t) seen) (ht : t.result = .success) :
    Granted env.U p R u x := by
  intro V hV
  have := h.sound (N := NodeIn V u) (P := Reaches env.U p R x)
    (fun n _ hf => (goalFound_user hf rfl).2 rfl)
    (fun n t hr hterm hb => by
      obtain ⟨y, e, rfl, hd, hsh, htops, hN⟩ := rbuilds_facts (u := u) hwf h0 hid hu hR hk hr hterm hb
      refine ⟨hsh.formed.1, htops, fun hsem => hV y ⟨e, hd, ?_⟩⟩
      have hup := Shape.semUp (R := R) (V := V) (u := u) (x := y) (fun r ns h hn => ?_) hsh.restrict hsem
      · rwa [positive_of_diffFree (hdf y e hr hd)] at hup
      · obtain ⟨s, hs, hiff⟩ := hN V r ns h.1 h.2
        exact RuleIn.mono (fun r => hR s r hs) (hiff.1 hn))
  exact this (fun _ _ => .start) ht

end

theorem KeysClear.mono {U : Unicode} {H : String → Nat} {p : Policy} {R R' : Relationship → Prop} (h : ∀ r, R r → R' r) {x : USet} (hk : KeysClear U H p R' x) :
    KeysClear U H p R x := fun y z hy hz => KeyClear.mono h (hk y z (Spec.Reaches.mono h hy) hz)

theorem IdsClear.mono {U : Unicode} {H : String → Nat} {p : Policy} {R R' : Relationship → Prop} (h : ∀ r, R r → R' r) {x : USet} (hk : IdsClear U H p R' x) :
    IdsClear U H p R x := fun m n id hm hn => hk m n id (Spec.Reaches.mono h hm) (Spec.Reaches.mono h hn)

theorem ExprsFrom.mono {U : Unicode} {p : Policy} {R R' : Relationship → Prop} (h : ∀ r, R r → R' r) {x : USet} {P : ExprTree → Prop} (hk : ExprsFrom U p R' x P) :
    ExprsFrom U p R x P := fun y t hy => hk y t (Spec.Reaches.mono h hy)

/-- A relation kept by all storage calls leads from the store at the arrival of the request to every later one, and from each of them to the latest. -/
theorem Sys.Flight.along {env : Env} {A : Call → Prop} {x : Sys} {c : Call} {G : Store → Store → Prop} {P : Op → Prop} (hrefl : ∀ s, G s s)
    (ht : ∀ a b c, G a b → G b c → G a c) (hP : ∀ o s, P o → G s (o.exec s).2) (hA : ∀ d, A d → (d.prog env).AllOps P) (hc : (c.prog env).AllOps P)
    (hx : ∀ t ∈ x.threads, t.AllOps P) {h : List Store} {y : Sys} {t : Prog Answer} (hf : Sys.Flight env A x c h y t) :
    (∃ e ∈ h, ∀ s ∈ h, G e s ∧ G s y.store) ∧ t.AllOps P ∧ ∀ t' ∈ y.threads, t'.AllOps P := by
  have step : ∀ {o : Op} {s s' : Store} {resp : Option o.Resp} {b : Bool}, P o → OpStep o s resp b s' → G s s' := by
    intro o s s' resp b ho hs
    cases hs with
    | ok => exact hP o s ho
    | failBefore => exact hrefl s
    | failAfter => exact hP o s ho
  have grow : ∀ {h : List Store} {s s' : Store}, G s s' → (∃ e ∈ h, ∀ z ∈ h, G e z ∧ G z s) → ∃ e ∈ s' :: h, ∀ z ∈ s' :: h, G e z ∧ G z s' := by
    rintro h s s' hg ⟨e, he, hall⟩
    refine ⟨e, List.mem_cons_of_mem _ he, fun z hz => ?_⟩
    rcases List.mem_cons.1 hz with rfl | hz
    · exact ⟨ht _ _ _ (hall e he).2 hg, hrefl _⟩
    · exact ⟨(hall z hz).1, ht _ _ _ (hall z hz).2 hg⟩
  induction hf with
  | @start y hp =>
    refine ⟨⟨_, List.mem_cons_self, fun s hs => ?_⟩, hc, (hp.keeps (I := fun _ => True) (P := P) (fun _ _ _ _ => trivial) hA trivial hx).2⟩
    rw [List.mem_singleton.1 hs]
    exact ⟨hrefl _, hrefl _⟩
  | @own o k h ts s s' resp b _ hs ih =>
    obtain ⟨h1, h2, h3⟩ := ih
    cases h2 with
    | call ho hk => exact ⟨grow (step ho hs) h1, hk _, h3⟩
  | arrive d hd _ ih =>
    refine ⟨ih.1, ih.2.1, fun t ht' => ?_⟩
    rcases List.mem_append.1 ht' with h | h
    · exact ih.2.2 t h
    · rw [List.mem_singleton.1 h]; exact hA _ hd
  | @op o k h ts₁ ts₂ s s' t resp b _ hs ih =>
    obtain ⟨h1, h2, h3⟩ := ih
    have hj := h3 _ (List.mem_append.2 (.inr List.mem_cons_self))
    cases hj with
    | call ho hk =>
      refine ⟨grow (step ho hs) h1, h2, fun t' ht' => ?_⟩
      rcases List.mem_append.1 ht' with h | h
      · exact h3 t' (List.mem_append.2 (.inl h))
      · rcases List.mem_cons.1 h with h | h
        · rw [h]; exact hk _
        · exact h3 t' (List.mem_append.2 (.inr (List.mem_cons_of_mem _ h)))
  | leave _ ih =>
    refine ⟨ih.1, ih.2.1, fun t' ht' => ih.2.2 t' ?_⟩
    rcases List.mem_append.1 ht' with h | h
    · exact List.mem_append.2 (.inl h)
    · exact List.mem_append.2 (.inr (List.mem_cons_of_mem _ h))

section
variable {env : Env} {S : Relationship → Prop} {pid : String}

/-- Only relationships of `S` are written to `pid`, under their own keys, and none is deleted. -/
def onlyAdds (env : Env) (S : Relationship → Prop) (pid : String) (o : Op) : Prop :=
  (∀ k e, o = .edgeSet pid k e → k = relKey env.H (fromInternal e) ∧ S (fromInternal e)) ∧ ∀ k, o ≠ .edgeDel pid k

/-- Relationships stay under their own keys and in `S`. -/
def Inside (env : Env) (S : Relationship → Prop) (pid : String) (s : Store) : Prop := OwnKeys env pid s ∧ ∀ r, Present s pid r → S r

/-- Every relationship is kept. -/
def More (env : Env) (S : Relationship → Prop) (pid : String) (s s' : Store) : Prop :=
  Inside env S pid s → Inside env S pid s' ∧ ∀ r, Present s pid r → Present s' pid r

theorem More.refl (s : Store) : More env S pid s s := fun h => ⟨h, fun _ => id⟩

theorem More.trans (a b c : Store) (h : More env S pid a b) (h' : More env S pid b c) : More env S pid a c :=
  fun hi => ⟨(h' (h hi).1).1, fun r hr => (h' (h hi).1).2 r ((h hi).2 r hr)⟩

theorem kvPut_keeps {K V : Type} [DecidableEq K] {lt : K → K → Bool} {m : List (K × V)} {k : K} {v : V} {p : K × V} (h : p ∈ m) :
    p ∈ kvPut lt m k v ∨ (p.1 = k ∧ (k, v) ∈ kvPut lt m k v) := by
  unfold kvPut
  split
  · by_cases hk : p.1 = k
    · exact .inr ⟨hk, List.mem_map.2 ⟨p, h, by rw [if_pos hk]⟩⟩
    · exact .inl (List.mem_map.2 ⟨p, h, by rw [if_neg hk]⟩)
  · exact .inl (mem_kvInsert.2 (.inr h))

theorem onlyAdds_exec (hS : ∀ r r', S r → S r' → relKey env.H r = relKey env.H r' → r = r') {o : Op} (ho : onlyAdds env S pid o) (s : Store) :
    More env S pid s (o.exec s).2 := by
  intro hi
  by_cases he : (o.exec s).2.edges pid = s.edges pid
  · have hp : ∀ r, Present (o.exec s).2 pid r ↔ Present s pid r := by
      intro r
      unfold Present relationships
      rw [he]
    refine ⟨⟨fun p hp' => hi.1 p (he ▸ hp'), fun r hr => hi.2 r ((hp r).1 hr)⟩, fun r hr => (hp r).2 hr⟩
  · cases o <;> try exact absurd rfl he
    case edgeDel q k =>
      by_cases hq : q = pid
      · exact absurd (by rw [hq]) (ho.2 k)
      · refine absurd ?_ he
        show (s.setEdges q _).edges pid = _
        rw [setEdges_edges, if_neg (fun h => hq h.symm)]
    case edgeSet q k e =>
      by_cases hq : q = pid
      · subst hq
        obtain ⟨hk, hSe⟩ := ho.1 k e rfl
        have hE : ((Op.edgeSet q k e).exec s).2.edges q = kvPut edgeLt (s.edges q) k e := by
          show (s.setEdges q _).edges q = _
          rw [setEdges_edges, if_pos rfl]
        refine ⟨⟨fun p hp => ?_, fun r hr => ?_⟩, fun r hr => ?_⟩
        · rw [hE] at hp
          rcases kvPut_mem hp with rfl | hp
          · exact hk
          · exact hi.1 p hp
        · obtain ⟨p, hp, rfl⟩ := List.mem_map.1 (show r ∈ (Store.edges _ q).map _ from hr)
          rw [hE] at hp
          rcases kvPut_mem hp with rfl | hp
          · exact hSe
          · exact hi.2 _ (List.mem_map.2 ⟨p, hp, rfl⟩)
        · obtain ⟨p, hp, rfl⟩ := List.mem_map.1 (show r ∈ (Store.edges _ q).map _ from hr)
          show _ ∈ (Store.edges _ q).map _
          rw [hE]
          rcases kvPut_keeps (lt := edgeLt) (k := k) (v := e) hp with h | ⟨h1, h2⟩
          · exact List.mem_map.2 ⟨p, h, rfl⟩
          · refine List.mem_map.2 ⟨_, h2, hS _ _ hSe (hi.2 _ hr) ?_⟩
            rw [← hk, ← h1]
            exact hi.1 p hp
      · refine absurd ?_ he
        show (s.setEdges q _).edges pid = _
        rw [setEdges_edges, if_neg (fun h => hq h.symm)]

theorem prog_onlyAdds (env : Env) {c : Call} (hset : ∀ now r a, c = .setRelationship now pid (some r) a → S r) (hdel : ∀ r, ¬ c.mayDelete pid r) :
    (c.prog env).AllOps (onlyAdds env S pid) := by
  refine prog_ops env c (fun o ho => ⟨fun k e he => (by subst he; cases ho), fun k he => (by subst he; cases ho)⟩) (fun _ _ => ⟨fun _ _ => nofun, fun _ => nofun⟩)
    (fun _ => ⟨fun _ _ => nofun, fun _ => nofun⟩) (fun now q r a e he hi => ⟨⟨fun k e' h => ?_, fun _ => nofun⟩, ⟨fun _ _ => nofun, fun _ => nofun⟩⟩)
    (fun q r e hm _ => ⟨⟨fun _ _ => nofun, fun k h => ?_⟩, ⟨fun _ _ => nofun, fun _ => nofun⟩⟩)
  · obtain ⟨rfl, rfl, rfl⟩ := Op.edgeSet.inj h
    rw [fromInternal_toInternal hi, relKey_of hi]
    exact ⟨rfl, hset _ _ _ he⟩
  · obtain ⟨rfl, rfl⟩ := Op.edgeDel.inj h
    exact hdel r hm

end

end Zanzi
