import Verif.Props.Policies
import Verif.Lemmas.Frame

/-
Aliasing and isolation: counterexamples for C15–C21 and the parts of C20, C21 that hold.
-/

namespace Zanzi

open Spec

/-! ### C21 (and C16, C17): different relationships share a storage key -/

/-- Two different admissible relationships with the same storage key, for every hash. Writing `rB` after `rA` reports
an overwrite although `rB` was absent (C16); it erases `rA` (C21, C15); deleting `rB` when only `rA` is stored reports Found and deletes
`rA` (C17, C21); reading `rB` returns a record though it was never written. -/
theorem C21_aliasing_violated (H : String → Nat) : ∃ (pre : List Call) (s : Store),
    (runCalls (wEnv H) pre Store.empty).2 = s ∧ rA ≠ rB ∧ Present s "p" rA ∧ ¬ Present s "p" rB ∧
    (∃ s', serve (wEnv H) (.setRelationship 1 "p" (some rB) []) s = (.ok (.overwritten true), s') ∧ ¬ Present s' "p" rA) ∧
    (∃ s', serve (wEnv H) (.deleteRelationship "p" (some rB)) s = (.ok (.found true), s') ∧ ¬ Present s' "p" rA) ∧
    (∃ rec, serve (wEnv H) (.getRelationship "p" (some rB)) s = (.ok (.relationship (some rec)), s)) := by
  let s : Store := wStore.putRel H "p" eA [] 0
  have hset : serve (wEnv H) (.setRelationship 0 "p" (some rA) []) wStore = (.ok (.overwritten false), s) := by
    rw [w_set H rfl (.inl rfl) (.inl ⟨rfl, rfl⟩)]
    rfl
  have hs : WF (wEnv H) s := by
    have := (wStore_wf H).run (.setRelationship 0 "p" (some rA) [])
    rw [show Prog.run _ wStore = _ from hset] at this
    exact this
  have hed : s.edges "p" = [(eA.key H, eA)] := by
    simp [s, Store.putRel, wStore, Store.putPolicy, Store.empty, kvPut, kvGet, kvInsert]
  have hda : kvGet s.data (eA.key H) = some ⟨eA.key H, 0, []⟩ := by
    simp [s, Store.putRel, kvGet_put]
  refine ⟨_, s, (w_reach H [.setRelationship 0 "p" (some rA) []]).trans ?_, by decide, ?_, ?_, ?_, ?_, ?_⟩
  · rw [runCalls_cons, hset, runCalls_nil]
  · unfold Present relationships; rw [hed]; simp [eA, rA, fromInternal, subjectFromInternal]
  · unfold Present relationships; rw [hed]; simp [eA, rB, fromInternal, subjectFromInternal]
  · refine ⟨s.putRel H "p" eB [] 1, ?_, ?_⟩
    · rw [w_set H (s := s) rfl (.inl rfl) (.inr ⟨rfl, rfl⟩), ← key_alias, hed]
      simp only [kvGet, if_true]
      rfl
    · have : (s.putRel H "p" eB [] 1).edges "p" = [(eB.key H, eB)] := by
        have h1 : (s.putRel H "p" eB [] 1).edges "p" = kvPut edgeLt (s.edges "p") (eB.key H) eB := by simp [Store.putRel]
        rw [h1, hed, key_alias]
        simp [kvPut, kvGet]
      unfold Present relationships
      rw [this]
      simp [eB, rA, fromInternal, subjectFromInternal]
  · refine ⟨s.delRels "p" [eA.key H], ?_, ?_⟩
    · rw [serve_delete eB_of]
      show (Res.ok (Answer.found (kvGet (s.edges "p") (eB.key H)).isSome), _) = _
      rw [← key_alias, hed]
      simp only [kvGet, if_true]
      rfl
    · have : (s.delRels "p" [eA.key H]).edges "p" = [] := by simp [Store.delRels, hed]
      unfold Present relationships
      rw [this]
      simp
  · refine ⟨⟨"p", rB, 0, []⟩, ?_⟩
    rw [serve_get eB_of]
    show (Res.ok (Answer.relationship ((kvGet s.data (eB.key H)).map _)), s) = _
    rw [← key_alias, hda]
    rfl

/-- C15 is violated whatever the hash.  The record of `rA` in "p", just written with one byte of data at time 0, comes back with the data and time of another
write: of the different relationship `rB` in "p", or of `rA` in the other policy "q". -/
theorem C15_until_changed_violated (H : String → Nat) : ∃ (pre : List Call) (s : Store) (a b : Bytes),
    (runCalls (wEnv H) pre Store.empty).2 = s ∧ a ≠ b ∧ rA ≠ rB ∧
    ∃ s1, serve (wEnv H) (.setRelationship 0 "p" (some rA) a) s = (.ok (.overwritten false), s1) ∧
      (serve (wEnv H) (.getRelationship "p" (some rA)) s1).1 = .ok (.relationship (some ⟨"p", rA, 0, a⟩)) ∧
      (serve (wEnv H) (.getRelationship "p" (some rA)) (serve (wEnv H) (.setRelationship 5 "p" (some rB) b) s1).2).1 =
        .ok (.relationship (some ⟨"p", rA, 5, b⟩)) ∧
      (serve (wEnv H) (.getRelationship "p" (some rA)) (serve (wEnv H) (.setRelationship 5 "q" (some rA) b) s1).2).1 =
        .ok (.relationship (some ⟨"p", rA, 5, b⟩)) := by
  have hH : (wEnv H).H = H := rfl
  refine ⟨_, wStore, [1], [2], (w_reach H []).trans (by rw [runCalls_nil]), by decide, by decide, wStore.putRel H "p" eA [1] 0, ?_, ?_, ?_, ?_⟩
  · rw [w_set H rfl (.inl rfl) (.inl ⟨rfl, rfl⟩)]
    rfl
  · rw [serve_get eA_of, hH]
    simp [Store.putRel, kvGet_put]
  · rw [w_set H (s := wStore.putRel H "p" eA [1] 0) rfl (.inl rfl) (.inr ⟨rfl, rfl⟩), serve_get eA_of, hH]
    simp [Store.putRel, kvGet_put, key_alias]
  · rw [w_set H (s := wStore.putRel H "p" eA [1] 0) rfl (.inr rfl) (.inl ⟨rfl, rfl⟩), serve_get eA_of, hH]
    simp [Store.putRel, kvGet_put]

/-- C16 is violated: RecordOverwritten is reported for an absent relationship. -/
theorem C16_overwrite_violated (H : String → Nat) : ∃ (pre : List Call) (s s' : Store),
    (runCalls (wEnv H) pre Store.empty).2 = s ∧ ¬ Present s "p" rB ∧
    serve (wEnv H) (.setRelationship 1 "p" (some rB) []) s = (.ok (.overwritten true), s') := by
  obtain ⟨pre, s, h1, _, _, h2, ⟨s', h3, _⟩, _⟩ := C21_aliasing_violated H
  exact ⟨pre, s, s', h1, h2, h3⟩

/-- C17 is violated: Found is reported for an absent relationship and another one is deleted. -/
theorem C17_found_violated (H : String → Nat) : ∃ (pre : List Call) (s s' : Store),
    (runCalls (wEnv H) pre Store.empty).2 = s ∧ ¬ Present s "p" rB ∧ Present s "p" rA ∧
    serve (wEnv H) (.deleteRelationship "p" (some rB)) s = (.ok (.found true), s') ∧ ¬ Present s' "p" rA := by
  obtain ⟨pre, s, h1, _, h4, h2, _, ⟨s', h3, h5⟩, _⟩ := C21_aliasing_violated H
  exact ⟨pre, s, s', h1, h2, h4, h3, h5⟩

/-- Full claim: setting, reading or deleting one relationship never affects another one of the same policy.  Proved for relationships
with different storage keys: presence and record of the other relationship are unchanged. -/
theorem C21_no_alias_partial (env : Env) (s s' : Store) (pid : String) (r x : Relationship) (c : Call) (res : Res Answer) (hs : WF env s)
    (hc : (∃ now a, c = .setRelationship now pid (some r) a) ∨ c = .deleteRelationship pid (some r) ∨ c = .getRelationship pid (some r))
    (hk : relKey env.H r ≠ relKey env.H x) (h : serve env c s = (res, s')) :
    (Present s' pid x ↔ Present s pid x) ∧
    (serve env (.getRelationship pid (some x)) s').1 = (serve env (.getRelationship pid (some x)) s).1 := by
  have hs' : WF env s' := by
    have := hs.run c
    rw [show Prog.run _ s = _ from h] at this
    exact this
  constructor
  · rcases toInternal_normal_or_panic x with ⟨ex, hx⟩ | hx
    · rw [hs'.present_iff hx, hs.present_iff hx]
      rw [relKey_of hx] at hk
      have key : kvGet (s'.edges pid) (ex.key env.H) = kvGet (s.edges pid) (ex.key env.H) := by
        rcases hc with ⟨now, a, rfl⟩ | rfl | rfl
        · cases res with
          | ok ans =>
            obtain ⟨r', e, rec, h1, he, _, _, _, rfl⟩ := serve_set_inv h
            cases h1
            rw [relKey_of he] at hk
            simp [Store.putRel, kvGet_put, Ne.symm hk]
          | err => rw [serve_set_unchanged h (by simp)]
          | panic => rw [serve_set_unchanged h (by simp)]
          | fuel => rw [serve_set_unchanged h (by simp)]
        · rcases toInternal_normal_or_panic r with ⟨e, he⟩ | he
          · rw [serve_delete he] at h
            cases h
            rw [relKey_of he] at hk
            have : (s.delRels pid [e.key env.H]).edges pid = kvDel (s.edges pid) (e.key env.H) := by
              simp [Store.delRels, kvDel]
            rw [this, kvGet_del, if_neg (Ne.symm hk)]
          · rw [serve_delete_panic he] at h
            cases h; rfl
        · have := (Call.prog_read env (c := .getRelationship pid (some r)) rfl).run s
          rw [show Prog.run _ s = _ from h] at this
          cases this
          rfl
      rw [key]
    · constructor
      · intro hp
        obtain ⟨e, he⟩ := toInternal_complete.2 (present_complete hp)
        rw [he] at hx; cases hx
      · intro hp
        obtain ⟨e, he⟩ := toInternal_complete.2 (present_complete hp)
        rw [he] at hx; cases hx
  · rcases toInternal_normal_or_panic x with ⟨ex, hx⟩ | hx
    · rw [serve_get hx, serve_get hx]
      have : kvGet s'.data (ex.key env.H) = kvGet s.data (ex.key env.H) := by
        have := serve_data (env := env) c s (ex.key env.H) (by
          intro y hy _
          rw [← relKey_of hx]
          rcases hc with ⟨now, a, rfl⟩ | rfl | rfl
          · simp only [Call.affects, Option.some.injEq] at hy; subst hy; exact hk
          · simp only [Call.affects, Option.some.injEq] at hy; subst hy; exact hk
          · exact hy.elim)
        rw [h] at this
        exact this
      rw [this]
    · have : ∀ s, (serve env (.getRelationship pid (some x)) s).1 = .panic := by
        intro s
        show (Prog.run (do let x ← Repo.getRelationship env.H pid (some x); return Answer.relationship x) s).1 = _
        rw [run_map]
        have : (Repo.getRelationship env.H pid (some x)).run s = (.panic, s) := by
          unfold Repo.getRelationship
          simp only [Res.deref_some, lift_ok_bind, hx]
          rfl
        rw [this]
        rfl
      rw [this, this]

example (H : String → Nat) (hH : H "doc2owner" ≠ H "doc1super_owner") :
    relKey H ⟨some ⟨"doc", "2"⟩, "owner", some (.entity ⟨"user", "u"⟩)⟩ ≠ relKey H rA ∧ Present (w1Store H) "p" rA := by
  refine ⟨fun hk => hH (congrArg Prod.fst hk), ?_⟩
  unfold Present
  rw [w1_relationships]
  simp

/-! A sufficient condition for distinct keys. -/

/-- Text of a node before hashing. -/
def nodeText (n : INode) : String := n.resource ++ n.id ++ n.relation

/-- Names contain none of the characters in `P`; ids are not empty and begin and end with characters in `P`.  (For example `P` = digits,
with purely numeric or `12-ab-7` style ids.) -/
def IdStyle (P : Char → Bool) (n : INode) : Prop :=
  n.resource.toList.all (fun c => !P c) = true ∧ n.relation.toList.all (fun c => !P c) = true ∧
  match n.type with
  | .object => n.relation = "" ∧ (∃ c, n.id.toList.head? = some c ∧ P c = true) ∧ (∃ c, n.id.toList.getLast? = some c ∧ P c = true)
  | .objectSet => n.relation ≠ "" ∧ (∃ c, n.id.toList.head? = some c ∧ P c = true) ∧ (∃ c, n.id.toList.getLast? = some c ∧ P c = true)
  | .resourceSet => n.relation = "" ∧ n.id = ""
  | .unknown => False

theorem split_first {P : Char → Bool} {a b x y : List Char} (ha : a.all (fun c => !P c) = true) (hb : b.all (fun c => !P c) = true)
    (hx : x = [] ∨ ∃ c, x.head? = some c ∧ P c = true) (hy : y = [] ∨ ∃ c, y.head? = some c ∧ P c = true)
    (h : a ++ x = b ++ y) : a = b ∧ x = y := by
  induction a generalizing b with
  | nil =>
    cases b with
    | nil => exact ⟨rfl, h⟩
    | cons c b =>
      exfalso
      rcases hx with rfl | ⟨d, hd, hp⟩
      · simp at h
      · cases x with
        | nil => simp at hd
        | cons e x =>
          simp only [List.nil_append, List.cons_append, List.cons.injEq] at h
          simp only [List.head?_cons, Option.some.injEq] at hd
          obtain ⟨rfl, _⟩ := h
          subst hd
          simp [hp] at hb
  | cons c a ih =>
    cases b with
    | nil =>
      exfalso
      rcases hy with rfl | ⟨d, hd, hp⟩
      · simp at h
      · cases y with
        | nil => simp at hd
        | cons e y =>
          simp only [List.nil_append, List.cons_append, List.cons.injEq] at h
          simp only [List.head?_cons, Option.some.injEq] at hd
          obtain ⟨rfl, _⟩ := h
          subst hd
          simp [hp] at ha
    | cons d b =>
      simp only [List.cons_append, List.cons.injEq] at h
      simp only [List.all_cons, Bool.and_eq_true] at ha hb
      obtain ⟨h1, h2⟩ := ih ha.2 hb.2 h.2
      exact ⟨by rw [h.1, h1], h2⟩

theorem split_last {P : Char → Bool} {a b x y : List Char} (ha : a.all (fun c => !P c) = true) (hb : b.all (fun c => !P c) = true)
    (hx : x = [] ∨ ∃ c, x.getLast? = some c ∧ P c = true) (hy : y = [] ∨ ∃ c, y.getLast? = some c ∧ P c = true)
    (h : x ++ a = y ++ b) : x = y ∧ a = b := by
  have h' : a.reverse ++ x.reverse = b.reverse ++ y.reverse := by
    rw [← List.reverse_append, ← List.reverse_append, h]
  have := split_first (P := P) (a := a.reverse) (b := b.reverse) (x := x.reverse) (y := y.reverse) (by simpa using ha) (by simpa using hb)
    (by simpa using hx) (by simpa using hy) h'
  exact ⟨List.reverse_inj.1 this.2, List.reverse_inj.1 this.1⟩

theorem nodeText_inj {P : Char → Bool} {m n : INode} (hm : IdStyle P m) (hn : IdStyle P n) (h : nodeText m = nodeText n) : m = n := by
  obtain ⟨mr, mi, ml, mt⟩ := m
  obtain ⟨nr, ni, nl, nt⟩ := n
  obtain ⟨m1, m2, m3⟩ := hm
  obtain ⟨n1, n2, n3⟩ := hn
  simp only at m1 m2 m3 n1 n2 n3
  have hl : mr.toList ++ (mi.toList ++ ml.toList) = nr.toList ++ (ni.toList ++ nl.toList) := by
    have := congrArg String.toList h
    simpa [nodeText, String.toList_append, List.append_assoc] using this
  have head : ∀ (i l : String) (t : RelType),
      (match t with
        | .object => l = "" ∧ (∃ c, i.toList.head? = some c ∧ P c = true) ∧ (∃ c, i.toList.getLast? = some c ∧ P c = true)
        | .objectSet => l ≠ "" ∧ (∃ c, i.toList.head? = some c ∧ P c = true) ∧ (∃ c, i.toList.getLast? = some c ∧ P c = true)
        | .resourceSet => l = "" ∧ i = ""
        | .unknown => False) →
      (i.toList ++ l.toList = [] ∨ ∃ c, (i.toList ++ l.toList).head? = some c ∧ P c = true) ∧
      (i.toList = [] ∨ ∃ c, i.toList.getLast? = some c ∧ P c = true) := by
    intro i l t ht
    have aux : ∀ {x y : List Char} {c : Char}, x.head? = some c → (x ++ y).head? = some c := by
      intro x y c hc
      cases x with
      | nil => simp at hc
      | cons => simpa using hc
    cases t with
    | object => obtain ⟨_, ⟨c, h1, h2⟩, h3⟩ := ht; exact ⟨.inr ⟨c, aux h1, h2⟩, .inr h3⟩
    | objectSet => obtain ⟨_, ⟨c, h1, h2⟩, h3⟩ := ht; exact ⟨.inr ⟨c, aux h1, h2⟩, .inr h3⟩
    | resourceSet => obtain ⟨rfl, rfl⟩ := ht; simp
    | unknown => exact ht.elim
  have hhm := head mi ml mt m3
  have hhn := head ni nl nt n3
  obtain ⟨e1, e2⟩ := split_first m1 n1 hhm.1 hhn.1 hl
  obtain ⟨e3, e4⟩ := split_last m2 n2 hhm.2 hhn.2 e2
  have e1 := String.toList_inj.1 e1
  have e3 := String.toList_inj.1 e3
  have e4 := String.toList_inj.1 e4
  subst e1 e3 e4
  have : mt = nt := by
    cases mt <;> cases nt <;> simp_all
  rw [this]

/-- When names and ids use the style above and the hash has no collisions on the texts of their nodes, different relationships have different keys, so `NoAlias` and the
hypothesis of `C21_no_alias_partial` hold. -/
theorem C21_id_style_suffices (H : String → Nat) (P : Char → Bool) (r r' : Relationship) (e e' : IRel)
    (hH : CollisionFree H (fun t => ∃ n ∈ [e.source, e.dest, e'.source, e'.dest], t = nodeText n)) (he : toInternal r = .ok e) (he' : toInternal r' = .ok e')
    (h1 : IdStyle P e.source ∧ IdStyle P e.dest) (h2 : IdStyle P e'.source ∧ IdStyle P e'.dest)
    (hk : relKey H r = relKey H r') : r = r' := by
  rw [relKey_of he, relKey_of he'] at hk
  unfold IRel.key INode.key at hk
  simp only [Prod.mk.injEq] at hk
  have hs := nodeText_inj h1.1 h2.1 (hH _ _ ⟨e.source, by simp, rfl⟩ ⟨e'.source, by simp, rfl⟩ hk.1)
  have hd := nodeText_inj h1.2 h2.2 (hH _ _ ⟨e.dest, by simp, rfl⟩ ⟨e'.dest, by simp, rfl⟩ hk.2)
  have : e = e' := by
    obtain ⟨a, b⟩ := e
    obtain ⟨c, d⟩ := e'
    simp only at hs hd
    rw [hs, hd]
  exact toInternal_inj he (this ▸ he')

example : IdStyle Char.isDigit ⟨"doc", "17", "owner", .objectSet⟩ ∧ IdStyle Char.isDigit ⟨"user", "5-x-8", "", .object⟩ ∧
    IdStyle Char.isDigit ⟨"user", "", "", .resourceSet⟩ := by
  refine ⟨⟨by decide, by decide, by decide, ⟨'1', by decide, by decide⟩, ⟨'7', by decide, by decide⟩⟩,
    ⟨by decide, by decide, by decide, ⟨'5', by decide, by decide⟩, ⟨'8', by decide, by decide⟩⟩,
    ⟨by decide, by decide, by decide, by decide⟩⟩

/-! ### C20: isolation of policies -/

/-- C20 (and with it C18, C19) is violated: relationship data is shared between policies.  After writing the same relationship in "p" and
"q" and deleting it in "p", policy "q" still has the relationship, but reading it returns no record and find returns an empty (nil) record; and writing it in
"p" changes the data seen in "q". -/
theorem C20_isolation_violated (H : String → Nat) : ∃ (pre : List Call) (s : Store),
    (runCalls (wEnv H) pre Store.empty).2 = s ∧
    serve (wEnv H) (.getRelationship "q" (some rA)) s = (.ok (.relationship (some ⟨"q", rA, 2, [2]⟩)), s) ∧
    (∃ s', serve (wEnv H) (.deleteRelationship "p" (some rA)) s = (.ok (.found true), s') ∧
      Present s' "q" rA ∧
      serve (wEnv H) (.getRelationship "q" (some rA)) s' = (.ok (.relationship none), s') ∧
      serve (wEnv H) (.findRelationshipRecords "q" (some allSelector)) s' = (.ok (.records [none]), s')) ∧
    (∃ s', serve (wEnv H) (.deleteRelationships "p" (some allSelector)) s = (.ok (.affected 1), s') ∧
      serve (wEnv H) (.getRelationship "q" (some rA)) s' = (.ok (.relationship none), s')) ∧
    (∃ s', serve (wEnv H) (.setRelationship 3 "p" (some rA) [3]) s = (.ok (.overwritten true), s') ∧
      serve (wEnv H) (.getRelationship "q" (some rA)) s' = (.ok (.relationship (some ⟨"q", rA, 3, [3]⟩)), s')) := by
  let s1 : Store := wStore.putRel H "p" eA [1] 1
  let s : Store := s1.putRel H "q" eA [2] 2
  have hset1 : serve (wEnv H) (.setRelationship 1 "p" (some rA) [1]) wStore = (.ok (.overwritten false), s1) := by
    rw [w_set H rfl (.inl rfl) (.inl ⟨rfl, rfl⟩)]
    rfl
  have hset2 : serve (wEnv H) (.setRelationship 2 "q" (some rA) [2]) s1 = (.ok (.overwritten false), s) := by
    rw [w_set H (s := s1) rfl (.inr rfl) (.inl ⟨rfl, rfl⟩)]
    rfl
  have hep : s.edges "p" = [(eA.key H, eA)] := by
    simp [s, s1, Store.putRel, wStore, Store.putPolicy, Store.empty, kvPut, kvGet, kvInsert]
  have heq : s.edges "q" = [(eA.key H, eA)] := by
    simp [s, s1, Store.putRel, wStore, Store.putPolicy, Store.empty, kvPut, kvGet, kvInsert]
  have hda : kvGet s.data (eA.key H) = some ⟨eA.key H, 2, [2]⟩ := by
    simp [s, Store.putRel, kvGet_put]
  have hd' : kvGet (s.delRels "p" [eA.key H]).data (eA.key H) = none := by
    rw [kvGet_none_iff]; intro v hv; simp [Store.delRels] at hv
  have heq' : (s.delRels "p" [eA.key H]).edges "q" = [(eA.key H, eA)] := by
    simp [Store.delRels, heq]
  have hfr : fromInternal eA = rA := rfl
  have hrel : ∀ t : Store, t.edges "q" = [(eA.key H, eA)] → relationships t "q" = [rA] := by
    intro t ht; unfold relationships; rw [ht]; rfl
  have hrelp : relationships s "p" = [rA] := by
    unfold relationships; rw [hep]; rfl
  refine ⟨_, s, (w_reach H [.setRelationship 1 "p" (some rA) [1], .setRelationship 2 "q" (some rA) [2]]).trans ?_, ?_, ?_, ?_, ?_⟩
  · rw [runCalls_cons, hset1, runCalls_cons, hset2, runCalls_nil]
  · rw [serve_get eA_of]
    show (Res.ok (Answer.relationship ((kvGet s.data (eA.key H)).map _)), s) = _
    rw [hda]
    rfl
  · refine ⟨s.delRels "p" [eA.key H], ?_, ?_, ?_, ?_⟩
    · rw [serve_delete eA_of]
      show (Res.ok (Answer.found (kvGet (s.edges "p") (eA.key H)).isSome), s.delRels "p" [eA.key H]) = _
      rw [hep]
      simp [kvGet]
    · unfold Present; rw [hrel _ heq']; simp
    · rw [serve_get eA_of]
      show (Res.ok (Answer.relationship ((kvGet (s.delRels "p" [eA.key H]).data (eA.key H)).map _)), s.delRels "p" [eA.key H]) = _
      rw [hd']
      rfl
    · rw [serve_find allSelector_complete.1 allSelector_complete.2, matching_all, hrel _ heq']
      have : kvGet (s.delRels "p" [eA.key H]).policies "q" = some ⟨docPolicy "q", [], 0⟩ := wStore_pol "q" (.inr rfl)
      rw [this]
      have hv : validSelector (some allSelector) (docPolicy "q") = .ok () := by decide +kernel
      simp only [hv, List.map_cons, List.map_nil, relKey_of eA_of]
      show (Res.ok (Answer.records [(kvGet (s.delRels "p" [eA.key H]).data (eA.key H)).map _]), s.delRels "p" [eA.key H]) = _
      rw [hd']
      rfl
  · refine ⟨s.delRels "p" [eA.key H], ?_, ?_⟩
    · rw [serve_deleteMatching allSelector_complete.1 allSelector_complete.2, matching_all, hrelp]
      rfl
    · rw [serve_get eA_of]
      show (Res.ok (Answer.relationship ((kvGet (s.delRels "p" [eA.key H]).data (eA.key H)).map _)), s.delRels "p" [eA.key H]) = _
      rw [hd']
      rfl
  · refine ⟨s.putRel H "p" eA [3] 3, ?_, ?_⟩
    · rw [w_set H (s := s) rfl (.inl rfl) (.inl ⟨rfl, rfl⟩), hep]
      simp only [kvGet, if_true]
      rfl
    · rw [serve_get eA_of]
      show (Res.ok (Answer.relationship ((kvGet (s.putRel H "p" eA [3] 3).data (eA.key H)).map _)), s.putRel H "p" eA [3] 3) = _
      simp [Store.putRel, kvGet_put]

/-- The part of C20 that holds.  A request addressed to another policy changes neither the policy record, nor its relationships, nor the answer of any
Check, ExplainCheck, Expand, Dump or GetPolicy on it.  Record reads and finds keep their answers as well, provided no relationship the request affects shares
its storage key with the relationships read (missing: shared data records). -/
theorem C20_isolation_partial (env : Env) (s : Store) (c : Call) (pid : String) (hs : WF env s) (hc : c.target env ≠ some pid) :
    policyAt (serve env c s).2 pid = policyAt s pid ∧
    relationships (serve env c s).2 pid = relationships s pid ∧
    (∀ c' : Call, c'.graphQuery pid → (serve env c' (serve env c s).2).1 = (serve env c' s).1) ∧
    (∀ x, (∀ y, c.affects s y → RelationshipComplete y → relKey env.H y ≠ relKey env.H x) →
      (serve env (.getRelationship pid (some x)) (serve env c s).2).1 = (serve env (.getRelationship pid (some x)) s).1) ∧
    ((∀ x y, Present s pid x → c.affects s y → RelationshipComplete y → relKey env.H y ≠ relKey env.H x) → ∀ sel,
      SelectorComplete sel → SelectorSet sel →
      (serve env (.findRelationshipRecords pid (some sel)) (serve env c s).2).1 =
        (serve env (.findRelationshipRecords pid (some sel)) s).1) := by
  obtain ⟨hp, he⟩ := serve_foreign hc s
  have hrel : relationships (serve env c s).2 pid = relationships s pid := by unfold relationships; rw [he]
  refine ⟨by rw [policyAt_eq, policyAt_eq, hp], hrel, ?_, ?_, ?_⟩
  · intro c' hq
    refine (graphQuery_agree (fun rec hr => ?_) hp.symm he.symm hq).symm
    exact hs.polKey _ _ (kvGet_mem hr)
  · intro x hx
    rcases toInternal_normal_or_panic x with ⟨ex, hxe⟩ | hxe
    · rw [serve_get hxe, serve_get hxe, serve_data c s (ex.key env.H) (by rw [← relKey_of hxe]; exact hx)]
    · have : ∀ s, (serve env (.getRelationship pid (some x)) s).1 = .panic := by
        intro s
        show (Prog.run (do let x ← Repo.getRelationship env.H pid (some x); return Answer.relationship x) s).1 = _
        rw [run_map]
        have : (Repo.getRelationship env.H pid (some x)).run s = (.panic, s) := by
          unfold Repo.getRelationship
          simp only [Res.deref_some, lift_ok_bind, hxe]
          rfl
        rw [this]
        rfl
      rw [this, this]
  · intro hk sel hsc hss
    rw [serve_find hsc hss, serve_find hsc hss, hp]
    cases kvGet s.policies pid with
    | none => rfl
    | some rec =>
      dsimp only
      cases validSelector (some sel) rec.policy with
      | err => rfl
      | panic => rfl
      | fuel => rfl
      | ok u =>
        dsimp only
        congr 2
        have hm : matching (serve env c s).2 pid sel = matching s pid sel := by unfold matching; rw [hrel]
        rw [hm]
        apply List.map_congr_left
        intro r hr
        rw [serve_data c s (relKey env.H r) (fun y hy hyc => hk r y (mem_matching.1 hr).1 hy hyc)]

example (H : String → Nat) (hH : H "doc2owner" ≠ H "doc1super_owner") :
    Call.target (wEnv H) (.setRelationship 1 "q" (some ⟨some ⟨"doc", "2"⟩, "owner", some (.entity ⟨"user", "u"⟩)⟩) []) ≠ some "p" ∧
    ∀ x y, Present (w1Store H) "p" x →
      Call.affects (w1Store H) (.setRelationship 1 "q" (some ⟨some ⟨"doc", "2"⟩, "owner", some (.entity ⟨"user", "u"⟩)⟩) []) y →
      RelationshipComplete y → relKey H y ≠ relKey H x := by
  refine ⟨by simp [Call.target], ?_⟩
  intro x y hx hy _ hk
  unfold Present at hx
  rw [w1_relationships] at hx
  have h1 : x = rA := by simpa using hx
  have h2 := Option.some.inj (show some _ = some y from hy)
  subst h1 h2
  exact hH (congrArg Prod.fst hk)

end Zanzi
