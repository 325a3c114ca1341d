import Verif.Lemmas.Base64
import Verif.Lemmas.SchemaWrite
import Verif.Props.Drawing
import Verif.Props.ByteStore

/-
Property C82: identifiers of graph nodes as text, and vertex names of DumpRelationships.
-/

namespace Zanzi

open Spec Wire

section
variable {env : Env} {s : Store} {pid : String} {rec : PolicyRecord}

theorem idText_ok {H : String → Nat} {n : RelationNode} {t : String} : n.idText H = .ok t ↔ ∃ h, n.nodeId H = .ok h ∧ hashText h = t := by
  constructor
  · intro h
    obtain ⟨k, h1, h2⟩ := Res.bind_eq_ok.1 h
    exact ⟨k, h1, Res.ok.inj h2⟩
  · rintro ⟨k, h1, rfl⟩
    exact Res.bind_eq_ok.2 ⟨k, h1, rfl⟩

theorem nodeId_ok {H : String → Nat} {n : RelationNode} {h : Nat} : n.nodeId H = .ok h ↔ ∃ t, n.idPreimage = .ok t ∧ H t = h := by
  constructor
  · intro e
    obtain ⟨k, h1, h2⟩ := Res.bind_eq_ok.1 e
    cases h2
    exact ⟨k, h1, rfl⟩
  · rintro ⟨k, h1, rfl⟩
    exact Res.bind_eq_ok.2 ⟨k, h1, rfl⟩

/-- C82: the identifier of a node is the RFC 4648 text of the 32 bytes of the hash: 44 letters, digits, `+`, `/` and `=`. -/
theorem C82_id_text (H : String → Nat) (hH : Hash256 H) (n : RelationNode) (id : String) (h : n.idText H = .ok id) :
    ∃ text bytes, n.idPreimage = .ok text ∧ Proto.Key32 (H text) bytes ∧ Base64Of id.toList bytes ∧ id.length = 44 ∧
      ∀ c ∈ id.toList, c = '=' ∨ (letterValue c).isSome := by
  obtain ⟨k, h1, rfl⟩ := idText_ok.1 h
  obtain ⟨t, h2, rfl⟩ := nodeId_ok.1 h1
  refine ⟨t, encKey 32 (H t), h2, key32_enc (hH t), ?_, hashText_length _, ?_⟩
  · rw [hashText, String.toList_ofList]; exact base64_of _
  · rw [hashText, String.toList_ofList]; exact base64_chars _

/-- C82: a base64 text stands for one sequence of bytes only, so nothing is lost by comparing identifiers as text. -/
theorem C82_base64_determines (text : List Char) (b b' : Bytes) (h : Base64Of text b) (h' : Base64Of text b') : b = b' := base64Of_bytes h h'

/-- C82: two nodes have the same identifier exactly if the hashes are the same, and a node has one exactly if its hash can be computed. -/
theorem C82_id_exact (H : String → Nat) (hH : Hash256 H) (m n : RelationNode) (i j : String) (hi : m.idText H = .ok i) (hj : n.idText H = .ok j) :
    i = j ↔ m.nodeId H = n.nodeId H := by
  obtain ⟨h, h1, rfl⟩ := idText_ok.1 hi
  obtain ⟨h', h1', rfl⟩ := idText_ok.1 hj
  rw [h1, h1']
  constructor
  · intro e
    obtain ⟨t, _, rfl⟩ := nodeId_ok.1 h1
    obtain ⟨t', _, rfl⟩ := nodeId_ok.1 h1'
    rw [hashText_inj (hH t) (hH t') e]
  · intro e; cases e; rfl

/-- C82: in a drawing of DumpRelationships, every vertex but the root is named by the identifier of the node it is labelled with; the root is named `root`; different vertices have different names, and one
label each; edges join vertices that are drawn. -/
theorem C82_dump_names (hH : Hash256 env.H) (hs : WF env s) (hp : policyAt s pid = some rec) {fuel : Nat} {order : List Nat → List Nat} (ho : ∀ l, (order l).Perm l)
    {cs : List DotCall} (h : (serve env (.dumpRelationships fuel order pid .dot) s).1 = .ok (.dumped cs)) :
    (∀ d l, .node d l ∈ cs → (l = "root" ∧ Reads d.dumped "root") ∨
      ∃ n id, OnEdge (Present s pid) n ∧ NodeText n l ∧ n.idText env.H = .ok id ∧ Reads d.dumped id ∧ id ≠ "root") ∧
    (∀ d l d' l', .node d l ∈ cs → .node d' l' ∈ cs → d.dumped = d'.dumped → d = d' ∧ l = l') ∧
    (∀ d d', .edge d d' ∈ cs → ∃ l l', .node d l ∈ cs ∧ .node d' l' ∈ cs) := by
  obtain ⟨f, hw, hf⟩ := forest_of hs pid
  rw [serve_dump hs hp fuel order hw] at h
  obtain ⟨cs', h1, h⟩ := Res.bind_eq_ok.1 h
  cases h
  obtain ⟨cs', h2, h⟩ := Res.bind_eq_ok.1 h1
  cases h
  obtain ⟨hall, hmem⟩ := concatRes_mem h2
  have hlab := hf.labelled hs
  have hnode : ∀ d l, DotCall.node d l ∈ cs' → ∃ i m, d = .num i ∧ kvGet f.nodes i = some m ∧ m.prettyString = .ok l := by
    intro d l hd
    obtain ⟨o, _, b, h3, h4⟩ := (hmem _).1 hd
    obtain ⟨i, m, h5, _, h6, h7⟩ := ((dumpNode_mem h3).1 d l).1 h4
    exact ⟨i, m, h5, h6, h7⟩
  have hlt : ∀ i m, kvGet f.nodes i = some m → i < 2 ^ 256 := by
    intro i m hm
    obtain ⟨t, _, rfl⟩ := nodeId_ok.1 (hf.only i m hm).2
    exact hH t
  have hbound : ∀ d l, DotCall.node d l ∈ DotCall.node .root "root" :: cs' → ∀ h, d = .num h → h < 2 ^ 256 := by
    rintro d l hd h rfl
    rcases List.mem_cons.1 hd with hd | hd
    · cases hd
    · obtain ⟨i, m, h5, h6, _⟩ := hnode _ _ hd
      cases h5
      exact hlt _ _ h6
  refine ⟨fun d l hd => ?_, fun d l d' l' hd hd' e => ?_, fun d d' he => ?_⟩
  · rcases List.mem_cons.1 hd with hd | hd
    · cases hd
      exact .inl ⟨rfl, reads_root⟩
    · obtain ⟨i, m, rfl, h6, h7⟩ := hnode _ _ hd
      obtain ⟨h8, h9⟩ := hf.onEdge hs h6
      refine .inr ⟨m, hashText i, h8, prettyString_iff.1 h7, idText_ok.2 ⟨i, h9, rfl⟩, reads_hash i, fun e => ?_⟩
      have := congrArg String.length e
      rw [hashText_length] at this
      exact absurd this (by decide)
  · have := dumped_inj (hbound d l hd) (hbound d' l' hd') e
    subst this
    refine ⟨rfl, ?_⟩
    rcases List.mem_cons.1 hd with hd | hd
    · cases hd
      rcases List.mem_cons.1 hd' with hd' | hd'
      · cases hd'; rfl
      · obtain ⟨i, m, h5, _⟩ := hnode _ _ hd'
        cases h5
    · obtain ⟨i, m, rfl, h6, h7⟩ := hnode _ _ hd
      rcases List.mem_cons.1 hd' with hd' | hd'
      · cases hd'
      · obtain ⟨i', m', h5, h6', h7'⟩ := hnode _ _ hd'
        cases h5
        rw [h6] at h6'
        cases h6'
        rw [h7] at h7'
        cases h7'
        rfl
  · rcases List.mem_cons.1 he with he | he
    · cases he
    · obtain ⟨o, horder, b, h3, h4⟩ := (hmem _).1 he
      have hroot : ∃ m, kvGet f.nodes o = some m := by
        obtain ⟨⟨e, he, h5⟩, _⟩ := (hf.orphans o).1 ((ho _).mem_iff.1 horder)
        exact hf.has e he o (.inl h5)
      have drawn : ∀ i, Below f o i → ∃ l, DotCall.node (.num i) l ∈ cs' := by
        intro i hi
        obtain ⟨m, hm⟩ := hlab.below hi hroot
        obtain ⟨l, hl⟩ := hlab.1 i m hm
        exact ⟨l, (hmem _).2 ⟨o, horder, b, h3, ((dumpNode_mem h3).1 _ _).2 ⟨i, m, rfl, hi, hm, hl⟩⟩⟩
      rcases ((dumpNode_mem h3).2 d d').1 h4 with ⟨rfl, rfl⟩ | ⟨i, j, rfl, rfl, h5, h6⟩
      · obtain ⟨l, hl⟩ := drawn o .refl
        exact ⟨"root", l, List.mem_cons_self, List.mem_cons_of_mem _ hl⟩
      · obtain ⟨l, hl⟩ := drawn i h5
        obtain ⟨l', hl'⟩ := drawn j (.step h5 h6)
        exact ⟨l, l', List.mem_cons_of_mem _ hl, List.mem_cons_of_mem _ hl'⟩

end

/-- Known texts: those of RFC 4648 section 10. -/
example : base64 [102, 111, 111, 98, 97, 114] = "Zm9vYmFy".toList ∧ base64 [102, 111, 111, 98, 97] = "Zm9vYmE=".toList ∧ base64 [102, 111, 111, 98] = "Zm9vYg==".toList := by
  decide +kernel

/-- The hypotheses of `C82_dump_names`: with 32-byte hashes, the dump of a store where user:u has a and b on doc:1 answers, and draws user:u. -/
example : Hash256 Props.byteEnv.H ∧ WF Props.byteEnv (gStore Props.byteEnv opRels abRels) ∧ policyAt (gStore Props.byteEnv opRels abRels) "p" = some ⟨gPolicy opRels, [], 0⟩ ∧
    ∃ cs, (serve Props.byteEnv (.dumpRelationships 10 id "p" .dot) (gStore Props.byteEnv opRels abRels)).1 = .ok (.dumped cs) ∧
      (cs.any (fun | .node (.num _) l => l == "(user:u)" | _ => false)) = true :=
  ⟨Props.byteEnv_hash, gStore_wf _ _ _, by decide +kernel, dumpB_of (by decide +kernel)⟩

end Zanzi
