import Verif.Lemmas.Schema

/-
Lemmas about the published message formats (C79): the decoders read every encoding of a message.
-/

namespace Zanzi.Wire

open Spec
open Spec.Proto (Msg Kind Label Value Encodes)

/-- The fields of an encoded message, one fact for each. -/
macro "read_fields " h:ident " with " pats:rintroPat : tactic =>
  `(tactic| (have hread := fields_of rfl $h; simp only [Msg.fields, Proto.get, List.forall_mem_cons, List.not_mem_nil, false_implies, implies_true, reduceCtorEq, if_true, if_false, and_true] at hread; revert hread; rintro $pats))

/-- The members of an encoded oneof, one fact for each. -/
macro "read_oneof " h:ident " with " pats:rintroPat : tactic =>
  `(tactic| (have hread := oneof_of $h; simp only [oneofs, Msg.fields, Proto.get, List.forall_mem_cons, List.not_mem_nil, false_implies, implies_true, reduceCtorEq, if_true, if_false, and_true] at hread; revert hread; rintro $pats))

theorem entity_of {e : Entity} {bs : Bytes} {limit : Nat} (h : Encodes .Entity (Proto.entity e) bs) (hl : 1 ≤ limit) : decEntity limit bs = some e := by
  read_fields h with ⟨W, hW, h1, h2⟩
  unfold decEntity
  rw [message_of hW hl, h1.str, h2.str]
  rfl

theorem entity_obj (a : Entity) : ∃ fs, Proto.entity a = .obj fs := ⟨_, rfl⟩

theorem subject_obj (a : Subject) : ∃ fs, Proto.subject a = .obj fs := by cases a <;> exact ⟨_, rfl⟩

theorem subject_of {x : Subject} {bs : Bytes} {limit : Nat} (h : Encodes .Subject (Proto.subject x) bs) (hl : 3 ≤ limit) :
    decSubject limit bs = some x := by
  unfold decSubject
  cases x with
  | unset =>
    read_oneof h with ⟨V0, W, hW, hO, h1, h2, h3⟩
    rw [message_of hW (by omega), hO, getOneof_none (by simp [h1.absent, h2.absent, h3.absent])]
  | entity e =>
    read_oneof h with ⟨V0, W, hW, hO, h1, h2, h3⟩
    obtain ⟨b, hb, hW1⟩ := h1.msg (by simp)
    rw [message_of hW (by omega), hO, getOneof_msg hW1 (by simp) (by simp) (by simp [h2.absent, h3.absent])]
    dsimp only
    rw [if_pos rfl, entity_of hb (by omega)]
    rfl
  | entitySet e rel =>
    read_oneof h with ⟨V0, W, hW, hO, h1, h2, h3⟩
    obtain ⟨b, hb, hW1⟩ := h2.msg (by simp)
    read_fields hb with ⟨V, hV, h4, h5⟩
    rw [message_of hW (by omega), hO, getOneof_msg hW1 (by simp) (by simp) (by simp [h1.absent, h3.absent])]
    dsimp only
    rw [if_neg (by omega), if_pos rfl, message_of hV (by omega),
      h4.getMsg entity_obj (fun a b _ hb => entity_of hb (by omega)), h5.str]
    rfl
  | resourceSet res =>
    read_oneof h with ⟨V0, W, hW, hO, h1, h2, h3⟩
    obtain ⟨b, hb, hW1⟩ := h3.msg (by simp)
    read_fields hb with ⟨V, hV, h4⟩
    rw [message_of hW (by omega), hO, getOneof_msg hW1 (by simp) (by simp) (by simp [h1.absent, h2.absent])]
    dsimp only
    rw [if_neg (by omega), if_neg (by omega), message_of hV (by omega), h4.str]
    rfl

theorem relationship_of {x : Relationship} {bs : Bytes} {limit : Nat} (h : Encodes .Relationship (Proto.relationship x) bs) (hl : 4 ≤ limit) :
    decRelationship limit bs = some x := by
  read_fields h with ⟨W, hW, h1, h2, h3⟩
  unfold decRelationship
  rw [message_of hW (by omega), h1.getMsg entity_obj (fun a b _ hb => entity_of hb (by omega)), h2.str,
    h3.getMsg subject_obj (fun a b _ hb => subject_of hb (by omega))]
  rfl

theorem relationship_obj (a : Relationship) : ∃ fs, Proto.relationship a = .obj fs := ⟨_, rfl⟩

theorem timestamp_of {t : Nat} {bs : Bytes} {limit : Nat} (h : Encodes .Timestamp (Proto.timestamp t) bs) (hl : 1 ≤ limit) :
    decTimestamp limit bs = some t := by
  read_fields h with ⟨W, hW, h1, h2⟩
  unfold decTimestamp
  rw [message_of hW (by omega), h1.int, h2.int, Nat.div_add_mod']

theorem timestamp_obj (a : Nat) : ∃ fs, Proto.timestamp a = .obj fs := ⟨_, rfl⟩

theorem record_of {x : RecordMsg} {bs : Bytes} {limit : Nat} (h : Encodes .RelationshipRecord (Proto.record x) bs) (hl : 5 ≤ limit) :
    decRecord limit bs = some x := by
  read_fields h with ⟨W, hW, h1, h2, h3, h4⟩
  unfold decRecord
  rw [message_of hW (by omega), h1.str, h2.getMsg relationship_obj (fun a b _ hb => relationship_of hb (by omega)),
    h3.getMsg timestamp_obj (fun a b _ hb => timestamp_of hb (by omega)), h4.bytes]
  rfl

theorem record_obj (a : RecordMsg) : ∃ fs, Proto.record a = .obj fs := ⟨_, rfl⟩

theorem objectSelector_of {x : ObjectSelector} {bs : Bytes} {limit : Nat} (h : Encodes .ObjectSelector (Proto.objectSelector x) bs) (hl : 2 ≤ limit) :
    decObjectSelector limit bs = some x := by
  unfold decObjectSelector
  cases x with
  | unset =>
    read_oneof h with ⟨V0, W, hW, hO, h1, h2, h3⟩
    rw [message_of hW (by omega), hO, getOneof_none (by simp [h1.absent, h2.absent, h3.absent])]
  | objectSpec e =>
    read_oneof h with ⟨V0, W, hW, hO, h1, h2, h3⟩
    obtain ⟨b, hb, hW1⟩ := h1.msg (by simp)
    rw [message_of hW (by omega), hO, getOneof_msg hW1 (by simp) (by simp) (by simp [h2.absent, h3.absent])]
    dsimp only
    rw [if_pos rfl, entity_of hb (by omega)]
    rfl
  | wildcard =>
    read_oneof h with ⟨V0, W, hW, hO, h1, h2, h3⟩
    obtain ⟨b, hb, hW1⟩ := h2.msg (by simp)
    obtain ⟨V, hV, _⟩ := fields_of rfl hb
    rw [message_of hW (by omega), hO, getOneof_msg hW1 (by simp) (by simp) (by simp [h1.absent, h3.absent])]
    dsimp only
    rw [if_neg (by omega), if_pos rfl, message_of hV (by omega)]
  | resourceSpec res =>
    read_oneof h with ⟨V0, W, hW, hO, h1, h2, h3⟩
    rw [message_of hW (by omega), hO, getOneof_text h3.text (by simp) (by simp) (by simp [h1.absent, h2.absent])]
    dsimp only
    rw [if_neg (by omega), if_neg (by omega), ofUtf8_utf8]
    rfl

theorem relationSelector_of {x : RelationSelector} {bs : Bytes} {limit : Nat} (h : Encodes .RelationSelector (Proto.relationSelector x) bs)
    (hl : 2 ≤ limit) : decRelationSelector limit bs = some x := by
  unfold decRelationSelector
  cases x with
  | unset =>
    read_oneof h with ⟨V0, W, hW, hO, h1, h2⟩
    rw [message_of hW (by omega), hO, getOneof_none (by simp [h1.absent, h2.absent])]
  | relationName name =>
    read_oneof h with ⟨V0, W, hW, hO, h1, h2⟩
    rw [message_of hW (by omega), hO, getOneof_text h1.text (by simp) (by simp) (by simp [h2.absent])]
    dsimp only
    rw [if_pos rfl, ofUtf8_utf8]
    rfl
  | wildcard =>
    read_oneof h with ⟨V0, W, hW, hO, h1, h2⟩
    obtain ⟨b, hb, hW1⟩ := h2.msg (by simp)
    obtain ⟨V, hV, _⟩ := fields_of rfl hb
    rw [message_of hW (by omega), hO, getOneof_msg hW1 (by simp) (by simp) (by simp [h1.absent])]
    dsimp only
    rw [if_neg (by omega), message_of hV (by omega)]

theorem subjectSelector_of {x : SubjectSelector} {bs : Bytes} {limit : Nat} (h : Encodes .SubjectSelector (Proto.subjectSelector x) bs)
    (hl : 4 ≤ limit) : decSubjectSelector limit bs = some x := by
  unfold decSubjectSelector
  cases x with
  | unset =>
    read_oneof h with ⟨V0, W, hW, hO, h1, h2, h3⟩
    rw [message_of hW (by omega), hO, getOneof_none (by simp [h1.absent, h2.absent, h3.absent])]
  | subjectSpec e =>
    read_oneof h with ⟨V0, W, hW, hO, h1, h2, h3⟩
    obtain ⟨fs, hfs⟩ := subject_obj e
    rw [hfs] at h1
    obtain ⟨b, hb, hW1⟩ := h1.msg (by simp)
    rw [message_of hW (by omega), hO, getOneof_msg hW1 (by simp) (by simp) (by simp [h2.absent, h3.absent])]
    dsimp only
    rw [if_pos rfl, subject_of (hfs ▸ hb) (by omega)]
    rfl
  | wildcard =>
    read_oneof h with ⟨V0, W, hW, hO, h1, h2, h3⟩
    obtain ⟨b, hb, hW1⟩ := h2.msg (by simp)
    obtain ⟨V, hV, _⟩ := fields_of rfl hb
    rw [message_of hW (by omega), hO, getOneof_msg hW1 (by simp) (by simp) (by simp [h1.absent, h3.absent])]
    dsimp only
    rw [if_neg (by omega), if_pos rfl, message_of hV (by omega)]
  | resourceSpec res =>
    read_oneof h with ⟨V0, W, hW, hO, h1, h2, h3⟩
    rw [message_of hW (by omega), hO, getOneof_text h3.text (by simp) (by simp) (by simp [h1.absent, h2.absent])]
    dsimp only
    rw [if_neg (by omega), if_neg (by omega), ofUtf8_utf8]
    rfl

theorem objectSelector_obj (a : ObjectSelector) : ∃ fs, Proto.objectSelector a = .obj fs := by cases a <;> exact ⟨_, rfl⟩

theorem relationSelector_obj (a : RelationSelector) : ∃ fs, Proto.relationSelector a = .obj fs := by cases a <;> exact ⟨_, rfl⟩

theorem subjectSelector_obj (a : SubjectSelector) : ∃ fs, Proto.subjectSelector a = .obj fs := by cases a <;> exact ⟨_, rfl⟩

theorem selector_of {x : Selector} {bs : Bytes} {limit : Nat} (h : Encodes .RelationshipSelector (Proto.selector x) bs) (hl : 5 ≤ limit) :
    decSelector limit bs = some x := by
  read_fields h with ⟨W, hW, h1, h2, h3⟩
  unfold decSelector
  rw [message_of hW (by omega), h1.getMsg objectSelector_obj (fun a b _ hb => objectSelector_of hb (by omega)),
    h2.getMsg relationSelector_obj (fun a b _ hb => relationSelector_of hb (by omega)),
    h3.getMsg subjectSelector_obj (fun a b _ hb => subjectSelector_of hb (by omega))]
  rfl

theorem selector_obj (a : Selector) : ∃ fs, Proto.selector a = .obj fs := ⟨_, rfl⟩

theorem access_of {x : AccessRequest} {bs : Bytes} {limit : Nat} (h : Encodes .AccessRequest (Proto.access x) bs) (hl : 2 ≤ limit) :
    decAccess limit bs = some x := by
  read_fields h with ⟨W, hW, h1, h2, h3⟩
  unfold decAccess
  rw [message_of hW (by omega), h1.getMsg entity_obj (fun a b _ hb => entity_of hb (by omega)), h2.str,
    h3.getMsg entity_obj (fun a b _ hb => entity_of hb (by omega))]
  rfl

theorem access_obj (a : AccessRequest) : ∃ fs, Proto.access a = .obj fs := ⟨_, rfl⟩

theorem node_of {x : RelationNode} {bs : Bytes} {limit : Nat} (h : Encodes .RelationNode (Proto.node x) bs) (hl : 3 ≤ limit) :
    decNode limit bs = some x := by
  unfold decNode
  cases x with
  | unset =>
    read_oneof h with ⟨V0, W, hW, hO, h1, h2, h3⟩
    rw [message_of hW (by omega), hO, getOneof_none (by simp [h1.absent, h2.absent, h3.absent])]
  | entitySet o rel =>
    read_oneof h with ⟨V0, W, hW, hO, h1, h2, h3⟩
    obtain ⟨b, hb, hW1⟩ := h1.msg (by simp)
    read_fields hb with ⟨V, hV, h4, h5⟩
    rw [message_of hW (by omega), hO, getOneof_msg hW1 (by simp) (by simp) (by simp [h2.absent, h3.absent])]
    dsimp only
    rw [if_pos rfl, message_of hV (by omega), h4.getMsg entity_obj (fun a b _ hb => entity_of hb (by omega)), h5.str]
    rfl
  | entity o =>
    read_oneof h with ⟨V0, W, hW, hO, h1, h2, h3⟩
    obtain ⟨b, hb, hW1⟩ := h2.msg (by simp)
    read_fields hb with ⟨V, hV, h4⟩
    rw [message_of hW (by omega), hO, getOneof_msg hW1 (by simp) (by simp) (by simp [h1.absent, h3.absent])]
    dsimp only
    rw [if_neg (by omega), if_pos rfl, message_of hV (by omega), h4.getMsg entity_obj (fun a b _ hb => entity_of hb (by omega))]
    rfl
  | wildcard res =>
    read_oneof h with ⟨V0, W, hW, hO, h1, h2, h3⟩
    obtain ⟨b, hb, hW1⟩ := h3.msg (by simp)
    read_fields hb with ⟨V, hV, h4⟩
    rw [message_of hW (by omega), hO, getOneof_msg hW1 (by simp) (by simp) (by simp [h1.absent, h2.absent])]
    dsimp only
    rw [if_neg (by omega), if_neg (by omega), message_of hV (by omega), h4.str]
    rfl

theorem node_obj (a : RelationNode) : ∃ fs, Proto.node a = .obj fs := by cases a <;> exact ⟨_, rfl⟩

theorem rule_of {x : Rule} {bs : Bytes} {limit : Nat} (h : Encodes .Rule (Proto.rule x) bs) (hl : Nest.rule x ≤ limit) :
    decRule limit bs = some x := by
  unfold decRule
  cases x <;> simp only [Nest.rule] at hl
  case unset =>
    read_oneof h with ⟨V0, W, hW, hO, h1, h2, h3⟩
    rw [message_of hW (by omega), hO, getOneof_none (by simp [h1.absent, h2.absent, h3.absent])]
  case this =>
    read_oneof h with ⟨V0, W, hW, hO, h1, h2, h3⟩
    obtain ⟨b, hb, hW1⟩ := h1.msg (by simp)
    obtain ⟨V, hV, _⟩ := fields_of rfl hb
    rw [message_of hW (by omega), hO, getOneof_msg hW1 (by simp) (by simp) (by simp [h2.absent, h3.absent])]
    dsimp only
    rw [if_pos rfl, message_of hV (by omega)]
  case cu t =>
    read_oneof h with ⟨V0, W, hW, hO, h1, h2, h3⟩
    obtain ⟨b, hb, hW1⟩ := h2.msg (by simp)
    read_fields hb with ⟨V, hV, h4⟩
    rw [message_of hW (by omega), hO, getOneof_msg hW1 (by simp) (by simp) (by simp [h1.absent, h3.absent])]
    dsimp only
    rw [if_neg (by omega), if_pos rfl, message_of hV (by omega), h4.str]
    rfl
  case ttu a c =>
    read_oneof h with ⟨V0, W, hW, hO, h1, h2, h3⟩
    obtain ⟨b, hb, hW1⟩ := h3.msg (by simp)
    read_fields hb with ⟨V, hV, h4, h5⟩
    rw [message_of hW (by omega), hO, getOneof_msg hW1 (by simp) (by simp) (by simp [h1.absent, h2.absent])]
    dsimp only
    rw [if_neg (by omega), if_neg (by omega), message_of hV (by omega), h4.str, h5.str]
    rfl

theorem rule_obj (a : Rule) : ∃ fs, Proto.rule a = .obj fs := by cases a <;> exact ⟨_, rfl⟩

theorem tree_obj (a : ExprTree) (ha : a ≠ .nil) : ∃ fs, Proto.tree a = .obj fs := by
  cases a
  · exact (ha rfl).elim
  all_goals exact ⟨_, rfl⟩

theorem subtree_of {t : ExprTree} {n limit : Nat} {W : List WField} (h : Reads .plain (.message .RelationExpressionTree) n (Proto.tree t) W)
    (ih : ∀ bs, Encodes .RelationExpressionTree (Proto.tree t) bs → decTree limit bs = some t) :
    ∃ o, getMsg (decTree limit) n W = some o ∧ o.getD .nil = t := by
  by_cases ht : t = .nil
  · subst ht
    exact ⟨none, Reads.getMsg_none h, rfl⟩
  · obtain ⟨fs, hfs⟩ := tree_obj t ht
    rw [hfs] at h
    exact ⟨some t, Reads.getMsg_some h (fun b hb => ih b (hfs ▸ hb)), rfl⟩

theorem tree_of {t : ExprTree} {bs : Bytes} {limit : Nat} (h : Encodes .RelationExpressionTree (Proto.tree t) bs) (hl : Nest.tree t ≤ limit) :
    decTree limit bs = some t := by
  induction t generalizing bs limit with
  | nil => cases h
  | unset =>
    simp only [Nest.tree] at hl
    read_oneof h with ⟨V0, W, hW, hO, h1, h2⟩
    obtain ⟨l, rfl⟩ : ∃ l, limit = l + 1 := ⟨limit - 1, by omega⟩
    rw [decTree, hW]
    dsimp only
    rw [hO, getOneof_none (by simp [h1.absent, h2.absent])]
  | rule r =>
    simp only [Nest.tree] at hl
    read_oneof h with ⟨V0, W, hW, hO, h1, h2⟩
    obtain ⟨l, rfl⟩ : ∃ l, limit = l + 1 := ⟨limit - 1, by omega⟩
    obtain ⟨fs, hfs⟩ := rule_obj r
    rw [hfs] at h2
    obtain ⟨b, hb, hW1⟩ := h2.msg (by simp)
    rw [decTree, hW]
    dsimp only
    rw [hO, getOneof_msg hW1 (by simp) (by simp) (by simp [h1.absent])]
    dsimp only
    rw [if_neg (by omega), rule_of (hfs ▸ hb) (by omega)]
    rfl
  | op l o r ihl ihr =>
    simp only [Nest.tree] at hl
    read_oneof h with ⟨V0, W, hW, hO, h1, h2⟩
    obtain ⟨b, hb, hW1⟩ := h1.msg (by simp)
    read_fields hb with ⟨V, hV, h3, h4, h5⟩
    obtain ⟨k, rfl⟩ : ∃ k, limit = k + 1 + 1 := ⟨limit - 2, by omega⟩
    obtain ⟨x, hx, rfl⟩ := subtree_of (limit := k) h3 (fun bs hbs => ihl hbs (by omega))
    obtain ⟨y, hy, rfl⟩ := subtree_of (limit := k) h5 (fun bs hbs => ihr hbs (by omega))
    rw [decTree, hW]
    dsimp only
    rw [hO, getOneof_msg hW1 (by simp) (by simp) (by simp [h2.absent])]
    dsimp only
    rw [if_pos rfl, hV]
    dsimp only
    rw [hx, hy, h4.operator]
    rfl

theorem expression_of {x : RelationExpression} (hx : x ≠ .tree .nil) {bs : Bytes} {limit : Nat} (h : Encodes .RelationExpression (Proto.expression x) bs)
    (hl : Nest.expr x ≤ limit) : decExpr limit bs = some x := by
  unfold decExpr
  cases x <;> simp only [Nest.expr] at hl
  case unset =>
    read_oneof h with ⟨V0, W, hW, hO, h1, h2⟩
    rw [message_of hW (by omega), hO, getOneof_none (by simp [h1.absent, h2.absent])]
  case expr text =>
    read_oneof h with ⟨V0, W, hW, hO, h1, h2⟩
    rw [message_of hW (by omega), hO, getOneof_text h1.text (by simp) (by simp) (by simp [h2.absent])]
    dsimp only
    rw [if_pos rfl, ofUtf8_utf8]
    rfl
  case tree t =>
    read_oneof h with ⟨V0, W, hW, hO, h1, h2⟩
    obtain ⟨fs, hfs⟩ := tree_obj t (fun ht => hx (by rw [ht]))
    rw [hfs] at h2
    obtain ⟨b, hb, hW1⟩ := h2.msg (by simp)
    rw [message_of hW (by omega), hO, getOneof_msg hW1 (by simp) (by simp) (by simp [h1.absent])]
    dsimp only
    rw [if_neg (by omega), tree_of (hfs ▸ hb) (by omega)]
    rfl

theorem expression_obj (a : RelationExpression) : ∃ fs, Proto.expression a = .obj fs := by cases a <;> exact ⟨_, rfl⟩

theorem restriction_of {x : Restriction} {bs : Bytes} {limit : Nat} (h : Encodes .SubjectRestrictionSetRestriction (Proto.restriction x) bs)
    (hl : Nest.restriction x ≤ limit) : decRestriction limit bs = some x := by
  unfold decRestriction
  cases x <;> simp only [Nest.restriction] at hl
  case unset =>
    read_oneof h with ⟨V0, W, hW, hO, h1, h2⟩
    rw [message_of hW (by omega), hO, getOneof_none (by simp [h1.absent, h2.absent])]
  case entity res =>
    read_oneof h with ⟨V0, W, hW, hO, h1, h2⟩
    obtain ⟨b, hb, hW1⟩ := h1.msg (by simp)
    read_fields hb with ⟨V, hV, h4⟩
    rw [message_of hW (by omega), hO, getOneof_msg hW1 (by simp) (by simp) (by simp [h2.absent])]
    dsimp only
    rw [if_pos rfl, message_of hV (by omega), h4.str]
    rfl
  case entitySet res rel =>
    read_oneof h with ⟨V0, W, hW, hO, h1, h2⟩
    obtain ⟨b, hb, hW1⟩ := h2.msg (by simp)
    read_fields hb with ⟨V, hV, h4, h5⟩
    rw [message_of hW (by omega), hO, getOneof_msg hW1 (by simp) (by simp) (by simp [h1.absent])]
    dsimp only
    rw [if_neg (by omega), message_of hV (by omega), h4.str, h5.str]
    rfl

theorem subjectRestriction_of {x : SubjectRestriction} {bs : Bytes} {limit : Nat} (h : Encodes .SubjectRestriction (Proto.subjectRestriction x) bs)
    (hl : Nest.subjectRestriction x ≤ limit) : decSubjectRestriction limit bs = some x := by
  unfold decSubjectRestriction
  cases x <;> simp only [Nest.subjectRestriction] at hl
  case unset =>
    read_oneof h with ⟨V0, W, hW, hO, h1, h2⟩
    rw [message_of hW (by omega), hO, getOneof_none (by simp [h1.absent, h2.absent])]
  case restrictionSet rs =>
    read_oneof h with ⟨V0, W, hW, hO, h1, h2⟩
    obtain ⟨b, hb, hW1⟩ := h1.msg (by simp)
    read_fields hb with ⟨V, hV, h4⟩
    rw [message_of hW (by omega), hO, getOneof_msg hW1 (by simp) (by simp) (by simp [h2.absent])]
    dsimp only
    rw [if_pos rfl, message_of hV (by omega), h4.getRep (fun a ha b hb => restriction_of hb ?_)]
    · rfl
    · have := le_largest (List.mem_map_of_mem (f := Nest.restriction) ha)
      omega
  case universalSet =>
    read_oneof h with ⟨V0, W, hW, hO, h1, h2⟩
    obtain ⟨b, hb, hW1⟩ := h2.msg (by simp)
    obtain ⟨V, hV, _⟩ := fields_of rfl hb
    rw [message_of hW (by omega), hO, getOneof_msg hW1 (by simp) (by simp) (by simp [h1.absent])]
    dsimp only
    rw [if_neg (by omega), message_of hV (by omega)]

theorem subjectRestriction_obj (a : SubjectRestriction) : ∃ fs, Proto.subjectRestriction a = .obj fs := by cases a <;> exact ⟨_, rfl⟩

theorem relation_of {x : Relation} (hx : x.relationExpression ≠ some (.tree .nil)) {bs : Bytes} {limit : Nat}
    (h : Encodes .Relation (Proto.relation x) bs) (hl : Nest.relation x ≤ limit) : decRelation limit bs = some x := by
  read_fields h with ⟨W, hW, h1, h2, h3, h4⟩
  unfold Nest.relation at hl
  unfold decRelation
  rw [message_of hW (by omega), h1.str, h2.str,
    h3.getMsg expression_obj (fun a b ha hb => expression_of (fun h => hx (by rw [ha, h])) hb (by rw [ha] at hl; simp only [optNest] at hl; omega)),
    h4.getMsg subjectRestriction_obj (fun a b ha hb => subjectRestriction_of hb (by rw [ha] at hl; simp only [optNest] at hl; omega))]
  rfl

theorem resource_of {x : Resource} (hx : ∀ rel ∈ x.relations, rel.relationExpression ≠ some (.tree .nil)) {bs : Bytes} {limit : Nat}
    (h : Encodes .Resource (Proto.resource x) bs) (hl : Nest.resource x ≤ limit) : decResource limit bs = some x := by
  read_fields h with ⟨W, hW, h1, h2, h3⟩
  unfold Nest.resource at hl
  unfold decResource
  rw [message_of hW (by omega), h1.str, h2.str, h3.getRep (fun a ha b hb => relation_of (hx a ha) hb ?_)]
  · rfl
  · have := le_largest (List.mem_map_of_mem (f := Nest.relation) ha)
    omega

theorem entry_of {x : String × String} {bs : Bytes} (h : Encodes .PolicyAttributesEntry (Proto.attributeEntry x) bs) : decEntry bs = some x := by
  read_fields h with ⟨W, hW, h1, h2⟩
  unfold decEntry
  rw [hW]
  dsimp only
  rw [h1.str, h2.str]
  rfl

theorem policy_of {x : Policy} (hx : WholeTrees x) (hk : (x.attributes.map (·.1)).Nodup) {bs : Bytes} {limit : Nat}
    (h : Encodes .Policy (Proto.policy x) bs) (hl : Nest.policy x ≤ limit) : decPolicy limit bs = some x := by
  read_fields h with ⟨W, hW, h1, h2, h3, h4, h5⟩
  unfold Nest.policy at hl
  unfold decPolicy
  rw [message_of hW (by omega), h1.str, h2.str, h3.str, h4.getRep (fun a ha b hb => resource_of (hx a ha) hb ?_), h5.getRep (fun a ha b hb => entry_of hb)]
  · simp only [Option.bind_eq_bind, Option.bind_some]
    rw [putAll_nodup [] x.attributes (by simpa using hk)]
    rfl
  · have := le_largest (List.mem_map_of_mem (f := Nest.resource) ha)
    omega

theorem policyRecord_of {x : PolicyRecord} (hx : WholeTrees x.policy) (hk : (x.policy.attributes.map (·.1)).Nodup) {bs : Bytes} {limit : Nat}
    (h : Encodes .PolicyRecord (Proto.policyRecord x) bs) (hl : Nest.policyRecord x ≤ limit) : decPolicyRecord limit bs = some x := by
  read_fields h with ⟨W, hW, h1, h2, h3⟩
  unfold Nest.policyRecord at hl
  unfold decPolicyRecord
  rw [message_of hW (by omega), Reads.getMsg_some h1 (fun b hb => policy_of hx hk hb (limit := limit - 1) (by omega)),
    Reads.getMsg_some h3 (fun b hb => timestamp_of (t := x.createdAt) hb (by omega)), h2.bytes]

theorem policyRecord_obj (a : PolicyRecord) : ∃ fs, Proto.policyRecord a = .obj fs := ⟨_, rfl⟩

theorem definition_of {x : PolicyDefinition} {bs : Bytes} {limit : Nat} (hl : 1 ≤ limit)
    (hp : ∀ p, x = .policy p → WholeTrees p ∧ (p.attributes.map (·.1)).Nodup ∧ Nest.policy p + 1 ≤ limit)
    (h : Encodes .PolicyDefinition (Proto.definition x) bs) : decDefinition limit bs = some x := by
  unfold decDefinition
  cases x
  case unset =>
    read_oneof h with ⟨V0, W, hW, hO, h1, h2⟩
    rw [message_of hW (by omega), hO, getOneof_none (by simp [h1.absent, h2.absent])]
  case policy p =>
    obtain ⟨hp1, hp2, hp3⟩ := hp p rfl
    read_oneof h with ⟨V0, W, hW, hO, h1, h2⟩
    obtain ⟨b, hb, hW1⟩ := h1.msg (by simp)
    rw [message_of hW (by omega), hO, getOneof_msg hW1 (by simp) (by simp) (by simp [h2.absent])]
    dsimp only
    rw [if_pos rfl, policy_of hp1 hp2 hb (by omega)]
    rfl
  case yaml text =>
    read_oneof h with ⟨V0, W, hW, hO, h1, h2⟩
    rw [message_of hW (by omega), hO, getOneof_text h2.text (by simp) (by simp) (by simp [h1.absent])]
    dsimp only
    rw [if_neg (by omega), ofUtf8_utf8]
    rfl

theorem definition_obj (a : PolicyDefinition) : ∃ fs, Proto.definition a = .obj fs := by cases a <;> exact ⟨_, rfl⟩

theorem request_of {r : Request} {bs : Bytes} {limit : Nat} (hl : 6 ≤ limit) (hr : Proto.RequestReads limit r)
    (h : Encodes (Proto.requestMsg r.method) (Proto.request r) bs) : decRequest limit r.method bs = some r := by
  have hdef : ∀ d, DefinitionFits limit d → ∀ a b, d = some a → Encodes .PolicyDefinition (Proto.definition a) b → decDefinition (limit - 1) b = some a :=
    fun d hd a b ha hb => definition_of (by omega)
      (fun p hp => by obtain ⟨q1, q2, q3⟩ := hd p (by rw [ha, hp]); exact ⟨q1, q2, by omega⟩) hb
  unfold decRequest
  cases r <;> simp only [Request.method] at h ⊢ <;> simp only [Proto.requestMsg, Proto.rpc, Proto.request] at h
  case createPolicy d a =>
    read_fields h with ⟨W, hW, h1, h2⟩
    rw [message_of hW (by omega), h1.getMsg definition_obj (hdef d hr), h2.bytes]
    rfl
  case updatePolicy d a st =>
    read_fields h with ⟨W, hW, h1, h2, h3⟩
    rw [message_of hW (by omega), h1.getMsg definition_obj (hdef d hr), h2.bytes, h3.enumNumber]
    rfl
  case deletePolicy id =>
    read_fields h with ⟨W, hW, h1⟩
    rw [message_of hW (by omega), h1.str]
    rfl
  case getPolicy id =>
    read_fields h with ⟨W, hW, h1⟩
    rw [message_of hW (by omega), h1.str]
    rfl
  case listPolicyIds =>
    obtain ⟨W, hW, _⟩ := fields_of rfl h
    rw [message_of hW (by omega)]
  case setRelationship pid r a =>
    read_fields h with ⟨W, hW, h1, h2, h3⟩
    rw [message_of hW (by omega), h1.str, h2.getMsg relationship_obj (fun a b _ hb => relationship_of hb (by omega)), h3.bytes]
    rfl
  case deleteRelationship pid r =>
    read_fields h with ⟨W, hW, h1, h2⟩
    rw [message_of hW (by omega), h1.str, h2.getMsg relationship_obj (fun a b _ hb => relationship_of hb (by omega))]
    rfl
  case getRelationship pid r =>
    read_fields h with ⟨W, hW, h1, h2⟩
    rw [message_of hW (by omega), h1.str, h2.getMsg relationship_obj (fun a b _ hb => relationship_of hb (by omega))]
    rfl
  case findRelationshipRecords pid sel =>
    read_fields h with ⟨W, hW, h1, h2⟩
    rw [message_of hW (by omega), h1.str, h2.getMsg selector_obj (fun a b _ hb => selector_of hb (by omega))]
    rfl
  case deleteRelationships pid sel =>
    read_fields h with ⟨W, hW, h1, h2⟩
    rw [message_of hW (by omega), h1.str, h2.getMsg selector_obj (fun a b _ hb => selector_of hb (by omega))]
    rfl
  case check pid req =>
    read_fields h with ⟨W, hW, h1, h2⟩
    rw [message_of hW (by omega), h1.str, h2.getMsg access_obj (fun a b _ hb => access_of hb (by omega))]
    rfl
  case explainCheck pid req f =>
    read_fields h with ⟨W, hW, h1, h2, h3⟩
    rw [message_of hW (by omega), h1.str, h2.getMsg access_obj (fun a b _ hb => access_of hb (by omega)), h3.format]
    rfl
  case expand pid root f =>
    read_fields h with ⟨W, hW, h1, h2, h3⟩
    rw [message_of hW (by omega), h1.str, h2.getMsg node_obj (fun a b _ hb => node_of hb (by omega)), h3.format]
    rfl
  case dumpRelationships pid f =>
    read_fields h with ⟨W, hW, h1, h2⟩
    rw [message_of hW (by omega), h1.str, h2.dumpFormat]
    rfl

theorem reply_method (pr : Printer) (a : Answer) : Proto.replyMethod (Answer.reply pr a) = answerMethod a := by cases a <;> rfl

theorem reply_of {r : Reply} {bs : Bytes} {limit : Nat} (hl : 7 ≤ limit) (hr : Proto.ReplyReads limit r)
    (h : Encodes (Proto.replyMsg (Proto.replyMethod r)) (Proto.reply r) bs) : decReply limit (Proto.replyMethod r) bs = some r := by
  have hrec : ∀ (o : Option PolicyRecord), (∀ x, o = some x → WholeTrees x.policy ∧ (x.policy.attributes.map (·.1)).Nodup ∧ Nest.policyRecord x + 1 ≤ limit) →
      ∀ a b, o = some a → Encodes .PolicyRecord (Proto.policyRecord a) b → decPolicyRecord (limit - 1) b = some a := fun o ho a b ha hb => by
    obtain ⟨q1, q2, q3⟩ := ho a ha
    exact policyRecord_of q1 q2 hb (by omega)
  unfold decReply
  cases r <;> simp only [Proto.replyMethod] at h ⊢ <;> simp only [Proto.replyMsg, Proto.rpc, Proto.reply] at h
  case createPolicy rec =>
    read_fields h with ⟨W, hW, h1⟩
    rw [message_of hW (by omega), h1.getMsg policyRecord_obj (hrec rec hr)]
    rfl
  case updatePolicy =>
    obtain ⟨W, hW, _⟩ := fields_of rfl h
    rw [message_of hW (by omega)]
  case deletePolicy f n =>
    read_fields h with ⟨W, hW, h1, h2⟩
    rw [message_of hW (by omega), h1.bool, h2.int]
  case getPolicy rec =>
    read_fields h with ⟨W, hW, h1⟩
    rw [message_of hW (by omega), h1.getMsg policyRecord_obj (hrec rec hr)]
    rfl
  case listPolicyIds ids =>
    read_fields h with ⟨W, hW, h1⟩
    rw [message_of hW (by omega), h1.getRep (fun a _ b hb => ?_)]
    · rfl
    · read_fields hb with ⟨V, hV, h2⟩
      rw [message_of hV (by omega), h2.str]
  case setRelationship b =>
    read_fields h with ⟨W, hW, h1⟩
    rw [message_of hW (by omega), h1.bool]
  case deleteRelationship b =>
    read_fields h with ⟨W, hW, h1⟩
    rw [message_of hW (by omega), h1.bool]
  case getRelationship rec =>
    read_fields h with ⟨W, hW, h1⟩
    rw [message_of hW (by omega), h1.getMsg record_obj (fun a b _ hb => record_of hb (by omega))]
    rfl
  case findRelationshipRecords result =>
    read_fields h with ⟨W, hW, h1⟩
    rw [message_of hW (by omega), h1.getMsg (fun a => ⟨_, rfl⟩) (fun a b _ hb => ?_)]
    · rfl
    · read_fields hb with ⟨V, hV, h2⟩
      rw [message_of hV (by omega), h2.getRep (fun a _ b hb => record_of hb (by omega))]
  case deleteRelationships n =>
    read_fields h with ⟨W, hW, h1⟩
    rw [message_of hW (by omega), h1.int]
  case check result =>
    read_fields h with ⟨W, hW, h1⟩
    rw [message_of hW (by omega), h1.getMsg (fun a => ⟨_, rfl⟩) (fun a b _ hb => ?_)]
    · rfl
    · read_fields hb with ⟨V, hV, h2⟩
      rw [message_of hV (by omega), h2.bool]
  case explainCheck text b f =>
    read_fields h with ⟨W, hW, h1, h2, h3⟩
    rw [message_of hW (by omega), h1.str, h2.bool, h3.format]
    rfl
  case expand text f =>
    read_fields h with ⟨W, hW, h1, h2⟩
    rw [message_of hW (by omega), h1.str, h2.format]
    rfl
  case dumpRelationships dot =>
    read_oneof h with ⟨V0, W, hW, hO, h1, h2⟩
    rw [message_of hW (by omega)]
    cases dot with
    | none => rw [hO, getOneof_none (by simp [h1.absent, h2.absent])]
    | some text =>
      rw [hO, getOneof_text h2.text (by simp) (by simp) (by simp [h1.absent])]
      dsimp only
      rw [if_pos rfl, ofUtf8_utf8]
      rfl

theorem storedNode_of {x : INode} {bs : Bytes} {limit : Nat} (h : Encodes .StoredRelationNode (Proto.storedNode x) bs) (hl : 1 ≤ limit) :
    decINode limit bs = some x := by
  read_fields h with ⟨W, hW, h1, h2, h3, h4⟩
  unfold decINode
  rw [message_of hW (by omega), h1.str, h2.str, h3.str, h4.relType]
  rfl

theorem storedRelationship_of {x : IRel} {bs : Bytes} {limit : Nat} (h : Encodes .StoredRelationship (Proto.storedRelationship x) bs) (hl : 2 ≤ limit) :
    decIRel limit bs = some x := by
  read_fields h with ⟨W, hW, h1, h2⟩
  unfold decIRel
  rw [message_of hW (by omega), Reads.getMsg_some h1 (fun b hb => storedNode_of (x := x.source) hb (by omega)),
    Reads.getMsg_some h2 (fun b hb => storedNode_of (x := x.dest) hb (by omega))]

theorem decKey_foldl (a : Nat) (b : Bytes) : decKey a b = b.foldl (fun a x => a * 256 + x.toNat) a := by
  induction b generalizing a with
  | nil => rfl
  | cons x b ih => rw [decKey, ih]; rfl

theorem storedData_of {x : RelData} {a b bs : Bytes} {limit : Nat} (ha : Proto.Key32 x.relationshipId.1 a) (hb : Proto.Key32 x.relationshipId.2 b)
    (h : Encodes .StoredRelationshipData (Proto.storedData x (a ++ b)) bs) (hl : 2 ≤ limit) : decRelData limit bs = some x := by
  read_fields h with ⟨W, hW, h1, h2, h3⟩
  unfold decRelData
  rw [message_of hW (by omega), Reads.getMsg_some h2 (fun b hb => timestamp_of (t := x.createdAt) hb (by omega)), h1.bytes, h3.bytes, decEdgeKey,
    ← ha.1, List.take_left, List.drop_left, decKey_foldl, decKey_foldl, ha.2, hb.2]

end Zanzi.Wire
