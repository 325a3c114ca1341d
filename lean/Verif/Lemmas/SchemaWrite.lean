import Verif.Lemmas.SchemaRead

/-
Lemmas about the published message formats (C79): what the encoders write is an encoding of the message.
-/

namespace Zanzi.Wire

open Spec
open Spec.Proto (Varint Number Content FieldBytes MessageBytes Msg Kind Label Value Encodes Occurs ContentOf isDefault EnumType)

theorem varint_enc (n : Nat) : Varint n (encVarint n) := by
  induction n using Nat.strongRecOn with
  | _ n ih =>
    rw [encVarint]
    split
    · next h => exact .last h
    · next h =>
      have := Varint.more (low := n % 128) (by omega) (ih (n / 128) (by omega))
      rwa [show n % 128 + 128 * (n / 128) = n by omega] at this

theorem number_enc {n : Nat} (h : n < 2 ^ 64) : Number n (encVarint n) :=
  ⟨varint_enc n, encVarint_length 9 n (Nat.lt_of_lt_of_le h (Nat.pow_le_pow_right (by omega) (by omega))), h⟩

/-- A field of the encoder as content. -/
def asContent : WField → Nat × Content
  | (n, .varint v) => (n, .varint v)
  | (n, .bytes b) => (n, .len b)

@[simp] theorem asContent_fst (f : WField) : (asContent f).1 = f.1 := by obtain ⟨n, v⟩ := f; cases v <;> rfl

theorem messageBytes_enc (W : List WField) (h : ∀ f ∈ W, FieldOk f) : MessageBytes (W.map asContent) (encFields W) := by
  induction W with
  | nil => exact .nil
  | cons f W ih =>
    obtain ⟨h0, h29, hv⟩ := h f (List.mem_cons_self ..)
    refine .cons (by simpa using h0) (by simpa using h29) ?_ (ih fun g hg => h g (List.mem_cons_of_mem _ hg))
    obtain ⟨n, v⟩ := f
    dsimp only at h0 h29 hv
    cases v with
    | varint v =>
      refine .varint ?_ (number_enc hv)
      rw [show 8 * n + 0 = n * 8 by omega]
      exact number_enc (by omega)
    | bytes b =>
      refine .len ?_ (number_enc hv)
      rw [Nat.mul_comm]
      exact number_enc (by omega)

/-- The fields with a number. -/
def only (n : Nat) (W : List WField) : List WField := W.filter (fun f => f.1 = n)

theorem filter_asContent (n : Nat) (W : List WField) : (W.map asContent).filter (fun w => w.1 = n) = (only n W).map asContent := by
  rw [only, List.filter_map]
  congr 1
  apply List.filter_congr
  intro f _
  simp [Function.comp]

theorem encodes_enc {m : Msg} {fs : List (Proto.Name × Value)} {W : List WField} (hs : Small (encFields W)) (hn : Num W)
    (h : ∀ f ∈ m.fields, Occurs f.label f.kind f.num (Proto.get f.name fs) ((only f.num W).map asContent)) : Encodes m (.obj fs) (encFields W) := by
  refine .message (ws := W.map asContent) (fun f hf => ?_) .all (messageBytes_enc W fun f hf => ⟨(hn f hf).1, (hn f hf).2.1, ?_⟩)
  · rw [filter_asContent]
    exact h f hf
  · obtain ⟨n, v⟩ := f
    cases v with
    | varint v => exact (hn _ hf).2.2 v rfl
    | bytes b => exact hs.sub hf

@[simp] theorem only_append (n : Nat) (a b : List WField) : only n (a ++ b) = only n a ++ only n b := by simp [only]
@[simp] theorem only_nil (n : Nat) : only n [] = [] := rfl
@[simp] theorem only_cons (n m : Nat) (v : WVal) (W : List WField) : only n ((m, v) :: W) = (if m = n then [(m, v)] else []) ++ only n W := by
  by_cases h : m = n <;> simp [only, h]
@[simp] theorem only_str (n m : Nat) (s : String) : only n (strField m s) = if m = n then strField m s else [] := by
  unfold strField
  by_cases h : s = "" <;> simp [h]
@[simp] theorem only_byt (n m : Nat) (s : Bytes) : only n (bytesField m s) = if m = n then bytesField m s else [] := by
  unfold bytesField
  by_cases h : s = [] <;> simp [h]
@[simp] theorem only_num (n m v : Nat) : only n (numField m v) = if m = n then numField m v else [] := by
  unfold numField
  by_cases h : v = 0 <;> simp [h]
@[simp] theorem only_msg {α : Type} (enc : α → Bytes) (n m : Nat) (o : Option α) : only n (msgField enc m o) = if m = n then msgField enc m o else [] := by
  cases o <;> simp [msgField]
@[simp] theorem only_rep {α : Type} (enc : α → Bytes) (n m : Nat) (as : List α) : only n (repField enc m as) = if m = n then repField enc m as else [] := by
  unfold repField
  induction as with
  | nil => simp
  | cons a as ih =>
    rw [List.map_cons, only_cons, ih]
    by_cases h : m = n <;> simp [h]

theorem writes_str (n : Nat) (s : String) : Occurs .plain .string n (.str s) ((strField n s).map asContent) := by
  unfold strField
  split
  · next h => exact .default (by simpa [isDefault] using h)
  · exact .plain .string

theorem writes_bytes (n : Nat) (s : Bytes) : Occurs .plain .bytes n (.bytes s) ((bytesField n s).map asContent) := by
  unfold bytesField
  split
  · next h => exact .default (by simpa [isDefault] using h)
  · exact .plain .bytes

theorem writes_int (n v : Nat) : Occurs .plain .int n (.num v) ((numField n v).map asContent) := by
  unfold numField
  split
  · next h => exact .default (by simpa [isDefault] using h)
  · exact .plain .int

theorem writes_enumNumber (n v : Nat) (e : EnumType) : Occurs .plain (.enum e) n (.num v) ((numField n v).map asContent) := by
  unfold numField
  split
  · next h => exact .default (by simpa [isDefault] using h)
  · exact .plain .enumNumber

theorem writes_bool (n : Nat) (b : Bool) : Occurs .plain .bool n (.bool b) ((numField n (encBool b)).map asContent) := by
  cases b
  · exact .default rfl
  · exact .plain (.true (by simp [encBool]))

theorem writes_enum {n v : Nat} {e : EnumType} {name : String} (hv : v < 2 ^ 32) (h : (name, v) ∈ e.values) :
    Occurs .plain (.enum e) n (.enum name) ((numField n v).map asContent) := by
  unfold numField
  split
  · next h0 => subst h0; exact .default h
  · exact .plain (.enum (by rwa [Nat.mod_eq_of_lt hv]))

theorem writes_other {n v : Nat} {e : EnumType} (h0 : v ≠ 0) (h : ∀ name, (name, v % 2 ^ 32) ∉ e.values) :
    Occurs .plain (.enum e) n .other ((numField n v).map asContent) := by
  unfold numField
  rw [if_neg h0]
  exact .plain (.other h)

theorem writes_format (n : Nat) (f : ExplainFormat) : Occurs .plain (.enum .ExplainFormat) n (Proto.format f) ((numField n (encFormat f)).map asContent) := by
  cases f
  case unknown => exact writes_other (by simp [encFormat]) (by simp [encFormat, EnumType.values])
  all_goals exact writes_enum (by simp [encFormat]) (by simp [encFormat, EnumType.values])

theorem writes_dumpFormat (n : Nat) (f : GraphService.DumpFormat) :
    Occurs .plain (.enum .DumpFormat) n (Proto.dumpFormat f) ((numField n (encDumpFormat f)).map asContent) := by
  cases f
  case unknown => exact writes_other (by simp [encDumpFormat]) (by simp [encDumpFormat, EnumType.values])
  all_goals exact writes_enum (by simp [encDumpFormat]) (by simp [encDumpFormat, EnumType.values])

theorem writes_operator (n : Nat) (f : Operator) : Occurs .plain (.enum .Operator) n (Proto.operator f) ((numField n (encOperator f)).map asContent) := by
  cases f
  case unknown => exact writes_other (by simp [encOperator]) (by simp [encOperator, EnumType.values])
  all_goals exact writes_enum (by simp [encOperator]) (by simp [encOperator, EnumType.values])

theorem writes_relType (n : Nat) (f : RelType) : Occurs .plain (.enum .RelationType) n (Proto.relType f) ((numField n (encRelType f)).map asContent) := by
  cases f <;> exact writes_enum (by simp [encRelType]) (by simp [encRelType, EnumType.values])

theorem writes_msg {α : Type} {enc : α → Bytes} {f : α → Value} {m : Msg} (n : Nat) (o : Option α)
    (h : ∀ a, o = some a → Encodes m (f a) (enc a)) : Occurs .plain (.message m) n (Proto.opt f o) ((msgField enc n o).map asContent) := by
  cases o with
  | none => exact .unset
  | some a => exact .plain (.message (h a rfl))

theorem writes_rep {α : Type} {enc : α → Bytes} {f : α → Value} {m : Msg} (n : Nat) (as : List α)
    (h : ∀ a ∈ as, Encodes m (f a) (enc a)) : Occurs .repeated (.message m) n (.list (as.map f)) ((repField enc n as).map asContent) := by
  induction as with
  | nil => exact .nil
  | cons a as ih => exact .cons (.message (h a (List.mem_cons_self ..))) (ih fun a ha => h a (List.mem_cons_of_mem _ ha))

/-- The empty message. -/
theorem encodes_nil {m : Msg} {fs : List (Proto.Name × Value)} (h : ∀ f ∈ m.fields, Occurs f.label f.kind f.num (Proto.get f.name fs) []) :
    Encodes m (.obj fs) [] := .message (ws := []) h .all .nil

/-- One goal for every field of the message. -/
macro "write_fields" : tactic =>
  `(tactic| simp only [Msg.fields, Proto.get, List.forall_mem_cons, List.not_mem_nil, false_implies, implies_true, reduceCtorEq, if_true, if_false,
      and_true, only_append, only_nil, only_cons, only_str, only_byt, only_num, only_msg, only_rep, Nat.reduceEqDiff,
      List.append_nil, List.nil_append, List.map_nil])

/-- The numbers of fields are in range. -/
macro "field_numbers" : tactic =>
  `(tactic| (repeat' first
    | exact Num.nil
    | exact Num.str _ (by omega) (by omega)
    | exact Num.byt _ (by omega) (by omega)
    | exact Num.msg _ (by omega) (by omega)
    | exact Num.rep _ (by omega) (by omega)
    | exact Num.num (by omega) (by omega) (encBool_lt _)
    | exact Num.num (by omega) (by omega) (encFormat_lt _)
    | exact Num.num (by omega) (by omega) (encDumpFormat_lt _)
    | exact Num.num (by omega) (by omega) (by assumption)
    | apply Num.append
    | apply Num.cons (by omega) (by omega)))

theorem entity_enc {e : Entity} (hs : Small (encEntity e)) : Encodes .Entity (Proto.entity e) (encEntity e) := by
  refine encodes_enc hs (by field_numbers) ?_
  write_fields
  exact ⟨writes_str .., writes_str ..⟩

theorem subject_enc {x : Subject} (hs : Small (encSubject x)) : Encodes .Subject (Proto.subject x) (encSubject x) := by
  cases x with
  | unset =>
    refine encodes_nil ?_
    write_fields
    exact ⟨.unset, .unset, .unset⟩
  | entity e =>
    refine encodes_enc hs (by field_numbers) ?_
    write_fields
    exact ⟨.oneof (.message (entity_enc (hs.sub (n := 1) (by simp)))), .unset, .unset⟩
  | entitySet e rel =>
    refine encodes_enc hs (by field_numbers) ?_
    have hs' := hs.sub (n := 2) (List.mem_singleton.2 rfl)
    write_fields
    refine ⟨.unset, .oneof (.message (encodes_enc hs' (by field_numbers) ?_)), .unset⟩
    write_fields
    exact ⟨writes_msg _ _ fun a ha => entity_enc (hs'.sub (n := 1) (by simp [msg_mem (enc := encEntity) (n := 1) ha])), writes_str ..⟩
  | resourceSet res =>
    refine encodes_enc hs (by field_numbers) ?_
    have hs' := hs.sub (n := 3) (List.mem_singleton.2 rfl)
    write_fields
    refine ⟨.unset, .unset, .oneof (.message (encodes_enc hs' (by field_numbers) ?_))⟩
    write_fields
    exact writes_str ..

theorem relationship_enc {x : Relationship} (hs : Small (encRelationship x)) : Encodes .Relationship (Proto.relationship x) (encRelationship x) := by
  refine encodes_enc hs (by field_numbers) ?_
  write_fields
  exact ⟨writes_msg _ _ fun a ha => entity_enc (hs.sub (n := 1) (by simp [msg_mem (enc := encEntity) (n := 1) ha])), writes_str ..,
    writes_msg _ _ fun a ha => subject_enc (hs.sub (n := 3) (by simp [msg_mem (enc := encSubject) (n := 3) ha]))⟩

theorem timestamp_enc {t : Nat} (ht : ClockOK t) (hs : Small (encTimestamp t)) : Encodes .Timestamp (Proto.timestamp t) (encTimestamp t) := by
  unfold ClockOK at ht
  refine encodes_enc hs (.append (.num (by omega) (by omega) (by omega)) (.num (by omega) (by omega) (by omega))) ?_
  write_fields
  exact ⟨writes_int .., writes_int ..⟩

theorem record_enc {x : RecordMsg} (ht : ∀ t, x.createdAt = some t → ClockOK t) (hs : Small (encRecord x)) :
    Encodes .RelationshipRecord (Proto.record x) (encRecord x) := by
  refine encodes_enc hs (by field_numbers) ?_
  write_fields
  exact ⟨writes_str .., writes_msg _ _ fun a ha => relationship_enc (hs.sub (n := 2) (by simp [msg_mem (enc := encRelationship) (n := 2) ha])),
    writes_msg _ _ fun a ha => timestamp_enc (ht a ha) (hs.sub (n := 3) (by simp [msg_mem (enc := encTimestamp) (n := 3) ha])), writes_bytes ..⟩

theorem objectSelector_enc {x : ObjectSelector} (hs : Small (encObjectSelector x)) :
    Encodes .ObjectSelector (Proto.objectSelector x) (encObjectSelector x) := by
  cases x with
  | unset =>
    refine encodes_nil ?_
    write_fields
    exact ⟨.unset, .unset, .unset⟩
  | objectSpec e =>
    refine encodes_enc hs (by field_numbers) ?_
    write_fields
    exact ⟨.oneof (.message (entity_enc (hs.sub (n := 1) (by simp)))), .unset, .unset⟩
  | wildcard =>
    refine encodes_enc hs (by field_numbers) ?_
    write_fields
    exact ⟨.unset, .oneof (.message (encodes_nil (by write_fields))), .unset⟩
  | resourceSpec res =>
    refine encodes_enc hs (by field_numbers) ?_
    write_fields
    exact ⟨.unset, .unset, .oneof .string⟩

theorem relationSelector_enc {x : RelationSelector} (hs : Small (encRelationSelector x)) :
    Encodes .RelationSelector (Proto.relationSelector x) (encRelationSelector x) := by
  cases x with
  | unset =>
    refine encodes_nil ?_
    write_fields
    exact ⟨.unset, .unset⟩
  | relationName name =>
    refine encodes_enc hs (by field_numbers) ?_
    write_fields
    exact ⟨.oneof .string, .unset⟩
  | wildcard =>
    refine encodes_enc hs (by field_numbers) ?_
    write_fields
    exact ⟨.unset, .oneof (.message (encodes_nil (by write_fields)))⟩

theorem subjectSelector_enc {x : SubjectSelector} (hs : Small (encSubjectSelector x)) :
    Encodes .SubjectSelector (Proto.subjectSelector x) (encSubjectSelector x) := by
  cases x with
  | unset =>
    refine encodes_nil ?_
    write_fields
    exact ⟨.unset, .unset, .unset⟩
  | subjectSpec e =>
    refine encodes_enc hs (by field_numbers) ?_
    write_fields
    exact ⟨.oneof (.message (subject_enc (hs.sub (n := 1) (by simp)))), .unset, .unset⟩
  | wildcard =>
    refine encodes_enc hs (by field_numbers) ?_
    write_fields
    exact ⟨.unset, .oneof (.message (encodes_nil (by write_fields))), .unset⟩
  | resourceSpec res =>
    refine encodes_enc hs (by field_numbers) ?_
    write_fields
    exact ⟨.unset, .unset, .oneof .string⟩

theorem selector_enc {x : Selector} (hs : Small (encSelector x)) : Encodes .RelationshipSelector (Proto.selector x) (encSelector x) := by
  refine encodes_enc hs (by field_numbers) ?_
  write_fields
  exact ⟨writes_msg _ _ fun a ha => objectSelector_enc (hs.sub (n := 1) (by simp [msg_mem (enc := encObjectSelector) (n := 1) ha])),
    writes_msg _ _ fun a ha => relationSelector_enc (hs.sub (n := 2) (by simp [msg_mem (enc := encRelationSelector) (n := 2) ha])),
    writes_msg _ _ fun a ha => subjectSelector_enc (hs.sub (n := 3) (by simp [msg_mem (enc := encSubjectSelector) (n := 3) ha]))⟩

theorem access_enc {x : AccessRequest} (hs : Small (encAccess x)) : Encodes .AccessRequest (Proto.access x) (encAccess x) := by
  refine encodes_enc hs (by field_numbers) ?_
  write_fields
  exact ⟨writes_msg _ _ fun a ha => entity_enc (hs.sub (n := 1) (by simp [msg_mem (enc := encEntity) (n := 1) ha])), writes_str ..,
    writes_msg _ _ fun a ha => entity_enc (hs.sub (n := 3) (by simp [msg_mem (enc := encEntity) (n := 3) ha]))⟩

theorem node_enc {x : RelationNode} (hs : Small (encNode x)) : Encodes .RelationNode (Proto.node x) (encNode x) := by
  cases x with
  | unset =>
    refine encodes_nil ?_
    write_fields
    exact ⟨.unset, .unset, .unset⟩
  | entitySet o rel =>
    refine encodes_enc hs (by field_numbers) ?_
    have hs' := hs.sub (n := 1) (List.mem_singleton.2 rfl)
    write_fields
    refine ⟨.oneof (.message (encodes_enc hs' (by field_numbers) ?_)), .unset, .unset⟩
    write_fields
    exact ⟨writes_msg _ _ fun a ha => entity_enc (hs'.sub (n := 1) (by simp [msg_mem (enc := encEntity) (n := 1) ha])), writes_str ..⟩
  | entity o =>
    refine encodes_enc hs (by field_numbers) ?_
    have hs' := hs.sub (n := 2) (List.mem_singleton.2 rfl)
    write_fields
    refine ⟨.unset, .oneof (.message (encodes_enc hs' (by field_numbers) ?_)), .unset⟩
    write_fields
    exact writes_msg _ _ fun a ha => entity_enc (hs'.sub (n := 1) (by simp [msg_mem (enc := encEntity) (n := 1) ha]))
  | wildcard res =>
    refine encodes_enc hs (by field_numbers) ?_
    have hs' := hs.sub (n := 3) (List.mem_singleton.2 rfl)
    write_fields
    refine ⟨.unset, .unset, .oneof (.message (encodes_enc hs' (by field_numbers) ?_))⟩
    write_fields
    exact writes_str ..

theorem rule_enc {x : Rule} (hs : Small (encRule x)) : Encodes .Rule (Proto.rule x) (encRule x) := by
  cases x with
  | unset =>
    refine encodes_nil ?_
    write_fields
    exact ⟨.unset, .unset, .unset⟩
  | this =>
    refine encodes_enc hs (by field_numbers) ?_
    write_fields
    exact ⟨.oneof (.message (encodes_nil (by write_fields))), .unset, .unset⟩
  | cu t =>
    refine encodes_enc hs (by field_numbers) ?_
    have hs' := hs.sub (n := 2) (List.mem_singleton.2 rfl)
    write_fields
    refine ⟨.unset, .oneof (.message (encodes_enc hs' (by field_numbers) ?_)), .unset⟩
    write_fields
    exact writes_str ..
  | ttu a c =>
    refine encodes_enc hs (by field_numbers) ?_
    have hs' := hs.sub (n := 3) (List.mem_singleton.2 rfl)
    write_fields
    refine ⟨.unset, .unset, .oneof (.message (encodes_enc hs' (by field_numbers) ?_))⟩
    write_fields
    exact ⟨writes_str .., writes_str ..⟩

theorem encOperator_lt (o : Operator) : encOperator o < 2 ^ 64 := by cases o <;> simp [encOperator]

theorem subtree_enc {t : ExprTree} {n : Nat} (h : t ≠ .nil → Encodes .RelationExpressionTree (Proto.tree t) (encTree t)) :
    Occurs .plain (.message .RelationExpressionTree) n (Proto.tree t) ((if isNil t then [] else [(n, .bytes (encTree t))]).map asContent) := by
  cases t
  case nil => exact .unset
  all_goals exact .plain (.message (h (by simp)))

theorem only_subtree (n m : Nat) (t : ExprTree) :
    only n (if isNil t then [] else [(m, .bytes (encTree t))]) = if m = n then (if isNil t then [] else [(m, .bytes (encTree t))]) else [] := by
  cases isNil t <;> simp

theorem tree_enc {t : ExprTree} (ht : t ≠ .nil) (hs : Small (encTree t)) : Encodes .RelationExpressionTree (Proto.tree t) (encTree t) := by
  induction t with
  | nil => exact (ht rfl).elim
  | unset =>
    refine encodes_nil ?_
    write_fields
    exact ⟨.unset, .unset⟩
  | rule r =>
    refine encodes_enc hs (by field_numbers) ?_
    write_fields
    exact ⟨.unset, .oneof (.message (rule_enc (hs.sub (n := 2) (by simp))))⟩
  | op l o r ihl ihr =>
    refine encodes_enc hs (by field_numbers) ?_
    have hs' := hs.sub (n := 1) (List.mem_singleton.2 rfl)
    write_fields
    refine ⟨.oneof (.message (encodes_enc hs' (.append (.append (.ite .nil (.cons (by omega) (by omega) .nil)) (.num (by omega) (by omega) (encOperator_lt o)))
      (.ite .nil (.cons (by omega) (by omega) .nil))) ?_)), .unset⟩
    simp only [Msg.fields, Proto.get, List.forall_mem_cons, List.not_mem_nil, false_implies, implies_true, reduceCtorEq, if_true, if_false,
      and_true, only_append, only_subtree, only_num, Nat.reduceEqDiff, List.append_nil, List.nil_append, List.map_nil]
    refine ⟨subtree_enc fun hl => ihl hl (hs'.sub (n := 1) ?_), writes_operator .., subtree_enc fun hr => ihr hr (hs'.sub (n := 3) ?_)⟩
    · have : isNil l = false := by cases l <;> simp_all [isNil]
      simp [this]
    · have : isNil r = false := by cases r <;> simp_all [isNil]
      simp [this]

theorem expression_enc {x : RelationExpression} (hx : x ≠ .tree .nil) (hs : Small (encExpr x)) :
    Encodes .RelationExpression (Proto.expression x) (encExpr x) := by
  cases x with
  | unset =>
    refine encodes_nil ?_
    write_fields
    exact ⟨.unset, .unset⟩
  | expr text =>
    refine encodes_enc hs (by field_numbers) ?_
    write_fields
    exact ⟨.oneof .string, .unset⟩
  | tree t =>
    refine encodes_enc hs (by field_numbers) ?_
    write_fields
    exact ⟨.unset, .oneof (.message (tree_enc (fun ht => hx (by rw [ht])) (hs.sub (n := 2) (by simp))))⟩

theorem restriction_enc {x : Restriction} (hs : Small (encRestriction x)) :
    Encodes .SubjectRestrictionSetRestriction (Proto.restriction x) (encRestriction x) := by
  cases x with
  | unset =>
    refine encodes_nil ?_
    write_fields
    exact ⟨.unset, .unset⟩
  | entity res =>
    refine encodes_enc hs (by field_numbers) ?_
    have hs' := hs.sub (n := 1) (List.mem_singleton.2 rfl)
    write_fields
    refine ⟨.oneof (.message (encodes_enc hs' (by field_numbers) ?_)), .unset⟩
    write_fields
    exact writes_str ..
  | entitySet res rel =>
    refine encodes_enc hs (by field_numbers) ?_
    have hs' := hs.sub (n := 2) (List.mem_singleton.2 rfl)
    write_fields
    refine ⟨.unset, .oneof (.message (encodes_enc hs' (by field_numbers) ?_))⟩
    write_fields
    exact ⟨writes_str .., writes_str ..⟩

theorem subjectRestriction_enc {x : SubjectRestriction} (hs : Small (encSubjectRestriction x)) :
    Encodes .SubjectRestriction (Proto.subjectRestriction x) (encSubjectRestriction x) := by
  cases x with
  | unset =>
    refine encodes_nil ?_
    write_fields
    exact ⟨.unset, .unset⟩
  | restrictionSet rs =>
    refine encodes_enc hs (by field_numbers) ?_
    have hs' := hs.sub (n := 1) (List.mem_singleton.2 rfl)
    write_fields
    refine ⟨.oneof (.message (encodes_enc hs' (by field_numbers) ?_)), .unset⟩
    write_fields
    exact writes_rep _ _ fun a ha => restriction_enc (hs'.sub (rep_mem ha))
  | universalSet =>
    refine encodes_enc hs (by field_numbers) ?_
    write_fields
    exact ⟨.unset, .oneof (.message (encodes_nil (by write_fields)))⟩

theorem relation_enc {x : Relation} (hx : x.relationExpression ≠ some (.tree .nil)) (hs : Small (encRelation x)) :
    Encodes .Relation (Proto.relation x) (encRelation x) := by
  refine encodes_enc hs (by field_numbers) ?_
  write_fields
  exact ⟨writes_str .., writes_str ..,
    writes_msg _ _ fun a ha => expression_enc (fun h => hx (by rw [ha, h])) (hs.sub (n := 3) (by simp [msg_mem (enc := encExpr) (n := 3) ha])),
    writes_msg _ _ fun a ha => subjectRestriction_enc (hs.sub (n := 4) (by simp [msg_mem (enc := encSubjectRestriction) (n := 4) ha]))⟩

theorem resource_enc {x : Resource} (hx : ∀ rel ∈ x.relations, rel.relationExpression ≠ some (.tree .nil)) (hs : Small (encResource x)) :
    Encodes .Resource (Proto.resource x) (encResource x) := by
  refine encodes_enc hs (by field_numbers) ?_
  write_fields
  exact ⟨writes_str .., writes_str ..,
    writes_rep _ _ fun a ha => relation_enc (hx a ha) (hs.sub (n := 3) (by simp [rep_mem (enc := encRelation) (n := 3) ha]))⟩

theorem entry_enc {x : String × String} (hs : Small (encEntry x)) : Encodes .PolicyAttributesEntry (Proto.attributeEntry x) (encEntry x) := by
  refine encodes_enc hs (by field_numbers) ?_
  write_fields
  exact ⟨.plain .string, .plain .string⟩

theorem policy_enc {x : Policy} (hx : WholeTrees x) (hs : Small (encPolicy x)) : Encodes .Policy (Proto.policy x) (encPolicy x) := by
  refine encodes_enc hs (by field_numbers) ?_
  write_fields
  exact ⟨writes_str .., writes_str .., writes_str ..,
    writes_rep _ _ fun a ha => resource_enc (hx a ha) (hs.sub (n := 4) (by simp [rep_mem (enc := encResource) (n := 4) ha])),
    writes_rep _ _ fun a ha => entry_enc (hs.sub (n := 5) (by simp [rep_mem (enc := encEntry) (n := 5) ha]))⟩

theorem policyRecord_enc {x : PolicyRecord} (hx : WholeTrees x.policy) (ht : ClockOK x.createdAt) (hs : Small (encPolicyRecord x)) :
    Encodes .PolicyRecord (Proto.policyRecord x) (encPolicyRecord x) := by
  refine encodes_enc hs (by field_numbers) ?_
  write_fields
  exact ⟨.plain (.message (policy_enc hx (hs.sub (n := 1) (by simp)))), writes_bytes ..,
    .plain (.message (timestamp_enc ht (hs.sub (n := 3) (by simp))))⟩

theorem definition_enc {x : PolicyDefinition} (hp : ∀ p, x = .policy p → WholeTrees p) (hs : Small (encDefinition x)) :
    Encodes .PolicyDefinition (Proto.definition x) (encDefinition x) := by
  cases x with
  | unset =>
    refine encodes_nil ?_
    write_fields
    exact ⟨.unset, .unset⟩
  | policy p =>
    refine encodes_enc hs (by field_numbers) ?_
    write_fields
    exact ⟨.oneof (.message (policy_enc (hp p rfl) (hs.sub (n := 1) (by simp)))), .unset⟩
  | yaml text =>
    refine encodes_enc hs (by field_numbers) ?_
    write_fields
    exact ⟨.unset, .oneof .string⟩

theorem request_enc {r : Request} {limit : Nat} (hr : RequestFits limit r) : Encodes (Proto.requestMsg r.method) (Proto.request r) (encRequest r) := by
  obtain ⟨hs, hr⟩ := hr
  change Small _ at hs
  have hdef : ∀ d, DefinitionFits limit d → ∀ a, d = some a → Small (encDefinition a) → Encodes .PolicyDefinition (Proto.definition a) (encDefinition a) :=
    fun d hd a ha h => definition_enc (fun p hp => (hd p (by rw [ha, hp])).1) h
  cases r
  case createPolicy d a =>
    refine encodes_enc hs (by field_numbers) ?_
    simp only [Request.method, Proto.requestMsg, Proto.rpc]
    write_fields
    exact ⟨writes_msg _ _ fun a ha => hdef d hr a ha (hs.sub (n := 1) (by simp [msg_mem (enc := encDefinition) (n := 1) ha])), writes_bytes ..⟩
  case updatePolicy d a st =>
    obtain ⟨hr, hst⟩ := hr
    refine encodes_enc hs (by field_numbers) ?_
    simp only [Request.method, Proto.requestMsg, Proto.rpc]
    write_fields
    exact ⟨writes_msg _ _ fun a ha => hdef d hr a ha (hs.sub (n := 1) (by simp [msg_mem (enc := encDefinition) (n := 1) ha])), writes_bytes ..,
      writes_enumNumber ..⟩
  case deletePolicy id =>
    refine encodes_enc hs (by field_numbers) ?_
    simp only [Request.method, Proto.requestMsg, Proto.rpc]
    write_fields
    exact writes_str ..
  case getPolicy id =>
    refine encodes_enc hs (by field_numbers) ?_
    simp only [Request.method, Proto.requestMsg, Proto.rpc]
    write_fields
    exact writes_str ..
  case listPolicyIds =>
    refine encodes_nil ?_
    simp only [Request.method, Proto.requestMsg, Proto.rpc]
    write_fields
  case setRelationship pid r a =>
    refine encodes_enc hs (by field_numbers) ?_
    simp only [Request.method, Proto.requestMsg, Proto.rpc]
    write_fields
    exact ⟨writes_str .., writes_msg _ _ fun a ha => relationship_enc (hs.sub (n := 2) (by simp [msg_mem (enc := encRelationship) (n := 2) ha])),
      writes_bytes ..⟩
  case deleteRelationship pid r =>
    refine encodes_enc hs (by field_numbers) ?_
    simp only [Request.method, Proto.requestMsg, Proto.rpc]
    write_fields
    exact ⟨writes_str .., writes_msg _ _ fun a ha => relationship_enc (hs.sub (n := 2) (by simp [msg_mem (enc := encRelationship) (n := 2) ha]))⟩
  case getRelationship pid r =>
    refine encodes_enc hs (by field_numbers) ?_
    simp only [Request.method, Proto.requestMsg, Proto.rpc]
    write_fields
    exact ⟨writes_str .., writes_msg _ _ fun a ha => relationship_enc (hs.sub (n := 2) (by simp [msg_mem (enc := encRelationship) (n := 2) ha]))⟩
  case findRelationshipRecords pid sel =>
    refine encodes_enc hs (by field_numbers) ?_
    simp only [Request.method, Proto.requestMsg, Proto.rpc]
    write_fields
    exact ⟨writes_str .., writes_msg _ _ fun a ha => selector_enc (hs.sub (n := 2) (by simp [msg_mem (enc := encSelector) (n := 2) ha]))⟩
  case deleteRelationships pid sel =>
    refine encodes_enc hs (by field_numbers) ?_
    simp only [Request.method, Proto.requestMsg, Proto.rpc]
    write_fields
    exact ⟨writes_str .., writes_msg _ _ fun a ha => selector_enc (hs.sub (n := 2) (by simp [msg_mem (enc := encSelector) (n := 2) ha]))⟩
  case check pid req =>
    refine encodes_enc hs (by field_numbers) ?_
    simp only [Request.method, Proto.requestMsg, Proto.rpc]
    write_fields
    exact ⟨writes_str .., writes_msg _ _ fun a ha => access_enc (hs.sub (n := 2) (by simp [msg_mem (enc := encAccess) (n := 2) ha]))⟩
  case explainCheck pid req f =>
    refine encodes_enc hs (by field_numbers) ?_
    simp only [Request.method, Proto.requestMsg, Proto.rpc]
    write_fields
    exact ⟨writes_str .., writes_msg _ _ fun a ha => access_enc (hs.sub (n := 2) (by simp [msg_mem (enc := encAccess) (n := 2) ha])), writes_format ..⟩
  case expand pid root f =>
    refine encodes_enc hs (by field_numbers) ?_
    simp only [Request.method, Proto.requestMsg, Proto.rpc]
    write_fields
    exact ⟨writes_str .., writes_msg _ _ fun a ha => node_enc (hs.sub (n := 2) (by simp [msg_mem (enc := encNode) (n := 2) ha])), writes_format ..⟩
  case dumpRelationships pid f =>
    refine encodes_enc hs (by field_numbers) ?_
    simp only [Request.method, Proto.requestMsg, Proto.rpc]
    write_fields
    exact ⟨writes_str .., writes_dumpFormat ..⟩

/-- What a reply tells can be written. -/
def ReplyWrites : Reply → Prop
  | .createPolicy rec | .getPolicy rec => ∀ x, rec = some x → WholeTrees x.policy ∧ ClockOK x.createdAt
  | .getRelationship rec => ∀ x, rec = some x → ∀ t, x.createdAt = some t → ClockOK t
  | .findRelationshipRecords l => ∀ xs, l = some xs → ∀ x ∈ xs, ∀ t, x.createdAt = some t → ClockOK t
  | .deletePolicy _ n | .deleteRelationships n => n < 2 ^ 64
  | _ => True

theorem reply_enc {r : Reply} (hr : ReplyWrites r) (hs : Small (encReply r)) : Encodes (Proto.replyMsg (Proto.replyMethod r)) (Proto.reply r) (encReply r) := by
  cases r
  case createPolicy rec =>
    refine encodes_enc hs (by field_numbers) ?_
    simp only [Proto.replyMethod, Proto.replyMsg, Proto.rpc]
    write_fields
    exact writes_msg _ _ fun a ha => policyRecord_enc (hr a ha).1 (hr a ha).2 (hs.sub (msg_mem ha))
  case updatePolicy =>
    refine encodes_nil ?_
    simp only [Proto.replyMethod, Proto.replyMsg, Proto.rpc]
    write_fields
  case deletePolicy f n =>
    have hr : n < 2 ^ 64 := hr
    refine encodes_enc hs (by field_numbers) ?_
    simp only [Proto.replyMethod, Proto.replyMsg, Proto.rpc]
    write_fields
    exact ⟨writes_bool .., writes_int ..⟩
  case getPolicy rec =>
    refine encodes_enc hs (by field_numbers) ?_
    simp only [Proto.replyMethod, Proto.replyMsg, Proto.rpc]
    write_fields
    exact writes_msg _ _ fun a ha => policyRecord_enc (hr a ha).1 (hr a ha).2 (hs.sub (msg_mem ha))
  case listPolicyIds ids =>
    refine encodes_enc hs (by field_numbers) ?_
    simp only [Proto.replyMethod, Proto.replyMsg, Proto.rpc]
    write_fields
    refine writes_rep _ _ fun a ha => encodes_enc (hs.sub (rep_mem (enc := fun id => encFields (strField 1 id)) ha)) (by field_numbers) ?_
    write_fields
    exact writes_str ..
  case setRelationship b =>
    refine encodes_enc hs (by field_numbers) ?_
    simp only [Proto.replyMethod, Proto.replyMsg, Proto.rpc]
    write_fields
    exact writes_bool ..
  case deleteRelationship b =>
    refine encodes_enc hs (by field_numbers) ?_
    simp only [Proto.replyMethod, Proto.replyMsg, Proto.rpc]
    write_fields
    exact writes_bool ..
  case getRelationship rec =>
    refine encodes_enc hs (by field_numbers) ?_
    simp only [Proto.replyMethod, Proto.replyMsg, Proto.rpc]
    write_fields
    exact writes_msg _ _ fun a ha => record_enc (hr a ha) (hs.sub (msg_mem ha))
  case findRelationshipRecords result =>
    refine encodes_enc hs (by field_numbers) ?_
    simp only [Proto.replyMethod, Proto.replyMsg, Proto.rpc]
    write_fields
    refine writes_msg _ _ fun a ha => ?_
    have hs' := hs.sub (msg_mem (enc := fun l => encFields (repField encRecord 1 l)) ha)
    refine encodes_enc hs' (by field_numbers) ?_
    write_fields
    exact writes_rep _ _ fun x hx => record_enc (hr a ha x hx) (hs'.sub (rep_mem hx))
  case deleteRelationships n =>
    have hr : n < 2 ^ 64 := hr
    refine encodes_enc hs (by field_numbers) ?_
    simp only [Proto.replyMethod, Proto.replyMsg, Proto.rpc]
    write_fields
    exact writes_int ..
  case check result =>
    refine encodes_enc hs (by field_numbers) ?_
    simp only [Proto.replyMethod, Proto.replyMsg, Proto.rpc]
    write_fields
    refine writes_msg _ _ fun a ha => ?_
    have hs' := hs.sub (msg_mem (enc := fun b => encFields (numField 1 (encBool b))) ha)
    refine encodes_enc hs' (by field_numbers) ?_
    write_fields
    exact writes_bool ..
  case explainCheck text b f =>
    refine encodes_enc hs (by field_numbers) ?_
    simp only [Proto.replyMethod, Proto.replyMsg, Proto.rpc]
    write_fields
    exact ⟨writes_str .., writes_bool .., writes_format ..⟩
  case expand text f =>
    refine encodes_enc hs (by field_numbers) ?_
    simp only [Proto.replyMethod, Proto.replyMsg, Proto.rpc]
    write_fields
    exact ⟨writes_str .., writes_format ..⟩
  case dumpRelationships dot =>
    cases dot with
    | none =>
      refine encodes_nil ?_
      simp only [Proto.replyMethod, Proto.replyMsg, Proto.rpc]
      write_fields
      exact ⟨.unset, .unset⟩
    | some text =>
      refine encodes_enc hs (by field_numbers) ?_
      simp only [Proto.replyMethod, Proto.replyMsg, Proto.rpc]
      write_fields
      exact ⟨.unset, .oneof .string⟩

theorem encRelType_lt (t : RelType) : encRelType t < 2 ^ 64 := by cases t <;> simp [encRelType]

theorem storedNode_enc {x : INode} (hs : Small (encINode x)) : Encodes .StoredRelationNode (Proto.storedNode x) (encINode x) := by
  have := encRelType_lt x.type
  refine encodes_enc hs (by field_numbers) ?_
  write_fields
  exact ⟨writes_str .., writes_str .., writes_str .., writes_relType ..⟩

theorem storedRelationship_enc {x : IRel} (hs : Small (encIRel x)) : Encodes .StoredRelationship (Proto.storedRelationship x) (encIRel x) := by
  refine encodes_enc hs (by field_numbers) ?_
  write_fields
  exact ⟨.plain (.message (storedNode_enc (hs.sub (n := 1) (by simp)))), .plain (.message (storedNode_enc (hs.sub (n := 2) (by simp))))⟩

theorem key32_enc {k : Nat} (h : k < 2 ^ 256) : Proto.Key32 k (encKey 32 k) :=
  ⟨encKey_length .., by rw [← decKey_foldl, decKey_enc 32 k (by simpa using h)]⟩

theorem storedData_enc {x : RelData} (ht : ClockOK x.createdAt) (hs : Small (encRelData x)) :
    Encodes .StoredRelationshipData (Proto.storedData x (encEdgeKey x.relationshipId)) (encRelData x) := by
  unfold encRelData at hs ⊢
  generalize encEdgeKey x.relationshipId = key at hs ⊢
  refine encodes_enc hs (.append (.append (.byt _ (by omega) (by omega)) (.cons (by omega) (by omega) .nil)) (.byt _ (by omega) (by omega))) ?_
  write_fields
  exact ⟨writes_bytes .., .plain (.message (timestamp_enc ht (hs.sub (n := 2) (by simp)))), writes_bytes ..⟩

theorem decPolicyRecord_whole {limit : Nat} {bs : Bytes} {r : PolicyRecord} (h : decPolicyRecord limit bs = some r) : WholeTrees r.policy := by
  obtain ⟨l, fs, rfl, -, h⟩ := message_some h
  split at h
  · next hp _ =>
    cases h
    obtain ⟨b, hb⟩ := getMsg_some_of hp
    exact (decPolicy_nest hb).2.1
  · cases h

theorem reply_writes (pr : Printer) {limit : Nat} {a : Answer} (h : AnswerFits limit a) (hc : CountFits a) : ReplyWrites (Answer.reply pr a) := by
  cases a
  case created rec =>
    intro x hx
    cases hx
    exact ⟨decPolicyRecord_whole h.1, h.2⟩
  case policy rec => exact fun x hx => ⟨decPolicyRecord_whole (h x hx).1, (h x hx).2⟩
  case deletedPolicy => exact hc
  case affected => exact hc
  case relationship rec =>
    intro x hx t ht
    cases rec with
    | none => cases hx
    | some r =>
      cases hx
      cases ht
      exact h r rfl
  case records l =>
    intro xs hxs x hx t ht
    cases hxs
    obtain ⟨o, ho, rfl⟩ := List.mem_map.1 hx
    exact recordMsg_time h ho t ht
  all_goals trivial

theorem decKey_lt (a : Nat) (b : Bytes) : decKey a b < (a + 1) * 256 ^ b.length := by
  induction b generalizing a with
  | nil => simp [decKey]
  | cons x b ih =>
    rw [decKey, List.length_cons, Nat.pow_succ', ← Nat.mul_assoc]
    refine Nat.lt_of_lt_of_le (ih _) (Nat.mul_le_mul_right _ ?_)
    have := x.toNat_lt
    omega

/-- The keys in data that reads back are of 32 bytes. -/
theorem stored_keys {limit : Nat} {d : RelData} (h : decRelData limit (encRelData d) = some d) (ht : ClockOK d.createdAt) (hs : Small (encRelData d)) :
    d.relationshipId.1 < 2 ^ 256 ∧ d.relationshipId.2 < 2 ^ 256 := by
  have he := storedData_enc ht hs
  have hlen : (encEdgeKey d.relationshipId).length = 64 := by simp only [encEdgeKey, List.length_append, encKey_length]
  generalize encEdgeKey d.relationshipId = key at he hlen
  read_fields he with ⟨W, hW, h1, -, -⟩
  obtain ⟨l, fs, rfl, hfs, h⟩ := message_some h
  rw [hW] at hfs
  cases hfs
  split at h
  · cases h
    rw [h1.bytes]
    have e : (256 : Nat) ^ 32 = 2 ^ 256 := by decide +kernel
    have h2 := decKey_lt 0 (key.take 32)
    have h3 := decKey_lt 0 (key.drop 32)
    rw [List.length_take, hlen] at h2
    rw [List.length_drop, hlen] at h3
    simp only [Nat.zero_add, Nat.one_mul, Nat.reduceSub, Nat.min_def, Nat.reduceLeDiff, if_true] at h2 h3
    rw [e] at h2 h3
    exact ⟨h2, h3⟩
  · cases h

end Zanzi.Wire
