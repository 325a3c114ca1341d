import Verif.Spec.Rpc
import Verif.Lemmas.ByteServe
import Verif.Lemmas.Definition

/-
Lemmas about messages on the network (C73).
-/

namespace Zanzi.Wire

open Spec

theorem message_ok {α : Type} {fs : List WField} (hs : Small (encFields fs)) (h : Num fs) {limit : Nat} (hl : 1 ≤ limit)
    (k : Nat → List WField → Option α) : message limit (encFields fs) k = k (limit - 1) fs := by
  rw [message_enc hs h]
  cases limit with
  | zero => omega
  | succ l => rfl

theorem message_empty {α : Type} {limit : Nat} (hl : 1 ≤ limit) (k : Nat → List WField → Option α) : message limit [] k = k (limit - 1) [] := by
  rw [message_nil]
  cases limit with
  | zero => omega
  | succ l => rfl

theorem getMsg_ok {α : Type} {enc : α → Bytes} {dec : Bytes → Option α} {n : Nat} {fs : List WField} {o : Option α}
    (h : blobs n fs = (o.map enc).toList) (hd : ∀ a, o = some a → dec (enc a) = some a) : getMsg dec n fs = some o := by
  rw [getMsg, h]
  cases o with
  | none => rfl
  | some a => simp [joined, hd a rfl]

theorem getRep_ok {α : Type} {enc : α → Bytes} {dec : Bytes → Option α} {n : Nat} {fs : List WField} {as : List α}
    (h : blobs n fs = as.map enc) (hd : ∀ a ∈ as, dec (enc a) = some a) : getRep dec n fs = some as := by
  rw [getRep, h]
  clear h
  induction as with
  | nil => rfl
  | cons a as ih =>
    rw [List.map_cons, allSome, hd a (List.mem_cons_self ..), ih (fun b hb => hd b (List.mem_cons_of_mem _ hb))]
    rfl

theorem decEntity_enc (e : Entity) {limit : Nat} (hl : 1 ≤ limit) (hs : Small (encEntity e)) : decEntity limit (encEntity e) = some e := by
  unfold encEntity at hs ⊢
  unfold decEntity
  rw [message_ok hs (.append (.str _ (by omega) (by omega)) (.str _ (by omega) (by omega))) hl,
    getStr_of (s := e.resource) (by simp), getStr_of (s := e.id) (by simp)]
  rfl

theorem decSubject_enc (x : Subject) {limit : Nat} (hl : 3 ≤ limit) (hs : Small (encSubject x)) : decSubject limit (encSubject x) = some x := by
  unfold decSubject
  cases x with
  | unset => rw [encSubject, message_empty (by omega)]; rfl
  | entity e =>
    have hs' := Small.sub hs (List.mem_singleton.2 rfl)
    rw [encSubject, message_ok hs (.cons (by omega) (by omega) .nil) (by omega), getOneof_one (by simp)]
    dsimp only
    rw [if_pos rfl, decEntity_enc e (by omega) hs']
    rfl
  | entitySet e rel =>
    have hs' := Small.sub hs (List.mem_singleton.2 rfl)
    rw [encSubject, message_ok hs (.cons (by omega) (by omega) .nil) (by omega), getOneof_one (by simp)]
    dsimp only
    rw [if_neg (by omega), if_pos rfl, message_ok hs' (.append (.msg _ (by omega) (by omega)) (.str _ (by omega) (by omega))) (by omega),
      getMsg_ok (enc := encEntity) (o := e) (by simp)
        (fun a ha => decEntity_enc a (by omega) (hs'.sub (List.mem_append_left _ (msg_mem ha)))), getStr_of (s := rel) (by simp)]
    rfl
  | resourceSet res =>
    have hs' := Small.sub hs (List.mem_singleton.2 rfl)
    rw [encSubject, message_ok hs (.cons (by omega) (by omega) .nil) (by omega), getOneof_one (by simp)]
    dsimp only
    rw [if_neg (by omega), if_neg (by omega), message_ok hs' (.str _ (by omega) (by omega)) (by omega), getStr_of (s := res) (by simp)]
    rfl

theorem decRelationship_enc (r : Relationship) {limit : Nat} (hl : 4 ≤ limit) (hs : Small (encRelationship r)) :
    decRelationship limit (encRelationship r) = some r := by
  unfold encRelationship at hs ⊢
  unfold decRelationship
  rw [message_ok hs (.append (.append (.msg _ (by omega) (by omega)) (.str _ (by omega) (by omega))) (.msg _ (by omega) (by omega))) (by omega),
    getMsg_ok (enc := encEntity) (o := r.object) (by simp)
      (fun a ha => decEntity_enc a (by omega) (hs.sub (List.mem_append_left _ (List.mem_append_left _ (msg_mem ha))))),
    getStr_of (s := r.relation) (by simp),
    getMsg_ok (enc := encSubject) (o := r.subject) (by simp)
      (fun a ha => decSubject_enc a (by omega) (hs.sub (List.mem_append_right _ (msg_mem ha))))]
  rfl

theorem decTimestamp_ok (t : Nat) (ht : ClockOK t) {limit : Nat} (hl : 1 ≤ limit) (hs : Small (encTimestamp t)) :
    decTimestamp limit (encTimestamp t) = some t := by
  rw [decTimestamp_enc t ht limit hs, if_pos hl]

theorem decRecord_enc (r : RecordMsg) (ht : ∀ t, r.createdAt = some t → ClockOK t) {limit : Nat} (hl : 5 ≤ limit) (hs : Small (encRecord r)) :
    decRecord limit (encRecord r) = some r := by
  unfold encRecord at hs ⊢
  unfold decRecord
  rw [message_ok hs (.append (.append (.append (.str _ (by omega) (by omega)) (.msg _ (by omega) (by omega))) (.msg _ (by omega) (by omega)))
      (.byt _ (by omega) (by omega))) (by omega),
    getStr_of (s := r.policyId) (by simp),
    getMsg_ok (enc := encRelationship) (o := r.relationship) (by simp)
      (fun a ha => decRelationship_enc a (by omega) (hs.sub (List.mem_append_left _ (List.mem_append_left _ (List.mem_append_right _ (msg_mem ha)))))),
    getMsg_ok (enc := encTimestamp) (o := r.createdAt) (by simp)
      (fun a ha => decTimestamp_ok a (ht a ha) (by omega) (hs.sub (List.mem_append_left _ (List.mem_append_right _ (msg_mem ha))))),
    getBytes_of (s := r.appData) (by simp)]
  rfl

theorem decObjectSelector_enc (x : ObjectSelector) {limit : Nat} (hl : 2 ≤ limit) (hs : Small (encObjectSelector x)) :
    decObjectSelector limit (encObjectSelector x) = some x := by
  unfold decObjectSelector
  cases x with
  | unset => rw [encObjectSelector, message_empty (by omega)]; rfl
  | objectSpec e =>
    have hs' := Small.sub hs (List.mem_singleton.2 rfl)
    rw [encObjectSelector, message_ok hs (.cons (by omega) (by omega) .nil) (by omega), getOneof_one (by simp)]
    dsimp only
    rw [if_pos rfl, decEntity_enc e (by omega) hs']
    rfl
  | wildcard =>
    rw [encObjectSelector, message_ok hs (.cons (by omega) (by omega) .nil) (by omega), getOneof_one (by simp)]
    dsimp only
    rw [if_neg (by omega), if_pos rfl, message_empty (by omega)]
  | resourceSpec res =>
    rw [encObjectSelector, message_ok hs (.cons (by omega) (by omega) .nil) (by omega), getOneof_one (by simp)]
    dsimp only
    rw [if_neg (by omega), if_neg (by omega), ofUtf8_utf8]
    rfl

theorem decRelationSelector_enc (x : RelationSelector) {limit : Nat} (hl : 2 ≤ limit) (hs : Small (encRelationSelector x)) :
    decRelationSelector limit (encRelationSelector x) = some x := by
  unfold decRelationSelector
  cases x with
  | unset => rw [encRelationSelector, message_empty (by omega)]; rfl
  | relationName e =>
    rw [encRelationSelector, message_ok hs (.cons (by omega) (by omega) .nil) (by omega), getOneof_one (by simp)]
    dsimp only
    rw [if_pos rfl, ofUtf8_utf8]
    rfl
  | wildcard =>
    rw [encRelationSelector, message_ok hs (.cons (by omega) (by omega) .nil) (by omega), getOneof_one (by simp)]
    dsimp only
    rw [if_neg (by omega), message_empty (by omega)]

theorem decSubjectSelector_enc (x : SubjectSelector) {limit : Nat} (hl : 4 ≤ limit) (hs : Small (encSubjectSelector x)) :
    decSubjectSelector limit (encSubjectSelector x) = some x := by
  unfold decSubjectSelector
  cases x with
  | unset => rw [encSubjectSelector, message_empty (by omega)]; rfl
  | subjectSpec e =>
    have hs' := Small.sub hs (List.mem_singleton.2 rfl)
    rw [encSubjectSelector, message_ok hs (.cons (by omega) (by omega) .nil) (by omega), getOneof_one (by simp)]
    dsimp only
    rw [if_pos rfl, decSubject_enc e (by omega) hs']
    rfl
  | wildcard =>
    rw [encSubjectSelector, message_ok hs (.cons (by omega) (by omega) .nil) (by omega), getOneof_one (by simp)]
    dsimp only
    rw [if_neg (by omega), if_pos rfl, message_empty (by omega)]
  | resourceSpec res =>
    rw [encSubjectSelector, message_ok hs (.cons (by omega) (by omega) .nil) (by omega), getOneof_one (by simp)]
    dsimp only
    rw [if_neg (by omega), if_neg (by omega), ofUtf8_utf8]
    rfl

theorem decSelector_enc (x : Selector) {limit : Nat} (hl : 5 ≤ limit) (hs : Small (encSelector x)) : decSelector limit (encSelector x) = some x := by
  unfold encSelector at hs ⊢
  unfold decSelector
  rw [message_ok hs (.append (.append (.msg _ (by omega) (by omega)) (.msg _ (by omega) (by omega))) (.msg _ (by omega) (by omega))) (by omega),
    getMsg_ok (enc := encObjectSelector) (o := x.object) (by simp)
      (fun a ha => decObjectSelector_enc a (by omega) (hs.sub (List.mem_append_left _ (List.mem_append_left _ (msg_mem ha))))),
    getMsg_ok (enc := encRelationSelector) (o := x.relation) (by simp)
      (fun a ha => decRelationSelector_enc a (by omega) (hs.sub (List.mem_append_left _ (List.mem_append_right _ (msg_mem ha))))),
    getMsg_ok (enc := encSubjectSelector) (o := x.subject) (by simp)
      (fun a ha => decSubjectSelector_enc a (by omega) (hs.sub (List.mem_append_right _ (msg_mem ha))))]
  rfl

theorem decAccess_enc (r : AccessRequest) {limit : Nat} (hl : 2 ≤ limit) (hs : Small (encAccess r)) : decAccess limit (encAccess r) = some r := by
  unfold encAccess at hs ⊢
  unfold decAccess
  rw [message_ok hs (.append (.append (.msg _ (by omega) (by omega)) (.str _ (by omega) (by omega))) (.msg _ (by omega) (by omega))) (by omega),
    getMsg_ok (enc := encEntity) (o := r.object) (by simp)
      (fun a ha => decEntity_enc a (by omega) (hs.sub (List.mem_append_left _ (List.mem_append_left _ (msg_mem ha))))),
    getStr_of (s := r.relation) (by simp),
    getMsg_ok (enc := encEntity) (o := r.subject) (by simp)
      (fun a ha => decEntity_enc a (by omega) (hs.sub (List.mem_append_right _ (msg_mem ha))))]
  rfl

theorem decNode_enc (x : RelationNode) {limit : Nat} (hl : 3 ≤ limit) (hs : Small (encNode x)) : decNode limit (encNode x) = some x := by
  unfold decNode
  cases x with
  | unset => rw [encNode, message_empty (by omega)]; rfl
  | entitySet e rel =>
    have hs' := Small.sub hs (List.mem_singleton.2 rfl)
    rw [encNode, message_ok hs (.cons (by omega) (by omega) .nil) (by omega), getOneof_one (by simp)]
    dsimp only
    rw [if_pos rfl, message_ok hs' (.append (.msg _ (by omega) (by omega)) (.str _ (by omega) (by omega))) (by omega),
      getMsg_ok (enc := encEntity) (o := e) (by simp)
        (fun a ha => decEntity_enc a (by omega) (hs'.sub (List.mem_append_left _ (msg_mem ha)))), getStr_of (s := rel) (by simp)]
    rfl
  | entity e =>
    have hs' := Small.sub hs (List.mem_singleton.2 rfl)
    rw [encNode, message_ok hs (.cons (by omega) (by omega) .nil) (by omega), getOneof_one (by simp)]
    dsimp only
    rw [if_neg (by omega), if_pos rfl, message_ok hs' (.msg _ (by omega) (by omega)) (by omega),
      getMsg_ok (enc := encEntity) (o := e) (by simp) (fun a ha => decEntity_enc a (by omega) (hs'.sub (msg_mem ha)))]
    rfl
  | wildcard res =>
    have hs' := Small.sub hs (List.mem_singleton.2 rfl)
    rw [encNode, message_ok hs (.cons (by omega) (by omega) .nil) (by omega), getOneof_one (by simp)]
    dsimp only
    rw [if_neg (by omega), if_neg (by omega), message_ok hs' (.str _ (by omega) (by omega)) (by omega), getStr_of (s := res) (by simp)]
    rfl

theorem decFormat_enc (f : ExplainFormat) : decFormat (encFormat f) = f := by cases f <;> rfl

theorem decDumpFormat_enc (f : GraphService.DumpFormat) : decDumpFormat (encDumpFormat f) = f := by cases f <;> rfl

theorem encFormat_lt (f : ExplainFormat) : encFormat f < 2 ^ 64 := by cases f <;> simp [encFormat]

theorem encDumpFormat_lt (f : GraphService.DumpFormat) : encDumpFormat f < 2 ^ 64 := by cases f <;> simp [encDumpFormat]

theorem decBool_enc (b : Bool) : decBool (encBool b) = b := by cases b <;> rfl

theorem encBool_lt (b : Bool) : encBool b < 2 ^ 64 := by cases b <;> simp [encBool]

theorem decDefinition_enc (d : PolicyDefinition) {limit : Nat} (hl : 1 ≤ limit)
    (hp : ∀ p, d = .policy p → WholeTrees p ∧ (p.attributes.map (·.1)).Nodup ∧ Nest.policy p + 1 ≤ limit) (hs : Small (encDefinition d)) :
    decDefinition limit (encDefinition d) = some d := by
  unfold decDefinition
  cases d with
  | unset => rw [encDefinition, message_empty (by omega)]; rfl
  | policy p =>
    have hs' := Small.sub hs (List.mem_singleton.2 rfl)
    obtain ⟨h1, h2, h3⟩ := hp p rfl
    rw [encDefinition, message_ok hs (.cons (by omega) (by omega) .nil) (by omega), getOneof_one (by simp)]
    dsimp only
    rw [if_pos rfl, decPolicy_enc p h1 h2 _ hs', if_pos (by omega)]
    rfl
  | yaml text =>
    rw [encDefinition, message_ok hs (.cons (by omega) (by omega) .nil) (by omega), getOneof_one (by simp)]
    dsimp only
    rw [if_neg (by omega), ofUtf8_utf8]
    rfl

theorem nums_byt (n m : Nat) (s : Bytes) : nums n (bytesField m s) = [] := by
  unfold bytesField
  by_cases h : s = [] <;> simp [h]

theorem decRequest_enc (r : Request) {limit : Nat} (hl : 6 ≤ limit) (h : RequestFits limit r) : decRequest limit r.method (encRequest r) = some r := by
  obtain ⟨hs, hr⟩ := h
  change Small _ at hs
  unfold decRequest
  cases r
  case createPolicy d a =>
    unfold encRequest at hs ⊢
    rw [message_ok hs (.append (.msg _ (by omega) (by omega)) (.byt _ (by omega) (by omega))) (by omega)]
    simp only [Request.method]
    rw [getMsg_ok (enc := encDefinition) (o := d) (by simp)
      (fun x hx => decDefinition_enc x (by omega) (fun p hp => by obtain ⟨h1, h2, h3⟩ := hr p (by rw [hx, hp]); exact ⟨h1, h2, by omega⟩)
        (hs.sub (List.mem_append_left _ (msg_mem hx)))), getBytes_of (s := a) (by simp)]
    rfl
  case updatePolicy d a st =>
    unfold encRequest at hs ⊢
    rw [message_ok hs (.append (.append (.msg _ (by omega) (by omega)) (.byt _ (by omega) (by omega))) (.num (by omega) (by omega) hr.2)) (by omega)]
    simp only [Request.method]
    rw [getMsg_ok (enc := encDefinition) (o := d) (by simp)
      (fun x hx => decDefinition_enc x (by omega) (fun p hp => by obtain ⟨h1, h2, h3⟩ := hr.1 p (by rw [hx, hp]); exact ⟨h1, h2, by omega⟩)
        (hs.sub (List.mem_append_left _ (List.mem_append_left _ (msg_mem hx))))), getBytes_of (s := a) (by simp), getNum_of (v := st) (by simp [nums_byt])]
    rfl
  case deletePolicy id =>
    unfold encRequest at hs ⊢
    rw [message_ok hs (.str _ (by omega) (by omega)) (by omega)]
    simp only [Request.method]
    rw [getStr_of (s := id) (by simp)]
    rfl
  case getPolicy id =>
    unfold encRequest at hs ⊢
    rw [message_ok hs (.str _ (by omega) (by omega)) (by omega)]
    simp only [Request.method]
    rw [getStr_of (s := id) (by simp)]
    rfl
  case listPolicyIds =>
    rw [encRequest, message_empty (by omega)]
    rfl
  case setRelationship pid r a =>
    unfold encRequest at hs ⊢
    rw [message_ok hs (.append (.append (.str _ (by omega) (by omega)) (.msg _ (by omega) (by omega))) (.byt _ (by omega) (by omega))) (by omega)]
    simp only [Request.method]
    rw [getStr_of (s := pid) (by simp), getMsg_ok (enc := encRelationship) (o := r) (by simp)
      (fun x hx => decRelationship_enc x (by omega) (hs.sub (List.mem_append_left _ (List.mem_append_right _ (msg_mem hx))))),
      getBytes_of (s := a) (by simp)]
    rfl
  case deleteRelationship pid r =>
    unfold encRequest at hs ⊢
    rw [message_ok hs (.append (.str _ (by omega) (by omega)) (.msg _ (by omega) (by omega))) (by omega)]
    simp only [Request.method]
    rw [getStr_of (s := pid) (by simp), getMsg_ok (enc := encRelationship) (o := r) (by simp)
      (fun x hx => decRelationship_enc x (by omega) (hs.sub (List.mem_append_right _ (msg_mem hx))))]
    rfl
  case getRelationship pid r =>
    unfold encRequest at hs ⊢
    rw [message_ok hs (.append (.str _ (by omega) (by omega)) (.msg _ (by omega) (by omega))) (by omega)]
    simp only [Request.method]
    rw [getStr_of (s := pid) (by simp), getMsg_ok (enc := encRelationship) (o := r) (by simp)
      (fun x hx => decRelationship_enc x (by omega) (hs.sub (List.mem_append_right _ (msg_mem hx))))]
    rfl
  case findRelationshipRecords pid r =>
    unfold encRequest at hs ⊢
    rw [message_ok hs (.append (.str _ (by omega) (by omega)) (.msg _ (by omega) (by omega))) (by omega)]
    simp only [Request.method]
    rw [getStr_of (s := pid) (by simp), getMsg_ok (enc := encSelector) (o := r) (by simp)
      (fun x hx => decSelector_enc x (by omega) (hs.sub (List.mem_append_right _ (msg_mem hx))))]
    rfl
  case deleteRelationships pid r =>
    unfold encRequest at hs ⊢
    rw [message_ok hs (.append (.str _ (by omega) (by omega)) (.msg _ (by omega) (by omega))) (by omega)]
    simp only [Request.method]
    rw [getStr_of (s := pid) (by simp), getMsg_ok (enc := encSelector) (o := r) (by simp)
      (fun x hx => decSelector_enc x (by omega) (hs.sub (List.mem_append_right _ (msg_mem hx))))]
    rfl
  case check pid r =>
    unfold encRequest at hs ⊢
    rw [message_ok hs (.append (.str _ (by omega) (by omega)) (.msg _ (by omega) (by omega))) (by omega)]
    simp only [Request.method]
    rw [getStr_of (s := pid) (by simp), getMsg_ok (enc := encAccess) (o := r) (by simp)
      (fun x hx => decAccess_enc x (by omega) (hs.sub (List.mem_append_right _ (msg_mem hx))))]
    rfl
  case explainCheck pid r f =>
    unfold encRequest at hs ⊢
    rw [message_ok hs (.append (.append (.str _ (by omega) (by omega)) (.msg _ (by omega) (by omega))) (.num (by omega) (by omega) (encFormat_lt f))) (by omega)]
    simp only [Request.method]
    rw [getStr_of (s := pid) (by simp), getMsg_ok (enc := encAccess) (o := r) (by simp)
      (fun x hx => decAccess_enc x (by omega) (hs.sub (List.mem_append_left _ (List.mem_append_right _ (msg_mem hx))))),
      getNum_of (v := encFormat f) (by simp), decFormat_enc]
    rfl
  case expand pid r f =>
    unfold encRequest at hs ⊢
    rw [message_ok hs (.append (.append (.str _ (by omega) (by omega)) (.msg _ (by omega) (by omega))) (.num (by omega) (by omega) (encFormat_lt f))) (by omega)]
    simp only [Request.method]
    rw [getStr_of (s := pid) (by simp), getMsg_ok (enc := encNode) (o := r) (by simp)
      (fun x hx => decNode_enc x (by omega) (hs.sub (List.mem_append_left _ (List.mem_append_right _ (msg_mem hx))))),
      getNum_of (v := encFormat f) (by simp), decFormat_enc]
    rfl
  case dumpRelationships pid f =>
    unfold encRequest at hs ⊢
    rw [message_ok hs (.append (.str _ (by omega) (by omega)) (.num (by omega) (by omega) (encDumpFormat_lt f))) (by omega)]
    simp only [Request.method]
    rw [getStr_of (s := pid) (by simp), getNum_of (v := encDumpFormat f) (by simp), decDumpFormat_enc]
    rfl

theorem handler_of (m : Method) : kvGet handlers m.path = some m := by cases m <;> decide +kernel

/-! ### Replies -/

/-- The answer can be written and read back within the limit. -/
def AnswerFits (limit : Nat) : Answer → Prop
  | .created rec => RecordFits limit rec
  | .policy rec => ∀ r, rec = some r → RecordFits limit r
  | .relationship rec => ∀ r, rec = some r → ClockOK r.createdAt
  | .records l => ∀ r, some r ∈ l → ClockOK r.createdAt
  | _ => True

/-- The method an answer belongs to. -/
def answerMethod : Answer → Method
  | .created .. => .createPolicy
  | .updated => .updatePolicy
  | .deletedPolicy .. => .deletePolicy
  | .policy .. => .getPolicy
  | .ids .. => .listPolicyIds
  | .overwritten .. => .setRelationship
  | .found .. => .deleteRelationship
  | .relationship .. => .getRelationship
  | .records .. => .findRelationshipRecords
  | .affected .. => .deleteRelationships
  | .authorized .. => .check
  | .explained .. => .explainCheck
  | .expanded .. => .expand
  | .dumped .. => .dumpRelationships

theorem recordMsg_time {l : List (Option RelationshipRecord)} (h : ∀ r, some r ∈ l → ClockOK r.createdAt) {o : Option RelationshipRecord} (ho : o ∈ l)
    (t : Timestamp) (ht : (recordMsg o).createdAt = some t) : ClockOK t := by
  cases o with
  | none => cases ht
  | some r => cases ht; exact h r ho

theorem decReply_enc (pr : Printer) (a : Answer) {limit : Nat} (hl : 7 ≤ limit) (ha : AnswerFits (limit - 1) a) (hc : CountFits a)
    (hs : Small (encReply (Answer.reply pr a))) : decReply limit (answerMethod a) (encReply (Answer.reply pr a)) = some (Answer.reply pr a) := by
  unfold decReply
  cases a <;> simp only [Answer.reply, answerMethod] at hs ⊢ <;> unfold encReply at hs ⊢
  case created rec =>
    rw [message_ok hs (.msg _ (by omega) (by omega)) (by omega)]
    rw [getMsg_ok (enc := encPolicyRecord) (o := some rec) (by simp) (fun x hx => by cases hx; exact ha.1)]
    rfl
  case updated => rw [message_empty (by omega)]
  case deletedPolicy f n =>
    rw [message_ok hs (.append (.num (by omega) (by omega) (encBool_lt f)) (.num (by omega) (by omega) hc)) (by omega)]
    rw [getNum_of (v := encBool f) (by simp), getNum_of (v := n) (by simp), decBool_enc]
  case policy rec =>
    rw [message_ok hs (.msg _ (by omega) (by omega)) (by omega)]
    rw [getMsg_ok (enc := encPolicyRecord) (o := rec) (by simp) (fun x hx => (ha x hx).1)]
    rfl
  case ids l =>
    rw [message_ok hs (.rep _ (by omega) (by omega)) (by omega)]
    rw [getRep_ok (enc := fun id => encFields (strField 1 id)) (as := l) (by simp)]
    · rfl
    · intro x hx
      rw [message_ok (hs.sub (rep_mem (enc := fun id => encFields (strField 1 id)) hx)) (.str _ (by omega) (by omega)) (by omega)]
      exact getStr_of (s := x) (by simp)
  case overwritten b =>
    rw [message_ok hs (.num (by omega) (by omega) (encBool_lt b)) (by omega)]
    rw [getNum_of (v := encBool b) (by simp), decBool_enc]
  case found b =>
    rw [message_ok hs (.num (by omega) (by omega) (encBool_lt b)) (by omega)]
    rw [getNum_of (v := encBool b) (by simp), decBool_enc]
  case relationship r =>
    rw [message_ok hs (.msg _ (by omega) (by omega)) (by omega)]
    rw [getMsg_ok (enc := encRecord) (o := r.map (fun r => recordMsg (some r))) (by simp)]
    · rfl
    · intro x hx
      refine decRecord_enc x ?_ (by omega) (hs.sub (msg_mem hx))
      obtain ⟨r', rfl, rfl⟩ := Option.map_eq_some_iff.1 hx
      intro t ht
      cases ht
      exact ha r' rfl
  case records l =>
    have hs' := hs.sub (msg_mem (enc := fun l => encFields (repField encRecord 1 l)) rfl)
    rw [message_ok hs (.msg _ (by omega) (by omega)) (by omega)]
    rw [getMsg_ok (enc := fun l => encFields (repField encRecord 1 l)) (o := some (l.map recordMsg)) (by simp)]
    · rfl
    · intro x hx
      cases hx
      rw [message_ok hs' (.rep _ (by omega) (by omega)) (by omega)]
      refine getRep_ok (enc := encRecord) (by simp) (fun y hy => decRecord_enc y ?_ (by omega) (hs'.sub (rep_mem hy)))
      obtain ⟨o, ho, rfl⟩ := List.mem_map.1 hy
      exact fun t ht => recordMsg_time ha ho t ht
  case affected n =>
    rw [message_ok hs (.num (by omega) (by omega) hc) (by omega)]
    rw [getNum_of (v := n) (by simp)]
  case authorized b =>
    have hs' := hs.sub (msg_mem (enc := fun b => encFields (numField 1 (encBool b))) rfl)
    rw [message_ok hs (.msg _ (by omega) (by omega)) (by omega)]
    rw [getMsg_ok (enc := fun b => encFields (numField 1 (encBool b))) (o := some b) (by simp)]
    · rfl
    · intro x hx
      cases hx
      rw [message_ok hs' (.num (by omega) (by omega) (encBool_lt b)) (by omega), getNum_of (v := encBool b) (by simp), decBool_enc]
  case explained t b f =>
    rw [message_ok hs (.append (.append (.str _ (by omega) (by omega)) (.num (by omega) (by omega) (encBool_lt b))) (.num (by omega) (by omega) (encFormat_lt f)))
      (by omega)]
    rw [getStr_of (s := pr.tree t) (by simp), getNum_of (v := encBool b) (by simp), getNum_of (v := encFormat f) (by simp), decBool_enc, decFormat_enc]
    rfl
  case expanded t f =>
    rw [message_ok hs (.append (.str _ (by omega) (by omega)) (.num (by omega) (by omega) (encFormat_lt f))) (by omega)]
    rw [getStr_of (s := pr.tree t) (by simp), getNum_of (v := encFormat f) (by simp), decFormat_enc]
    rfl
  case dumped cs =>
    rw [message_ok hs (.cons (by omega) (by omega) .nil) (by omega)]
    rw [getOneof_one (by simp)]
    dsimp only
    rw [if_pos rfl, ofUtf8_utf8]
    rfl

/-! ### Answers -/

theorem run_bind_ok {α β : Type} {p : Prog α} {k : α → Prog β} {s s'' : Store} {b : β} (h : (p >>= k).run s = (.ok b, s'')) :
    ∃ a s', p.run s = (.ok a, s') ∧ (k a).run s' = (.ok b, s'') := by
  rw [Prog.run_bind] at h
  generalize hr : p.run s = r at h
  obtain ⟨r, s'⟩ := r
  cases r with
  | ok a => exact ⟨a, s', rfl, h⟩
  | err => cases h
  | panic => cases h
  | fuel => cases h

theorem run_lift_ok {α : Type} {r : Res α} {s s' : Store} {a : α} (h : (Prog.lift r).run s = (.ok a, s')) : r = .ok a ∧ s' = s := by
  rw [Prog.run_lift] at h
  cases h
  exact ⟨rfl, rfl⟩

variable {limit : Nat} {env : Env}

theorem getRelationship_clock {H : String → Nat} {pid : String} {r : Option Relationship} {s s' : Store} (hs : StoreFits limit s)
    {x : Option RelationshipRecord} (h : (Repo.getRelationship H pid r).run s = (.ok x, s')) : s' = s ∧ ∀ rec, x = some rec → ClockOK rec.createdAt := by
  cases r with
  | none => cases h
  | some r =>
    unfold Repo.getRelationship at h
    have hb := run_bind_ok h
    clear h
    obtain ⟨r', s1, h1, h⟩ := hb
    obtain ⟨h1, rfl⟩ := run_lift_ok h1
    have hb := run_bind_ok h
    clear h
    obtain ⟨i, s2, h2, h⟩ := hb
    obtain ⟨h2, rfl⟩ := run_lift_ok h2
    have hb := run_bind_ok h
    clear h
    obtain ⟨d, s3, h3, h⟩ := hb
    cases h3
    cases hd : kvGet s2.data (i.key H) with
    | none =>
      change (match kvGet s2.data (i.key H) with
        | none => (pure none : Prog (Option RelationshipRecord))
        | some d => pure (some (fromInternalRecord pid i d))).run s2 = _ at h
      rw [hd] at h
      cases h
      exact ⟨rfl, nofun⟩
    | some d =>
      change (match kvGet s2.data (i.key H) with
        | none => (pure none : Prog (Option RelationshipRecord))
        | some d => pure (some (fromInternalRecord pid i d))).run s2 = _ at h
      rw [hd] at h
      cases h
      refine ⟨rfl, fun rec hrec => ?_⟩
      cases hrec
      exact (hs.data _ (kvGet_mem hd)).2.2

theorem getRelationships_clock {H : String → Nat} {pid : String} (l : List Relationship) {s s' : Store} (hs : StoreFits limit s)
    {xs : List (Option RelationshipRecord)} (h : (Prog.mapSlice (fun r => Repo.getRelationship H pid (some r)) l).run s = (.ok xs, s')) :
    ∀ rec, some rec ∈ xs → ClockOK rec.createdAt := by
  induction l generalizing xs s' with
  | nil => cases h; exact nofun
  | cons r l ih =>
    unfold Prog.mapSlice at h
    have hb := run_bind_ok h
    clear h
    obtain ⟨x, s1, h1, h⟩ := hb
    obtain ⟨rfl, hx⟩ := getRelationship_clock hs h1
    have hb := run_bind_ok h
    clear h
    obtain ⟨ys, s2, h2, h⟩ := hb
    cases h
    intro rec hrec
    rcases List.mem_cons.1 hrec with h | h
    · exact hx rec h.symm
    · exact ih h2 rec h

theorem answer_fits (c : Call) (hc : CallFits limit env c) {s s' : Store} (hs : StoreFits limit s) {a : Answer} (h : serve env c s = (.ok a, s')) :
    AnswerFits limit a := by
  cases c
  case createPolicy now d ap =>
    rw [serve_create] at h
    cases hp : getPolicyFromDefinition env d with
    | ok p =>
      rw [hp] at h
      dsimp only at h
      cases hg : kvGet s.policies p.id with
      | some _ => rw [hg] at h; cases h
      | none =>
        rw [hg] at h
        dsimp only at h
        cases hv : verifyPolicy env.U p with
        | ok u =>
          rw [hv] at h
          cases h
          exact record_fits hv (hc.2 p hp) hc.1
        | err => rw [hv] at h; cases h
        | panic => rw [hv] at h; cases h
        | fuel => rw [hv] at h; cases h
    | err => rw [hp] at h; cases h
    | panic => rw [hp] at h; cases h
    | fuel => rw [hp] at h; cases h
  case getPolicy id =>
    rw [serve_getPolicy] at h
    cases h
    intro r hr
    exact hs.pol (id, r) (kvGet_mem hr)
  case getRelationship pid r =>
    have hb := run_bind_ok h
    clear h
    obtain ⟨x, s1, h1, h⟩ := hb
    cases h
    exact (getRelationship_clock hs h1).2
  case findRelationshipRecords pid sel =>
    have hb := run_bind_ok h
    clear h
    obtain ⟨x, s1, h1, h⟩ := hb
    cases h
    unfold Service.findRelationshipRecords at h1
    have hb := run_bind_ok h1
    clear h1
    obtain ⟨p, s2, h2, h1⟩ := hb
    cases h2
    change (match kvGet s.policies pid with
      | none => (Prog.lift (.err .policyNotFound) : Prog (List (Option RelationshipRecord)))
      | some policy => do
        Prog.lift (validSelector sel policy.policy)
        Repo.findRelationshipRecords env.H pid sel).run s = _ at h1
    cases hp : kvGet s.policies pid with
    | none => rw [hp] at h1; cases h1
    | some rec =>
      rw [hp] at h1
      have hb := run_bind_ok h1
      clear h1
      obtain ⟨u, s3, h3, h1⟩ := hb
      obtain ⟨-, rfl⟩ := run_lift_ok h3
      unfold Repo.findRelationshipRecords at h1
      have hb := run_bind_ok h1
      clear h1
      obtain ⟨rels, s4, h4, h1⟩ := hb
      have : s4 = s3 := by
        unfold Repo.findRelationships at h4
        have hb := run_bind_ok h4
        clear h4
        obtain ⟨es, s5, h5, h4⟩ := hb
        cases h5
        have hb := run_bind_ok h4
        clear h4
        obtain ⟨sp, s6, h6, h4⟩ := hb
        obtain ⟨-, rfl⟩ := run_lift_ok h6
        obtain ⟨-, rfl⟩ := run_lift_ok h4
        rfl
      subst this
      exact getRelationships_clock _ hs h1
  all_goals
    have hb := run_bind_ok h
    clear h
    obtain ⟨x, s1, h1, h⟩ := hb
    cases h
    trivial

theorem answer_method {c : Call} {x : Ambient} {r : Request} (hc : c = r.call x) {s s' : Store} {a : Answer} (h : serve env c s = (.ok a, s')) :
    answerMethod a = r.method := by
  subst hc
  cases r <;>
  · obtain ⟨x, s1, -, hk⟩ := run_bind_ok h
    cases hk
    rfl

/-! ### Whatever decodes is nested within the limit -/

theorem message_some {α : Type} {limit : Nat} {bs : Bytes} {k : Nat → List WField → Option α} {a : α} (h : message limit bs k = some a) :
    ∃ l fs, limit = l + 1 ∧ decFields bs = some fs ∧ k l fs = some a := by
  unfold message at h
  cases limit with
  | zero => cases h
  | succ l =>
    dsimp only at h
    cases hd : decFields bs with
    | none => rw [hd] at h; cases h
    | some fs => rw [hd] at h; exact ⟨l, fs, rfl, rfl, h⟩

theorem getMsg_some_of {α : Type} {dec : Bytes → Option α} {n : Nat} {fs : List WField} {a : α} (h : getMsg dec n fs = some (some a)) :
    ∃ b, dec b = some a := by
  unfold getMsg at h
  split at h
  · cases h
  · obtain ⟨x, hx, he⟩ := Option.map_eq_some_iff.1 h
    cases he
    exact ⟨_, hx⟩

theorem allSome_mem {α β : Type} {f : α → Option β} {l : List α} {bs : List β} (h : allSome f l = some bs) : ∀ b ∈ bs, ∃ a ∈ l, f a = some b := by
  induction l generalizing bs with
  | nil => cases h; exact nofun
  | cons a l ih =>
    unfold allSome at h
    cases ha : f a with
    | none => rw [ha] at h; cases h
    | some b =>
      rw [ha] at h
      obtain ⟨bs', hb, rfl⟩ := Option.map_eq_some_iff.1 h
      intro c hc
      rcases List.mem_cons.1 hc with rfl | hc
      · exact ⟨a, List.mem_cons_self .., ha⟩
      · obtain ⟨x, hx, he⟩ := ih hb c hc
        exact ⟨x, List.mem_cons_of_mem _ hx, he⟩

theorem nest_opt {α : Type} {nest : α → Nat} {dec : Bytes → Option α} {n l : Nat} {fs : List WField} {o : Option α}
    (h : getMsg dec n fs = some o) (hd : ∀ b a, dec b = some a → nest a ≤ l) : optNest nest o ≤ l := by
  cases o with
  | none => exact Nat.zero_le _
  | some a =>
    obtain ⟨b, hb⟩ := getMsg_some_of h
    exact hd b a hb

theorem nest_rep {α : Type} {nest : α → Nat} {dec : Bytes → Option α} {n l : Nat} {fs : List WField} {as : List α}
    (h : getRep dec n fs = some as) (hd : ∀ b a, dec b = some a → nest a ≤ l) : largest (as.map nest) ≤ l := by
  refine largest_le (fun m hm => ?_)
  obtain ⟨a, ha, rfl⟩ := List.mem_map.1 hm
  obtain ⟨b, -, hb⟩ := allSome_mem h a ha
  exact hd b a hb

theorem decRule_nest {limit : Nat} {bs : Bytes} {r : Rule} (h : decRule limit bs = some r) : Nest.rule r ≤ limit := by
  obtain ⟨l, fs, rfl, -, h⟩ := message_some h
  split at h
  · cases h
    show 1 ≤ _
    omega
  · have : ∀ {b : Bytes} {k : Nat → List WField → Option Rule}, message l b k = some r → Nest.rule r ≤ l + 1 := by
      intro b k hm
      obtain ⟨l', fs', rfl, -, -⟩ := message_some hm
      have := nest_rule_le r
      omega
    split at h
    · exact this h
    · split at h
      · exact this h
      · exact this h

theorem decTree_nest {limit : Nat} {bs : Bytes} {t : ExprTree} (h : decTree limit bs = some t) : Nest.tree t ≤ limit ∧ t ≠ .nil := by
  induction t generalizing limit bs with
  | nil =>
    cases limit with
    | zero => cases h
    | succ l =>
      exfalso
      rw [decTree] at h
      split at h
      · cases h
      · split at h
        · cases h
        · split at h
          · cases l with
            | zero => cases h
            | succ l =>
              dsimp only at h
              split at h
              · cases h
              · simp only [Option.bind_eq_bind, Option.bind_eq_some_iff] at h
                obtain ⟨_, -, _, -, h⟩ := h
                cases h
          · obtain ⟨r, -, hr⟩ := Option.map_eq_some_iff.1 h
            cases hr
  | unset =>
    cases limit with
    | zero => cases h
    | succ l => exact ⟨by show 1 ≤ _; omega, nofun⟩
  | rule r =>
    refine ⟨?_, nofun⟩
    cases limit with
    | zero => cases h
    | succ l =>
      rw [decTree] at h
      split at h
      · cases h
      · split at h
        · cases h
        · split at h
          · cases l with
            | zero => cases h
            | succ l =>
              dsimp only at h
              split at h
              · cases h
              · simp only [Option.bind_eq_bind, Option.bind_eq_some_iff] at h
                obtain ⟨_, -, _, -, h⟩ := h
                cases h
          · obtain ⟨r', hd, hr⟩ := Option.map_eq_some_iff.1 h
            cases hr
            have := decRule_nest hd
            show 1 + Nest.rule r ≤ _
            omega
  | op a o b iha ihb =>
    refine ⟨?_, nofun⟩
    cases limit with
    | zero => cases h
    | succ l =>
      rw [decTree] at h
      split at h
      · cases h
      · split at h
        · cases h
        · split at h
          · cases l with
            | zero => cases h
            | succ l =>
              dsimp only at h
              split at h
              · cases h
              · simp only [Option.bind_eq_bind, Option.bind_eq_some_iff] at h
                obtain ⟨x, hx, y, hy, h⟩ := h
                cases h
                have h1 : Nest.tree (x.getD .nil) ≤ l := by
                  cases x with
                  | none => exact Nat.zero_le _
                  | some x =>
                    obtain ⟨b, hb⟩ := getMsg_some_of hx
                    exact (iha hb).1
                have h2 : Nest.tree (y.getD .nil) ≤ l := by
                  cases y with
                  | none => exact Nat.zero_le _
                  | some y =>
                    obtain ⟨b, hb⟩ := getMsg_some_of hy
                    exact (ihb hb).1
                show 2 + max (Nest.tree (x.getD .nil)) (Nest.tree (y.getD .nil)) ≤ _
                omega
          · obtain ⟨r', hd, hr⟩ := Option.map_eq_some_iff.1 h
            cases hr

theorem decExpr_nest {limit : Nat} {bs : Bytes} {e : RelationExpression} (h : decExpr limit bs = some e) : Nest.expr e ≤ limit ∧ e ≠ .tree .nil := by
  obtain ⟨l, fs, rfl, -, h⟩ := message_some h
  split at h
  · cases h
    exact ⟨by show 1 ≤ _; omega, nofun⟩
  · split at h
    · obtain ⟨t, -, rfl⟩ := Option.map_eq_some_iff.1 h
      exact ⟨by show 1 ≤ _; omega, nofun⟩
    · obtain ⟨t, ht, rfl⟩ := Option.map_eq_some_iff.1 h
      obtain ⟨h1, h2⟩ := decTree_nest ht
      exact ⟨by show 1 + _ ≤ _; omega, fun e => h2 (RelationExpression.tree.inj e)⟩

theorem decRestriction_nest {limit : Nat} {bs : Bytes} {r : Restriction} (h : decRestriction limit bs = some r) : Nest.restriction r ≤ limit := by
  obtain ⟨l, fs, rfl, -, h⟩ := message_some h
  split at h
  · cases h
    show 1 ≤ _
    omega
  · have : ∀ {b : Bytes} {k : Nat → List WField → Option Restriction}, message l b k = some r → Nest.restriction r ≤ l + 1 := by
      intro b k hm
      obtain ⟨l', fs', rfl, -, -⟩ := message_some hm
      cases r <;> simp [Nest.restriction]
    split at h
    · exact this h
    · exact this h

theorem decSubjectRestriction_nest {limit : Nat} {bs : Bytes} {r : SubjectRestriction} (h : decSubjectRestriction limit bs = some r) :
    Nest.subjectRestriction r ≤ limit := by
  obtain ⟨l, fs, rfl, -, h⟩ := message_some h
  split at h
  · cases h
    show 1 ≤ _
    omega
  · split at h
    · obtain ⟨l', fs', rfl, -, h⟩ := message_some h
      obtain ⟨rs, hr, rfl⟩ := Option.map_eq_some_iff.1 h
      have := nest_rep (nest := Nest.restriction) hr (fun b a hb => decRestriction_nest hb)
      show 2 + _ ≤ _
      omega
    · obtain ⟨l', fs', rfl, -, h⟩ := message_some h
      cases h
      show 2 ≤ _
      omega

theorem decRelation_nest {limit : Nat} {bs : Bytes} {r : Relation} (h : decRelation limit bs = some r) :
    Nest.relation r ≤ limit ∧ r.relationExpression ≠ some (.tree .nil) := by
  obtain ⟨l, fs, rfl, -, h⟩ := message_some h
  simp only [Option.bind_eq_bind, Option.bind_eq_some_iff] at h
  obtain ⟨name, -, desc, -, e, he, s, hs, h⟩ := h
  cases h
  have h1 := nest_opt (nest := Nest.expr) he (fun b a hb => (decExpr_nest hb).1)
  have h2 := nest_opt (nest := Nest.subjectRestriction) hs (fun b a hb => decSubjectRestriction_nest hb)
  refine ⟨by show 1 + max _ _ ≤ _; dsimp only; omega, ?_⟩
  dsimp only
  rintro rfl
  obtain ⟨b, hb⟩ := getMsg_some_of he
  exact (decExpr_nest hb).2 rfl

theorem decResource_nest {limit : Nat} {bs : Bytes} {r : Resource} (h : decResource limit bs = some r) :
    Nest.resource r ≤ limit ∧ ∀ rel ∈ r.relations, rel.relationExpression ≠ some (.tree .nil) := by
  obtain ⟨l, fs, rfl, -, h⟩ := message_some h
  simp only [Option.bind_eq_bind, Option.bind_eq_some_iff] at h
  obtain ⟨name, -, desc, -, rels, hr, h⟩ := h
  cases h
  have h1 := nest_rep (nest := Nest.relation) hr (fun b a hb => (decRelation_nest hb).1)
  refine ⟨by show 1 + _ ≤ _; dsimp only; omega, fun rel hrel => ?_⟩
  obtain ⟨b, -, hb⟩ := allSome_mem hr rel hrel
  exact (decRelation_nest hb).2

theorem kvDel_not_mem {m : List (String × String)} {k : String} : k ∉ (kvDel m k).map (·.1) := by
  intro h
  obtain ⟨p, hp, rfl⟩ := List.mem_map.1 h
  have := (List.mem_filter.1 hp).2
  simp at this

theorem putAll_keys (l m : List (String × String)) (hm : (m.map (·.1)).Nodup) : ((putAll m l).map (·.1)).Nodup := by
  induction l generalizing m with
  | nil => exact hm
  | cons p l ih =>
    refine ih _ ?_
    rw [List.map_append, List.nodup_append]
    refine ⟨hm.sublist (List.Sublist.map _ (List.filter_sublist ..)), by simp, ?_⟩
    intro a ha b hb
    simp only [List.map_cons, List.map_nil, List.mem_singleton] at hb
    subst hb
    rintro rfl
    exact kvDel_not_mem ha

/-- A policy read from bytes is nested within the limit, whatever the bytes. -/
theorem decPolicy_nest {limit : Nat} {bs : Bytes} {p : Policy} (h : decPolicy limit bs = some p) :
    Nest.policy p ≤ limit ∧ WholeTrees p ∧ (p.attributes.map (·.1)).Nodup := by
  obtain ⟨l, fs, rfl, -, h⟩ := message_some h
  simp only [Option.bind_eq_bind, Option.bind_eq_some_iff] at h
  obtain ⟨id, -, name, -, desc, -, res, hr, entries, -, h⟩ := h
  cases h
  have h1 := nest_rep (nest := Nest.resource) hr (fun b a hb => (decResource_nest hb).1)
  refine ⟨by show 1 + _ ≤ _; dsimp only; omega, ?_, putAll_keys _ _ .nil⟩
  intro x hx
  obtain ⟨b, -, hb⟩ := allSome_mem hr x hx
  exact (decResource_nest hb).2

theorem decDefinition_fits {limit : Nat} {n : Nat} {fs : List WField} {d : Option PolicyDefinition} (h : getMsg (decDefinition limit) n fs = some d) :
    DefinitionFits (limit + 1) d := by
  rintro p rfl
  obtain ⟨b, hb⟩ := getMsg_some_of h
  obtain ⟨l, fs, rfl, -, hb⟩ := message_some hb
  split at hb
  · cases hb
  · split at hb
    · obtain ⟨q, hq, he⟩ := Option.map_eq_some_iff.1 hb
      cases he
      obtain ⟨h1, h2, h3⟩ := decPolicy_nest hq
      exact ⟨h2, h3, by omega⟩
    · obtain ⟨q, hq, he⟩ := Option.map_eq_some_iff.1 hb
      cases he

/-- The policy a request brings fits. -/
def BringsFit (limit : Nat) : Request → Prop
  | .createPolicy d _ | .updatePolicy d _ _ => DefinitionFits limit d
  | _ => True

theorem decRequest_definition {limit : Nat} {m : Method} {bs : Bytes} {r : Request} (h : decRequest limit m bs = some r) : BringsFit limit r := by
  obtain ⟨l, fs, rfl, -, h⟩ := message_some h
  cases m <;> simp only [Option.bind_eq_bind, Option.bind_eq_some_iff, Option.map_eq_some_iff] at h
  case createPolicy => obtain ⟨d, hd, h⟩ := h; cases h; exact decDefinition_fits hd
  case updatePolicy => obtain ⟨d, hd, h⟩ := h; cases h; exact decDefinition_fits hd
  case deletePolicy => obtain ⟨_, _, rfl⟩ := h; trivial
  case getPolicy => obtain ⟨_, _, rfl⟩ := h; trivial
  case listPolicyIds => cases h; trivial
  case setRelationship => obtain ⟨_, _, _, _, h⟩ := h; cases h; trivial
  case deleteRelationship => obtain ⟨_, _, _, _, h⟩ := h; cases h; trivial
  case getRelationship => obtain ⟨_, _, _, _, h⟩ := h; cases h; trivial
  case findRelationshipRecords => obtain ⟨_, _, _, _, h⟩ := h; cases h; trivial
  case deleteRelationships => obtain ⟨_, _, _, _, h⟩ := h; cases h; trivial
  case check => obtain ⟨_, _, _, _, h⟩ := h; cases h; trivial
  case explainCheck => obtain ⟨_, _, _, _, h⟩ := h; cases h; trivial
  case expand => obtain ⟨_, _, _, _, h⟩ := h; cases h; trivial
  case dumpRelationships => obtain ⟨_, _, h⟩ := h; cases h; trivial

/-! ### Calls made remotely fit -/

theorem yaml_trees (d : PolicyDef) : TreesWithin 0 (policyOf d) := by
  intro res hres rel hrel t ht
  obtain ⟨x, -, rfl⟩ := List.mem_map.1 hres
  obtain ⟨y, -, rfl⟩ := List.mem_map.1 hrel
  cases ht

theorem definition_policy {limit : Nat} {env : Env} (hl : 9 ≤ limit) (hy : YamlMaps env) {d : Option PolicyDefinition} (hd : DefinitionFits limit d) {a : Bytes}
    (ha : a.length < 2 ^ 60) (hs : ∀ p, getPolicyFromDefinition env d = .ok p → (encPolicy p).length < 2 ^ 60) (p : Policy)
    (hp : getPolicyFromDefinition env d = .ok p) : PolicyFits (limit - 1) p a := by
  refine ⟨?_, ?_, hs p hp, ha⟩ <;> cases d with
  | none => cases hp
  | some d =>
    cases d with
    | unset => cases hp
    | policy q =>
      obtain rfl : q = p := Res.ok.inj hp
      obtain ⟨h1, h2, h3⟩ := hd q rfl
      first
        | exact h2
        | show 1 + max (Nest.policy q) 1 ≤ limit - 1
          omega
    | yaml text =>
      have hp' : env.yaml text = .ok p := hp
      unfold Env.yaml at hp'
      cases hdec : env.decode text with
      | ok pd =>
        rw [hdec] at hp'
        have : policyFromDef env.top env.order pd = .ok p := hp'
        rw [policyFromDef_ok] at this
        cases this
        first
          | exact hy text pd hdec
          | exact Nat.le_trans (nest_policyRecord_le (r := ⟨policyOf pd, a, 0⟩) (yaml_trees pd)) (by omega)
      | err => rw [hdec] at hp'; cases hp'
      | panic => rw [hdec] at hp'; cases hp'
      | fuel => rw [hdec] at hp'; cases hp'

theorem call_fits {limit : Nat} {env : Env} (hl : 9 ≤ limit) (hy : YamlMaps env) {r : Request} {x : Ambient}
    (hr : BringsFit limit r) (hb : Bounded env (r.call x)) : CallFits (limit - 1) env (r.call x) := by
  cases r
  case createPolicy d a => exact ⟨hb.1, definition_policy hl hy hr hb.2.1 hb.2.2⟩
  case updatePolicy d a strategy => exact definition_policy hl hy hr hb.1 hb.2
  case setRelationship => exact hb
  all_goals trivial

theorem PolicyFits.mono {limit limit' : Nat} (hl : limit ≤ limit') {p : Policy} {a : Bytes} (h : PolicyFits limit p a) : PolicyFits limit' p a :=
  ⟨h.1, Nat.le_trans h.2.1 hl, h.2.2⟩

theorem CallFits.mono {limit limit' : Nat} (hl : limit ≤ limit') {env : Env} {c : Call} (h : CallFits limit env c) : CallFits limit' env c := by
  cases c
  case createPolicy => exact ⟨h.1, fun p hp => PolicyFits.mono hl (h.2 p hp)⟩
  case updatePolicy => exact fun p hp => PolicyFits.mono hl (h p hp)
  case setRelationship => exact h
  all_goals trivial

/-- The store can be read back on both sides of the connection. -/
def Kept (limit : Nat) (s : Store) : Prop := StoreFits limit s ∧ StoreFits (limit - 1) s

theorem serve_kept {limit : Nat} {env : Env} (hH : Hash256 env.H) (hl : 9 ≤ limit) {c : Call} (hc : CallFits (limit - 1) env c) {s : Store} (hs : Kept limit s) :
    serveB limit env c (encStore s) = ((serve env c s).1, encStore (serve env c s).2) ∧ Kept limit (serve env c s).2 := by
  have h1 := run_sim (prog_fits hH (by omega) c (CallFits.mono (by omega : limit - 1 ≤ limit) hc)) hs.1
  have h2 := run_sim (prog_fits hH (by omega) c hc) hs.2
  exact ⟨h1.1, h1.2, h2.2⟩

theorem remote_sim {limit : Nat} {env : Env} (hH : Hash256 env.H) (hl : 9 ≤ limit) (hy : YamlMaps env) (pr : Printer) {x : Ambient} {path : String} {bs : Bytes}
    (hb : RemoteBounded limit env x path bs) {s : Store} (hs : Kept limit s) :
    remote limit pr (serveB limit env) x path bs (encStore s) =
      ((remote limit pr (serve env) x path bs s).1, encStore (remote limit pr (serve env) x path bs s).2) ∧
    Kept limit (remote limit pr (serve env) x path bs s).2 := by
  unfold remote
  cases hm : kvGet handlers path with
  | none => exact ⟨rfl, hs⟩
  | some m =>
    dsimp only
    cases hr : decRequest limit m bs with
    | none => exact ⟨rfl, hs⟩
    | some r =>
      dsimp only
      obtain ⟨h1, h2⟩ := serve_kept hH hl (call_fits hl hy (decRequest_definition hr) (hb m r hm hr)) hs
      rw [h1]
      exact ⟨rfl, h2⟩

theorem remotes_sim {limit : Nat} {env : Env} (hH : Hash256 env.H) (hl : 9 ≤ limit) (hy : YamlMaps env) (pr : Printer) (rs : List (Ambient × String × Bytes))
    (hb : ∀ r ∈ rs, RemoteBounded limit env r.1 r.2.1 r.2.2) {s : Store} (hs : Kept limit s) :
    remotes limit pr (serveB limit env) rs (encStore s) =
      ((remotes limit pr (serve env) rs s).1, encStore (remotes limit pr (serve env) rs s).2) ∧
    Kept limit (remotes limit pr (serve env) rs s).2 := by
  induction rs generalizing s with
  | nil => exact ⟨rfl, hs⟩
  | cons r rs ih =>
    obtain ⟨x, path, bs⟩ := r
    obtain ⟨h1, h2⟩ := remote_sim hH hl hy pr (hb _ (List.mem_cons_self ..)) hs
    obtain ⟨h3, h4⟩ := ih (fun r hr => hb r (List.mem_cons_of_mem _ hr)) h2
    refine ⟨?_, h4⟩
    rw [remotes, h1]
    dsimp only
    rw [h3]
    rfl

theorem remote_request {σ : Type} {limit : Nat} (hl : 6 ≤ limit) (pr : Printer) (srv : Call → σ → Res Answer × σ) (x : Ambient) {r : Request}
    (hr : RequestFits limit r) (s : σ) :
    remote limit pr srv x r.method.path (encRequest r) s = (outcome pr (srv (r.call x) s).1, (srv (r.call x) s).2) := by
  unfold remote
  rw [handler_of]
  dsimp only
  rw [decRequest_enc r hl hr]

theorem request_bounded {limit : Nat} {env : Env} (hl : 6 ≤ limit) {x : Ambient} {r : Request} (hr : RequestFits limit r) (hb : Bounded env (r.call x)) :
    RemoteBounded limit env x r.method.path (encRequest r) := by
  intro m q hm hq
  rw [handler_of] at hm
  cases hm
  rw [decRequest_enc r hl hr] at hq
  cases hq
  exact hb

theorem request_definition {limit : Nat} {r : Request} (hr : RequestFits limit r) : BringsFit limit r := by
  cases r <;> try trivial
  case createPolicy => exact hr.2
  case updatePolicy => exact hr.2.1

theorem sees {limit : Nat} {env : Env} (hl : 9 ≤ limit) (hy : YamlMaps env) (pr : Printer) {x : Ambient} {r : Request}
    (hr : RequestFits limit r) (hb : Bounded env (r.call x)) {s : Store} (hs : Kept limit s) :
    Sees limit pr r.method (outcome pr (serve env (r.call x) s).1) (serve env (r.call x) s).1 := by
  cases hres : (serve env (r.call x) s).1 with
  | ok a =>
    have he : serve env (r.call x) s = (.ok a, (serve env (r.call x) s).2) := Prod.ext hres rfl
    refine ⟨_, rfl, fun h1 h2 => ?_⟩
    rw [← answer_method rfl he]
    exact decReply_enc pr a (by omega) (answer_fits _ (call_fits hl hy (request_definition hr) hb) hs.2 he) h2 h1
  | err e => rfl
  | panic => rfl
  | fuel => rfl

end Zanzi.Wire
