import Verif.Spec.Schema
import Verif.Lemmas.Rpc

/-
Lemmas about the published message formats (C79): what a message of the schema looks like to the decoders.
-/

namespace Zanzi.Wire

open Spec
open Spec.Proto (Varint Number Content FieldBytes MessageBytes Msg Kind Label Value Encodes Settles Occurs ContentOf isDefault EnumType)

theorem Varint.ne_nil {n : Nat} {b : Bytes} (h : Varint n b) : b ≠ [] := by cases h <;> simp

theorem Varint.dec {n : Nat} {b : Bytes} (h : Varint n b) (k : Nat) (hk : b.length ≤ k + 1) (hn : n < 2 ^ (7 * k + 1)) (rest : Bytes) :
    decVarint (k + 1) (b ++ rest) = some (n, rest) := by
  induction h generalizing k with
  | @last n h1 =>
    have hn' : (UInt8.ofNat n).toNat = n := by simp; omega
    simp only [List.cons_append, List.nil_append, decVarint, hn']
    rw [if_pos h1, if_neg]
    intro ⟨h2, h3⟩
    subst h2
    simp at hn
    omega
  | @more low n bs h1 h2 ih =>
    have hl : (UInt8.ofNat (low + 128)).toNat = low + 128 := by simp; omega
    have hp := List.length_pos_iff.2 (Varint.ne_nil h2)
    cases k with
    | zero => rw [List.length_cons] at hk; omega
    | succ k =>
      rw [List.cons_append, decVarint, hl, if_neg (by omega), ih k (by simpa using hk)]
      · dsimp only
        rw [Nat.add_sub_cancel]
      · have : 2 ^ (7 * (k + 1) + 1) = 128 * 2 ^ (7 * k + 1) := by
          rw [show 7 * (k + 1) + 1 = 7 + (7 * k + 1) by omega, Nat.pow_add]
        omega

theorem Number.dec {n : Nat} {b : Bytes} (h : Number n b) (rest : Bytes) : decVarint 10 (b ++ rest) = some (n, rest) :=
  Varint.dec h.1 9 h.2.1 h.2.2 rest

theorem Number.ne_nil {n : Nat} {b : Bytes} (h : Number n b) : b ≠ [] := Varint.ne_nil h.1

/-- What the decoder keeps of a field. -/
def kept : Nat × Content → Option WField
  | (n, .varint v) => some (n, .varint v)
  | (n, .len b) => some (n, .bytes b)
  | _ => none

theorem FieldBytes.ne_nil {f : Nat × Content} {b : Bytes} (h : FieldBytes f b) : b ≠ [] := by
  cases h <;> rename_i h1 h2 <;> simp [Number.ne_nil h1]

theorem decFieldsN_of {ws : List (Nat × Content)} {bs : Bytes} (h : MessageBytes ws bs) (k : Nat) (hk : ws.length ≤ k) :
    decFieldsN k bs = some (ws.filterMap kept) := by
  induction h generalizing k with
  | nil => cases k <;> rfl
  | @cons f fs b bs h0 h29 hf _ ih =>
    cases k with
    | zero => simp at hk
    | succ k =>
      have ih := ih k (by simpa using hk)
      have hne : b ++ bs ≠ [] := by simp [FieldBytes.ne_nil hf]
      obtain ⟨c, cs, hcs⟩ := List.exists_cons_of_ne_nil hne
      rw [hcs, decFieldsN, ← hcs]
      cases hf with
      | @varint num n tag b h1 h2 =>
        dsimp only at h0 h29
        rw [List.append_assoc, Number.dec h1]
        dsimp only
        rw [if_neg (by omega), if_pos (by omega), Number.dec h2]
        dsimp only
        rw [ih, Option.map_some, List.filterMap_cons]
        simp only [kept]
        congr 3
        omega
      | @fixed64 num tag b h1 h2 =>
        dsimp only at h0 h29
        rw [List.append_assoc, Number.dec h1]
        dsimp only
        rw [if_neg (by omega), if_neg (by omega), if_neg (by omega), if_pos (by omega), if_neg (by simp; omega), ← h2, List.drop_left, ih]
        rfl
      | @len num tag l b h1 h2 =>
        dsimp only at h0 h29
        rw [List.append_assoc, Number.dec h1]
        dsimp only
        rw [if_neg (by omega), if_neg (by omega), if_pos (by omega), List.append_assoc, Number.dec h2]
        dsimp only
        rw [if_neg (by simp), List.drop_left, List.take_left, ih, Option.map_some, List.filterMap_cons]
        simp only [kept]
        congr 3
        omega
      | @fixed32 num tag b h1 h2 =>
        dsimp only at h0 h29
        rw [List.append_assoc, Number.dec h1]
        dsimp only
        rw [if_neg (by omega), if_neg (by omega), if_neg (by omega), if_neg (by omega), if_pos (by omega), if_neg (by simp; omega), ← h2,
          List.drop_left, ih]
        rfl

theorem MessageBytes.length_le {ws : List (Nat × Content)} {bs : Bytes} (h : MessageBytes ws bs) : ws.length ≤ bs.length := by
  induction h with
  | nil => simp
  | cons _ _ hf _ ih =>
    have := List.length_pos_iff.2 (FieldBytes.ne_nil hf)
    simp only [List.length_append, List.length_cons]
    omega

theorem decFields_of {ws : List (Nat × Content)} {bs : Bytes} (h : MessageBytes ws bs) : decFields bs = some (ws.filterMap kept) :=
  decFieldsN_of h _ (MessageBytes.length_le h)

/-- What the decoder finds under a number. -/
def Reads (l : Label) (k : Kind) (n : Nat) (v : Value) (W : List WField) : Prop :=
  ∃ ps, Occurs l k n v ps ∧ blobs n W = blobs n (ps.filterMap kept) ∧ nums n W = nums n (ps.filterMap kept)

theorem blobs_filter (n : Nat) (ws : List (Nat × Content)) :
    blobs n (ws.filterMap kept) = blobs n ((ws.filter (fun w => w.1 = n)).filterMap kept) := by
  induction ws with
  | nil => rfl
  | cons w ws ih =>
    obtain ⟨m, c⟩ := w
    by_cases h : m = n
    · cases c <;> simp [h, kept, blobs, List.filterMap_cons] <;> simpa [blobs] using ih
    · cases c <;> simp [h, kept, blobs, List.filterMap_cons] <;> simpa [blobs] using ih

theorem nums_filter (n : Nat) (ws : List (Nat × Content)) :
    nums n (ws.filterMap kept) = nums n ((ws.filter (fun w => w.1 = n)).filterMap kept) := by
  induction ws with
  | nil => rfl
  | cons w ws ih =>
    obtain ⟨m, c⟩ := w
    by_cases h : m = n
    · cases c <;> simp [h, kept, nums, List.filterMap_cons] <;> simpa [nums] using ih
    · cases c <;> simp [h, kept, nums, List.filterMap_cons] <;> simpa [nums] using ih

/-- The numbers of the members of a oneof. -/
def oneofs : Msg → List Nat
  | .SubjectRestriction | .SubjectRestrictionSetRestriction | .RelationExpression | .RelationExpressionTree | .RelationSelector | .PolicyDefinition
  | .DumpRelationshipResponse => [1, 2]
  | .Rule | .RelationNode | .Subject | .ObjectSelector | .SubjectSelector => [1, 2, 3]
  | _ => []

theorem oneofs_of {m : Msg} {f : Proto.Field} (hf : f ∈ m.fields) (hl : f.label = .oneof) : f.num ∈ oneofs m := by
  revert f
  cases m <;> simp [Msg.fields, oneofs]

theorem of_oneofs {m : Msg} {n : Nat} (hn : n ∈ oneofs m) : ∃ f ∈ m.fields, f.label = .oneof ∧ f.num = n := by
  revert n
  cases m <;> simp [Msg.fields, oneofs]

theorem members_append (ns : List Nat) (V W : List WField) : members ns (V ++ W) = members ns V ++ members ns W := List.filterMap_append ..

theorem oneof_len {m : Msg} {f : Proto.Field} {v : Value} {c : Content} (hf : f ∈ m.fields) (hl : f.label = .oneof) (h : ContentOf f.kind v c) :
    ∃ b, c = .len b := by
  revert f
  cases m <;> simp [Msg.fields] <;> (try intros) <;> (first | (refine ⟨?_, ?_, ?_⟩) | (refine ⟨?_, ?_⟩)) <;> intro h <;> cases h <;> exact ⟨_, rfl⟩

theorem takeWhile_last {α : Type} (p : α → Bool) (l : List α) (a : α) (h : p a = false ∨ ∃ b ∈ l, p b = false) :
    (l ++ [a]).takeWhile p = l.takeWhile p := by
  induction l with
  | nil =>
    rcases h with h | ⟨b, hb, _⟩
    · simp [h]
    · simp at hb
  | cons c l ih =>
    cases hc : p c with
    | false => simp [hc]
    | true =>
      rw [List.cons_append, List.takeWhile_cons, List.takeWhile_cons, hc, ih]
      rcases h with h | ⟨b, hb, h⟩
      · exact .inl h
      · rcases List.mem_cons.1 hb with rfl | hb
        · rw [hc] at h; cases h
        · exact .inr ⟨b, hb, h⟩

theorem getOneof_drop {ns texts : List Nat} {n : Nat} {b : Bytes} {V W : List WField} (hV : members ns V = []) (hn : n ∈ ns)
    (hW : ∃ x ∈ members ns W, x.1 ≠ n) : getOneof ns (V ++ (n, .bytes b) :: W) texts = getOneof ns (V ++ W) texts := by
  have h1 : members ns ((n, .bytes b) :: W) = (n, b) :: members ns W := by simp [members, hn]
  rw [getOneof, getOneof, members_append, members_append, hV, h1]
  simp only [List.nil_append, List.reverse_cons]
  obtain ⟨x, hx, hne⟩ := hW
  rw [← List.mem_reverse] at hx
  cases hr : (members ns W).reverse with
  | nil => rw [hr] at hx; simp at hx
  | cons y ys =>
    rw [hr] at hx
    obtain ⟨k, c⟩ := y
    dsimp only [List.cons_append]
    rw [takeWhile_last]
    by_cases hk : k = n
    · subst hk
      rcases List.mem_cons.1 hx with rfl | hx
      · exact (hne rfl).elim
      · exact .inr ⟨x, hx, by simpa using hne⟩
    · exact .inl (by simpa using fun h => hk h.symm)

theorem members_filterMap {ns : List Nat} {a : List (Nat × Content)} (h : ∀ x ∈ a, x.1 ∉ ns) : members ns (a.filterMap kept) = [] := by
  induction a with
  | nil => rfl
  | cons x a ih =>
    obtain ⟨n, c⟩ := x
    have hn := h _ (List.mem_cons_self ..)
    have := ih fun x hx => h x (List.mem_cons_of_mem _ hx)
    cases c with
    | varint v => rw [List.filterMap_cons]; simpa [kept, members, List.filterMap_cons] using this
    | len b => rw [List.filterMap_cons]; simpa [kept, members, List.filterMap_cons, hn] using this
    | fixed32 b => exact this
    | fixed64 b => exact this

theorem settles_of {m : Msg} {given ws : List (Nat × Content)} (hs : Settles m given ws) :
    ∀ texts, getOneof (oneofs m) (given.filterMap kept) texts = getOneof (oneofs m) (ws.filterMap kept) texts := by
  generalize hk : given.length = k
  induction k generalizing given with
  | zero =>
    cases hs with
    | all => exact fun _ => rfl
    | drop => simp at hk
  | succ k ih =>
    cases hs with
    | all => exact fun _ => rfl
    | @drop _ f g v w c d a b _ hf hl hc ha hg hgl hd hb hne hs =>
      intro texts
      rw [← ih hs (by simp at hk ⊢; omega)]
      obtain ⟨x, rfl⟩ := oneof_len hf hl hc
      obtain ⟨y, rfl⟩ := oneof_len hg hgl hd
      rw [List.filterMap_append, List.filterMap_append, List.filterMap_cons]
      simp only [kept]
      refine getOneof_drop (members_filterMap fun x hx hn => ?_) (oneofs_of hf hl) ⟨(g.num, y), ?_, hne⟩
      · obtain ⟨h, h1, h2, h3⟩ := of_oneofs hn
        exact ha x hx h h1 h2 h3.symm
      · exact List.mem_filterMap.2 ⟨(g.num, .bytes y), List.mem_filterMap.2 ⟨_, hb, rfl⟩, by simp [oneofs_of hg hgl]⟩

theorem settles_none {m : Msg} (hm : oneofs m = []) {given ws : List (Nat × Content)} (hs : Settles m given ws) : given = ws := by
  cases hs with
  | all => rfl
  | drop hf hl => have := oneofs_of hf hl; rw [hm] at this; simp at this

theorem oneof_of {m : Msg} {fs : List (Proto.Name × Value)} {bs : Bytes} (h : Encodes m (.obj fs) bs) :
    ∃ V W, decFields bs = some V ∧ (∀ texts, getOneof (oneofs m) V texts = getOneof (oneofs m) W texts) ∧
      ∀ f ∈ m.fields, Reads f.label f.kind f.num (Proto.get f.name fs) W := by
  cases h with
  | @message _ _ given ws _ h1 hs h2 => exact ⟨_, _, decFields_of h2, settles_of hs, fun f hf => ⟨_, h1 f hf, blobs_filter .., nums_filter ..⟩⟩

theorem fields_of {m : Msg} (hm : oneofs m = []) {fs : List (Proto.Name × Value)} {bs : Bytes} (h : Encodes m (.obj fs) bs) :
    ∃ W, decFields bs = some W ∧ ∀ f ∈ m.fields, Reads f.label f.kind f.num (Proto.get f.name fs) W := by
  cases h with
  | @message _ _ given ws _ h1 hs h2 =>
    rw [settles_none hm hs] at h2
    exact ⟨_, decFields_of h2, fun f hf => ⟨_, h1 f hf, blobs_filter .., nums_filter ..⟩⟩

theorem message_of {α : Type} {bs : Bytes} {W : List WField} (h : decFields bs = some W) {limit : Nat} (hl : 1 ≤ limit) (k : Nat → List WField → Option α) :
    message limit bs k = k (limit - 1) W := by
  cases limit with
  | zero => omega
  | succ l => unfold message; rw [h]; rfl

/-! ### Fields -/

/-- The last value of a plain field, and the replaced ones before it. -/
theorem occurs_split {l : Label} {k : Kind} {n : Nat} {v : Value} {ps : List (Nat × Content)} (hl : l ≠ .repeated) (hk : k.Replaced) (hv : v ≠ .unset)
    (h : Occurs l k n v ps) : (ps = [] ∧ l = .plain ∧ isDefault k v) ∨ ∃ (cs : List Content) (c : Content), ps = cs.map (fun c => (n, c)) ++ [(n, c)] ∧ ContentOf k v c ∧ ∀ d ∈ cs, ∃ w, ContentOf k w d := by
  induction ps with
  | nil =>
    generalize hq : [] = qs at h
    cases h with
    | unset => exact (hv rfl).elim
    | plain => cases hq
    | oneof => cases hq
    | overridden => cases hq
    | cons => cases hq
    | default h => exact .inl ⟨rfl, rfl, h⟩
    | merged => exact hk.elim
    | nil => exact (hl rfl).elim
  | cons p ps ih =>
    generalize hq : p :: ps = qs at h
    cases h with
    | unset => cases hq
    | default => cases hq
    | merged => exact hk.elim
    | nil => cases hq
    | cons => exact (hl rfl).elim
    | plain h => cases hq; exact .inr ⟨[], _, rfl, h, fun _ h => by simp at h⟩
    | oneof h => cases hq; exact .inr ⟨[], _, rfl, h, fun _ h => by simp at h⟩
    | overridden _ _ hw hne h =>
      cases hq
      rcases ih h with ⟨h, -⟩ | ⟨cs, c, rfl, h2, h3⟩
      · exact (hne h).elim
      · refine .inr ⟨_ :: cs, c, rfl, h2, fun d hd => ?_⟩
        rcases List.mem_cons.1 hd with rfl | hd
        · exact ⟨_, hw⟩
        · exact h3 d hd

theorem Reads.str {n : Nat} {s : String} {W : List WField} (h : Reads .plain .string n (.str s) W) : getStr n W = some s := by
  obtain ⟨ps, h1, h2, hn⟩ := h
  rw [getStr, h2]
  rcases occurs_split (by simp) (by exact trivial) (by simp) h1 with ⟨rfl, -, h⟩ | ⟨cs, c, rfl, h3, h4⟩
  · simp only [isDefault] at h; subst h; rfl
  · cases h3
    have : ∃ l, allSome ofUtf8 (blobs n ((cs.map (fun c => (n, c)) ++ [(n, Content.len (utf8 s))]).filterMap kept)) = some (l ++ [s]) := by
      clear h1 h2 hn
      induction cs with
      | nil => exact ⟨[], by simp [kept, allSome]⟩
      | cons d cs ih =>
        obtain ⟨l, hl⟩ := ih fun d hd => h4 d (List.mem_cons_of_mem _ hd)
        obtain ⟨w, hw⟩ := h4 d (List.mem_cons_self ..)
        cases hw with
        | @string t =>
          refine ⟨t :: l, ?_⟩
          simp only [List.map_cons, List.cons_append, List.filterMap_cons, kept, blobs_cons, if_pos, List.singleton_append, List.nil_append, allSome,
            ofUtf8_utf8]
          rw [hl]
          rfl
    obtain ⟨l, hl⟩ := this
    rw [hl]
    simp

theorem Reads.bytes {n : Nat} {s : Bytes} {W : List WField} (h : Reads .plain .bytes n (.bytes s) W) : getBytes n W = s := by
  obtain ⟨ps, h1, h2, _⟩ := h
  rw [getBytes, h2]
  rcases occurs_split (by simp) (by exact trivial) (by simp) h1 with ⟨rfl, -, h⟩ | ⟨cs, c, rfl, h3, h4⟩
  · simp only [isDefault] at h; subst h; rfl
  · cases h3; simp [kept]

theorem nums_one (n v : Nat) : nums n [(n, .varint v)] = [v] := by simp [nums]

/-- The number of a plain field. -/
theorem Reads.number {n : Nat} {k : Kind} {v : Value} {W : List WField} (hk' : k.Replaced) (hv : v ≠ .unset) (h : Reads .plain k n v W)
    (hk : ∀ w c, ContentOf k w c → ∃ x, c = .varint x) :
    (getNum n W = 0 ∧ isDefault k v) ∨ ContentOf k v (.varint (getNum n W)) := by
  obtain ⟨ps, h1, _, h2⟩ := h
  rw [getNum, h2]
  rcases occurs_split (by simp) hk' hv h1 with ⟨rfl, -, h⟩ | ⟨cs, c, rfl, h3, h4⟩
  · exact .inl ⟨rfl, h⟩
  · obtain ⟨x, rfl⟩ := hk _ _ h3
    refine .inr ?_
    simpa [kept, nums_one] using h3

theorem Reads.int {n v : Nat} {W : List WField} (h : Reads .plain .int n (.num v) W) : getNum n W = v := by
  rcases Reads.number (by exact trivial) (by simp) h (fun w c h => by cases h; exact ⟨_, rfl⟩) with ⟨h1, h2⟩ | h
  · simp only [isDefault] at h2; rw [h1, h2]
  · generalize getNum n W = x at h; cases h; rfl

theorem enum_content {e : EnumType} (w : Value) (c : Content) (h : ContentOf (.enum e) w c) : ∃ x, c = .varint x := by
  cases h <;> exact ⟨_, rfl⟩

theorem Reads.enumNumber {n v : Nat} {e : EnumType} {W : List WField} (h : Reads .plain (.enum e) n (.num v) W) : getNum n W = v := by
  rcases Reads.number (by exact trivial) (by simp) h enum_content with ⟨h1, h2⟩ | h
  · simp only [isDefault] at h2; rw [h1, h2]
  · generalize getNum n W = x at h; cases h; rfl

theorem Reads.bool {n : Nat} {b : Bool} {W : List WField} (h : Reads .plain .bool n (.bool b) W) : decBool (getNum n W) = b := by
  rcases Reads.number (by exact trivial) (by simp) h (fun w c h => by cases h <;> exact ⟨_, rfl⟩) with ⟨h1, h2⟩ | h
  · simp only [isDefault] at h2; rw [h1, h2]; rfl
  · generalize getNum n W = x at h
    cases h with
    | false => rfl
    | true h => simp [decBool, h]

/-- The number of an enum field. -/
theorem Reads.enum {n : Nat} {e : EnumType} {name : String} {W : List WField} (h : Reads .plain (.enum e) n (.enum name) W) :
    (name, getNum n W % 2 ^ 32) ∈ e.values := by
  rcases Reads.number (by exact trivial) (by simp) h enum_content with ⟨h1, h2⟩ | h
  · rw [h1]; exact h2
  · generalize getNum n W = x at h
    cases h with
    | enum h => exact h

theorem Reads.other {n : Nat} {e : EnumType} {W : List WField} (h : Reads .plain (.enum e) n .other W) (name : String) :
    (name, getNum n W % 2 ^ 32) ∉ e.values := by
  rcases Reads.number (by exact trivial) (by simp) h enum_content with ⟨h1, h2⟩ | h
  · exact h2.elim
  · generalize getNum n W = x at h
    cases h with
    | other h => exact h name

theorem Reads.format {n : Nat} {f : ExplainFormat} {W : List WField} (h : Reads .plain (.enum .ExplainFormat) n (Proto.format f) W) :
    decFormat (getNum n W) = f := by
  unfold decFormat
  cases f <;> simp only [Proto.format] at h
  case unknown =>
    have h0 := Reads.other h "SPEW"
    have h1 := Reads.other h "JSON"
    have h2 := Reads.other h "DOT"
    simp [EnumType.values] at h0 h1 h2
    split <;> simp_all
  all_goals
    have h := Reads.enum h
    simp [EnumType.values] at h
    rw [h]
    rfl

theorem Reads.dumpFormat {n : Nat} {f : GraphService.DumpFormat} {W : List WField} (h : Reads .plain (.enum .DumpFormat) n (Proto.dumpFormat f) W) :
    decDumpFormat (getNum n W) = f := by
  unfold decDumpFormat
  cases f <;> simp only [Proto.dumpFormat] at h
  case unknown =>
    have h0 := Reads.other h "DOT"
    simp [EnumType.values] at h0
    split <;> simp_all
  all_goals
    have h := Reads.enum h
    simp [EnumType.values] at h
    rw [h]
    rfl

theorem Reads.operator {n : Nat} {f : Operator} {W : List WField} (h : Reads .plain (.enum .Operator) n (Proto.operator f) W) :
    decOperator (getNum n W) = f := by
  unfold decOperator
  cases f <;> simp only [Proto.operator] at h
  case unknown =>
    have h0 := Reads.other h "UNION"
    have h1 := Reads.other h "INTERSECTION"
    have h2 := Reads.other h "DIFFERENCE"
    simp [EnumType.values] at h0 h1 h2
    split <;> simp_all
  all_goals
    have h := Reads.enum h
    simp [EnumType.values] at h
    rw [h]
    rfl

theorem Reads.relType {n : Nat} {f : RelType} {W : List WField} (h : Reads .plain (.enum .RelationType) n (Proto.relType f) W) :
    decRelType (getNum n W) = f := by
  unfold decRelType
  cases f <;> simp only [Proto.relType] at h <;> have h := Reads.enum h <;> simp [EnumType.values] at h <;> rw [h] <;> rfl

theorem occurs_unset {l : Label} {k : Kind} {n : Nat} {ps : List (Nat × Content)} (h : Occurs l k n .unset ps) : ps = [] := by
  induction ps with
  | nil => rfl
  | cons p ps ih =>
    exfalso
    generalize hq : p :: ps = qs at h
    cases h with
    | unset => cases hq
    | default => cases hq
    | plain h => cases h with | message h => cases h
    | oneof h => cases h with | message h => cases h
    | overridden _ _ _ hne h =>
      cases hq
      exact hne (ih h)
    | merged _ _ _ h => cases h

theorem Reads.absent {n : Nat} {l : Label} {k : Kind} {W : List WField} (h : Reads l k n .unset W) : blobs n W = [] := by
  obtain ⟨ps, h1, h2, _⟩ := h
  rw [h2, occurs_unset h1]
  rfl

/-- A message was found, possibly in several parts. -/
def Found (n : Nat) (W : List WField) (b : Bytes) : Prop := blobs n W ≠ [] ∧ joined (blobs n W) = b

theorem Reads.msg {n : Nat} {m : Msg} {fs : List (Proto.Name × Value)} {W : List WField} {l : Label} (hl : l ≠ .repeated)
    (h : Reads l (.message m) n (.obj fs) W) : ∃ b, Encodes m (.obj fs) b ∧ Found n W b := by
  obtain ⟨ps, h1, h2, hn⟩ := h
  cases h1 with
  | default h => exact h.elim
  | plain h => cases h with | message h => exact ⟨_, h, by simp [Found, h2, kept, joined]⟩
  | oneof h => cases h with | message h => exact ⟨_, h, by simp [Found, h2, kept, joined]⟩
  | overridden _ hk => exact hk.elim
  | @merged _ _ _ _ bs _ hne hb h =>
    have he : blobs n W = bs := by
      rw [h2]
      clear h2 hne hb h hn
      induction bs with
      | nil => rfl
      | cons b bs ih => simpa [kept] using ih
    refine ⟨_, h, by rw [he]; exact hne, ?_⟩
    rw [he]
    match bs, hb with
    | [b], _ => simp [joined]
    | [], _ => exact (hne rfl).elim
    | b :: c :: bs, hb =>
      rw [joined, if_pos]
      · refine List.all_eq_true.2 fun b hm => ?_
        obtain ⟨ws, hws⟩ := hb b hm
        rw [decFields_of hws]
        rfl
      · intro _ h; cases h

theorem Reads.text {n : Nat} {s : String} {W : List WField} (h : Reads .oneof .string n (.str s) W) : ∃ bs, blobs n W = bs ++ [utf8 s] := by
  obtain ⟨ps, h1, h2, _⟩ := h
  rw [h2]
  rcases occurs_split (by simp) (by exact trivial) (by simp) h1 with ⟨rfl, h, _⟩ | ⟨cs, c, rfl, h3, h4⟩
  · cases h
  · cases h3
    exact ⟨blobs n ((cs.map (fun c => (n, c))).filterMap kept), by rw [List.filterMap_append, blobs_append]; simp [kept]⟩

theorem Reads.getMsg_some {α : Type} {dec : Bytes → Option α} {n : Nat} {m : Msg} {a : α} {fs : List (Proto.Name × Value)} {W : List WField}
    (h : Reads .plain (.message m) n (.obj fs) W) (hd : ∀ b, Encodes m (.obj fs) b → dec b = some a) : getMsg dec n W = some (some a) := by
  obtain ⟨b, h1, h2, h3⟩ := Reads.msg (by simp) h
  rw [getMsg]
  cases hb : blobs n W with
  | nil => exact (h2 hb).elim
  | cons x xs =>
    rw [hb] at h3
    dsimp only
    rw [h3, hd b h1]
    rfl

theorem Reads.getMsg_none {α : Type} {dec : Bytes → Option α} {n : Nat} {k : Kind} {W : List WField}
    (h : Reads .plain k n .unset W) : getMsg dec n W = some none := by
  rw [getMsg, Reads.absent h]

theorem Reads.getMsg {α : Type} {dec : Bytes → Option α} {n : Nat} {m : Msg} {f : α → Value} {o : Option α} {W : List WField}
    (hf : ∀ a, ∃ fs, f a = .obj fs)
    (h : Reads .plain (.message m) n (Proto.opt f o) W) (hd : ∀ a b, o = some a → Encodes m (f a) b → dec b = some a) : getMsg dec n W = some o := by
  cases o with
  | none => exact Reads.getMsg_none h
  | some a =>
    obtain ⟨fs, hfs⟩ := hf a
    rw [Proto.opt, hfs] at h
    exact Reads.getMsg_some h fun b hb => hd a b rfl (hfs ▸ hb)

theorem getRep_of_blobs {α : Type} {dec : Bytes → Option α} {f : α → Value} {m : Msg} {n : Nat} (as : List α)
    (hd : ∀ a ∈ as, ∀ b, Encodes m (f a) b → dec b = some a) (ps : List (Nat × Content)) (h : Occurs .repeated (.message m) n (.list (as.map f)) ps) :
    allSome dec (blobs n (ps.filterMap kept)) = some as := by
  induction as generalizing ps with
  | nil =>
    cases h with
    | nil => rfl
    | overridden hl => exact (hl rfl).elim
    | merged hl => exact (hl rfl).elim
  | cons a as ih =>
    cases h with
    | overridden hl => exact (hl rfl).elim
    | merged hl => exact (hl rfl).elim
    | cons h1 h2 =>
      cases h1 with
      | message h1 =>
        simp only [List.filterMap_cons, kept, blobs_cons, if_pos, List.singleton_append, allSome]
        rw [hd a (List.mem_cons_self ..) _ h1, ih (fun a ha => hd a (List.mem_cons_of_mem _ ha)) _ h2]
        rfl

theorem Reads.getRep {α : Type} {dec : Bytes → Option α} {n : Nat} {m : Msg} {f : α → Value} {as : List α} {W : List WField}
    (h : Reads .repeated (.message m) n (.list (as.map f)) W) (hd : ∀ a ∈ as, ∀ b, Encodes m (f a) b → dec b = some a) : getRep dec n W = some as := by
  obtain ⟨ps, h1, h2, _⟩ := h
  rw [Wire.getRep, h2]
  exact getRep_of_blobs as hd ps h1

theorem members_none {ns : List Nat} {W : List WField} (h : ∀ m ∈ ns, blobs m W = []) : members ns W = [] := by
  induction W with
  | nil => rfl
  | cons w W ih =>
    obtain ⟨k, v⟩ := w
    cases v with
    | varint v =>
      have := ih (fun m hm => by simpa [blobs, List.filterMap_cons] using h m hm)
      simpa [members, List.filterMap_cons] using this
    | bytes b =>
      have hk : k ∉ ns := fun hk => by simpa using h k hk
      have := ih (fun m hm => by
        have := h m hm
        rw [blobs_cons] at this
        exact (List.append_eq_nil_iff.1 this).2)
      simpa [members, List.filterMap_cons, hk] using this

theorem members_one {ns : List Nat} {n : Nat} {W : List WField} (hn : n ∈ ns) (h : ∀ m ∈ ns, m ≠ n → blobs m W = []) :
    members ns W = (blobs n W).map (fun b => (n, b)) := by
  induction W with
  | nil => rfl
  | cons w W ih =>
    obtain ⟨k, v⟩ := w
    cases v with
    | varint v =>
      have := ih (fun m hm hne => by simpa [blobs, List.filterMap_cons] using h m hm hne)
      simpa [members, blobs, List.filterMap_cons] using this
    | bytes c =>
      have ht := ih fun m hm hne => by
        have := h m hm hne
        rw [blobs_cons] at this
        exact (List.append_eq_nil_iff.1 this).2
      rw [blobs_cons]
      by_cases hk : k = n
      · subst hk
        simp only [members] at ht ⊢
        rw [List.filterMap_cons]
        simp [hn, ht]
      · have hk' : k ∉ ns := fun hk' => by simpa using h k hk' hk
        simpa [members, List.filterMap_cons, hk', hk] using ht

theorem getOneof_none {ns texts : List Nat} {W : List WField} (h : ∀ m ∈ ns, blobs m W = []) : getOneof ns W texts = none := by
  rw [getOneof, members_none h]
  rfl

theorem takeWhile_same {n : Nat} (bs : List Bytes) :
    ((bs.map (fun b => (n, b))).takeWhile (fun m => m.1 = n)).map (·.2) = bs := by
  induction bs with
  | nil => rfl
  | cons b bs ih => simpa using ih

theorem getOneof_msg {ns texts : List Nat} {n : Nat} {b : Bytes} {W : List WField} (hb : Found n W b) (hn : n ∈ ns) (ht : n ∉ texts)
    (h : ∀ m ∈ ns, m ≠ n → blobs m W = []) : getOneof ns W texts = some (n, b) := by
  obtain ⟨h1, h2⟩ := hb
  rw [getOneof, members_one hn h, ← List.map_reverse]
  cases hr : (blobs n W).reverse with
  | nil => exact (h1 (by simpa using hr)).elim
  | cons x xs =>
    rw [List.map_cons]
    dsimp only
    rw [if_neg ht, takeWhile_same, ← hr, List.reverse_reverse, h2]

theorem getOneof_text {ns texts : List Nat} {n : Nat} {b : Bytes} {W : List WField} (hb : ∃ bs, blobs n W = bs ++ [b]) (hn : n ∈ ns) (ht : n ∈ texts)
    (h : ∀ m ∈ ns, m ≠ n → blobs m W = []) : getOneof ns W texts = some (n, b) := by
  obtain ⟨bs, hb⟩ := hb
  rw [getOneof, members_one hn h, hb]
  simp [ht]

end Zanzi.Wire
