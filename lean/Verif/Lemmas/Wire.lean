import Verif.Spec.Wire
import Verif.Spec.Grammar

/-
Lemmas about the protobuf encoding (C71).
-/

namespace Zanzi.Wire

open Spec

theorem decVarint_enc (k n : Nat) (h : n < 2 ^ (7 * k + 1)) (rest : Bytes) :
    decVarint (k + 1) (encVarint n ++ rest) = some (n, rest) := by
  induction k generalizing n with
  | zero =>
    have : n < 2 := by simpa using h
    rw [encVarint, if_pos (by omega)]
    have hn : (UInt8.ofNat n).toNat = n := by simp; omega
    simp only [List.cons_append, List.nil_append, decVarint, hn]
    rw [if_pos (by omega), if_neg (by omega)]
  | succ k ih =>
    rw [encVarint]
    split
    · have hn : (UInt8.ofNat n).toNat = n := by simp; omega
      simp only [List.cons_append, List.nil_append, decVarint, hn]
      rw [if_pos (by omega), if_neg (by omega)]
    · have hn : (UInt8.ofNat (n % 128 + 128)).toNat = n % 128 + 128 := by simp; omega
      rw [List.cons_append, decVarint, hn, if_neg (by omega), ih (n / 128)]
      · dsimp only
        congr 2
        omega
      · have : 2 ^ (7 * (k + 1) + 1) = 128 * 2 ^ (7 * k + 1) := by
          rw [show 7 * (k + 1) + 1 = 7 + (7 * k + 1) by omega, Nat.pow_add]
        omega

theorem decVarint_ten {n : Nat} (h : n < 2 ^ 64) (rest : Bytes) : decVarint 10 (encVarint n ++ rest) = some (n, rest) :=
  decVarint_enc 9 n h rest

theorem encVarint_ne_nil (n : Nat) : encVarint n ≠ [] := by rw [encVarint]; split <;> simp

theorem encVarint_length_pos (n : Nat) : 0 < (encVarint n).length := List.length_pos_iff.2 (encVarint_ne_nil n)

/-- A field the encoder may write. -/
def FieldOk (f : WField) : Prop :=
  0 < f.1 ∧ f.1 < 2 ^ 29 ∧ match f.2 with
    | .varint n => n < 2 ^ 64
    | .bytes b => b.length < 2 ^ 64

theorem encField_ne_nil (f : WField) : encField f ≠ [] := by
  obtain ⟨n, v⟩ := f
  cases v <;> simp [encField, encVarint_ne_nil]

theorem decFieldsN_enc (fs : List WField) (h : ∀ f ∈ fs, FieldOk f) (k : Nat) (hk : fs.length ≤ k) :
    decFieldsN k (encFields fs) = some fs := by
  induction fs generalizing k with
  | nil => cases k <;> rfl
  | cons f fs ih =>
    cases k with
    | zero => simp at hk
    | succ k =>
      have hf := h f (List.mem_cons_self ..)
      have ih := ih (fun g hg => h g (List.mem_cons_of_mem _ hg)) k (by simpa using hk)
      obtain ⟨num, v⟩ := f
      obtain ⟨h0, h29, hv⟩ := hf
      dsimp only at h0 h29 hv
      rw [encFields]
      have hne : encField (num, v) ++ encFields fs ≠ [] := by simp [encField_ne_nil]
      obtain ⟨b, bs, hbs⟩ := List.exists_cons_of_ne_nil hne
      rw [hbs, decFieldsN, ← hbs]
      cases v with
      | varint n =>
        simp only [encField, List.append_assoc]
        rw [decVarint_ten (by omega)]
        dsimp only
        rw [if_neg (by omega), if_pos (by omega), decVarint_ten hv]
        dsimp only
        rw [ih, Option.map_some]
        congr 3
        omega
      | bytes p =>
        simp only [encField, List.append_assoc]
        rw [decVarint_ten (by omega)]
        dsimp only
        rw [if_neg (by omega), if_neg (by omega), if_pos (by omega), decVarint_ten hv]
        dsimp only
        rw [if_neg (by simp), List.drop_left, List.take_left, ih, Option.map_some]
        congr 3
        omega

theorem length_le_encFields (fs : List WField) : fs.length ≤ (encFields fs).length := by
  induction fs with
  | nil => simp
  | cons f fs ih =>
    have := List.length_pos_iff.2 (encField_ne_nil f)
    simp only [encFields, List.length_append, List.length_cons]
    omega

theorem decFields_enc (fs : List WField) (h : ∀ f ∈ fs, FieldOk f) : decFields (encFields fs) = some fs :=
  decFieldsN_enc fs h _ (length_le_encFields fs)

theorem length_le_of_mem {fs : List WField} {n : Nat} {b : Bytes} (h : (n, .bytes b) ∈ fs) : b.length ≤ (encFields fs).length := by
  induction fs with
  | nil => simp at h
  | cons f fs ih =>
    simp only [encFields, List.length_append]
    rcases List.mem_cons.1 h with rfl | h
    · simp only [encField, List.length_append]
      omega
    · have := ih h
      omega

/-- Short enough for its length to be written. -/
def Small (b : Bytes) : Prop := b.length < 2 ^ 64

theorem Small.sub {fs : List WField} {n : Nat} {b : Bytes} (hs : Small (encFields fs)) (h : (n, .bytes b) ∈ fs) : Small b :=
  Nat.lt_of_le_of_lt (length_le_of_mem h) hs

/-- The fields of a message whose numbers are in range and whose numeric values fit. -/
theorem decFields_small (fs : List WField) (hs : Small (encFields fs))
    (h : ∀ f ∈ fs, 0 < f.1 ∧ f.1 < 2 ^ 29 ∧ ∀ n, f.2 = .varint n → n < 2 ^ 64) : decFields (encFields fs) = some fs := by
  refine decFields_enc fs fun f hf => ⟨(h f hf).1, (h f hf).2.1, ?_⟩
  obtain ⟨n, v⟩ := f
  cases v with
  | varint v => exact (h _ hf).2.2 v rfl
  | bytes b => exact hs.sub hf

@[simp] theorem ofUtf8_utf8 (s : String) : ofUtf8 (utf8 s) = some s := by
  unfold ofUtf8 utf8
  simp only [Array.toArray_toList]
  unfold String.fromUTF8?
  rw [dif_pos s.isValidUTF8]
  rfl

/-! ### Fields by number -/

/-- Numbers in range and numeric values that fit. -/
def Num (fs : List WField) : Prop := ∀ f ∈ fs, 0 < f.1 ∧ f.1 < 2 ^ 29 ∧ ∀ n, f.2 = .varint n → n < 2 ^ 64

theorem Num.nil : Num [] := fun _ h => by simp at h

theorem Num.append {a b : List WField} (ha : Num a) (hb : Num b) : Num (a ++ b) := fun f hf =>
  (List.mem_append.1 hf).elim (ha f) (hb f)

theorem Num.cons {n : Nat} {b : Bytes} {fs : List WField} (h0 : 0 < n) (h1 : n < 2 ^ 29) (hb : Num fs) : Num ((n, .bytes b) :: fs) := by
  intro f hf
  rcases List.mem_cons.1 hf with rfl | hf
  · exact ⟨h0, h1, fun _ h => nomatch h⟩
  · exact hb f hf

theorem Num.str {n : Nat} (s : String) (h0 : 0 < n) (h1 : n < 2 ^ 29) : Num (strField n s) := by
  unfold strField
  split
  · exact .nil
  · exact .cons h0 h1 .nil

theorem Num.byt {n : Nat} (s : Bytes) (h0 : 0 < n) (h1 : n < 2 ^ 29) : Num (bytesField n s) := by
  unfold bytesField
  split
  · exact .nil
  · exact .cons h0 h1 .nil

theorem Num.num {n v : Nat} (h0 : 0 < n) (h1 : n < 2 ^ 29) (hv : v < 2 ^ 64) : Num (numField n v) := by
  unfold numField
  split
  · exact .nil
  · intro f hf
    rw [List.mem_singleton] at hf
    subst hf
    exact ⟨h0, h1, fun m hm => by cases hm; exact hv⟩

theorem Num.msg {α : Type} {enc : α → Bytes} {n : Nat} (o : Option α) (h0 : 0 < n) (h1 : n < 2 ^ 29) : Num (msgField enc n o) := by
  cases o
  · exact .nil
  · exact .cons h0 h1 .nil

theorem Num.rep {α : Type} {enc : α → Bytes} {n : Nat} (as : List α) (h0 : 0 < n) (h1 : n < 2 ^ 29) : Num (repField enc n as) := by
  intro f hf
  obtain ⟨a, _, rfl⟩ := List.mem_map.1 hf
  exact ⟨h0, h1, fun _ h => nomatch h⟩

theorem Num.ite {c : Prop} [Decidable c] {a b : List WField} (ha : Num a) (hb : Num b) : Num (if c then a else b) := by
  split
  · exact ha
  · exact hb

theorem decFields_num {fs : List WField} (hs : Small (encFields fs)) (h : Num fs) : decFields (encFields fs) = some fs :=
  decFields_small fs hs h

theorem message_enc {α : Type} {fs : List WField} (hs : Small (encFields fs)) (h : Num fs) (limit : Nat) (k : Nat → List WField → Option α) :
    message limit (encFields fs) k = match limit with
      | 0 => none
      | l + 1 => k l fs := by
  unfold message
  cases limit
  · rfl
  · dsimp only
    rw [decFields_num hs h]

@[simp] theorem blobs_append (n : Nat) (a b : List WField) : blobs n (a ++ b) = blobs n a ++ blobs n b := by simp [blobs]
@[simp] theorem blobs_nil (n : Nat) : blobs n [] = [] := rfl
@[simp] theorem blobs_cons (n m : Nat) (b : Bytes) (fs : List WField) :
    blobs n ((m, .bytes b) :: fs) = (if m = n then [b] else []) ++ blobs n fs := by
  unfold blobs
  rw [List.filterMap_cons]
  by_cases h : m = n <;> simp [h]
@[simp] theorem blobs_str (n m : Nat) (s : String) : blobs n (strField m s) = if m = n ∧ s ≠ "" then [utf8 s] else [] := by
  unfold strField
  by_cases h : s = "" <;> simp [h]
@[simp] theorem blobs_byt (n m : Nat) (s : Bytes) : blobs n (bytesField m s) = if m = n ∧ s ≠ [] then [s] else [] := by
  unfold bytesField
  by_cases h : s = [] <;> simp [h]
@[simp] theorem blobs_num (n m v : Nat) : blobs n (numField m v) = [] := by
  unfold numField
  by_cases h : v = 0 <;> simp [h, blobs]
@[simp] theorem blobs_msg {α : Type} (enc : α → Bytes) (n m : Nat) (o : Option α) :
    blobs n (msgField enc m o) = if m = n then (o.map enc).toList else [] := by
  cases o <;> simp [msgField]
@[simp] theorem blobs_rep {α : Type} (enc : α → Bytes) (n m : Nat) (as : List α) :
    blobs n (repField enc m as) = if m = n then as.map enc else [] := by
  unfold repField
  induction as with
  | nil => simp
  | cons a as ih =>
    rw [List.map_cons, blobs_cons, ih]
    by_cases h : m = n <;> simp [h]

@[simp] theorem nums_append (n : Nat) (a b : List WField) : nums n (a ++ b) = nums n a ++ nums n b := by simp [nums]
@[simp] theorem nums_nil (n : Nat) : nums n [] = [] := rfl
@[simp] theorem nums_cons (n m : Nat) (b : Bytes) (fs : List WField) : nums n ((m, .bytes b) :: fs) = nums n fs := by simp [nums]
@[simp] theorem nums_str (n m : Nat) (s : String) : nums n (strField m s) = [] := by
  unfold strField
  by_cases h : s = "" <;> simp [h]
@[simp] theorem nums_msg {α : Type} (enc : α → Bytes) (n m : Nat) (o : Option α) : nums n (msgField enc m o) = [] := by
  cases o <;> simp [msgField]
@[simp] theorem nums_num (n m v : Nat) : nums n (numField m v) = if m = n ∧ v ≠ 0 then [v] else [] := by
  unfold numField
  by_cases h : v = 0
  · simp [h]
  · by_cases h' : m = n <;> simp [h, h', nums]

theorem str_blob (s : String) :
    (allSome ofUtf8 (if s ≠ "" then [utf8 s] else [])).map (fun l => l.getLast?.getD "") = some s := by
  by_cases h : s = "" <;> simp [h, allSome]

theorem allSome_enc {α : Type} {enc : α → Bytes} {dec : Bytes → Option α} {nest : α → Nat} {limit : Nat} {as : List α}
    (h : ∀ a ∈ as, dec (enc a) = if nest a ≤ limit then some a else none) :
    allSome dec (as.map enc) = if largest (as.map nest) ≤ limit then some as else none := by
  induction as with
  | nil => simp [allSome, largest]
  | cons a as ih =>
    rw [List.map_cons, allSome, h a (List.mem_cons_self ..), List.map_cons, largest,
      ih (fun b hb => h b (List.mem_cons_of_mem _ hb))]
    by_cases h1 : nest a ≤ limit
    · by_cases h2 : largest (as.map nest) ≤ limit
      · rw [if_pos h1, if_pos h2, if_pos (by omega)]
        rfl
      · rw [if_pos h1, if_neg h2, if_neg (by omega)]
        rfl
    · rw [if_neg h1, if_neg (c := max _ _ ≤ _) (by omega)]

theorem message_nil {α : Type} (limit : Nat) (k : Nat → List WField → Option α) :
    message limit [] k = match limit with
      | 0 => none
      | l + 1 => k l [] :=
  message_enc (fs := []) (by simp [Small, encFields]) .nil limit k

theorem getStr_of {n : Nat} {fs : List WField} {s : String} (h : blobs n fs = if s = "" then [] else [utf8 s]) : getStr n fs = some s := by
  rw [getStr, h]
  by_cases h : s = "" <;> simp [h, allSome]

theorem getMsg_of {α : Type} {enc : α → Bytes} {dec : Bytes → Option α} {nest : α → Nat} {limit n : Nat} {fs : List WField} {o : Option α}
    (h : blobs n fs = (o.map enc).toList) (hd : ∀ a, o = some a → dec (enc a) = if nest a ≤ limit then some a else none) :
    getMsg dec n fs = if optNest nest o ≤ limit then some o else none := by
  rw [getMsg, h]
  cases o with
  | none => simp [optNest]
  | some a =>
    simp only [Option.map_some, Option.toList_some, joined, hd a rfl, optNest]
    by_cases h : nest a ≤ limit <;> simp [h]

theorem getMsg_some {α : Type} {enc : α → Bytes} {dec : Bytes → Option α} {n : Nat} {fs : List WField} {a : α} {c : Prop} [Decidable c]
    (h : blobs n fs = [enc a]) (hd : dec (enc a) = if c then some a else none) :
    getMsg dec n fs = if c then some (some a) else none := by
  rw [getMsg, h]
  simp only [joined, hd]
  by_cases h : c <;> simp [h]

theorem getOneof_one {n : Nat} {ns : List Nat} {b : Bytes} {texts : List Nat} (h : n ∈ ns) : getOneof ns [(n, .bytes b)] texts = some (n, b) := by
  by_cases ht : n ∈ texts <;> simp [getOneof, members, joined, h, ht]

/-! ### Messages -/

theorem decRule_enc (r : Rule) (limit : Nat) (hs : Small (encRule r)) :
    decRule limit (encRule r) = if Nest.rule r ≤ limit then some r else none := by
  cases r with
  | unset =>
    rw [encRule, decRule, message_nil]
    cases limit <;> simp [getOneof, members, Nest.rule]
  | this =>
    rw [encRule, decRule, message_enc hs (.cons (by omega) (by omega) .nil)]
    rcases limit with _ | _ | l
    · simp [Nest.rule]
    · dsimp only
      rw [getOneof_one (by simp)]
      simp [Nest.rule, message_nil]
    · dsimp only
      rw [getOneof_one (by simp)]
      simp [Nest.rule, message_nil]
  | cu t =>
    have hs' := Small.sub hs (List.mem_singleton.2 rfl)
    rw [encRule, decRule, message_enc hs (.cons (by omega) (by omega) .nil)]
    rcases limit with _ | _ | l
    · simp [Nest.rule]
    · dsimp only
      rw [getOneof_one (by simp)]
      simp [Nest.rule, message]
    · dsimp only
      rw [getOneof_one (by simp)]
      dsimp only
      rw [if_neg (by omega), if_pos rfl, message_enc hs' (.str _ (by omega) (by omega))]
      dsimp only
      rw [getStr_of (s := t) (by simp)]
      simp [Nest.rule]
  | ttu a c =>
    have hs' := Small.sub hs (List.mem_singleton.2 rfl)
    rw [encRule, decRule, message_enc hs (.cons (by omega) (by omega) .nil)]
    rcases limit with _ | _ | l
    · simp [Nest.rule]
    · dsimp only
      rw [getOneof_one (by simp)]
      simp [Nest.rule, message]
    · dsimp only
      rw [getOneof_one (by simp)]
      dsimp only
      rw [if_neg (by omega), if_neg (by omega), message_enc hs' (.append (.str _ (by omega) (by omega)) (.str _ (by omega) (by omega)))]
      dsimp only
      rw [getStr_of (s := a) (by simp), getStr_of (s := c) (by simp)]
      simp [Nest.rule]

/-- A subtree as a message field. -/
def optTree (t : ExprTree) : Option ExprTree := if isNil t then none else some t

theorem optTree_field (n : Nat) (t : ExprTree) :
    (if isNil t then [] else [(n, WVal.bytes (encTree t))]) = msgField encTree n (optTree t) := by
  unfold optTree
  split <;> rfl

theorem optTree_getD (t : ExprTree) : (optTree t).getD .nil = t := by cases t <;> rfl

theorem optTree_nest (t : ExprTree) : optNest Nest.tree (optTree t) = Nest.tree t := by cases t <;> rfl

theorem decOperator_enc (o : Operator) : decOperator (encOperator o) = o := by cases o <;> rfl

theorem getNum_of {n v : Nat} {fs : List WField} (h : nums n fs = if v = 0 then [] else [v]) : getNum n fs = v := by
  rw [getNum, h]
  by_cases h : v = 0 <;> simp [h]

theorem msg_mem {α : Type} {enc : α → Bytes} {n : Nat} {o : Option α} {a : α} (h : o = some a) : (n, .bytes (enc a)) ∈ msgField enc n o := by
  subst h
  exact List.mem_singleton.2 rfl

theorem decTree_enc (t : ExprTree) (hn : t ≠ .nil) (limit : Nat) (hs : Small (encTree t)) :
    decTree limit (encTree t) = if Nest.tree t ≤ limit then some t else none := by
  induction t generalizing limit with
  | nil => exact absurd rfl hn
  | unset =>
    cases limit with
    | zero => simp [decTree, Nest.tree]
    | succ l =>
      show decTree (l + 1) (encFields []) = _
      rw [decTree, decFields_num (by simp [Small, encFields]) .nil]
      simp [getOneof, members, Nest.tree]
  | rule r =>
    have hs' := Small.sub hs (List.mem_singleton.2 rfl)
    rw [encTree]
    cases limit with
    | zero => simp [decTree, Nest.tree]
    | succ l =>
      rw [decTree, decFields_num hs (.cons (by omega) (by omega) .nil)]
      dsimp only
      rw [getOneof_one (by simp)]
      dsimp only
      rw [if_neg (by omega), decRule_enc r l hs', Nest.tree]
      by_cases h : Nest.rule r ≤ l
      · rw [if_pos h, if_pos (by omega)]
        rfl
      · rw [if_neg h, if_neg (by omega)]
        rfl
  | op l o r ihl ihr =>
    rw [encTree, optTree_field, optTree_field] at hs ⊢
    have hs' := Small.sub hs (List.mem_singleton.2 rfl)
    rcases limit with _ | _ | k
    · simp [decTree, Nest.tree]
    · rw [decTree, decFields_num hs (.cons (by omega) (by omega) .nil)]
      dsimp only
      rw [getOneof_one (by simp)]
      rw [Nest.tree, if_neg (c := 2 + _ ≤ _) (by omega)]
      rfl
    · rw [decTree, decFields_num hs (.cons (by omega) (by omega) .nil)]
      dsimp only
      rw [getOneof_one (by simp)]
      simp only [if_pos]
      rw [decFields_num hs' (.append (.append (.msg _ (by omega) (by omega)) (.num (by omega) (by omega) (by cases o <;> simp [encOperator])))
        (.msg _ (by omega) (by omega)))]
      dsimp only
      have hsub : ∀ t, optTree t = some t → t ≠ .nil := by
        intro t h he
        subst he
        simp [optTree, isNil] at h
      have hopt : ∀ t a, optTree t = some a → a = t := by
        intro t a h
        unfold optTree at h
        split at h
        · cases h
        · exact (Option.some.inj h).symm
      rw [getMsg_of (enc := encTree) (nest := Nest.tree) (limit := k) (o := optTree l) (by simp), 
        getMsg_of (enc := encTree) (nest := Nest.tree) (limit := k) (o := optTree r) (by simp)]
      · rw [optTree_nest, optTree_nest, getNum_of (v := encOperator o) (by simp), Nest.tree, decOperator_enc]
        by_cases h1 : Nest.tree l ≤ k
        · by_cases h2 : Nest.tree r ≤ k
          · rw [if_pos h1, if_pos h2, if_pos (by omega)]
            show some (ExprTree.op ((optTree l).getD .nil) o ((optTree r).getD .nil)) = _
            rw [optTree_getD, optTree_getD]
          · rw [if_pos h1, if_neg h2, if_neg (by omega)]
            rfl
        · rw [if_neg h1, if_neg (c := 2 + max _ _ ≤ _) (by omega)]
          rfl
      · intro a ha
        obtain rfl := hopt _ _ ha
        exact ihr (hsub _ ha) k (hs'.sub (List.mem_append_right _ (msg_mem ha)))
      · intro a ha
        obtain rfl := hopt _ _ ha
        exact ihl (hsub _ ha) k (hs'.sub (List.mem_append_left _ (List.mem_append_left _ (msg_mem ha))))

theorem decExpr_enc (e : RelationExpression) (hn : e ≠ .tree .nil) (limit : Nat) (hs : Small (encExpr e)) :
    decExpr limit (encExpr e) = if Nest.expr e ≤ limit then some e else none := by
  cases e with
  | unset =>
    rw [encExpr, decExpr, message_nil]
    cases limit <;> simp [getOneof, members, Nest.expr]
  | expr text =>
    rw [encExpr, decExpr, message_enc hs (.cons (by omega) (by omega) .nil)]
    cases limit with
    | zero => simp [Nest.expr]
    | succ l =>
      dsimp only
      rw [getOneof_one (by simp)]
      simp [Nest.expr]
  | tree t =>
    have hs' := Small.sub hs (List.mem_singleton.2 rfl)
    rw [encExpr, decExpr, message_enc hs (.cons (by omega) (by omega) .nil)]
    cases limit with
    | zero => simp [Nest.expr]
    | succ l =>
      dsimp only
      rw [getOneof_one (by simp)]
      dsimp only
      rw [if_neg (by omega), decTree_enc t (fun h => hn (by rw [h])) l hs', Nest.expr]
      by_cases h : Nest.tree t ≤ l
      · rw [if_pos h, if_pos (by omega)]
        rfl
      · rw [if_neg h, if_neg (by omega)]
        rfl

theorem decRestriction_enc (r : Restriction) (limit : Nat) (hs : Small (encRestriction r)) :
    decRestriction limit (encRestriction r) = if Nest.restriction r ≤ limit then some r else none := by
  cases r with
  | unset =>
    rw [encRestriction, decRestriction, message_nil]
    cases limit <;> simp [getOneof, members, Nest.restriction]
  | entity t =>
    have hs' := Small.sub hs (List.mem_singleton.2 rfl)
    rw [encRestriction, decRestriction, message_enc hs (.cons (by omega) (by omega) .nil)]
    rcases limit with _ | _ | l
    · simp [Nest.restriction]
    · dsimp only
      rw [getOneof_one (by simp)]
      simp [Nest.restriction, message]
    · dsimp only
      rw [getOneof_one (by simp)]
      dsimp only
      rw [if_pos rfl, message_enc hs' (.str _ (by omega) (by omega))]
      dsimp only
      rw [getStr_of (s := t) (by simp)]
      simp [Nest.restriction]
  | entitySet a c =>
    have hs' := Small.sub hs (List.mem_singleton.2 rfl)
    rw [encRestriction, decRestriction, message_enc hs (.cons (by omega) (by omega) .nil)]
    rcases limit with _ | _ | l
    · simp [Nest.restriction]
    · dsimp only
      rw [getOneof_one (by simp)]
      simp [Nest.restriction, message]
    · dsimp only
      rw [getOneof_one (by simp)]
      dsimp only
      rw [if_neg (by omega), message_enc hs' (.append (.str _ (by omega) (by omega)) (.str _ (by omega) (by omega)))]
      dsimp only
      rw [getStr_of (s := a) (by simp), getStr_of (s := c) (by simp)]
      simp [Nest.restriction]

theorem getRep_of {α : Type} {enc : α → Bytes} {dec : Bytes → Option α} {nest : α → Nat} {limit n : Nat} {fs : List WField} {as : List α}
    (h : blobs n fs = as.map enc) (hd : ∀ a ∈ as, dec (enc a) = if nest a ≤ limit then some a else none) :
    getRep dec n fs = if largest (as.map nest) ≤ limit then some as else none := by
  rw [getRep, h, allSome_enc hd]

theorem rep_mem {α : Type} {enc : α → Bytes} {n : Nat} {as : List α} {a : α} (h : a ∈ as) : (n, .bytes (enc a)) ∈ repField enc n as :=
  List.mem_map.2 ⟨a, h, rfl⟩

theorem decSubjectRestriction_enc (r : SubjectRestriction) (limit : Nat) (hs : Small (encSubjectRestriction r)) :
    decSubjectRestriction limit (encSubjectRestriction r) = if Nest.subjectRestriction r ≤ limit then some r else none := by
  cases r with
  | unset =>
    rw [encSubjectRestriction, decSubjectRestriction, message_nil]
    cases limit <;> simp [getOneof, members, Nest.subjectRestriction]
  | universalSet =>
    rw [encSubjectRestriction, decSubjectRestriction, message_enc hs (.cons (by omega) (by omega) .nil)]
    rcases limit with _ | _ | l
    · simp [Nest.subjectRestriction]
    · dsimp only
      rw [getOneof_one (by simp)]
      simp [Nest.subjectRestriction, message_nil]
    · dsimp only
      rw [getOneof_one (by simp)]
      simp [Nest.subjectRestriction, message_nil]
  | restrictionSet rs =>
    have hs' := Small.sub hs (List.mem_singleton.2 rfl)
    rw [encSubjectRestriction, decSubjectRestriction, message_enc hs (.cons (by omega) (by omega) .nil)]
    rcases limit with _ | _ | l
    · simp [Nest.subjectRestriction]
    · dsimp only
      rw [getOneof_one (by simp)]
      rw [Nest.subjectRestriction, if_neg (c := 2 + _ ≤ _) (by omega)]
      rfl
    · dsimp only
      rw [getOneof_one (by simp)]
      dsimp only
      rw [if_pos rfl, message_enc hs' (.rep _ (by omega) (by omega))]
      dsimp only
      rw [getRep_of (as := rs) (enc := encRestriction) (nest := Nest.restriction) (limit := l) (by simp)
        (fun a ha => decRestriction_enc a l (hs'.sub (rep_mem ha))), Nest.subjectRestriction]
      by_cases h : largest (rs.map Nest.restriction) ≤ l
      · rw [if_pos h, if_pos (by omega)]
        rfl
      · rw [if_neg h, if_neg (by omega)]
        rfl

theorem decRelation_enc (r : Relation) (hn : r.relationExpression ≠ some (.tree .nil)) (limit : Nat) (hs : Small (encRelation r)) :
    decRelation limit (encRelation r) = if Nest.relation r ≤ limit then some r else none := by
  rw [encRelation] at hs ⊢
  rw [decRelation, message_enc hs (.append (.append (.append (.str _ (by omega) (by omega)) (.str _ (by omega) (by omega)))
    (.msg _ (by omega) (by omega))) (.msg _ (by omega) (by omega)))]
  cases limit with
  | zero => simp [Nest.relation]
  | succ l =>
    dsimp only
    rw [getStr_of (s := r.name) (by simp), getStr_of (s := r.description) (by simp),
      getMsg_of (enc := encExpr) (nest := Nest.expr) (limit := l) (o := r.relationExpression) (by simp)
        (fun a ha => decExpr_enc a (fun he => hn (by rw [ha, he])) l
          (hs.sub (List.mem_append_left _ (List.mem_append_right _ (msg_mem ha))))),
      getMsg_of (enc := encSubjectRestriction) (nest := Nest.subjectRestriction) (limit := l) (o := r.subjectRestriction) (by simp)
        (fun a ha => decSubjectRestriction_enc a l (hs.sub (List.mem_append_right _ (msg_mem ha)))), Nest.relation]
    by_cases h1 : optNest Nest.expr r.relationExpression ≤ l
    · by_cases h2 : optNest Nest.subjectRestriction r.subjectRestriction ≤ l
      · rw [if_pos h1, if_pos h2, if_pos (by omega)]
        rfl
      · rw [if_pos h1, if_neg h2, if_neg (by omega)]
        rfl
    · rw [if_neg h1, if_neg (c := _ + max _ _ ≤ _) (by omega)]
      rfl

theorem decResource_enc (r : Resource) (hn : ∀ rel ∈ r.relations, rel.relationExpression ≠ some (.tree .nil)) (limit : Nat)
    (hs : Small (encResource r)) : decResource limit (encResource r) = if Nest.resource r ≤ limit then some r else none := by
  rw [encResource] at hs ⊢
  rw [decResource, message_enc hs (.append (.append (.str _ (by omega) (by omega)) (.str _ (by omega) (by omega)))
    (.rep _ (by omega) (by omega)))]
  cases limit with
  | zero => simp [Nest.resource]
  | succ l =>
    dsimp only
    rw [getStr_of (s := r.name) (by simp), getStr_of (s := r.description) (by simp),
      getRep_of (enc := encRelation) (nest := Nest.relation) (limit := l) (as := r.relations) (by simp)
        (fun a ha => decRelation_enc a (hn a ha) l (hs.sub (List.mem_append_right _ (rep_mem ha)))), Nest.resource]
    by_cases h1 : largest (r.relations.map Nest.relation) ≤ l
    · rw [if_pos h1, if_pos (by omega)]
      rfl
    · rw [if_neg h1, if_neg (by omega)]
      rfl

theorem decEntry_enc (p : String × String) (hs : Small (encEntry p)) : decEntry (encEntry p) = some p := by
  rw [encEntry] at hs ⊢
  rw [decEntry, decFields_num hs (.cons (by omega) (by omega) (.cons (by omega) (by omega) .nil))]
  simp [getStr, allSome]

theorem putAll_nodup (m l : List (String × String)) (h : ((m ++ l).map (·.1)).Nodup) : putAll m l = m ++ l := by
  induction l generalizing m with
  | nil => simp [putAll]
  | cons p l ih =>
    have hd : kvDel m p.1 = m := by
      unfold kvDel
      rw [List.filter_eq_self]
      intro q hq
      rw [decide_eq_true_eq]
      intro he
      rw [List.map_append, List.nodup_append] at h
      exact h.2.2 q.1 (List.mem_map_of_mem hq) p.1 (List.mem_map_of_mem (List.mem_cons_self ..)) he
    rw [putAll, hd, ih]
    · simp
    · simpa using h

theorem decPolicy_enc (p : Policy) (hn : WholeTrees p) (hk : (p.attributes.map (·.1)).Nodup) (limit : Nat) (hs : Small (encPolicy p)) :
    decPolicy limit (encPolicy p) = if Nest.policy p ≤ limit then some p else none := by
  rw [encPolicy] at hs ⊢
  rw [decPolicy, message_enc hs (.append (.append (.append (.append (.str _ (by omega) (by omega)) (.str _ (by omega) (by omega)))
    (.str _ (by omega) (by omega))) (.rep _ (by omega) (by omega))) (.rep _ (by omega) (by omega)))]
  cases limit with
  | zero => simp [Nest.policy]
  | succ l =>
    dsimp only
    have he : getRep decEntry 5 (strField 1 p.id ++ strField 2 p.name ++ strField 3 p.description ++ repField encResource 4 p.resources ++
        repField encEntry 5 p.attributes) = some p.attributes := by
      have := getRep_of (enc := encEntry) (dec := decEntry) (nest := fun _ => 0) (limit := 0) (n := 5) (as := p.attributes)
        (fs := strField 1 p.id ++ strField 2 p.name ++ strField 3 p.description ++ repField encResource 4 p.resources ++
        repField encEntry 5 p.attributes) (by simp)
        (fun a ha => by rw [decEntry_enc a (hs.sub (List.mem_append_right _ (rep_mem ha)))]; rfl)
      rw [this]
      have hl : ∀ l : List (String × String), largest (l.map (fun _ => 0)) = 0 := by
        intro l
        induction l with
        | nil => rfl
        | cons a l ih => simp [largest, ih]
      rw [hl]
      rfl
    rw [getStr_of (s := p.id) (by simp), getStr_of (s := p.name) (by simp), getStr_of (s := p.description) (by simp),
      getRep_of (enc := encResource) (nest := Nest.resource) (limit := l) (as := p.resources) (by simp)
        (fun a ha => decResource_enc a (hn a ha) l (hs.sub (List.mem_append_left _ (List.mem_append_right _ (rep_mem ha))))), he, Nest.policy]
    by_cases h1 : largest (p.resources.map Nest.resource) ≤ l
    · rw [if_pos h1, if_pos (by omega)]
      simp [putAll_nodup [] p.attributes (by simpa using hk)]
    · rw [if_neg h1, if_neg (by omega)]
      rfl

theorem decTimestamp_enc (t : Nat) (ht : t / 1000000000 < 2 ^ 63) (limit : Nat) (hs : Small (encTimestamp t)) :
    decTimestamp limit (encTimestamp t) = if 1 ≤ limit then some t else none := by
  rw [encTimestamp] at hs ⊢
  rw [decTimestamp, message_enc hs (.append (.num (by omega) (by omega) (by omega)) (.num (by omega) (by omega) (by omega)))]
  cases limit with
  | zero => simp
  | succ l =>
    dsimp only
    rw [getNum_of (v := t / 1000000000) (by generalize t / 1000000000 = v; simp),
      getNum_of (v := t % 1000000000) (by generalize t % 1000000000 = v; simp), if_pos (by omega)]
    exact congrArg some (Nat.div_add_mod' t _)

theorem getBytes_of {n : Nat} {fs : List WField} {s : Bytes} (h : blobs n fs = if s = [] then [] else [s]) : getBytes n fs = s := by
  rw [getBytes, h]
  by_cases h : s = [] <;> simp [h]

theorem decPolicyRecord_enc (r : PolicyRecord) (hn : WholeTrees r.policy) (hk : (r.policy.attributes.map (·.1)).Nodup)
    (ht : r.createdAt / 1000000000 < 2 ^ 63) (limit : Nat) (hs : Small (encPolicyRecord r)) :
    decPolicyRecord limit (encPolicyRecord r) = if Nest.policyRecord r ≤ limit then some r else none := by
  rw [encPolicyRecord] at hs ⊢
  rw [decPolicyRecord, message_enc hs (.append (.append (.cons (by omega) (by omega) .nil) (.byt _ (by omega) (by omega)))
    (.cons (by omega) (by omega) .nil))]
  cases limit with
  | zero => simp [Nest.policyRecord]
  | succ l =>
    dsimp only
    rw [getMsg_some (enc := encPolicy) (a := r.policy) (by simp) (decPolicy_enc _ hn hk l (hs.sub (n := 1) (by simp))),
      getMsg_some (enc := encTimestamp) (a := r.createdAt) (by simp) (decTimestamp_enc _ ht l (hs.sub (n := 3) (by simp))), getBytes_of (s := r.appData) (by simp)]
    rw [Nest.policyRecord]
    by_cases h1 : Nest.policy r.policy ≤ l
    · by_cases h2 : 1 ≤ l
      · rw [if_pos h1, if_pos h2, if_pos (by omega)]
      · rw [if_pos h1, if_neg h2, if_neg (by omega)]
    · rw [if_neg h1, if_neg (c := _ + max _ _ ≤ _) (by omega)]

theorem decRelType_enc (t : RelType) : decRelType (encRelType t) = t := by cases t <;> rfl

theorem decINode_enc (n : INode) (limit : Nat) (hs : Small (encINode n)) :
    decINode limit (encINode n) = if 1 ≤ limit then some n else none := by
  rw [encINode] at hs ⊢
  rw [decINode, message_enc hs (.append (.append (.append (.str _ (by omega) (by omega)) (.str _ (by omega) (by omega)))
    (.str _ (by omega) (by omega))) (.num (by omega) (by omega) (by cases n.type <;> simp [encRelType])))]
  cases limit with
  | zero => simp
  | succ l =>
    dsimp only
    rw [getStr_of (s := n.resource) (by simp), getStr_of (s := n.id) (by simp), getStr_of (s := n.relation) (by simp),
      getNum_of (v := encRelType n.type) (by simp), decRelType_enc, if_pos (by omega)]
    rfl

theorem decIRel_enc (r : IRel) (limit : Nat) (hs : Small (encIRel r)) :
    decIRel limit (encIRel r) = if 2 ≤ limit then some r else none := by
  rw [encIRel] at hs ⊢
  rw [decIRel, message_enc hs (.cons (by omega) (by omega) (.cons (by omega) (by omega) .nil))]
  cases limit with
  | zero => simp
  | succ l =>
    dsimp only
    rw [getMsg_some (enc := encINode) (a := r.source) (by simp) (decINode_enc _ l (hs.sub (n := 1) (by simp))),
      getMsg_some (enc := encINode) (a := r.dest) (by simp) (decINode_enc _ l (hs.sub (n := 2) (by simp)))]
    by_cases h2 : 1 ≤ l
    · rw [if_pos h2, if_pos h2, if_pos (by omega)]
    · rw [if_neg h2, if_neg h2, if_neg (by omega)]

theorem encKey_length (n k : Nat) : (encKey n k).length = n := by
  induction n generalizing k with
  | zero => rfl
  | succ n ih => simp [encKey, ih]

theorem decKey_append (acc : Nat) (a b : Bytes) : decKey acc (a ++ b) = decKey (decKey acc a) b := by
  induction a generalizing acc with
  | nil => rfl
  | cons x a ih => exact ih _

theorem decKey_enc (n k : Nat) (h : k < 256 ^ n) : decKey 0 (encKey n k) = k := by
  induction n generalizing k with
  | zero => simp at h; simp [encKey, decKey, h]
  | succ n ih =>
    rw [encKey, decKey_append, ih (k / 256) (by rw [Nat.pow_succ] at h; omega)]
    have : (UInt8.ofNat (k % 256)).toNat = k % 256 := by simp
    simp only [decKey, this]
    omega

theorem decEdgeKey_enc (k : EdgeKey) (h1 : k.1 < 2 ^ 256) (h2 : k.2 < 2 ^ 256) : decEdgeKey (encEdgeKey k) = k := by
  have e : (256 : Nat) ^ 32 = 2 ^ 256 := by decide
  unfold decEdgeKey encEdgeKey
  rw [List.take_left' (encKey_length _ _), List.drop_left' (encKey_length _ _), decKey_enc _ _ (by omega), decKey_enc _ _ (by omega)]

theorem decRelData_enc (d : RelData) (h1 : d.relationshipId.1 < 2 ^ 256) (h2 : d.relationshipId.2 < 2 ^ 256)
    (ht : d.createdAt / 1000000000 < 2 ^ 63) (limit : Nat) (hs : Small (encRelData d)) :
    decRelData limit (encRelData d) = if 2 ≤ limit then some d else none := by
  rw [encRelData] at hs ⊢
  rw [decRelData, message_enc hs (.append (.append (.byt _ (by omega) (by omega)) (.cons (by omega) (by omega) .nil)) (.byt _ (by omega) (by omega)))]
  cases limit with
  | zero => simp
  | succ l =>
    dsimp only
    rw [getMsg_some (enc := encTimestamp) (a := d.createdAt) (by simp) (decTimestamp_enc _ ht l (hs.sub (n := 2) (by simp))), getBytes_of (s := encEdgeKey d.relationshipId) (by simp),
      getBytes_of (s := d.appData) (by simp), decEdgeKey_enc _ h1 h2]
    by_cases h2 : 1 ≤ l
    · rw [if_pos h2, if_pos (by omega)]
    · rw [if_neg h2, if_neg (by omega)]


/- how deep policies are nested -/

theorem largest_le {ns : List Nat} {b : Nat} (h : ∀ n ∈ ns, n ≤ b) : largest ns ≤ b := by
  induction ns with
  | nil => exact Nat.zero_le _
  | cons n ns ih =>
    have := h n (List.mem_cons_self ..)
    have := ih (fun m hm => h m (List.mem_cons_of_mem _ hm))
    simp only [largest]
    omega

theorem le_largest {ns : List Nat} {n : Nat} (h : n ∈ ns) : n ≤ largest ns := by
  induction ns with
  | nil => cases h
  | cons m ns ih =>
    simp only [largest]
    rcases List.mem_cons.1 h with rfl | h
    · omega
    · have := ih h
      omega

theorem nest_rule_le (r : Rule) : Nest.rule r ≤ 2 := by cases r <;> simp [Nest.rule]

theorem nest_tree_le (t : ExprTree) : Nest.tree t ≤ 2 * opDepth t + 3 := by
  induction t with
  | nil => simp [Nest.tree]
  | unset => simp [Nest.tree]
  | op l o r ihl ihr =>
    simp only [Nest.tree, opDepth]
    omega
  | rule r =>
    have := nest_rule_le r
    simp only [Nest.tree]
    omega

theorem nest_subjectRestriction_le (s : SubjectRestriction) : Nest.subjectRestriction s ≤ 4 := by
  cases s with
  | unset => simp [Nest.subjectRestriction]
  | universalSet => simp [Nest.subjectRestriction]
  | restrictionSet rs =>
    have : largest (rs.map Nest.restriction) ≤ 2 := by
      apply largest_le
      intro n hn
      obtain ⟨r, -, rfl⟩ := List.mem_map.1 hn
      cases r <;> simp [Nest.restriction]
    simp only [Nest.subjectRestriction]
    omega

theorem nest_policyRecord_le {d : Nat} {r : PolicyRecord} (h : TreesWithin d r.policy) : Nest.policyRecord r ≤ 2 * d + 8 := by
  have : largest (r.policy.resources.map Nest.resource) ≤ 2 * d + 6 := by
    apply largest_le
    intro n hn
    obtain ⟨res, hres, rfl⟩ := List.mem_map.1 hn
    have : largest (res.relations.map Nest.relation) ≤ 2 * d + 5 := by
      apply largest_le
      intro n hn
      obtain ⟨rel, hrel, rfl⟩ := List.mem_map.1 hn
      have h1 : optNest Nest.subjectRestriction rel.subjectRestriction ≤ 4 := by
        cases rel.subjectRestriction with
        | none => simp [optNest]
        | some s => exact nest_subjectRestriction_le s
      have h2 : optNest Nest.expr rel.relationExpression ≤ 2 * d + 4 := by
        have := h res hres rel hrel
        cases he : rel.relationExpression with
        | none => simp [optNest]
        | some e =>
          cases e with
          | unset => simp [optNest, Nest.expr]
          | expr _ => simp [optNest, Nest.expr]
          | tree t =>
            have := this t he
            have := nest_tree_le t
            simp only [optNest, Nest.expr]
            omega
      simp only [Nest.relation]
      omega
    simp only [Nest.resource]
    omega
  simp only [Nest.policyRecord, Nest.policy]
  omega

/- how long encodings are -/

theorem encVarint_length (k n : Nat) (h : n < 2 ^ (7 * k + 7)) : (encVarint n).length ≤ k + 1 := by
  induction k generalizing n with
  | zero =>
    rw [encVarint, if_pos (by simpa using h)]
    simp
  | succ k ih =>
    rw [encVarint]
    split
    · simp
    · have : 2 ^ (7 * (k + 1) + 7) = 128 * 2 ^ (7 * k + 7) := by
        rw [show 7 * (k + 1) + 7 = 7 + (7 * k + 7) by omega, Nat.pow_add]
      have := ih (n / 128) (by omega)
      simp only [List.length_cons]
      omega

/-- A byte field of small number costs at most twelve bytes more than its content. -/
theorem encField_length {n : Nat} (hn : n < 16) (b : Bytes) (hb : b.length < 2 ^ 63) : (encField (n, .bytes b)).length ≤ b.length + 11 := by
  have h1 : (encVarint (n * 8 + 2)).length ≤ 1 := by
    have := encVarint_length 1 (n * 8 + 2) (by omega)
    rw [encVarint]
    split
    · simp
    · omega
  have h2 := encVarint_length 9 b.length (by omega)
  simp only [encField, List.length_append]
  omega

/-- A tree of `n` unions above each other. -/
def chain : Nat → ExprTree
  | 0 => .rule .this
  | n + 1 => .op (chain n) .union (.rule .this)

theorem nest_chain (n : Nat) : Nest.tree (chain n) = 2 * n + 3 := by
  induction n with
  | zero => rfl
  | succ n ih =>
    simp only [chain, Nest.tree, ih, Nest.rule]
    omega

theorem encTree_chain_length (n : Nat) (h : n < 2 ^ 40) : (encTree (chain n)).length ≤ 64 * n + 10 := by
  induction n with
  | zero => simp [chain, encTree, encRule, encFields, encField, encVarint]
  | succ n ih =>
    have ih := ih (by omega)
    have hc : isNil (chain n) = false := by cases n <;> rfl
    have e3 := encField_length (n := 1) (by omega) (encTree (chain n)) (by omega)
    have e1 := encField_length (n := 3) (by omega) (encTree (.rule .this)) (by simp [encTree, encRule, encFields, encField, encVarint])
    have e2 : (encTree (.rule .this)).length ≤ 10 := by simp [encTree, encRule, encFields, encField, encVarint]
    rw [chain, encTree, hc, show isNil (.rule .this) = false from rfl, show numField 2 (encOperator .union) = [] from rfl]
    simp only [Bool.false_eq_true, if_false, List.append_nil, List.cons_append, List.nil_append]
    have e4 : (encFields [(1, .bytes (encTree (chain n))), (3, .bytes (encTree (.rule .this)))]).length ≤ 64 * n + 10 + 42 := by
      simp only [encFields, List.length_append, List.append_nil]
      omega
    have e5 := encField_length (n := 1) (by omega) (encFields [(1, .bytes (encTree (chain n))), (3, .bytes (encTree (.rule .this)))]) (by omega)
    rw [encFields, encFields, List.append_nil]
    omega

/-- A policy with one relation, whose expression is the tree of `n` unions. -/
def deepPolicy (n : Nat) : Policy :=
  { id := "deep", name := "", description := "", attributes := [],
    resources := [{ name := "doc", description := "", relations := [
      { name := "viewer", description := "", relationExpression := some (.tree (chain n)), subjectRestriction := some .universalSet }] }] }

theorem nest_deep (n : Nat) (a : Bytes) (t : Timestamp) : Nest.policyRecord ⟨deepPolicy n, a, t⟩ = 2 * n + 8 := by
  simp [Nest.policyRecord, Nest.policy, Nest.resource, Nest.relation, deepPolicy, largest, optNest, Nest.expr, nest_chain,
    Nest.subjectRestriction]
  omega

theorem deep_small (n : Nat) (h : n < 2 ^ 40) : Small (encPolicyRecord ⟨deepPolicy n, [], 0⟩) := by
  have h0 := encTree_chain_length n h
  have h1 := encField_length (n := 2) (by omega) (encTree (chain n)) (by omega)
  have e1 : encExpr (.tree (chain n)) = encField (2, .bytes (encTree (chain n))) := by rw [encExpr, encFields, encFields, List.append_nil]
  rw [← e1] at h1
  have e2 : (encSubjectRestriction .universalSet).length ≤ 20 := by simp [encSubjectRestriction, encFields, encField, encVarint]
  have h2 := encField_length (n := 3) (by omega) (encExpr (.tree (chain n))) (by omega)
  have h3 := encField_length (n := 4) (by omega) (encSubjectRestriction .universalSet) (by omega)
  have u1 : (utf8 "viewer").length = 6 := by decide +kernel
  have u2 : (utf8 "doc").length = 3 := by decide +kernel
  have u3 : (utf8 "deep").length = 4 := by decide +kernel
  have v1 := encField_length (n := 1) (by omega) (utf8 "viewer") (by omega)
  have v2 := encField_length (n := 1) (by omega) (utf8 "doc") (by omega)
  have v3 := encField_length (n := 1) (by omega) (utf8 "deep") (by omega)
  have e3 : (encRelation ⟨"viewer", "", some (.tree (chain n)), some .universalSet⟩).length ≤ 64 * n + 200 := by
    simp only [encRelation, strField, msgField, reduceCtorEq, if_true, String.reduceEq, if_false, List.append_nil, List.cons_append, List.nil_append,
      encFields, List.length_append]
    omega
  generalize hr : encRelation ⟨"viewer", "", some (.tree (chain n)), some .universalSet⟩ = br at e3
  have h4 := encField_length (n := 3) (by omega) br (by omega)
  have e4 : (encResource ⟨"doc", "", [⟨"viewer", "", some (.tree (chain n)), some .universalSet⟩]⟩).length ≤ 64 * n + 300 := by
    simp only [encResource, strField, repField, reduceCtorEq, if_true, String.reduceEq, if_false, List.append_nil, List.cons_append, List.nil_append,
      encFields, List.length_append, List.map_cons, List.map_nil, hr]
    omega
  generalize hr : encResource ⟨"doc", "", [⟨"viewer", "", some (.tree (chain n)), some .universalSet⟩]⟩ = br at e4
  have h5 := encField_length (n := 4) (by omega) br (by omega)
  have e5 : (encPolicy (deepPolicy n)).length ≤ 64 * n + 400 := by
    simp only [encPolicy, deepPolicy, strField, repField, reduceCtorEq, if_true, String.reduceEq, if_false, List.append_nil, List.cons_append, List.nil_append,
      encFields, List.length_append, List.map_cons, List.map_nil, hr]
    omega
  have h6 := encField_length (n := 1) (by omega) (encPolicy (deepPolicy n)) (by omega)
  have h7 : (encTimestamp 0).length = 0 := by simp [encTimestamp, numField, encFields]
  have h8 := encField_length (n := 3) (by omega) (encTimestamp 0) (by omega)
  simp only [Small, encPolicyRecord, bytesField, if_true, List.append_nil, List.cons_append, List.nil_append, encFields, List.length_append]
  omega

theorem noNil_chain (n : Nat) : NoNil (chain n) := by
  induction n with
  | zero => trivial
  | succ n ih => exact ⟨ih, trivial⟩

theorem leaves_chain (n : Nat) : ∀ x ∈ leaves (chain n), x = .this := by
  induction n with
  | zero => simp [chain, leaves]
  | succ n ih =>
    intro x hx
    simp only [chain, leaves, List.mem_append, List.mem_singleton] at hx
    rcases hx with hx | hx
    · exact ih x hx
    · exact hx

end Zanzi.Wire
