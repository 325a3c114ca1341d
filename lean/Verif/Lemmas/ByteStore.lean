import Verif.Spec.ByteStore
import Verif.Lemmas.Wire
import Verif.Lemmas.Writes

/-
The engine on bytes acts as the engine on values (C72).
-/

namespace Zanzi.Wire

open Spec Prog

/-! ### Key order -/

theorem bytesLt_same (p a b : Bytes) : bytesLt (p ++ a) (p ++ b) = bytesLt a b := by
  induction p with
  | nil => rfl
  | cons x p ih => simp [bytesLt, ih]

theorem bytesLt_nil_ne {b : Bytes} (h : b ≠ []) : bytesLt [] b = true := by
  cases b with
  | nil => exact absurd rfl h
  | cons _ _ => rfl

theorem bytesLt_ne_nil (b : Bytes) : bytesLt b [] = false := by cases b <;> rfl

theorem ofNat_toNat {n : Nat} (h : n < 256) : (UInt8.ofNat n).toNat = n := by simp; omega

theorem bytesLt_cons_lt {a b : UInt8} (h : a.toNat < b.toNat) (x y : Bytes) : bytesLt (a :: x) (b :: y) = true := by
  simp [bytesLt, h]

theorem bytesLt_cons_gt {a b : UInt8} (h : b.toNat < a.toNat) (x y : Bytes) : bytesLt (a :: x) (b :: y) = false := by
  have h1 : ¬ a.toNat < b.toNat := by omega
  have h2 : a ≠ b := by rintro rfl; omega
  simp only [bytesLt, decide_eq_false h1, decide_eq_false h2, Bool.false_or, Bool.false_and]

theorem bytesLt_cons (a b : UInt8) (x y : Bytes) : bytesLt (a :: x) (b :: y) = true ↔ a.toNat < b.toNat ∨ (a.toNat = b.toNat ∧ bytesLt x y = true) := by
  simp [bytesLt, UInt8.toNat_inj]

/-- A smaller character is encoded by smaller bytes, whatever follows. -/
theorem utf8Char_lt {c d : Char} (h : c < d) (x y : Bytes) : bytesLt (String.utf8EncodeChar c ++ x) (String.utf8EncodeChar d ++ y) = true := by
  have h : c.val.toNat < d.val.toNat := h
  have hd : d.val.toNat < 1114112 := by
    have := d.valid
    unfold UInt32.isValidChar Nat.isValidChar at this
    omega
  unfold String.utf8EncodeChar
  generalize c.val.toNat = m at *
  generalize d.val.toNat = n at *
  dsimp only
  have e1 : m / 4096 = m / 64 / 64 := by rw [Nat.div_div_eq_div_mul]
  have e2 : m / 262144 = m / 64 / 64 / 64 := by rw [Nat.div_div_eq_div_mul, Nat.div_div_eq_div_mul]
  have e3 : n / 4096 = n / 64 / 64 := by rw [Nat.div_div_eq_div_mul]
  have e4 : n / 262144 = n / 64 / 64 / 64 := by rw [Nat.div_div_eq_div_mul, Nat.div_div_eq_div_mul]
  rw [e1, e2, e3, e4]
  split <;> split <;> (try split) <;> (try split) <;> (try split) <;> (try split) <;>
    simp (disch := omega) only [List.cons_append, List.nil_append, bytesLt_cons, ofNat_toNat] <;> first | omega | skip
  by_cases h3 : m / 64 / 64 / 64 = n / 64 / 64 / 64
  · by_cases h2 : m / 64 / 64 = n / 64 / 64
    · by_cases h1 : m / 64 = n / 64
      · omega
      · omega
    · omega
  · have k1 : m / 64 / 64 / 64 < 8 := by omega
    have k2 : n / 64 / 64 / 64 < 8 := by omega
    rw [Nat.mod_eq_of_lt k1, Nat.mod_eq_of_lt k2]
    have k3 : m / 64 / 64 / 64 ≤ n / 64 / 64 / 64 :=
      Nat.div_le_div_right (Nat.div_le_div_right (Nat.div_le_div_right (Nat.le_of_lt h)))
    exact .inl (by omega)

theorem bytesLt_asymm (a b : Bytes) (h : bytesLt a b = true) : bytesLt b a = false := by
  induction a generalizing b with
  | nil => exact bytesLt_ne_nil b
  | cons x a ih =>
    cases b with
    | nil => cases h
    | cons y b =>
      rcases (bytesLt_cons ..).1 h with h | ⟨h1, h2⟩
      · exact bytesLt_cons_gt h ..
      · rw [Bool.eq_false_iff]
        intro h3
        rcases (bytesLt_cons ..).1 h3 with h3 | ⟨-, h3⟩
        · omega
        · rw [ih b h2] at h3
          cases h3

theorem utf8_flatMap (s : String) : utf8 s = s.toList.flatMap String.utf8EncodeChar := by
  rw [utf8, ← String.utf8Encode_toList, List.utf8Encode, List.data_toByteArray]

theorem chars_lt (a b : List Char) : bytesLt (a.flatMap String.utf8EncodeChar) (b.flatMap String.utf8EncodeChar) = decide (a < b) := by
  induction a generalizing b with
  | nil =>
    cases b with
    | nil => rfl
    | cons d b =>
      rw [List.flatMap_nil, bytesLt_nil_ne (by simp [String.utf8EncodeChar_ne_nil])]
      simp
  | cons c a ih =>
    cases b with
    | nil =>
      rw [List.flatMap_nil, bytesLt_ne_nil]
      simp
    | cons d b =>
      rw [List.flatMap_cons, List.flatMap_cons]
      by_cases h1 : c = d
      · subst h1
        rw [bytesLt_same, ih]
        simp [List.cons_lt_cons_iff]
      · by_cases h2 : c < d
        · rw [utf8Char_lt h2]
          simp [List.cons_lt_cons_iff, h2]
        · have h3 : d < c := by
            rcases Nat.lt_trichotomy c.val.toNat d.val.toNat with h | h | h
            · exact absurd h h2
            · exact absurd (Char.ext (UInt32.toNat_inj.1 h)) h1
            · exact h
          rw [bytesLt_asymm _ _ (utf8Char_lt h3 ..)]
          simp [List.cons_lt_cons_iff, h1, h2]

/-- Policy ids are ordered as their bytes. -/
theorem utf8_lt (a b : String) : bytesLt (utf8 a) (utf8 b) = strLt a b := by
  rw [utf8_flatMap, utf8_flatMap, chars_lt]
  rfl

theorem utf8_inj {a b : String} (h : utf8 a = utf8 b) : a = b := by
  have h1 := ofUtf8_utf8 a
  rw [h, ofUtf8_utf8] at h1
  exact (Option.some.inj h1).symm

theorem bytesLt_append {a b x y : Bytes} (hl : a.length = b.length) :
    bytesLt (a ++ x) (b ++ y) = (bytesLt a b || (decide (a = b) && bytesLt x y)) := by
  induction a generalizing b with
  | nil =>
    cases b with
    | nil => simp [bytesLt]
    | cons _ _ => simp at hl
  | cons c a ih =>
    cases b with
    | nil => simp at hl
    | cons d b =>
      rw [List.cons_append, List.cons_append, bytesLt, bytesLt, ih (by simpa using hl)]
      by_cases h : c = d
      · subst h; simp
      · simp [h]

theorem encKey_inj {n k k' : Nat} (h : k < 256 ^ n) (h' : k' < 256 ^ n) (he : encKey n k = encKey n k') : k = k' := by
  rw [← decKey_enc n k h, ← decKey_enc n k' h', he]

theorem encKey_lt (n k k' : Nat) (h : k < 256 ^ n) (h' : k' < 256 ^ n) : bytesLt (encKey n k) (encKey n k') = decide (k < k') := by
  induction n generalizing k k' with
  | zero =>
    have : k = 0 := by simpa using h
    have : k' = 0 := by simpa using h'
    subst_vars
    rfl
  | succ n ih =>
    have e : 256 ^ (n + 1) = 256 ^ n * 256 := Nat.pow_succ ..
    have h1 : k / 256 < 256 ^ n := by omega
    have h2 : k' / 256 < 256 ^ n := by omega
    rw [encKey, encKey, bytesLt_append (by rw [encKey_length, encKey_length]), ih _ _ h1 h2]
    have e1 : bytesLt [UInt8.ofNat (k % 256)] [UInt8.ofNat (k' % 256)] = decide (k % 256 < k' % 256) := by
      simp [bytesLt]
    have e2 : decide (encKey n (k / 256) = encKey n (k' / 256)) = decide (k / 256 = k' / 256) :=
      decide_eq_decide.2 ⟨encKey_inj h1 h2, fun h => by rw [h]⟩
    rw [e1, e2, Bool.eq_iff_iff]
    simp only [Bool.or_eq_true, Bool.and_eq_true, decide_eq_true_eq]
    omega

/-- Keys of relationships are ordered as their bytes. -/
theorem encEdgeKey_lt {a b : EdgeKey} (ha : a.1 < 2 ^ 256 ∧ a.2 < 2 ^ 256) (hb : b.1 < 2 ^ 256 ∧ b.2 < 2 ^ 256) :
    bytesLt (encEdgeKey a) (encEdgeKey b) = edgeLt a b := by
  have e : (256 : Nat) ^ 32 = 2 ^ 256 := by decide
  rw [encEdgeKey, encEdgeKey, bytesLt_append (by rw [encKey_length, encKey_length]), encKey_lt _ _ _ (by omega) (by omega),
    encKey_lt _ _ _ (by omega) (by omega), edgeLt]
  have e2 : decide (encKey 32 a.1 = encKey 32 b.1) = decide (a.1 = b.1) :=
    decide_eq_decide.2 ⟨encKey_inj (by omega) (by omega), fun h => by rw [h]⟩
  rw [e2]

theorem encEdgeKey_inj {a b : EdgeKey} (ha : a.1 < 2 ^ 256 ∧ a.2 < 2 ^ 256) (hb : b.1 < 2 ^ 256 ∧ b.2 < 2 ^ 256)
    (h : encEdgeKey a = encEdgeKey b) : a = b := by
  rw [← decEdgeKey_enc a ha.1 ha.2, ← decEdgeKey_enc b hb.1 hb.2, h]

/-! ### Encoded maps -/

section
variable {K V : Type} [DecidableEq K] {P : K → Prop} {f : K → Bytes} {g : V → Bytes} {m : List (K × V)} {k : K} {v : V} {lt : K → K → Bool}

/-- The map with keys and values encoded. -/
def encMap (f : K → Bytes) (g : V → Bytes) (m : List (K × V)) : List (Bytes × Bytes) := m.map (fun p => (f p.1, g p.2))

theorem kvGet_enc (hf : ∀ a b, P a → P b → f a = f b → a = b) (hm : ∀ p ∈ m, P p.1) (hk : P k) :
    kvGet (encMap f g m) (f k) = (kvGet m k).map g := by
  induction m with
  | nil => rfl
  | cons p m ih =>
    obtain ⟨k', v'⟩ := p
    have ih := ih (fun p hp => hm p (List.mem_cons_of_mem _ hp))
    have hk' := hm (k', v') (List.mem_cons_self ..)
    show (if f k' = f k then some (g v') else kvGet (encMap f g m) (f k)) = _
    rw [kvGet]
    by_cases h : k' = k
    · rw [if_pos (by rw [h]), if_pos h]; rfl
    · rw [if_neg (fun e => h (hf _ _ hk' hk e)), if_neg h, ih]

theorem kvInsert_enc (hlt : ∀ a b, P a → P b → bytesLt (f a) (f b) = lt a b) (hm : ∀ p ∈ m, P p.1) (hk : P k) :
    kvInsert bytesLt (encMap f g m) (f k) (g v) = encMap f g (kvInsert lt m k v) := by
  induction m with
  | nil => rfl
  | cons p m ih =>
    obtain ⟨k', v'⟩ := p
    have ih := ih (fun p hp => hm p (List.mem_cons_of_mem _ hp))
    show (if bytesLt (f k) (f k') = true then _ else _) = _
    rw [kvInsert, hlt _ _ hk (hm (k', v') (List.mem_cons_self ..))]
    split
    · rfl
    · show _ :: kvInsert bytesLt (encMap f g m) (f k) (g v) = _
      rw [ih]
      rfl

theorem kvPut_enc (hf : ∀ a b, P a → P b → f a = f b → a = b) (hlt : ∀ a b, P a → P b → bytesLt (f a) (f b) = lt a b)
    (hm : ∀ p ∈ m, P p.1) (hk : P k) : kvPut bytesLt (encMap f g m) (f k) (g v) = encMap f g (kvPut lt m k v) := by
  unfold kvPut
  rw [kvGet_enc hf hm hk, Option.isSome_map, kvInsert_enc hlt hm hk]
  split
  · rw [encMap, encMap, List.map_map, List.map_map]
    apply List.map_congr_left
    intro p hp
    dsimp only [Function.comp]
    by_cases h : p.1 = k
    · rw [if_pos h, if_pos (by rw [h])]
    · rw [if_neg h, if_neg (fun e => h (hf _ _ (hm p hp) hk e))]
  · rfl

theorem kvDel_enc (hf : ∀ a b, P a → P b → f a = f b → a = b) (hm : ∀ p ∈ m, P p.1) (hk : P k) :
    kvDel (encMap f g m) (f k) = encMap f g (kvDel m k) := by
  unfold kvDel encMap
  rw [List.filter_map]
  congr 1
  apply List.filter_congr
  intro p hp
  exact decide_eq_decide.2 (not_congr ⟨hf _ _ (hm p hp) hk, fun h => by dsimp only; rw [h]⟩)

end


/-! ### Storage calls -/

/-- A key of two hashes. -/
def KeyFits (k : EdgeKey) : Prop := k.1 < 2 ^ 256 ∧ k.2 < 2 ^ 256

/-- The record can be read back. -/
def RecordFits (limit : Nat) (rec : PolicyRecord) : Prop := decPolicyRecord limit (encPolicyRecord rec) = some rec ∧ ClockOK rec.createdAt

/-- Everything stored can be read back. -/
structure StoreFits (limit : Nat) (s : Store) : Prop where
  pol : ∀ p ∈ s.policies, RecordFits limit p.2
  edge : ∀ pid, ∀ p ∈ s.edges pid, KeyFits p.1 ∧ decIRel limit (encIRel p.2) = some p.2
  data : ∀ p ∈ s.data, KeyFits p.1 ∧ decRelData limit (encRelData p.2) = some p.2 ∧ ClockOK p.2.createdAt

/-- What the storage call writes can be read back, and its keys are hashes. -/
def OpFits (limit : Nat) : Op → Prop
  | .polSet rec => RecordFits limit rec
  | .edgeSet _ k r => KeyFits k ∧ decIRel limit (encIRel r) = some r
  | .edgeGet _ k | .edgeDel _ k | .dataGet k | .dataDel k => KeyFits k
  | .edgeSucc _ n => n < 2 ^ 256
  | .dataSet d => KeyFits d.relationshipId ∧ decRelData limit (encRelData d) = some d ∧ ClockOK d.createdAt
  | .polHas _ | .polGet _ | .polDel _ | .polList | .edgeList _ => True

theorem exec_fits {limit : Nat} {s : Store} {op : Op} (hs : StoreFits limit s) (ho : OpFits limit op) : StoreFits limit (op.exec s).2 := by
  have hedges : ∀ (m : List (EdgeKey × IRel)) (q : String), (∀ p ∈ m, KeyFits p.1 ∧ decIRel limit (encIRel p.2) = some p.2) →
      StoreFits limit (s.setEdges q m) := by
    intro m q hm
    refine ⟨hs.pol, fun pid p hp => ?_, hs.data⟩
    rw [setEdges_edges] at hp
    split at hp
    · exact hm p hp
    · exact hs.edge pid p hp
  cases op with
  | polSet rec =>
    refine ⟨fun p hp => ?_, hs.edge, hs.data⟩
    rcases kvPut_mem hp with rfl | hp
    · exact ho
    · exact hs.pol p hp
  | polDel id => exact ⟨fun p hp => hs.pol p (kvDel_mem hp), hs.edge, hs.data⟩
  | edgeSet q k r =>
    refine hedges _ q (fun p hp => ?_)
    rcases kvPut_mem hp with rfl | hp
    · exact ho
    · exact hs.edge q p hp
  | edgeDel q k => exact hedges _ q (fun p hp => hs.edge q p (kvDel_mem hp))
  | dataSet d =>
    refine ⟨hs.pol, hs.edge, fun p hp => ?_⟩
    rcases kvPut_mem hp with rfl | hp
    · exact ho
    · exact hs.data p hp
  | dataDel k => exact ⟨hs.pol, hs.edge, fun p hp => hs.data p (kvDel_mem hp)⟩
  | polHas | polGet | polList | edgeGet | edgeList | edgeSucc | dataGet => exact hs

theorem getObject_enc {K V : Type} [DecidableEq K] {P : K → Prop} {f : K → Bytes} {g : V → Bytes} {dec : Bytes → Option V} {m : List (K × V)} {k : K}
    (hf : ∀ a b, P a → P b → f a = f b → a = b) (hm : ∀ p ∈ m, P p.1) (hk : P k) (hd : ∀ p ∈ m, dec (g p.2) = some p.2) :
    getObject dec (encMap f g m) (f k) = some (kvGet m k) := by
  rw [getObject, kvGet_enc hf hm hk]
  cases h : kvGet m k with
  | none => rfl
  | some v =>
    show (dec (g v)).map some = _
    rw [hd (k, v) (kvGet_mem h)]
    rfl

theorem allSome_map {α β γ : Type} {f : β → Option γ} {g : α → β} {h : α → γ} {l : List α} (hl : ∀ a ∈ l, f (g a) = some (h a)) :
    allSome f (l.map g) = some (l.map h) := by
  induction l with
  | nil => rfl
  | cons a l ih =>
    rw [List.map_cons, allSome, hl a (List.mem_cons_self ..), ih (fun b hb => hl b (List.mem_cons_of_mem _ hb))]
    rfl

theorem encStore_setEdges (s : Store) (q : String) (m : List (EdgeKey × IRel)) :
    encStore (s.setEdges q m) = (encStore s).setEdges q (encMap encEdgeKey encIRel m) := by
  unfold encStore BStore.setEdges Store.setEdges encMap
  congr 1
  funext pid
  dsimp only
  split <;> rfl

/-- A storage call on bytes answers and acts as on values. -/
theorem exec_sim {limit : Nat} {s : Store} {op : Op} (hs : StoreFits limit s) (ho : OpFits limit op) :
    execB limit op (encStore s) = (some (op.exec s).1, encStore (op.exec s).2) := by
  have u : ∀ a b : String, True → True → utf8 a = utf8 b → a = b := fun _ _ _ _ => utf8_inj
  have ul : ∀ a b : String, True → True → bytesLt (utf8 a) (utf8 b) = strLt a b := fun a b _ _ => utf8_lt a b
  have e : ∀ a b : EdgeKey, KeyFits a → KeyFits b → encEdgeKey a = encEdgeKey b → a = b := fun _ _ => encEdgeKey_inj
  have el : ∀ a b : EdgeKey, KeyFits a → KeyFits b → bytesLt (encEdgeKey a) (encEdgeKey b) = edgeLt a b := fun _ _ => encEdgeKey_lt
  have ep : (encStore s).policies = encMap utf8 encPolicyRecord s.policies := rfl
  have ee : ∀ q, (encStore s).edges q = encMap encEdgeKey encIRel (s.edges q) := fun _ => rfl
  have ed : (encStore s).data = encMap encEdgeKey encRelData s.data := rfl
  cases op with
  | polHas id =>
    simp only [execB, Op.exec, ep]
    rw [kvGet_enc u (fun _ _ => trivial) trivial, Option.isSome_map]
  | polGet id =>
    simp only [execB, Op.exec, ep]
    rw [getObject_enc u (fun _ _ => trivial) trivial (fun p hp => (hs.pol p hp).1)]
    rfl
  | polSet rec =>
    simp only [execB, Op.exec, ep]
    rw [kvPut_enc u ul (fun _ _ => trivial) trivial]
    rfl
  | polDel id =>
    simp only [execB, Op.exec, ep]
    rw [kvDel_enc u (fun _ _ => trivial) trivial]
    rfl
  | polList =>
    simp only [execB, Op.exec, ep]
    rw [encMap, allSome_map (h := (·.1)) (fun p _ => ofUtf8_utf8 p.1)]
    rfl
  | edgeGet q k =>
    simp only [execB, Op.exec, ee]
    rw [getObject_enc e (fun p hp => (hs.edge q p hp).1) ho (fun p hp => (hs.edge q p hp).2)]
    rfl
  | edgeSet q k r =>
    simp only [execB, Op.exec, ee]
    rw [kvPut_enc e el (fun p hp => (hs.edge q p hp).1) ho.1, encStore_setEdges]
  | edgeDel q k =>
    simp only [execB, Op.exec, ee]
    rw [kvDel_enc e (fun p hp => (hs.edge q p hp).1) ho, encStore_setEdges]
  | edgeList q =>
    simp only [execB, Op.exec, ee]
    rw [encMap, allSome_map (f := fun p : Bytes × Bytes => decIRel limit p.2) (h := (·.2)) (fun p hp => (hs.edge q p hp).2)]
    rfl
  | edgeSucc q n =>
    have h32 : (256 : Nat) ^ 32 = 2 ^ 256 := by decide
    simp only [execB, Op.exec, ee]
    rw [encMap, List.filter_map, List.filter_congr (q := fun p => decide (p.1.1 = n)), allSome_map (h := (·.2))]
    · rfl
    · intro p hp
      exact (hs.edge q p (List.mem_filter.1 hp).1).2
    · intro p hp
      have hk := (hs.edge q p hp).1.1
      have ho : n < 2 ^ 256 := ho
      dsimp only [Function.comp]
      refine decide_eq_decide.2 ?_
      rw [encEdgeKey, List.take_left' (encKey_length _ _)]
      exact ⟨encKey_inj (by omega) (by omega), fun h => by rw [h]⟩
  | dataGet k =>
    simp only [execB, Op.exec, ed]
    rw [getObject_enc e (fun p hp => (hs.data p hp).1) ho (fun p hp => (hs.data p hp).2.1)]
    rfl
  | dataSet d =>
    simp only [execB, Op.exec, ed]
    rw [kvPut_enc e el (fun p hp => (hs.data p hp).1) ho.1]
    rfl
  | dataDel k =>
    simp only [execB, Op.exec, ed]
    rw [kvDel_enc e (fun p hp => (hs.data p hp).1) ho]
    rfl

end Zanzi.Wire
