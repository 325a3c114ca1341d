import Verif.Spec.Base64
import Verif.Lemmas.Quote
import Verif.Lemmas.ByteStore

/-
The encoder follows RFC 4648, and what follows for the texts.
-/

namespace Zanzi

open Spec Wire

theorem letterValue_b64 (v : Nat) : letterValue (b64Char v) = some (v % 64) := by
  have key : ∀ i : Fin 64, letterValue (b64Alphabet.getD i.val 'A') = some i.val := by decide +kernel
  exact key ⟨v % 64, Nat.mod_lt _ (by omega)⟩

theorem base64_of : ∀ bs : Bytes, Base64Of (base64 bs) bs
  | a :: b :: c :: rest => by
    obtain ⟨ls, vs, pad, zeros, h1, h2, h3, h4, h5, h6⟩ := base64_of rest
    have ha := a.toNat_lt; have hb := b.toNat_lt; have hc := c.toNat_lt
    generalize hv : a.toNat * 65536 + b.toNat * 256 + c.toNat = v
    refine ⟨b64Char (v / 262144) :: b64Char (v / 4096) :: b64Char (v / 64) :: b64Char v :: ls,
      v / 262144 % 64 :: v / 4096 % 64 :: v / 64 % 64 :: v % 64 :: vs, pad, zeros, ?_, ?_, ?_, h4, h5, ?_⟩
    · simp only [base64, hv, h1, List.cons_append]
    · simp only [List.map_cons, letterValue_b64, h2]
    · simp only [base64, List.length_cons]; omega
    · simp only [List.flatMap_cons, h6, List.append_assoc]
      simp only [← List.append_assoc]
      congr 2
      simp only [binary, List.cons_append, List.nil_append, List.cons.injEq, and_true, Nat.reducePow, Nat.div_one]
      omega
  | [a, b] => by
    have ha := a.toNat_lt; have hb := b.toNat_lt
    generalize hv : a.toNat * 65536 + b.toNat * 256 = v
    refine ⟨[b64Char (v / 262144), b64Char (v / 4096), b64Char (v / 64)], [v / 262144 % 64, v / 4096 % 64, v / 64 % 64], 1, 2, ?_, ?_, ?_, by omega, by omega, ?_⟩
    · simp only [base64, hv]; rfl
    · simp only [List.map_cons, letterValue_b64, List.map_nil]
    · simp only [base64, List.length_cons, List.length_nil]
    · simp only [List.flatMap_cons, List.flatMap_nil, binary, List.cons_append, List.nil_append, List.cons.injEq, and_true, Nat.reducePow, Nat.div_one, List.append_nil, List.replicate]
      omega
  | [a] => by
    have ha := a.toNat_lt
    generalize hv : a.toNat * 65536 = v
    refine ⟨[b64Char (v / 262144), b64Char (v / 4096)], [v / 262144 % 64, v / 4096 % 64], 2, 4, ?_, ?_, ?_, by omega, by omega, ?_⟩
    · simp only [base64, hv]; rfl
    · simp only [List.map_cons, letterValue_b64, List.map_nil]
    · simp only [base64, List.length_cons, List.length_nil]
    · simp only [List.flatMap_cons, List.flatMap_nil, binary, List.cons_append, List.nil_append, List.cons.injEq, and_true, Nat.reducePow, Nat.div_one, List.append_nil, List.replicate]
      omega
  | [] => ⟨[], [], 0, 0, rfl, rfl, rfl, by omega, by omega, rfl⟩

theorem binary_length (w n : Nat) : (binary w n).length = w := by
  induction w with
  | zero => rfl
  | succ w ih => rw [binary, List.length_cons, ih]

theorem flatMap_binary_length {α : Type} (w : Nat) (f : α → Nat) (l : List α) : (l.flatMap (fun x => binary w (f x))).length = w * l.length := by
  induction l with
  | nil => rfl
  | cons x l ih => rw [List.flatMap_cons, List.length_append, binary_length, ih, List.length_cons]; rw [Nat.mul_succ]; omega

theorem binary_inj {w m n : Nat} (hm : m < 2 ^ w) (hn : n < 2 ^ w) (h : binary w m = binary w n) : m = n := by
  suffices key : ∀ w, binary w m = binary w n → m % 2 ^ w = n % 2 ^ w by
    have := key w h
    rwa [Nat.mod_eq_of_lt hm, Nat.mod_eq_of_lt hn] at this
  intro w
  induction w with
  | zero => intro _; simp [Nat.mod_one]
  | succ w ih =>
    intro h
    rw [binary, binary] at h
    obtain ⟨h1, h2⟩ := List.cons.inj h
    rw [Nat.pow_succ, Nat.mod_mul, Nat.mod_mul, ih h2, h1]

theorem bytes_bits_inj : ∀ {b b' : Bytes}, b.flatMap (fun x => binary 8 x.toNat) = b'.flatMap (fun x => binary 8 x.toNat) → b = b'
  | [], [], _ => rfl
  | [], _ :: _, h => by
    have := congrArg List.length h
    rw [flatMap_binary_length, flatMap_binary_length] at this
    simp at this
  | _ :: _, [], h => by
    have := congrArg List.length h
    rw [flatMap_binary_length, flatMap_binary_length] at this
    simp at this
  | x :: b, y :: b', h => by
    rw [List.flatMap_cons, List.flatMap_cons] at h
    obtain ⟨h1, h2⟩ := List.append_inj h (by rw [binary_length, binary_length])
    have := binary_inj (w := 8) x.toNat_lt y.toNat_lt h1
    rw [UInt8.toNat_inj.1 this, bytes_bits_inj h2]

theorem letters_of {ls ls' : List Char} {vs vs' : List Nat} (h1 : ls.map letterValue = vs.map some) (h2 : ls'.map letterValue = vs'.map some) {p p' : Nat}
    (h : ls ++ List.replicate p '=' = ls' ++ List.replicate p' '=') : ls = ls' ∧ vs = vs' := by
  have hpad : letterValue '=' = none := by decide
  induction ls generalizing vs ls' vs' with
  | nil =>
    have hv : vs = [] := by cases vs with | nil => rfl | cons => cases h1
    cases ls' with
    | nil =>
      have hv' : vs' = [] := by cases vs' with | nil => rfl | cons => cases h2
      exact ⟨rfl, by rw [hv, hv']⟩
    | cons c ls' =>
      cases vs' with
      | nil => cases h2
      | cons v vs' =>
        have hc : c ∈ List.replicate p '=' := by
          rw [List.nil_append] at h
          rw [h]; simp
        rw [List.eq_of_mem_replicate hc, List.map_cons, hpad] at h2
        cases h2
  | cons c ls ih =>
    cases vs with
    | nil => cases h1
    | cons v vs =>
      cases ls' with
      | nil =>
        have hc : c ∈ List.replicate p' '=' := by
          rw [List.nil_append] at h
          rw [← h]; simp
        rw [List.eq_of_mem_replicate hc, List.map_cons, hpad] at h1
        cases h1
      | cons c' ls' =>
        cases vs' with
        | nil => cases h2
        | cons v' vs' =>
          rw [List.cons_append, List.cons_append] at h
          obtain ⟨rfl, h0⟩ := List.cons.inj h
          rw [List.map_cons, List.map_cons] at h1 h2
          obtain ⟨h3, h1⟩ := List.cons.inj h1
          obtain ⟨h4, h2⟩ := List.cons.inj h2
          obtain ⟨rfl, rfl⟩ := ih h1 h2 h0
          rw [h3] at h4
          exact ⟨rfl, by rw [Option.some.inj h4]⟩

/-- A text is base64 for one sequence of bytes at most. -/
theorem base64Of_bytes {t : List Char} {b b' : Bytes} (h : Base64Of t b) (h' : Base64Of t b') : b = b' := by
  obtain ⟨ls, vs, p, z, h1, h2, _, _, h5, h6⟩ := h
  obtain ⟨ls', vs', p', z', h1', h2', _, _, h5', h6'⟩ := h'
  obtain ⟨rfl, rfl⟩ := letters_of h2 h2' (h1.symm.trans h1')
  have e := h6.symm.trans h6'
  have hlen := congrArg List.length e
  rw [List.length_append, List.length_append, List.length_replicate, List.length_replicate, flatMap_binary_length 8 UInt8.toNat, flatMap_binary_length 8 UInt8.toNat] at hlen
  refine bytes_bits_inj (List.append_inj e ?_).1
  rw [flatMap_binary_length 8 UInt8.toNat, flatMap_binary_length 8 UInt8.toNat]
  omega

theorem base64_length : ∀ bs : Bytes, (base64 bs).length = 4 * ((bs.length + 2) / 3)
  | a :: b :: c :: rest => by
    simp only [base64, List.length_cons, base64_length rest]
    omega
  | [a, b] => by simp [base64]
  | [a] => by simp [base64]
  | [] => by simp [base64]

/-- The characters are letters of the alphabet and padding. -/
theorem base64_chars (bs : Bytes) : ∀ c ∈ base64 bs, c = '=' ∨ (letterValue c).isSome := by
  obtain ⟨ls, vs, p, z, h1, h2, _⟩ := base64_of bs
  rw [h1]
  intro c hc
  rcases List.mem_append.1 hc with hc | hc
  · right
    have := List.mem_map_of_mem (f := letterValue) hc
    rw [h2] at this
    obtain ⟨v, _, hv⟩ := List.mem_map.1 this
    rw [← hv]; rfl
  · exact .inl (List.eq_of_mem_replicate hc)

theorem hashText_inj {h h' : Nat} (hb : h < 2 ^ 256) (hb' : h' < 2 ^ 256) (e : hashText h = hashText h') : h = h' := by
  have e : base64 (encKey 32 h) = base64 (encKey 32 h') := String.ofList_inj.1 e
  have h1 := base64_of (encKey 32 h')
  rw [← e] at h1
  have := base64Of_bytes (base64_of (encKey 32 h)) h1
  exact encKey_inj (by simpa using hb) (by simpa using hb') this

theorem hashText_length (h : Nat) : (hashText h).length = 44 := by
  rw [hashText, String.length_ofList, base64_length, encKey_length]

theorem reads_hash (h : Nat) : Reads (dotWrap (hashText h)) (hashText h) := by
  have hc : ∀ c ∈ (hashText h).toList, c = '=' ∨ (letterValue c).isSome := by
    rw [hashText, String.toList_ofList]
    exact base64_chars _
  have hq : ∀ c ∈ (hashText h).toList, c ≠ '"' ∧ c ≠ '\\' := by
    intro c hm
    rcases hc c hm with rfl | h'
    · decide
    · exact ⟨fun e => absurd (e ▸ h') (by decide), fun e => absurd (e ▸ h') (by decide)⟩
  refine (reads_wrap_iff _).2 ⟨fun hm => (hq _ hm).1 rfl, ?_⟩
  generalize (hashText h).toList = cs at hq
  induction cs with
  | nil => rfl
  | cons c cs ih =>
    have hb := (hq c List.mem_cons_self).2
    rw [show midPair (c :: cs) = midPair cs by rw [midPair] <;> simp_all]
    exact ih (fun d h => hq d (List.mem_cons_of_mem _ h))

theorem reads_root : Reads DotId.root.dumped "root" := (reads_wrap_iff "root").2 ⟨by unfold QuoteFree; decide, by decide⟩

theorem dotWrap_inj {a b : String} (h : dotWrap a = dotWrap b) : a = b := by
  have := congrArg String.toList h
  simp only [dotWrap, String.toList_append, List.append_cancel_left_eq, List.append_cancel_right_eq] at this
  exact String.toList_inj.1 this

/-- Different vertices have different names. -/
theorem dumped_inj {d d' : DotId} (hd : ∀ h, d = .num h → h < 2 ^ 256) (hd' : ∀ h, d' = .num h → h < 2 ^ 256) (e : d.dumped = d'.dumped) : d = d' := by
  cases d with
  | root =>
    cases d' with
    | root => rfl
    | num h =>
      have := congrArg String.length (dotWrap_inj e)
      rw [hashText_length] at this
      exact absurd this (by decide)
  | num h =>
    cases d' with
    | root =>
      have := congrArg String.length (dotWrap_inj e)
      rw [hashText_length] at this
      exact absurd this (by decide)
    | num h' => rw [hashText_inj (hd h rfl) (hd' h' rfl) (dotWrap_inj e)]

end Zanzi
