import Verif.Model.Lexer
import Verif.Spec.Grammar

/- Helper lemmas about the lexer: fuel is irrelevant, and lexing inverts rendering. -/

namespace Zanzi
open Spec

/-- The lexer's white space is Unicode's. -/
theorem isSpace_white : isSpace = whiteSpace := by
  funext c
  rw [Bool.eq_iff_iff]
  have hv : ∀ d : Char, c = d ↔ c.val.toNat = d.val.toNat := fun d =>
    ⟨fun h => h ▸ rfl, fun h => Char.ext (UInt32.toNat_inj.1 h)⟩
  simp only [isSpace, whiteSpace, List.mem_cons, List.not_mem_nil, or_false, decide_eq_true_eq, Bool.or_eq_true, Bool.and_eq_true, beq_iff_eq, hv]
  generalize c.val.toNat = v
  show _ ↔ (v = 0x09 ∨ v = 0x0A ∨ v = 0x0B ∨ v = 0x0C ∨ v = 0x0D ∨ v = 0x20 ∨ v = 0x85 ∨ v = 0xA0 ∨ v = 0x1680 ∨ v = 0x2000 ∨ v = 0x2001 ∨ v = 0x2002 ∨ v = 0x2003 ∨
    v = 0x2004 ∨ v = 0x2005 ∨ v = 0x2006 ∨ v = 0x2007 ∨ v = 0x2008 ∨ v = 0x2009 ∨ v = 0x200A ∨ v = 0x2028 ∨ v = 0x2029 ∨ v = 0x202F ∨ v = 0x205F ∨ v = 0x3000)
  omega

theorem mem_takeWhile_imp' {p : Char → Bool} {l : List Char} {c : Char} (h : c ∈ l.takeWhile p) : p c = true := by
  induction l with
  | nil => simp at h
  | cons a l ih =>
    by_cases ha : p a = true
    · simp [ha] at h
      rcases h with rfl | h
      · exact ha
      · exact ih h
    · simp [ha] at h

theorem consumeString_eq (p cs r : List Char) : consumeString p cs = some r ↔ cs = p ++ r := by
  induction p generalizing cs with
  | nil => simp [consumeString, eq_comm]
  | cons a p ih =>
    cases cs with
    | nil => simp [consumeString]
    | cons c cs =>
      by_cases h : c = a
      · simp [consumeString, h, ih]
      · simp [consumeString, h]

theorem consumeString_none (p cs : List Char) : consumeString p cs = none ↔ ¬ p <+: cs := by
  constructor
  · rintro h ⟨r, rfl⟩
    have := (consumeString_eq p (p ++ r) r).2 rfl
    simp [h] at this
  · intro h
    cases hc : consumeString p cs with
    | none => rfl
    | some r => exact absurd ⟨r, ((consumeString_eq p cs r).1 hc).symm⟩ h

/-- token emitted for a symbol -/
def tokOf : Sym → Token
  | .lp => ⟨.groupBegin, "("⟩
  | .rp => ⟨.groupEnd, ")"⟩
  | .arrow => ⟨.arrow, "->"⟩
  | .plus => ⟨.union, "+"⟩
  | .minus => ⟨.difference, "-"⟩
  | .amp => ⟨.intersection, "&"⟩
  | .this => ⟨.this, "_this"⟩
  | .ident n => ⟨.identifier, String.ofList n⟩

theorem tokOf_inj {a b : Sym} (h : tokOf a = tokOf b) : a = b := by
  cases a <;> cases b <;> simp [tokOf] at h ⊢
  · exact String.ofList_injective h

theorem lexTerminals_sound {cs : List Char} {t : Token} {rest : List Char}
    (h : lexTerminals cs terminals = some (t, rest)) :
    ∃ s : Sym, (∀ n, s ≠ .ident n) ∧ t = tokOf s ∧ cs = s.spell ++ rest ∧ (s = .minus → rest.head? ≠ some '>') := by
  simp only [lexTerminals, terminals] at h
  split at h
  next r hr =>
    obtain ⟨rfl, rfl⟩ := by simpa using h
    exact ⟨.lp, by simp, rfl, by simpa [Sym.spell] using (consumeString_eq _ _ _).1 hr, by simp⟩
  next =>
  split at h
  next r hr =>
    obtain ⟨rfl, rfl⟩ := by simpa using h
    exact ⟨.rp, by simp, rfl, by simpa [Sym.spell] using (consumeString_eq _ _ _).1 hr, by simp⟩
  next =>
  split at h
  next r hr =>
    obtain ⟨rfl, rfl⟩ := by simpa using h
    exact ⟨.arrow, by simp, rfl, by simpa [Sym.spell] using (consumeString_eq _ _ _).1 hr, by simp⟩
  next hna =>
  split at h
  next r hr =>
    obtain ⟨rfl, rfl⟩ := by simpa using h
    exact ⟨.plus, by simp, rfl, by simpa [Sym.spell] using (consumeString_eq _ _ _).1 hr, by simp⟩
  next =>
  split at h
  next r hr =>
    obtain ⟨rfl, rfl⟩ := by simpa using h
    have e := (consumeString_eq _ _ _).1 hr
    refine ⟨.minus, by simp, rfl, by simpa [Sym.spell] using e, ?_⟩
    intro _ hh
    apply (consumeString_none _ _).1 hna
    cases r with
    | nil => simp at hh
    | cons c r =>
      simp at hh
      subst hh
      exact ⟨r, by simpa using e.symm⟩
  next =>
  split at h
  next r hr =>
    obtain ⟨rfl, rfl⟩ := by simpa using h
    exact ⟨.amp, by simp, rfl, by simpa [Sym.spell] using (consumeString_eq _ _ _).1 hr, by simp⟩
  next =>
  split at h
  next r hr =>
    obtain ⟨rfl, rfl⟩ := by simpa using h
    exact ⟨.this, by simp, rfl, by simpa [Sym.spell] using (consumeString_eq _ _ _).1 hr, by simp⟩
  next => simp at h

theorem lexTerminals_none {cs : List Char} (h : lexTerminals cs terminals = none) :
    ∀ s : Sym, (∀ n, s ≠ .ident n) → ¬ s.spell <+: cs := by
  simp only [lexTerminals, terminals] at h
  split at h
  · simp at h
  next h1 =>
  split at h
  · simp at h
  next h2 =>
  split at h
  · simp at h
  next h3 =>
  split at h
  · simp at h
  next h4 =>
  split at h
  · simp at h
  next h5 =>
  split at h
  · simp at h
  next h6 =>
  split at h
  · simp at h
  next h7 =>
  rw [consumeString_none] at h1 h2 h3 h4 h5 h6 h7
  intro s hs
  cases s with
  | lp => simpa [Sym.spell] using h1
  | rp => simpa [Sym.spell] using h2
  | arrow => simpa [Sym.spell] using h3
  | plus => simpa [Sym.spell] using h4
  | minus => simpa [Sym.spell] using h5
  | amp => simpa [Sym.spell] using h6
  | this => simpa [Sym.spell] using h7
  | ident n => exact absurd rfl (hs n)

/-- `lexTerminals` on the spelling of a terminal. -/
theorem lexTerminals_spell (s : Sym) (hs : ∀ n, s ≠ .ident n) (rest : List Char)
    (hm : s = .minus → rest.head? ≠ some '>') :
    lexTerminals (s.spell ++ rest) terminals = some (tokOf s, rest) := by
  cases s with
  | ident n => exact absurd rfl (hs n)
  | minus =>
    have hm := hm rfl
    cases rest with
    | nil => simp [lexTerminals, terminals, Sym.spell, consumeString, tokOf]
    | cons c r =>
      have : c ≠ '>' := by simpa using hm
      simp [lexTerminals, terminals, Sym.spell, consumeString, tokOf, this]
  | _ => simp [lexTerminals, terminals, Sym.spell, consumeString, tokOf]

/-- characters that start a terminal are not white space -/
theorem spell_head_not_space (s : Sym) (hs : ∀ n, s ≠ .ident n) :
    ∃ c r, s.spell = c :: r ∧ isSpace c = false := by
  cases s with
  | ident n => exact absurd rfl (hs n)
  | lp => exact ⟨_, _, rfl, by decide⟩
  | rp => exact ⟨_, _, rfl, by decide⟩
  | arrow => exact ⟨_, _, rfl, by decide⟩
  | plus => exact ⟨_, _, rfl, by decide⟩
  | minus => exact ⟨_, _, rfl, by decide⟩
  | amp => exact ⟨_, _, rfl, by decide⟩
  | this => exact ⟨_, _, rfl, by decide⟩

theorem ident_not_space (U : Unicode) {c : Char} (h : U.isIdent c = true) : isSpace c = false := by
  unfold Unicode.isIdent at h
  split at h
  next hv =>
    rcases (Bool.or_eq_true _ _).mp h with h | h
    · simp only [isLatin1Alnum, Bool.or_eq_true, Bool.and_eq_true, decide_eq_true_eq, beq_iff_eq] at h
      simp only [isSpace, Bool.or_eq_false_iff, Bool.and_eq_false_iff, decide_eq_false_iff_not, beq_eq_false_iff_ne]
      omega
    · have : c = '_' := by simpa using h
      subst this; decide
  next hv =>
    cases hs : isSpace c with
    | false => rfl
    | true => simp [U.hi_not_space c hs] at h

/-- characters starting an operator, parenthesis or arrow are not identifier characters -/
theorem not_ident_punct (U : Unicode) : U.isIdent '(' = false ∧ U.isIdent ')' = false ∧
    U.isIdent '-' = false ∧ U.isIdent '+' = false ∧ U.isIdent '&' = false ∧ U.isIdent ' ' = false := by
  simp [Unicode.isIdent, isLatin1Alnum]

theorem not_prefix_ident (U : Unicode) {n : List Char} (h : IdentOK U.isIdent n) (rest : List Char)
    (hf : ∀ c, rest.head? = some c → U.isIdent c = false) :
    lexTerminals (n ++ rest) terminals = none := by
  obtain ⟨hne, hall, hthis⟩ := h
  cases n with
  | nil => simp at hne
  | cons c n =>
    have hc : U.isIdent c = true := hall c (by simp)
    obtain ⟨p1, p2, p3, p4, p5, _⟩ := not_ident_punct U
    have e1 : c ≠ '(' := by rintro rfl; simp [p1] at hc
    have e2 : c ≠ ')' := by rintro rfl; simp [p2] at hc
    have e3 : c ≠ '-' := by rintro rfl; simp [p3] at hc
    have e4 : c ≠ '+' := by rintro rfl; simp [p4] at hc
    have e5 : c ≠ '&' := by rintro rfl; simp [p5] at hc
    have ht : consumeString "_this".toList (c :: n ++ rest) = none := by
      rw [consumeString_none]
      rintro ⟨r, hr⟩
      apply hthis
      have hr : ['_', 't', 'h', 'i', 's'] ++ r = (c :: n) ++ rest := by simpa using hr
      rcases List.append_eq_append_iff.1 hr with ⟨a, ha, hb⟩ | ⟨a, ha, hb⟩
      · exact ⟨a, ha.symm⟩
      · -- identifier is a proper prefix of the keyword, next character is an identifier character
        cases a with
        | nil => exact ⟨[], by simpa using ha⟩
        | cons d a =>
          exfalso
          have hd : U.isIdent d = false := hf d (by simp [hb])
          have hmem : d ∈ ['_', 't', 'h', 'i', 's'] := by rw [ha]; simp
          simp at hmem
          rcases hmem with rfl | rfl | rfl | rfl | rfl <;> simp [Unicode.isIdent, isLatin1Alnum] at hd
    simp only [List.cons_append] at ht ⊢
    simp only [lexTerminals, terminals, ht]
    simp [consumeString, e1, e2, e3, e4, e5]

theorem takeWhile_ident (f : Char → Bool) {n rest : List Char} (hall : ∀ c ∈ n, f c = true)
    (hf : ∀ c, rest.head? = some c → f c = false) :
    (n ++ rest).takeWhile f = n ∧ (n ++ rest).dropWhile f = rest := by
  induction n with
  | nil =>
    cases rest with
    | nil => simp
    | cons c r => simp [hf c rfl]
  | cons c n ih =>
    have := ih (fun d hd => hall d (by simp [hd]))
    simp [hall c (by simp), this]

theorem lexStep_ident (U : Unicode) {n rest : List Char} (h : IdentOK U.isIdent n)
    (hf : ∀ c, rest.head? = some c → U.isIdent c = false) :
    lexStep U (n ++ rest) = .emit ⟨.identifier, String.ofList n⟩ rest := by
  have ht := takeWhile_ident U.isIdent h.2.1 hf
  unfold lexStep
  rw [not_prefix_ident U h rest hf]
  have : 0 < n.length := List.length_pos_iff.2 h.1
  simp [ht, this]

theorem lexStep_term (U : Unicode) (s : Sym) (hs : ∀ n, s ≠ .ident n) (rest : List Char)
    (hm : s = .minus → rest.head? ≠ some '>') :
    lexStep U (s.spell ++ rest) = .emit (tokOf s) rest := by
  unfold lexStep
  rw [lexTerminals_spell s hs rest hm]

theorem lexStep_sym (U : Unicode) (s : Sym) (rest : List Char)
    (hi : ∀ n, s = .ident n → IdentOK U.isIdent n) (hf : Follows U.isIdent s rest) :
    lexStep U (s.spell ++ rest) = .emit (tokOf s) rest := by
  cases s with
  | ident n => exact lexStep_ident U (hi n rfl) hf
  | minus => exact lexStep_term U _ (by simp) rest (fun _ => hf)
  | _ => exact lexStep_term U _ (by simp) rest (by simp)

theorem spell_pos {s : Sym} {f : Char → Bool} (hi : ∀ n, s = .ident n → IdentOK f n) : 0 < s.spell.length := by
  cases s with
  | ident n => exact List.length_pos_iff.2 (hi n rfl).1
  | _ => simp [Sym.spell]

theorem lexStep_space (U : Unicode) {c : Char} {r : List Char} (hc : isSpace c = true) :
    lexStep U (c :: r) = .skip ((c :: r).dropWhile isSpace) := by
  have hnot : lexTerminals (c :: r) terminals = none := by
    cases h : lexTerminals (c :: r) terminals with
    | none => rfl
    | some p =>
      obtain ⟨t, rest⟩ := p
      obtain ⟨s, hs, _, hcs, _⟩ := lexTerminals_sound h
      obtain ⟨d, r', hsp, hd⟩ := spell_head_not_space s hs
      rw [hsp] at hcs
      simp at hcs
      rw [hcs.1] at hc
      simp [hc] at hd
  have hid : U.isIdent c = false := by
    cases h : U.isIdent c with
    | false => rfl
    | true => simp [ident_not_space U h] at hc
  unfold lexStep
  rw [hnot]
  simp [hid, hc]

/-- every lexer step that continues shortens the input -/
theorem lexStep_progress (U : Unicode) {cs : List Char} :
    (∀ t rest, lexStep U cs = .emit t rest → rest.length < cs.length) ∧
    (∀ rest, lexStep U cs = .skip rest → rest.length < cs.length) := by
  unfold lexStep
  cases h : lexTerminals cs terminals with
  | some p =>
    obtain ⟨t, rest⟩ := p
    obtain ⟨s, hs, _, hcs, _⟩ := lexTerminals_sound h
    have := spell_pos (f := U.isIdent) (s := s) (fun n hn => absurd hn (hs n))
    constructor
    · intro t' rest' h'
      simp at h'
      obtain ⟨_, rfl⟩ := h'
      rw [hcs]; simp; omega
    · intro rest' h'
      simp at h'
  | none =>
    simp only
    split
    next hpos =>
      constructor
      · intro t rest h'
        simp at h'
        obtain ⟨_, rfl⟩ := h'
        have := congrArg List.length (List.takeWhile_append_dropWhile (p := U.isIdent) (l := cs))
        rw [List.length_append] at this
        omega
      · intro rest h'
        simp at h'
    next =>
      cases cs with
      | nil => simp
      | cons c r =>
        by_cases hc : isSpace c = true
        · constructor
          · intro t rest h'
            simp [hc] at h'
          · intro rest h'
            simp [hc] at h'
            subst h'
            have := (List.dropWhile_sublist (l := r) (p := isSpace)).length_le
            simp; omega
        · simp [hc]

/-- fuel beyond the input length is enough, and more of it does not change the result -/
theorem scanN_total (U : Unicode) : ∀ n cs, cs.length < n → ∃ ts, scanN U n cs = some ts ∧ ts ≠ [] := by
  intro n
  induction n with
  | zero => intro cs h; omega
  | succ n ih =>
    intro cs h
    have hp := lexStep_progress U (cs := cs)
    simp only [scanN]
    cases hs : lexStep U cs with
    | emit t rest =>
      have := hp.1 t rest hs
      obtain ⟨ts, h1, h2⟩ := ih rest (by omega)
      exact ⟨t :: ts, by simp [h1], by simp⟩
    | skip rest =>
      have := hp.2 rest hs
      exact ih rest (by omega)
    | eof => exact ⟨_, rfl, by simp⟩
    | error => exact ⟨_, rfl, by simp⟩

theorem scanN_mono (U : Unicode) : ∀ n m cs, cs.length < n → n ≤ m → scanN U m cs = scanN U n cs := by
  intro n
  induction n with
  | zero => intro m cs h; omega
  | succ n ih =>
    intro m cs h hm
    cases m with
    | zero => omega
    | succ m =>
      have hp := lexStep_progress U (cs := cs)
      simp only [scanN]
      cases hs : lexStep U cs with
      | emit t rest =>
        have := hp.1 t rest hs
        simp only
        rw [ih m rest (by omega) (by omega)]
      | skip rest =>
        have := hp.2 rest hs
        exact ih m rest (by omega) (by omega)
      | eof => rfl
      | error => rfl

/-- unfolding of `lex` -/
theorem lex_unfold (U : Unicode) (cs : List Char) : lex U cs =
    match lexStep U cs with
    | .emit t rest => (lex U rest).map (t :: ·)
    | .skip rest => lex U rest
    | .eof => some [⟨.eof, ""⟩]
    | .error => some [⟨.error, ""⟩] := by
  have hp := lexStep_progress U (cs := cs)
  show scanN U (cs.length + 1) cs = _
  simp only [scanN]
  cases hs : lexStep U cs with
  | emit t rest =>
    have := hp.1 t rest hs
    simp only [lex]
    rw [scanN_mono U (rest.length + 1) cs.length rest (by omega) (by omega)]
  | skip rest =>
    have := hp.2 rest hs
    simp only [lex]
    rw [scanN_mono U (rest.length + 1) cs.length rest (by omega) (by omega)]
  | eof => rfl
  | error => rfl

theorem lex_total (U : Unicode) (cs : List Char) : ∃ ts, lex U cs = some ts ∧ ts ≠ [] :=
  scanN_total U _ cs (by omega)

/-- leading white space is skipped -/
theorem lex_spaces (U : Unicode) (ws rest : List Char) (h : ∀ c ∈ ws, isSpace c = true) :
    lex U (ws ++ rest) = lex U rest := by
  have key : ∀ cs : List Char, lex U cs = lex U (cs.dropWhile isSpace) := by
    intro cs
    cases cs with
    | nil => rfl
    | cons c r =>
      by_cases hc : isSpace c = true
      · rw [lex_unfold, lexStep_space U hc]
      · simp [hc]
  have : ∀ ws : List Char, (∀ c ∈ ws, isSpace c = true) → (ws ++ rest).dropWhile isSpace = rest.dropWhile isSpace := by
    intro ws
    induction ws with
    | nil => simp
    | cons c ws ih =>
      intro h
      simp [h c (by simp), ih (fun d hd => h d (by simp [hd]))]
  rw [key (ws ++ rest), this ws h, ← key rest]

/-- lexing a rendering yields exactly the rendered symbols, then end of input -/
theorem lex_renders (U : Unicode) {cs : List Char} {ss : List Sym} (h : Renders U.isIdent whiteSpace cs ss) :
    lex U cs = some (ss.map tokOf ++ [⟨.eof, ""⟩]) := by
  rw [← isSpace_white] at h
  induction h with
  | @nil ws hws =>
    have := lex_spaces U ws [] hws
    simp only [List.append_nil] at this
    rw [this]
    rfl
  | @cons ws rest s ss hws hi hf _ ih =>
    rw [List.append_assoc, lex_spaces U ws _ hws, lex_unfold, lexStep_sym U s rest hi hf]
    simp [ih]

/-- conversely: a token list without error token is the symbol list of a rendering -/
theorem renders_of_lex (U : Unicode) : ∀ (n : Nat) (cs : List Char) (ts : List Token), cs.length ≤ n →
    lex U cs = some ts → (∃ ss, ts = ss.map tokOf ++ [⟨.eof, ""⟩] ∧ Renders U.isIdent whiteSpace cs ss) ∨
      (∃ ss : List Sym, ts = ss.map tokOf ++ [⟨.error, ""⟩]) := by
  rw [← isSpace_white]
  intro n
  induction n with
  | zero =>
    intro cs ts hl h
    have : cs = [] := by simpa using hl
    subst this
    have : ts = [⟨.eof, ""⟩] := by
      have h2 : lex U [] = some [⟨.eof, ""⟩] := rfl
      rw [h2] at h; simpa using h.symm
    subst this
    exact .inl ⟨[], by simp, .nil (by simp)⟩
  | succ n ih =>
    intro cs ts hl h
    have hp := lexStep_progress U (cs := cs)
    rw [lex_unfold] at h
    cases hs : lexStep U cs with
    | emit t rest =>
      rw [hs] at h
      have hlen := hp.1 t rest hs
      cases hr : lex U rest with
      | none => simp [hr] at h
      | some ts' =>
        simp [hr] at h
        subst h
        -- identify the symbol
        have hsym : ∃ s : Sym, t = tokOf s ∧ cs = s.spell ++ rest ∧ (∀ m, s = .ident m → IdentOK U.isIdent m) ∧
            Follows U.isIdent s rest := by
          unfold lexStep at hs
          cases ht : lexTerminals cs terminals with
          | some p =>
            obtain ⟨t', rest'⟩ := p
            rw [ht] at hs
            simp at hs
            obtain ⟨rfl, rfl⟩ := hs
            obtain ⟨s, hne, h1, h2, h3⟩ := lexTerminals_sound ht
            refine ⟨s, h1, h2, fun m hm => absurd hm (hne m), ?_⟩
            cases s with
            | minus => exact h3 rfl
            | ident m => exact absurd rfl (hne m)
            | _ => trivial
          | none =>
            rw [ht] at hs
            simp only at hs
            split at hs
            next hpos =>
              simp at hs
              obtain ⟨rfl, rfl⟩ := hs
              refine ⟨.ident (cs.takeWhile U.isIdent), rfl, ?_, ?_, ?_⟩
              · simp [Sym.spell, List.takeWhile_append_dropWhile]
              · intro m hm
                simp at hm
                subst hm
                refine ⟨List.ne_nil_of_length_pos hpos, ?_, ?_⟩
                · intro c hc
                  exact mem_takeWhile_imp' hc
                · intro hpre
                  exact lexTerminals_none ht .this (by simp) (hpre.trans (List.takeWhile_prefix _))
              · intro c hc
                have := List.head?_dropWhile_not U.isIdent cs
                rw [hc] at this
                simpa using this
            next =>
              cases cs with
              | nil => simp at hs
              | cons c r =>
                by_cases hc : isSpace c = true <;> simp [hc] at hs
        obtain ⟨s, rfl, hcs, hi, hf⟩ := hsym
        rcases ih rest ts' (by omega) hr with ⟨ss, rfl, hren⟩ | ⟨ss, rfl⟩
        · left
          refine ⟨s :: ss, by simp, ?_⟩
          have := Renders.cons (ws := []) (by simp) hi hf hren
          rw [hcs]
          simpa using this
        · right
          exact ⟨s :: ss, by simp⟩
    | skip rest =>
      rw [hs] at h
      have hlen := hp.2 rest hs
      simp only at h
      -- the skipped prefix is white space
      have hsk : ∃ ws, cs = ws ++ rest ∧ ∀ c ∈ ws, isSpace c = true := by
        unfold lexStep at hs
        cases ht : lexTerminals cs terminals with
        | some p =>
          rw [ht] at hs; simp at hs
        | none =>
          rw [ht] at hs
          simp only at hs
          split at hs
          · simp at hs
          · cases cs with
            | nil => simp at hs
            | cons c r =>
              by_cases hc : isSpace c = true
              · simp only [hc, if_true, LexStep.skip.injEq] at hs
                subst hs
                refine ⟨(c :: r).takeWhile isSpace, (List.takeWhile_append_dropWhile).symm, ?_⟩
                intro d hd
                exact mem_takeWhile_imp' hd
              · simp [hc] at hs
      obtain ⟨ws, hcs, hws⟩ := hsk
      rcases ih rest ts (by omega) h with ⟨ss, rfl, hren⟩ | ⟨ss, rfl⟩
      · left
        refine ⟨ss, rfl, ?_⟩
        rw [hcs]
        cases hren with
        | @nil ws' h' =>
          refine .nil ?_
          intro c hc
          rcases List.mem_append.1 hc with hc | hc
          · exact hws c hc
          · exact h' c hc
        | @cons ws' rest' s ss' h' hi hf hr =>
          have : ws ++ (ws' ++ s.spell ++ rest') = (ws ++ ws') ++ s.spell ++ rest' := by simp
          rw [this]
          refine .cons ?_ hi hf hr
          intro c hc
          rcases List.mem_append.1 hc with hc | hc
          · exact hws c hc
          · exact h' c hc
      · exact .inr ⟨ss, rfl⟩
    | eof =>
      rw [hs] at h
      simp at h
      subst h
      have : cs = [] := by
        unfold lexStep at hs
        cases ht : lexTerminals cs terminals with
        | some p => rw [ht] at hs; simp at hs
        | none =>
          rw [ht] at hs
          simp only at hs
          split at hs
          · simp at hs
          · cases cs with
            | nil => rfl
            | cons c r => by_cases hc : isSpace c = true <;> simp [hc] at hs
      subst this
      exact .inl ⟨[], by simp, .nil (by simp)⟩
    | error =>
      rw [hs] at h
      simp at h
      subst h
      exact .inr ⟨[], by simp⟩

end Zanzi
