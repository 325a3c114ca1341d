import Verif.Lemmas.Parser
import Verif.Lemmas.Channel

/- Properties C01–C06, C57: the relation expression language. -/

namespace Zanzi
open Spec

/-- A Unicode table for examples. -/
def U0 : Unicode := ⟨fun _ => false, fun _ _ => rfl⟩

/-- C01. Printing then parsing is the identity on every tree the language can write. -/
theorem C01_print_parse_roundtrip (U : Unicode) (e : ExprTree) (h : Printable U.isIdent e) :
    ∃ text, e.print = .ok text ∧ parse U text = .ok e := by
  obtain ⟨s, hs, hr⟩ := print_renders U h
  refine ⟨s, hs, ?_⟩
  have h1 := hr [] [] (by simp) (.nil (by simp))
  simp only [List.append_nil] at h1
  have h2 := lex_renders U h1
  unfold parse
  rw [h2]
  exact (parseTokens_iff _ _).2 (.single (printSyms_derives U.isIdent h))

example : Printable U0.isIdent
    (.op (.op (.rule .this) .union (.rule (.ttu "parent" "owner"))) .difference (.rule (.cu "banned_1"))) := by
  refine ⟨by simp, ⟨by simp, trivial, ?_, ?_⟩, ?_⟩ <;> refine ⟨by decide +kernel, by decide +kernel, by decide +kernel⟩

/-- C02. A text parses to a tree exactly when it renders a symbol sequence that the documented
grammar derives, and the tree is the derived one. -/
theorem C02_parse_iff_grammar (U : Unicode) (text : String) (e : ExprTree) :
    parse U text = .ok e ↔
      ∃ syms, Renders U.isIdent whiteSpace text.toList syms ∧ Derives .expr syms e := by
  constructor
  · intro h
    unfold parse at h
    cases hl : lex U text.toList with
    | none => rw [hl] at h; simp at h
    | some ts =>
      rw [hl] at h
      rcases renders_of_lex U _ _ ts (Nat.le_refl _) hl with ⟨ss, rfl, hr⟩ | ⟨ss, rfl⟩
      · exact ⟨ss, hr, (parseTokens_iff ss e).1 h⟩
      · simp [parseTokens] at h
  · rintro ⟨ss, hr, hd⟩
    unfold parse
    rw [lex_renders U hr]
    exact (parseTokens_iff ss e).2 hd

theorem Renders.congr {f g f' g' : Char → Bool} {cs : List Char} {ss : List Sym} (h : Renders f g cs ss)
    (hc : ∀ c ∈ cs, f c = f' c ∧ g c = g' c) : Renders f' g' cs ss := by
  induction h with
  | nil h0 => exact .nil (fun c hm => (hc c hm).2 ▸ h0 c hm)
  | @cons ws rest s ss hw hi hf _ ih =>
    refine .cons (fun c hm => (hc c (by simp [hm])).2 ▸ hw c hm) (fun n hn => ?_) ?_ (ih (fun c hm => hc c (by simp [hm])))
    · obtain ⟨h1, h2, h3⟩ := hi n hn
      exact ⟨h1, fun c hm => (hc c (by simp [hn, Sym.spell, hm])).1 ▸ h2 c hm, h3⟩
    · cases s with
      | ident n => exact fun c hm => (hc c (by simp [List.mem_of_mem_head? hm])).1 ▸ hf c hm
      | minus => exact hf
      | _ => trivial

theorem ascii_classes (U : Unicode) (c : Char) (h : c.val.toNat < 128) : U.isIdent c = nameChar c ∧ whiteSpace c = layoutChar c := by
  have key : ∀ n : Fin 128, U.isIdent (Char.ofNat n) = nameChar (Char.ofNat n) ∧ whiteSpace (Char.ofNat n) = layoutChar (Char.ofNat n) := by
    intro n
    have h1 : U.isIdent (Char.ofNat n) = (isLatin1Alnum (Char.ofNat n) || Char.ofNat n == '_') := by
      unfold Unicode.isIdent
      rw [if_pos]
      revert n
      decide +kernel
    rw [h1]
    clear h1
    revert n
    decide +kernel
  have := key ⟨c.val.toNat, h⟩
  rwa [show Char.ofNat (⟨c.val.toNat, h⟩ : Fin 128) = c from Char.ofNat_toNat c] at this

/-- C02 on ASCII texts, with explicit character classes: names are made of letters, digits and underscores; tab, line feed, vertical tab, form feed, carriage return and blank separate symbols; every other
character is refused. -/
theorem C02_parse_iff_grammar_ascii (U : Unicode) (text : String) (ha : ∀ c ∈ text.toList, c.val.toNat < 128) (e : ExprTree) :
    parse U text = .ok e ↔ ∃ syms, Renders nameChar layoutChar text.toList syms ∧ Derives .expr syms e := by
  rw [C02_parse_iff_grammar]
  have hc : ∀ c ∈ text.toList, U.isIdent c = nameChar c ∧ whiteSpace c = layoutChar c := fun c hm => ascii_classes U c (ha c hm)
  constructor
  · rintro ⟨ss, h1, h2⟩
    exact ⟨ss, Renders.congr h1 hc, h2⟩
  · rintro ⟨ss, h1, h2⟩
    exact ⟨ss, Renders.congr h1 (fun c hm => ⟨(hc c hm).1.symm, (hc c hm).2.symm⟩), h2⟩

example : (∀ c ∈ "a_1 ->\tB9\n& _this".toList, c.val.toNat < 128) ∧
    parse U0 "a_1 ->\tB9\n& _this" = .ok (.op (.rule (.ttu "a_1" "B9")) .intersection (.rule .this)) := by decide +kernel

theorem latin1_classes (U : Unicode) (c : Char) (h : c.val.toNat < 256) : U.isIdent c = nameCharLatin1 c := by
  have key : ∀ n : Fin 256, U.isIdent (Char.ofNat n) = nameCharLatin1 (Char.ofNat n) := by
    intro n
    have h1 : U.isIdent (Char.ofNat n) = (isLatin1Alnum (Char.ofNat n) || Char.ofNat n == '_') := by
      unfold Unicode.isIdent
      rw [if_pos]
      revert n
      decide +kernel
    rw [h1]
    clear h1
    revert n
    decide +kernel
  have := key ⟨c.val.toNat, h⟩
  rwa [show Char.ofNat (⟨c.val.toNat, h⟩ : Fin 256) = c from Char.ofNat_toNat c] at this

/-- C02 on Latin-1 texts, with explicit character classes: no table is left open. -/
theorem C02_parse_iff_grammar_latin1 (U : Unicode) (text : String) (ha : ∀ c ∈ text.toList, c.val.toNat < 256) (e : ExprTree) :
    parse U text = .ok e ↔ ∃ syms, Renders nameCharLatin1 whiteSpace text.toList syms ∧ Derives .expr syms e := by
  rw [C02_parse_iff_grammar]
  have hc : ∀ c ∈ text.toList, U.isIdent c = nameCharLatin1 c ∧ whiteSpace c = whiteSpace c := fun c hm => ⟨latin1_classes U c (ha c hm), rfl⟩
  constructor
  · rintro ⟨ss, h1, h2⟩
    exact ⟨ss, Renders.congr h1 hc, h2⟩
  · rintro ⟨ss, h1, h2⟩
    exact ⟨ss, Renders.congr h1 (fun c hm => ⟨(hc c hm).1.symm, rfl⟩), h2⟩

example : (∀ c ∈ "éditeur +\u00a0größe".toList, c.val.toNat < 256) ∧
    parse U0 "éditeur +\u00a0größe" = .ok (.op (.rule (.cu "éditeur")) .union (.rule (.cu "größe"))) ∧ parse U0 "a×b" = .err .parse := by decide +kernel

/-- C02, determinism: the grammar assigns at most one tree to a text. -/
theorem C02_grammar_unambiguous (U : Unicode) (text : String) (s1 s2 : List Sym) (e1 e2 : ExprTree)
    (r1 : Renders U.isIdent whiteSpace text.toList s1) (r2 : Renders U.isIdent whiteSpace text.toList s2)
    (d1 : Derives .expr s1 e1) (d2 : Derives .expr s2 e2) : s1 = s2 ∧ e1 = e2 := by
  have h1 := (C02_parse_iff_grammar U text e1).2 ⟨s1, r1, d1⟩
  have h2 := (C02_parse_iff_grammar U text e2).2 ⟨s2, r2, d2⟩
  have h3 := lex_renders U r1
  rw [lex_renders U r2] at h3
  refine ⟨toks_inj ?_, ?_⟩
  · exact (Option.some.inj h3).symm
  · rw [h1] at h2
    exact Res.ok.inj h2

/-- C02, grouping to the left for any operators: `a o₁ b o₂ c` is `(a o₁ b) o₂ c`. -/
theorem C02_left_assoc (U : Unicode) (text : String) (a b c : List Char) (s1 s2 : Sym) (o1 o2 : Operator)
    (h1 : OpSym s1 o1) (h2 : OpSym s2 o2)
    (hr : Renders U.isIdent whiteSpace text.toList [.ident a, s1, .ident b, s2, .ident c]) :
    parse U text = .ok (.op (.op (.rule (.cu (String.ofList a))) o1 (.rule (.cu (String.ofList b)))) o2
      (.rule (.cu (String.ofList c)))) := by
  rw [C02_parse_iff_grammar]
  exact ⟨_, hr, .binary (l := [.ident a, s1, .ident b]) (.binary (l := [.ident a]) (.single (.cu a)) h1 (.cu b)) h2 (.cu c)⟩

-- the hypotheses are met by a concrete text
example : parse U0 "a + b - c" =
    .ok (.op (.op (.rule (.cu "a")) .union (.rule (.cu "b"))) .difference (.rule (.cu "c"))) := by decide +kernel
example : parse U0 "a + (b - c)" =
    .ok (.op (.rule (.cu "a")) .union (.op (.rule (.cu "b")) .difference (.rule (.cu "c")))) := by decide +kernel
example : parse U0 "a b" = .err .parse := by decide +kernel
example : Renders U0.isIdent whiteSpace ['a', '+', 'b', ' ', '-', 'c'] [.ident ['a'], .plus, .ident ['b'], .minus, .ident ['c']] := by
  have i : ∀ c : Char, U0.isIdent c = true → (c == '_') = false → IdentOK U0.isIdent [c] := by
    intro c h h2
    refine ⟨by simp, by simpa using h, ?_⟩
    rintro ⟨t, ht⟩
    simp at ht
  refine Renders.cons (ws := []) (s := .ident ['a']) (by simp) ?_ ?_
    (Renders.cons (ws := []) (s := .plus) (by simp) (by simp) trivial
      (Renders.cons (ws := []) (s := .ident ['b']) (by simp) ?_ ?_
        (Renders.cons (ws := [' ']) (s := .minus) (by decide) (by simp) ?_
          (Renders.cons (ws := []) (rest := []) (s := .ident ['c']) (by simp) ?_ ?_ (.nil (by simp))))))
  · intro n hn; cases hn; exact i 'a' (by decide) (by decide)
  · simp [Follows]; decide
  · intro n hn; cases hn; exact i 'b' (by decide) (by decide)
  · simp [Follows]; decide
  · simp [Follows, Sym.spell]
  · intro n hn; cases hn; exact i 'c' (by decide) (by decide)
  · simp [Follows]

/-- C03. Parsing any text gives a tree or an error: no panic, no non-termination. -/
theorem C03_parse_total (U : Unicode) (text : String) :
    (∃ e, parse U text = .ok e) ∨ parse U text = .err .parse := by
  obtain ⟨ts, h1, h2⟩ := lex_total U text.toList
  unfold parse
  rw [h1]
  exact parseTokens_total ts h2

/-- C03, bounds: giving the lexer more iterations than the input has characters never changes its
tokens, so the iteration bound in the model is not observable. -/
theorem C03_lexer_bound_irrelevant (U : Unicode) (cs : List Char) (n : Nat) (h : cs.length < n) :
    scanN U n cs = lex U cs ∧ lex U cs ≠ none := by
  refine ⟨scanN_mono U _ _ cs (by omega) (by omega), ?_⟩
  obtain ⟨ts, h1, _⟩ := lex_total U cs
  simp [h1]

/-- C03, bounds: a nesting bound above the number of tokens never runs out. -/
theorem C03_parser_bound_irrelevant (ts : List Token) (n : Nat) (h : ts.length ≤ n) :
    expressionParser (termParser (n + 1)) ts ≠ .fuel ∧ expressionParser (termParser (n + 1)) ts ≠ .panic := by
  rcases pgood_expr (pgood_term n) ts h with h1 | ⟨a, r, h1, _⟩ <;> simp [h1]

example : parse U0 "" = .err .parse := by decide +kernel
example : parse U0 "((((a" = .err .parse := by decide +kernel
example : parse U0 "a $" = .err .parse := by decide +kernel

/-- C05. Two texts rendering the same symbols, whatever their white space, have the same outcome. -/
theorem C05_whitespace_insensitive (U : Unicode) (t1 t2 : String) (syms : List Sym)
    (h1 : Renders U.isIdent whiteSpace t1.toList syms) (h2 : Renders U.isIdent whiteSpace t2.toList syms) :
    parse U t1 = parse U t2 := by
  unfold parse
  rw [lex_renders U h1, lex_renders U h2]

/-- C05. White space before and after an expression is irrelevant. -/
theorem C05_outer_whitespace (U : Unicode) (text : String) (ws ws' : List Char) (h : ∀ c ∈ ws, whiteSpace c = true)
    (h' : ∀ c ∈ ws', whiteSpace c = true) (syms : List Sym) (hr : Renders U.isIdent whiteSpace text.toList syms) :
    parse U (String.ofList (ws ++ text.toList ++ ws')) = parse U text := by
  rw [← isSpace_white] at *
  refine C05_whitespace_insensitive U _ _ syms (isSpace_white ▸ ?_) (isSpace_white ▸ hr)
  have key : ∀ {cs ss}, Renders U.isIdent isSpace cs ss → Renders U.isIdent isSpace (cs ++ ws') ss := by
    intro cs ss hr
    induction hr with
    | nil h0 => exact .nil (by intro c hc; rcases List.mem_append.1 hc with hc | hc; exact h0 c hc; exact h' c hc)
    | @cons w rest s ss hw hi hf _ ih =>
      rw [List.append_assoc]
      refine .cons hw hi ?_ ih
      cases s with
      | ident n =>
        intro c hc
        cases rest with
        | nil =>
          simp at hc
          cases hws : ws' with
          | nil => simp [hws] at hc
          | cons d ws'' =>
            simp [hws] at hc
            subst hc
            have : isSpace d = true := h' d (by simp [hws])
            cases hd : U.isIdent d with
            | false => rfl
            | true => simp [ident_not_space U hd] at this
        | cons d r => exact hf c (by simpa using hc)
      | minus =>
        intro hc
        cases rest with
        | nil =>
          simp at hc
          have : isSpace '>' = true := h' '>' (List.mem_of_mem_head? hc)
          simp [isSpace] at this
        | cons d r => exact hf (by simpa using hc)
      | _ => trivial
  have key2 : ∀ {cs ss}, Renders U.isIdent isSpace cs ss → Renders U.isIdent isSpace (ws ++ cs) ss := by
    intro cs ss hr
    cases hr with
    | nil h0 =>
      exact .nil (by intro c hc; rcases List.mem_append.1 hc with hc | hc; exact h c hc; exact h0 c hc)
    | @cons w rest s ss h0 hi hf hr =>
      have e : ws ++ (w ++ s.spell ++ rest) = (ws ++ w) ++ s.spell ++ rest := by simp
      rw [e]
      exact .cons (by intro c hc; rcases List.mem_append.1 hc with hc | hc; exact h c hc; exact h0 c hc) hi hf hr
  have h2 := key2 (key hr)
  simpa using h2

example : parse U0 "  _this+ a ->b\n" = parse U0 "_this + a->b" := by decide +kernel

/-- C06 is violated: there are identifiers made of letters and underscores only that cannot be
referenced, because the keyword is recognised without a word boundary. -/
theorem C06_identifier_violated (U : Unicode) : ∃ name : String, name ≠ "" ∧
    (∀ c ∈ name.toList, U.isIdent c = true) ∧ parse U name ≠ .ok (.rule (.cu name)) ∧ parse U name = .err .parse := by
  refine ⟨"_this_owner", by simp, ?_, ?_, ?_⟩
  · intro c hc
    simp at hc
    rcases hc with rfl | rfl | rfl | rfl | rfl | rfl | rfl | rfl | rfl | rfl | rfl <;>
      simp [Unicode.isIdent, isLatin1Alnum]
  all_goals
    have : lex U "_this_owner".toList = some [⟨.this, "_this"⟩, ⟨.identifier, "_owner"⟩, ⟨.eof, ""⟩] := by
      have i : ∀ c ∈ ['_', 'o', 'w', 'n', 'e', 'r'], U.isIdent c = true := by
        intro c hc
        simp at hc
        rcases hc with rfl | rfl | rfl | rfl | rfl | rfl <;> simp [Unicode.isIdent, isLatin1Alnum]
      have h : Renders U.isIdent whiteSpace ("_this_owner".toList) [.this, .ident ['_', 'o', 'w', 'n', 'e', 'r']] := by
        refine Renders.cons (ws := []) (s := .this) (by simp) (by simp) trivial
          (Renders.cons (ws := []) (rest := []) (s := .ident ['_', 'o', 'w', 'n', 'e', 'r']) (by simp) ?_ (by simp [Follows])
            (.nil (by simp)))
        intro n hn
        cases hn
        exact ⟨by simp, i, by decide⟩
      exact lex_renders U h
    unfold parse
    rw [this]
    decide +kernel

/-- C06, what holds (missing: names starting with the keyword): a legal name that does not start with
`_this` is read back as itself. -/
theorem C06_identifier_partial (U : Unicode) (name : String) (h : IdentOK U.isIdent name.toList) :
    parse U name = .ok (.rule (.cu name)) := by
  obtain ⟨t, h1, h2⟩ := C01_print_parse_roundtrip U (.rule (.cu name)) h
  simp [ExprTree.print, Rule.print] at h1
  rw [h1]
  rw [h1] at h2
  exact h2

/-- C06 for names made of ASCII letters, digits and underscores (missing: names starting with the keyword). -/
theorem C06_ascii_names_partial (U : Unicode) (name : String) (h0 : name ≠ "") (h : ∀ c ∈ name.toList, nameChar c = true)
    (hp : ¬ "_this".toList <+: name.toList) : parse U name = .ok (.rule (.cu name)) := by
  have hlt : ∀ c : Char, nameChar c = true → c.val.toNat < 128 := by
    intro c hc
    simp only [nameChar, Bool.or_eq_true, Bool.and_eq_true, decide_eq_true_eq, beq_iff_eq, Char.le_def, UInt32.le_iff_toNat_le] at hc
    rcases hc with ((hc | hc) | hc) | rfl
    · have : ('z' : Char).val.toNat = 122 := rfl
      omega
    · have : ('Z' : Char).val.toNat = 90 := rfl
      omega
    · have : ('9' : Char).val.toNat = 57 := rfl
      omega
    · decide
  refine C06_identifier_partial U name ⟨fun he => h0 (by simpa using he), fun c hc => ?_, hp⟩
  rw [(ascii_classes U c (hlt c (h c hc))).1]
  exact h c hc

example : parse U0 "Viewer_2" = .ok (.rule (.cu "Viewer_2")) := C06_ascii_names_partial U0 _ (by simp) (by decide) (by decide)

/-- C06, exactly which names fail: a name of identifier characters is readable iff it is not empty and does
not start with the keyword. -/
theorem C06_identifier_exact_partial (U : Unicode) (name : String) (h : ∀ c ∈ name.toList, U.isIdent c = true) :
    parse U name = .ok (.rule (.cu name)) ↔ name ≠ "" ∧ ¬ "_this".toList <+: name.toList := by
  constructor
  · intro hp
    obtain ⟨ss, hr, hd⟩ := (C02_parse_iff_grammar U name _).1 hp
    constructor
    · rintro rfl
      simp [parse] at hp
      revert hp
      have : lex U [] = some [⟨.eof, ""⟩] := rfl
      rw [this]
      decide +kernel
    · rintro ⟨r, hpre⟩
      have hlex : ∃ ts, lex U name.toList = some (⟨.this, "_this"⟩ :: ts) := by
        have h1 := lexStep_term U .this (by simp) r (by simp)
        obtain ⟨ts, h2, _⟩ := lex_total U r
        refine ⟨ts, ?_⟩
        rw [← hpre, lex_unfold]
        have h1 : lexStep U ("_this".toList ++ r) = .emit ⟨.this, "_this"⟩ r := h1
        rw [h1]
        simp [h2]
      obtain ⟨ts, hlex⟩ := hlex
      rw [lex_renders U hr] at hlex
      cases ss with
      | nil => simp at hlex
      | cons s ss =>
        simp at hlex
        cases s <;> simp [tokOf] at hlex
        generalize he : ExprTree.rule (.cu name) = e at hd
        generalize hs : Sym.this :: ss = l at hd
        cases hd with
        | single hd =>
          cases hd <;> simp at he hs
        | binary => simp at he
  · rintro ⟨h1, h2⟩
    refine C06_identifier_partial U name ⟨?_, h, ?_⟩
    · intro hc
      apply h1
      have := congrArg String.ofList hc
      simpa using this
    · simpa using h2

example : parse U0 "_that" = .ok (.rule (.cu "_that")) := by decide +kernel
example : parse U0 "foo_this" = .ok (.rule (.cu "foo_this")) := by decide +kernel

/-! ### C04: goroutine and channel -/

/-- C04, safety: whatever the schedule and the channel capacity, the list `ConsumeChan` returns is exactly the
token list of the input — nothing missed, duplicated or reordered. -/
theorem C04_schedule_independent (U : Unicode) (cap : Nat) (cs : List Char) (s : ChState)
    (h : ChSteps U cap (.init cs) s) (hret : s.returned = true) : lex U cs = some s.got := by
  have h1 := chsteps_inv U cap h
  obtain ⟨h2, h3⟩ := chsteps_returned U cap h hret
  rw [h2, h3] at h1
  obtain ⟨ts, hts, _⟩ := lex_total U cs
  simp [ChState.init, LexPC.pending, hts] at h1
  rw [hts, h1]

/-- C04, progress: no reachable state is stuck before `ConsumeChan` has returned (no deadlock), for every
capacity of at least one. -/
theorem C04_no_deadlock (U : Unicode) (cap : Nat) (hcap : 1 ≤ cap) (s : ChState) (hret : s.returned = false) :
    ∃ s', ChStep U cap s s' := by
  obtain ⟨pc, buf, got, r⟩ := s
  simp at hret
  subst hret
  cases buf with
  | cons t buf => exact ⟨_, .recv⟩
  | nil =>
    cases pc with
    | scan cs =>
      cases h : lexStep U cs with
      | emit t rest => exact ⟨_, .emit h⟩
      | skip rest => exact ⟨_, .skip h⟩
      | eof => exact ⟨_, .eof h⟩
      | error => exact ⟨_, .error h⟩
    | send t next => exact ⟨_, .send (by simp; omega)⟩
    | closing => exact ⟨_, .close⟩
    | closed => exact ⟨_, .ret⟩

/-- C04, termination: every step decreases a natural number, so no schedule runs forever. -/
theorem C04_terminates (U : Unicode) (cap : Nat) {a b : ChState} (h : ChStep U cap a b) : b.measure < a.measure := by
  cases h with
  | emit h => have := (lexStep_progress U).1 _ _ h; simp [ChState.measure]; omega
  | skip h => have := (lexStep_progress U).2 _ h; simp [ChState.measure]; omega
  | eof h => simp [ChState.measure]
  | error h => simp [ChState.measure]
  | @send t next buf got r h => cases next <;> simp [ChState.measure] <;> omega
  | close => simp [ChState.measure]
  | recv => simp [ChState.measure]
  | ret => simp [ChState.measure]

/-- C04, liveness: from every reachable state the run can be completed, and every completed run delivers the
tokens of the input. -/
theorem C04_completes (U : Unicode) (cap : Nat) (hcap : 1 ≤ cap) (cs : List Char) (s : ChState)
    (h : ChSteps U cap (.init cs) s) :
    ∃ s', ChSteps U cap s s' ∧ s'.returned = true ∧ lex U cs = some s'.got := by
  have key : ∀ n (s : ChState), s.measure ≤ n → ∃ s', ChSteps U cap s s' ∧ s'.returned = true := by
    intro n
    induction n with
    | zero =>
      intro s hs
      refine ⟨s, .refl, ?_⟩
      cases hr : s.returned with
      | true => rfl
      | false => simp [ChState.measure, hr] at hs
    | succ n ih =>
      intro s hs
      cases hr : s.returned with
      | true => exact ⟨s, .refl, hr⟩
      | false =>
        obtain ⟨t, ht⟩ := C04_no_deadlock U cap hcap s hr
        have := C04_terminates U cap ht
        obtain ⟨s', h1, h2⟩ := ih t (by omega)
        refine ⟨s', ?_, h2⟩
        clear ih h2 hr hs this
        induction h1 with
        | refl => exact .step .refl ht
        | step _ h3 ih => exact .step ih h3
  have trans : ∀ {a b c}, ChSteps U cap a b → ChSteps U cap b c → ChSteps U cap a c := by
    intro a b c h1 h2
    induction h2 with
    | refl => exact h1
    | step _ h3 ih => exact .step ih h3
  obtain ⟨s', h1, h2⟩ := key _ s (Nat.le_refl _)
  exact ⟨s', h1, h2, C04_schedule_independent U cap cs s' (trans h h1) h2⟩

-- a concrete run: the schedule where the lexer finishes first, capacity 10
example : ∃ s, ChSteps U0 10 (.init ['a']) s ∧ s.returned = true ∧ s.got = [⟨.identifier, "a"⟩, ⟨.eof, ""⟩] := by
  refine ⟨_, .step (.step (.step (.step (.step (.step (.step (.step .refl
    (.emit (t := ⟨.identifier, "a"⟩) (rest := []) (by decide))) (.send (by simp))) (.eof (by decide))) (.send (by simp)))
    .close) .recv) .recv) .ret, rfl, rfl⟩

/-! ### C57: rules of an expression -/

theorem getRulesAcc_eq : ∀ (t : ExprTree) (acc : List Rule), Spec.NoNil t →
    t.getRulesAcc acc = .ok (acc ++ Spec.leaves t) := by
  intro t
  induction t with
  | nil => intro acc h; exact h.elim
  | unset => intro acc _; simp [ExprTree.getRulesAcc, Spec.leaves]
  | rule r => intro acc _; simp [ExprTree.getRulesAcc, Spec.leaves]
  | op l o r ihl ihr =>
    intro acc h
    simp [ExprTree.getRulesAcc, Spec.leaves, ihl acc h.1, ihr _ h.2]

/-- C57. The rule list is exactly the leaves, left to right; extraction fails only on a nil subtree. -/
theorem C57_rules_are_leaves (t : ExprTree) :
    (Spec.NoNil t → t.getRules = .ok (Spec.leaves t)) ∧ (¬ Spec.NoNil t → t.getRules = .panic) := by
  constructor
  · intro h; simpa [ExprTree.getRules] using getRulesAcc_eq t [] h
  · suffices ∀ acc, ¬ Spec.NoNil t → t.getRulesAcc acc = .panic from this []
    induction t with
    | nil => intro acc _; rfl
    | unset => intro acc h; exact absurd trivial h
    | rule r => intro acc h; exact absurd trivial h
    | op l o r ihl ihr =>
      intro acc h
      by_cases hl : Spec.NoNil l
      · have hr : ¬ Spec.NoNil r := fun hr => h ⟨hl, hr⟩
        simp [ExprTree.getRulesAcc, getRulesAcc_eq l acc hl, ihr _ hr]
      · simp [ExprTree.getRulesAcc, ihl _ hl]

/-- C57 for parsed expressions: every tree the parser returns has all rules enumerated. -/
theorem C57_parsed_rules (U : Unicode) (text : String) (e : ExprTree) (h : parse U text = .ok e) :
    e.getRules = .ok (Spec.leaves e) ∧ ∀ r ∈ Spec.leaves e, r ≠ .unset := by
  obtain ⟨ss, hr0, hd⟩ := (C02_parse_iff_grammar U text e).1 h
  have : Spec.NoNil e ∧ ∀ r ∈ Spec.leaves e, r ≠ .unset := by
    clear h hr0
    generalize NT.expr = nt at hd
    induction hd with
    | this => simp [Spec.NoNil, Spec.leaves]
    | cu => simp [Spec.NoNil, Spec.leaves]
    | ttu => simp [Spec.NoNil, Spec.leaves]
    | group _ ih => exact ih
    | single _ ih => exact ih
    | binary _ _ _ ihl ihr =>
      refine ⟨⟨ihl.1, ihr.1⟩, ?_⟩
      intro r hr
      simp [Spec.leaves] at hr
      rcases hr with hr | hr
      · exact ihl.2 r hr
      · exact ihr.2 r hr
  exact ⟨(C57_rules_are_leaves e).1 this.1, this.2⟩

example : (ExprTree.op (.rule .this) .union (.op (.rule (.cu "a")) .difference (.rule (.ttu "p" "q")))).getRules =
    .ok [.this, .cu "a", .ttu "p" "q"] := by decide +kernel

end Zanzi
