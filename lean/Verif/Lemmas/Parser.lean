import Verif.Model.Parser
import Verif.Lemmas.Lexer

/- Helper lemmas about the parser: totality, soundness and completeness for the grammar. -/

namespace Zanzi
open Spec

theorem parseIfType_eq (ty : TokenType) (ts : List Token) : parseIfType ty ts =
    match ts with
    | [] => .err .parse
    | t :: rest => if t.type = ty then .ok (t, rest) else .err .parse := by
  cases ts with
  | nil => rfl
  | cons t rest => simp [parseIfType, parseIf, unitP]

theorem parseIfType_ok {ty : TokenType} {ts rest : List Token} {t : Token}
    (h : parseIfType ty ts = .ok (t, rest)) : ts = t :: rest ∧ t.type = ty := by
  rw [parseIfType_eq] at h
  cases ts with
  | nil => simp at h
  | cons a r =>
    simp only at h
    split at h
    next h1 => simp at h; obtain ⟨rfl, rfl⟩ := h; exact ⟨rfl, h1⟩
    next => simp at h

theorem parseIfType_dich (ty : TokenType) (ts : List Token) :
    parseIfType ty ts = .err .parse ∨ ∃ t rest, parseIfType ty ts = .ok (t, rest) ∧ ts = t :: rest ∧ t.type = ty := by
  rw [parseIfType_eq]
  cases ts with
  | nil => simp
  | cons a r => by_cases h : a.type = ty <;> simp [h]

/-- Outcome of a parser on token lists of length at most `n`: no panic, no fuel exhaustion, and
success consumes at least one token. -/
def PGood {α : Type} (p : P α) (n : Nat) : Prop :=
  ∀ ts : List Token, ts.length ≤ n →
    p ts = .err .parse ∨ ∃ a rest, p ts = .ok (a, rest) ∧ rest.length < ts.length

theorem PGood.mono {α : Type} {p : P α} {n m : Nat} (h : PGood p n) (hm : m ≤ n) : PGood p m :=
  fun ts hts => h ts (by omega)

theorem pgood_parseIfType (ty : TokenType) (n : Nat) : PGood (parseIfType ty) n := by
  intro ts _
  rcases parseIfType_dich ty ts with h | ⟨t, rest, h, he, _⟩
  · exact .inl h
  · exact .inr ⟨t, rest, h, by simp [he]⟩

theorem pgood_this (n : Nat) : PGood thisParser n := by
  intro ts hts
  unfold thisParser
  rcases pgood_parseIfType .this n ts hts with h | ⟨a, rest, h, hl⟩
  · exact .inl (by simp [h])
  · exact .inr ⟨_, rest, by simp [h]; rfl, hl⟩

theorem pgood_cu (n : Nat) : PGood computedUsersetParser n := by
  intro ts hts
  unfold computedUsersetParser
  rcases pgood_parseIfType .identifier n ts hts with h | ⟨a, rest, h, hl⟩
  · exact .inl (by simp [h])
  · exact .inr ⟨_, rest, by simp [h]; rfl, hl⟩

theorem pgood_ttu (n : Nat) : PGood tupleToUsersetParser n := by
  intro ts hts
  unfold tupleToUsersetParser
  rcases pgood_parseIfType .identifier n ts hts with h | ⟨a, r1, h, hl⟩
  · exact .inl (by simp [h])
  · rcases pgood_parseIfType .arrow n r1 (by omega) with h2 | ⟨b, r2, h2, hl2⟩
    · exact .inl (by simp [h, h2])
    · rcases pgood_parseIfType .identifier n r2 (by omega) with h3 | ⟨c, r3, h3, hl3⟩
      · exact .inl (by simp [h, h2, h3])
      · exact .inr ⟨_, r3, by simp [h, h2, h3]; rfl, by omega⟩

theorem pgood_first {α : Type} {ps : List (P α)} {n : Nat} (h : ∀ p ∈ ps, PGood p n) : PGood (first ps) n := by
  intro ts hts
  cases ts with
  | nil => exact .inl rfl
  | cons t r =>
    show firstLoop ps (t :: r) = .err .parse ∨ _
    induction ps with
    | nil => exact .inl rfl
    | cons p ps ih =>
      have ih' := ih (fun q hq => h q (by simp [hq]))
      rcases h p (by simp) (t :: r) hts with he | ⟨a, rest, ha, hl⟩
      · simp only [firstLoop, he, first] at ih' ⊢
        exact ih'
      · right
        exact ⟨a, rest, by simp [first, firstLoop, ha], hl⟩

theorem pgood_rule (n : Nat) : PGood ruleParser n := by
  apply pgood_first
  intro p hp
  simp at hp
  rcases hp with rfl | rfl | rfl
  · exact pgood_this n
  · exact pgood_ttu n
  · exact pgood_cu n

/-- behaviour of `setOpParser` spelled out -/
theorem setOpParser_eq (ts : List Token) : setOpParser ts =
    match ts with
    | [] => .err .parse
    | t :: rest =>
      match t.type with
      | .union => .ok (.union, rest)
      | .intersection => .ok (.intersection, rest)
      | .difference => .ok (.difference, rest)
      | _ => .err .parse := by
  cases ts with
  | nil => rfl
  | cons t r =>
    obtain ⟨ty, lx⟩ := t
    cases ty <;> rfl

theorem pgood_setOp (n : Nat) : PGood setOpParser n := by
  intro ts _
  rw [setOpParser_eq]
  cases ts with
  | nil => exact .inl rfl
  | cons t r =>
    obtain ⟨ty, lx⟩ := t
    cases ty <;> first | exact .inl rfl | exact .inr ⟨_, r, rfl, by simp⟩

theorem pgood_opTerm {term : P ExprTree} {n : Nat} (h : PGood term n) : PGood (opTermParser term) n := by
  intro ts hts
  unfold opTermParser
  rcases pgood_setOp n ts hts with h1 | ⟨a, r1, h1, hl⟩
  · exact .inl (by simp [h1])
  · rcases h r1 (by omega) with h2 | ⟨b, r2, h2, hl2⟩
    · exact .inl (by simp [h1, h2])
    · exact .inr ⟨_, r2, by simp [h1, h2]; rfl, by omega⟩

theorem manyN_total {α : Type} {p : P α} {n : Nat} (h : PGood p n) : ∀ k (ts : List Token), ts.length ≤ n →
    ts.length < k → ∃ as rest, manyN p k ts = .ok (as, rest) ∧ rest.length ≤ ts.length := by
  intro k
  induction k with
  | zero => intro ts _ h2; omega
  | succ k ih =>
    intro ts h1 h2
    rcases h ts h1 with he | ⟨a, rest, ha, hl⟩
    · exact ⟨[], ts, by simp [manyN, he], by omega⟩
    · obtain ⟨as, r2, h3, h4⟩ := ih rest (by omega) (by omega)
      exact ⟨a :: as, r2, by simp [manyN, ha, h3], by omega⟩

theorem many_total {α : Type} {p : P α} {n : Nat} (h : PGood p n) (ts : List Token) (hts : ts.length ≤ n) :
    ∃ as rest, many p ts = .ok (as, rest) ∧ rest.length ≤ ts.length := by
  cases ts with
  | nil => exact ⟨[], [], rfl, by simp⟩
  | cons t r => exact manyN_total h _ _ hts (by omega)

theorem pgood_expr {term : P ExprTree} {n : Nat} (h : PGood term n) : PGood (expressionParser term) n := by
  intro ts hts
  unfold expressionParser
  rcases h ts hts with h1 | ⟨a, r1, h1, hl⟩
  · exact .inl (by simp [h1])
  · obtain ⟨as, r2, h2, hl2⟩ := many_total (pgood_opTerm h) r1 (by omega)
    exact .inr ⟨_, r2, by simp [h1, h2]; rfl, by omega⟩

/-- the inner expression only sees shorter inputs, so one level less of the bound is enough -/
theorem pgood_subexpr {term : P ExprTree} {n : Nat} (h : PGood term n) : PGood (subexprParser term) (n + 1) := by
  intro ts hts
  unfold subexprParser
  rcases pgood_parseIfType .groupBegin (n + 1) ts hts with h1 | ⟨a, r1, h1, hl⟩
  · exact .inl (by simp [h1])
  · rcases pgood_expr h r1 (by omega) with h2 | ⟨b, r2, h2, hl2⟩
    · exact .inl (by simp [h1, h2])
    · rcases pgood_parseIfType .groupEnd n r2 (by omega) with h3 | ⟨c, r3, h3, hl3⟩
      · exact .inl (by simp [h1, h2, h3])
      · exact .inr ⟨_, r3, by simp [h1, h2, h3]; rfl, by omega⟩

theorem pgood_term : ∀ n, PGood (termParser (n + 1)) n := by
  intro n
  induction n with
  | zero =>
    intro ts hts
    have : ts = [] := by simpa using hts
    subst this
    exact .inl rfl
  | succ n ih =>
    apply pgood_first
    intro p hp
    simp at hp
    rcases hp with rfl | rfl
    · exact pgood_rule _
    · exact pgood_subexpr ih

/-- `parseTokens` on a non-empty token list is a value or an error -/
theorem parseTokens_total (ts : List Token) (hne : ts ≠ []) :
    (∃ e, parseTokens ts = .ok e) ∨ parseTokens ts = .err .parse := by
  unfold parseTokens
  cases hl : ts.getLast? with
  | none => simp at hl; exact absurd hl hne
  | some last =>
    simp only
    split
    · exact .inr rfl
    · rcases pgood_expr (pgood_term ts.length) ts (by omega) with h1 | ⟨a, r1, h1, hlr⟩
      · exact .inr (by simp [h1])
      · obtain ⟨as, r2, h2, _⟩ := many_total (pgood_parseIfType .eof r1.length) r1 (by omega)
        simp only [h1, h2, Res.bind_ok]
        split
        · exact .inr rfl
        · exact .inl ⟨_, rfl⟩

/-! ### Soundness: what is parsed is derivable -/

/-- token list for a symbol list, ending with end-of-input -/
def toks (ss : List Sym) : List Token := ss.map tokOf ++ [⟨.eof, ""⟩]

@[simp] theorem toks_cons (s : Sym) (ss : List Sym) : toks (s :: ss) = tokOf s :: toks ss := rfl
@[simp] theorem toks_nil : toks [] = [⟨.eof, ""⟩] := rfl

theorem toks_length (ss : List Sym) : (toks ss).length = ss.length + 1 := by simp [toks]

theorem toks_inj {a b : List Sym} (h : toks a = toks b) : a = b := by
  have h : a.map tokOf = b.map tokOf := List.append_cancel_right h
  exact (List.map_inj_right (fun _ _ => tokOf_inj)).1 h

/-- a parser is sound for a derivation predicate on symbol lists -/
def PSound {α : Type} (p : P α) (D : List Sym → α → Prop) : Prop :=
  ∀ ss a rest, p (toks ss) = .ok (a, rest) → ∃ s1 s2, ss = s1 ++ s2 ∧ rest = toks s2 ∧ D s1 a

theorem parseIfType_toks {ty : TokenType} (hty : ty ≠ .eof) {ss : List Sym} {t : Token} {rest : List Token}
    (h : parseIfType ty (toks ss) = .ok (t, rest)) :
    ∃ s ss', ss = s :: ss' ∧ t = tokOf s ∧ rest = toks ss' ∧ (tokOf s).type = ty := by
  obtain ⟨h1, h2⟩ := parseIfType_ok h
  cases ss with
  | nil => simp at h1; rw [← h1.1] at h2; exact absurd h2.symm hty
  | cons s ss =>
    simp at h1
    exact ⟨s, ss, rfl, h1.1.symm, h1.2.symm, by rw [h1.1]; exact h2⟩

theorem ident_of_type {s : Sym} (h : (tokOf s).type = .identifier) : ∃ n, s = .ident n := by
  cases s <;> simp [tokOf] at h ⊢

theorem psound_this : PSound thisParser (fun ss e => Derives .term ss e) := by
  intro ss e rest h
  unfold thisParser at h
  rw [Res.bind_eq_ok] at h
  obtain ⟨⟨t, r⟩, h1, h2⟩ := h
  obtain ⟨s, ss', rfl, rfl, rfl, h3⟩ := parseIfType_toks (by decide) h1
  simp at h2
  obtain ⟨rfl, rfl⟩ := h2
  cases s <;> simp [tokOf] at h3
  exact ⟨[.this], ss', rfl, rfl, .this⟩

theorem psound_cu : PSound computedUsersetParser (fun ss e => Derives .term ss e) := by
  intro ss e rest h
  unfold computedUsersetParser at h
  rw [Res.bind_eq_ok] at h
  obtain ⟨⟨t, r⟩, h1, h2⟩ := h
  obtain ⟨s, ss', rfl, rfl, rfl, h3⟩ := parseIfType_toks (by decide) h1
  simp at h2
  obtain ⟨rfl, rfl⟩ := h2
  obtain ⟨n, rfl⟩ := ident_of_type h3
  exact ⟨[.ident n], ss', rfl, rfl, .cu n⟩

theorem psound_ttu : PSound tupleToUsersetParser (fun ss e => Derives .term ss e) := by
  intro ss e rest h
  unfold tupleToUsersetParser at h
  rw [Res.bind_eq_ok] at h
  obtain ⟨⟨t, r⟩, h1, h⟩ := h
  rw [Res.bind_eq_ok] at h
  obtain ⟨⟨t2, r2⟩, h2, h⟩ := h
  rw [Res.bind_eq_ok] at h
  obtain ⟨⟨t3, r3⟩, h3, h⟩ := h
  obtain ⟨s, ss', rfl, rfl, rfl, e1⟩ := parseIfType_toks (by decide) h1
  obtain ⟨s2, ss2, rfl, rfl, rfl, e2⟩ := parseIfType_toks (by decide) h2
  obtain ⟨s3, ss3, rfl, rfl, rfl, e3⟩ := parseIfType_toks (by decide) h3
  simp at h
  obtain ⟨rfl, rfl⟩ := h
  obtain ⟨a, rfl⟩ := ident_of_type e1
  obtain ⟨b, rfl⟩ := ident_of_type e3
  cases s2 <;> simp [tokOf] at e2
  exact ⟨[.ident a, .arrow, .ident b], ss3, rfl, rfl, .ttu a b⟩

theorem psound_first {α : Type} {ps : List (P α)} {D : List Sym → α → Prop} (h : ∀ p ∈ ps, PSound p D) :
    PSound (first ps) D := by
  intro ss a rest hp
  have hne : first ps (toks ss) = firstLoop ps (toks ss) := by
    cases ss <;> rfl
  rw [hne] at hp
  clear hne
  induction ps with
  | nil => simp [firstLoop] at hp
  | cons p ps ih =>
    simp only [firstLoop] at hp
    cases hr : p (toks ss) with
    | ok r =>
      rw [hr] at hp
      simp at hp
      subst hp
      exact h p (by simp) ss a rest hr
    | err e =>
      rw [hr] at hp
      exact ih (fun q hq => h q (by simp [hq])) hp
    | panic => rw [hr] at hp; simp at hp
    | fuel => rw [hr] at hp; simp at hp

theorem psound_rule : PSound ruleParser (fun ss e => Derives .term ss e) := by
  apply psound_first
  intro p hp
  simp at hp
  rcases hp with rfl | rfl | rfl
  · exact psound_this
  · exact psound_ttu
  · exact psound_cu

theorem psound_setOp : PSound setOpParser (fun ss o => ∃ s, ss = [s] ∧ OpSym s o) := by
  intro ss o rest h
  rw [setOpParser_eq] at h
  cases ss with
  | nil => simp at h
  | cons s ss =>
    refine ⟨[s], ss, rfl, ?_⟩
    cases s <;> simp [tokOf] at h <;> obtain ⟨rfl, rfl⟩ := h
    · exact ⟨rfl, _, rfl, .plus⟩
    · exact ⟨rfl, _, rfl, .minus⟩
    · exact ⟨rfl, _, rfl, .amp⟩

theorem psound_opTerm {term : P ExprTree} (h : PSound term (fun ss e => Derives .term ss e)) :
    PSound (opTermParser term) (fun ss p => ∃ s r, ss = s :: r ∧ OpSym s p.1 ∧ Derives .term r p.2) := by
  intro ss a rest hp
  unfold opTermParser at hp
  rw [Res.bind_eq_ok] at hp
  obtain ⟨⟨o, r⟩, h1, hp⟩ := hp
  rw [Res.bind_eq_ok] at hp
  obtain ⟨⟨t, r2⟩, h2, hp⟩ := hp
  obtain ⟨s1, s2, rfl, rfl, s, rfl, ho⟩ := psound_setOp _ _ _ h1
  obtain ⟨s3, s4, rfl, rfl, ht⟩ := h _ _ _ h2
  simp at hp
  obtain ⟨rfl, rfl⟩ := hp
  exact ⟨s :: s3, s4, by simp, rfl, s, s3, rfl, ho, ht⟩

/-- folding the parsed (operator, term) pairs onto a head expression derives the concatenation -/
theorem psound_manyN {term : P ExprTree} (h : PSound term (fun ss e => Derives .term ss e)) :
    ∀ k ss pairs rest, manyN (opTermParser term) k (toks ss) = .ok (pairs, rest) →
      ∃ s1 s2, ss = s1 ++ s2 ∧ rest = toks s2 ∧
        ∀ l el, Derives .expr l el →
          Derives .expr (l ++ s1) (pairs.foldl (fun acc p => ExprTree.op acc p.1 p.2) el) := by
  intro k
  induction k with
  | zero => intro ss pairs rest hp; simp [manyN] at hp
  | succ k ih =>
    intro ss pairs rest hp
    simp only [manyN] at hp
    cases hr : opTermParser term (toks ss) with
    | ok r =>
      obtain ⟨a, r⟩ := r
      rw [hr] at hp
      simp only at hp
      obtain ⟨s1, s2, rfl, rfl, s, r1, rfl, ho, hd⟩ := psound_opTerm h _ _ _ hr
      cases hm : manyN (opTermParser term) k (toks s2) with
      | ok q =>
        obtain ⟨as, r3⟩ := q
        rw [hm] at hp
        simp at hp
        obtain ⟨rfl, rfl⟩ := hp
        obtain ⟨s3, s4, rfl, rfl, hf⟩ := ih _ _ _ hm
        refine ⟨(s :: r1) ++ s3, s4, by simp, rfl, ?_⟩
        intro l el hl
        have := hf (l ++ [s] ++ r1) (.op el a.1 a.2) (.binary hl ho hd)
        simpa using this
      | err e => rw [hm] at hp; simp at hp
      | panic => rw [hm] at hp; simp at hp
      | fuel => rw [hm] at hp; simp at hp
    | err e =>
      rw [hr] at hp
      simp at hp
      obtain ⟨rfl, rfl⟩ := hp
      exact ⟨[], ss, rfl, rfl, fun l el hl => by simpa using hl⟩
    | panic => rw [hr] at hp; simp at hp
    | fuel => rw [hr] at hp; simp at hp

theorem many_toks {α : Type} (p : P α) (ss : List Sym) : many p (toks ss) = manyN p ((toks ss).length + 1) (toks ss) := by
  cases ss <;> rfl

theorem psound_expr {term : P ExprTree} (h : PSound term (fun ss e => Derives .term ss e)) :
    PSound (expressionParser term) (fun ss e => Derives .expr ss e) := by
  intro ss e rest hp
  unfold expressionParser at hp
  rw [Res.bind_eq_ok] at hp
  obtain ⟨⟨hd, r⟩, h1, hp⟩ := hp
  rw [Res.bind_eq_ok] at hp
  obtain ⟨⟨pairs, r2⟩, h2, hp⟩ := hp
  obtain ⟨s1, s2, rfl, rfl, hd1⟩ := h _ _ _ h1
  rw [many_toks] at h2
  obtain ⟨s3, s4, rfl, rfl, hf⟩ := psound_manyN h _ _ _ _ h2
  simp at hp
  obtain ⟨rfl, rfl⟩ := hp
  exact ⟨s1 ++ s3, s4, by simp, rfl, hf _ _ (.single hd1)⟩

theorem psound_subexpr {term : P ExprTree} (h : PSound term (fun ss e => Derives .term ss e)) :
    PSound (subexprParser term) (fun ss e => Derives .term ss e) := by
  intro ss e rest hp
  unfold subexprParser at hp
  rw [Res.bind_eq_ok] at hp
  obtain ⟨⟨t1, r1⟩, h1, hp⟩ := hp
  rw [Res.bind_eq_ok] at hp
  obtain ⟨⟨e2, r2⟩, h2, hp⟩ := hp
  rw [Res.bind_eq_ok] at hp
  obtain ⟨⟨t3, r3⟩, h3, hp⟩ := hp
  obtain ⟨s, ss', rfl, rfl, rfl, e1⟩ := parseIfType_toks (by decide) h1
  obtain ⟨s1, s2, rfl, rfl, hd⟩ := psound_expr h _ _ _ h2
  obtain ⟨s3, ss3, rfl, rfl, rfl, e3⟩ := parseIfType_toks (by decide) h3
  simp at hp
  obtain ⟨rfl, rfl⟩ := hp
  cases s <;> simp [tokOf] at e1
  cases s3 <;> simp [tokOf] at e3
  exact ⟨[.lp] ++ s1 ++ [.rp], ss3, by simp, rfl, .group hd⟩

theorem psound_term : ∀ n, PSound (termParser n) (fun ss e => Derives .term ss e) := by
  intro n
  induction n with
  | zero => intro ss e rest h; simp [termParser] at h
  | succ n ih =>
    apply psound_first
    intro p hp
    simp at hp
    rcases hp with rfl | rfl
    · exact psound_rule
    · exact psound_subexpr ih

/-! ### Completeness: every derivation is parsed -/

/-- the remaining input does not continue a term / an expression -/
def stopTerm (rest : List Sym) : Prop := rest.head? ≠ some .arrow
def stopExpr (rest : List Sym) : Prop :=
  rest.head? ≠ some .arrow ∧ rest.head? ≠ some .plus ∧ rest.head? ≠ some .minus ∧ rest.head? ≠ some .amp

theorem ruleParser_this (rest : List Sym) : ruleParser (toks (.this :: rest)) = .ok (.rule .this, toks rest) := by
  simp [ruleParser, first, firstLoop, thisParser, parseIfType_eq, tokOf]

theorem ruleParser_ttu (a b : List Char) (rest : List Sym) :
    ruleParser (toks (.ident a :: .arrow :: .ident b :: rest)) =
      .ok (.rule (.ttu (String.ofList a) (String.ofList b)), toks rest) := by
  simp [ruleParser, first, firstLoop, thisParser, tupleToUsersetParser, parseIfType_eq, tokOf]

theorem ruleParser_cu (a : List Char) (rest : List Sym) (h : stopTerm rest) :
    ruleParser (toks (.ident a :: rest)) = .ok (.rule (.cu (String.ofList a)), toks rest) := by
  have h2 : parseIfType .arrow (toks rest) = .err .parse := by
    rw [parseIfType_eq]
    cases rest with
    | nil => rfl
    | cons s r => cases s <;> simp [tokOf, stopTerm] at h ⊢
  simp [ruleParser, first, firstLoop, thisParser, tupleToUsersetParser, computedUsersetParser, parseIfType_eq, tokOf]
  simp [parseIfType_eq] at h2
  rw [h2]
  rfl

theorem opSym_setOp {s : Sym} {o : Operator} (h : OpSym s o) (rest : List Sym) :
    setOpParser (toks (s :: rest)) = .ok (o, toks rest) := by
  rw [setOpParser_eq]
  cases h <;> rfl

theorem setOp_stop (rest : List Sym) (h : stopExpr rest) : setOpParser (toks rest) = .err .parse := by
  rw [setOpParser_eq]
  cases rest with
  | nil => rfl
  | cons s r => cases s <;> simp [tokOf, stopExpr] at h ⊢

theorem ruleParser_lp (ss : List Sym) : ruleParser (toks (.lp :: ss)) = .err .parse := by
  simp [ruleParser, first, firstLoop, thisParser, tupleToUsersetParser, computedUsersetParser, parseIfType_eq, tokOf]

theorem parseIfType_hit (s : Sym) (ss : List Sym) : parseIfType (tokOf s).type (toks (s :: ss)) = .ok (tokOf s, toks ss) := by
  simp [parseIfType_eq]

/-- decomposition of an expression derivation into head and (operator, term) pairs -/
inductive Pairs : List Sym → List (Operator × ExprTree) → Prop
  | nil : Pairs [] []
  | cons {s : Sym} {r ss : List Sym} {o : Operator} {e : ExprTree} {ps : List (Operator × ExprTree)} :
      OpSym s o → Derives .term r e → Pairs ss ps → Pairs (s :: r ++ ss) ((o, e) :: ps)

theorem pairs_snoc {ss : List Sym} {ps : List (Operator × ExprTree)} (h : Pairs ss ps) {s : Sym} {o : Operator}
    {r : List Sym} {e : ExprTree} (ho : OpSym s o) (hd : Derives .term r e) : Pairs (ss ++ s :: r) (ps ++ [(o, e)]) := by
  induction h with
  | nil => simpa using Pairs.cons ho hd .nil
  | @cons s' r' ss' o' e' ps' h1 h2 _ ih =>
    have := Pairs.cons h1 h2 ih
    simpa using this

theorem derives_expr_pairs {ss : List Sym} {e : ExprTree} (h : Derives .expr ss e) :
    ∃ s0 e0 s1 ps, ss = s0 ++ s1 ∧ Derives .term s0 e0 ∧ Pairs s1 ps ∧
      e = ps.foldl (fun acc p => ExprTree.op acc p.1 p.2) e0 := by
  generalize hnt : NT.expr = nt at h
  induction h with
  | this => cases hnt
  | cu => cases hnt
  | ttu => cases hnt
  | group => cases hnt
  | single hd _ => exact ⟨_, _, [], [], by simp, hd, .nil, rfl⟩
  | @binary l r s o el er _ ho hd ih _ =>
    obtain ⟨s0, e0, s1, ps, rfl, h0, hp, rfl⟩ := ih rfl
    exact ⟨s0, e0, s1 ++ s :: r, ps ++ [(o, er)], by simp, h0, pairs_snoc hp ho hd, by simp [List.foldl_append]⟩

theorem derives_pos {nt : NT} {ss : List Sym} {e : ExprTree} (h : Derives nt ss e) : 0 < ss.length := by
  induction h <;> simp_all <;> omega

/-- first symbol of a term -/
theorem term_head {ss : List Sym} {e : ExprTree} (h : Derives .term ss e) :
    ∃ s r, ss = s :: r ∧ s ≠ .arrow := by
  cases h with
  | this => exact ⟨_, _, rfl, by simp⟩
  | cu => exact ⟨_, _, rfl, by simp⟩
  | ttu => exact ⟨_, _, rfl, by simp⟩
  | group => exact ⟨_, _, rfl, by simp⟩

theorem pairs_stopTerm {ss : List Sym} {ps : List (Operator × ExprTree)} (h : Pairs ss ps) (rest : List Sym)
    (hr : stopExpr rest) : stopTerm (ss ++ rest) := by
  cases h with
  | nil => exact hr.1
  | cons ho _ _ => cases ho <;> simp [stopTerm]

/-- completeness of `many opTerm` given completeness of terms up to a length -/
theorem manyN_complete {term : P ExprTree} {n : Nat}
    (hterm : ∀ ss e rest, Derives .term ss e → ss.length ≤ n → stopTerm rest →
      term (toks (ss ++ rest)) = .ok (e, toks rest))
    {ss : List Sym} {ps : List (Operator × ExprTree)} (h : Pairs ss ps) :
    ss.length ≤ n → ∀ k rest, ss.length < k → stopExpr rest →
      manyN (opTermParser term) k (toks (ss ++ rest)) = .ok (ps, toks rest) := by
  induction h with
  | nil =>
    intro _ k rest hk hr
    cases k with
    | zero => simp at hk
    | succ k => simp [manyN, opTermParser, setOp_stop rest hr]
  | @cons s r ss o e ps ho hd hp ih =>
    intro hn k rest hk hr
    cases k with
    | zero => simp at hk
    | succ k =>
      simp at hn hk
      have h1 : setOpParser (toks (s :: r ++ ss ++ rest)) = .ok (o, toks (r ++ (ss ++ rest))) := by
        have := opSym_setOp ho (r ++ (ss ++ rest))
        simpa using this
      have h2 := hterm r e (ss ++ rest) hd (by omega) (pairs_stopTerm hp rest hr)
      have h3 := ih (by omega) k rest (by omega) hr
      simp only [manyN, opTermParser, h1, Res.bind_ok, h2, Res.pure_eq, h3]

theorem expr_complete {term : P ExprTree} {n : Nat}
    (hterm : ∀ ss e rest, Derives .term ss e → ss.length ≤ n → stopTerm rest →
      term (toks (ss ++ rest)) = .ok (e, toks rest))
    {ss : List Sym} {e : ExprTree} (h : Derives .expr ss e) (hn : ss.length ≤ n) (rest : List Sym)
    (hr : stopExpr rest) : expressionParser term (toks (ss ++ rest)) = .ok (e, toks rest) := by
  obtain ⟨s0, e0, s1, ps, rfl, h0, hp, rfl⟩ := derives_expr_pairs h
  simp at hn
  have h1 := hterm s0 e0 (s1 ++ rest) h0 (by omega) (pairs_stopTerm hp rest hr)
  have h2 := manyN_complete hterm hp (by omega) ((toks (s1 ++ rest)).length + 1) rest (by simp [toks_length]; omega) hr
  unfold expressionParser
  simp only [List.append_assoc, h1, Res.bind_ok, many_toks, h2, Res.pure_eq]

theorem term_complete : ∀ n ss e rest, Derives .term ss e → ss.length ≤ n → stopTerm rest →
    termParser (n + 1) (toks (ss ++ rest)) = .ok (e, toks rest) := by
  intro n
  induction n with
  | zero =>
    intro ss e rest h hn
    have := derives_pos h
    omega
  | succ n ih =>
    intro ss e rest h hn hr
    have hfirst : ∀ ss, ss ≠ [] → termParser (n + 1 + 1) (toks ss) =
        firstLoop [ruleParser, subexprParser (termParser (n + 1))] (toks ss) := by
      intro ss hss
      cases ss with
      | nil => simp at hss
      | cons s r => rfl
    have hne : ss ++ rest ≠ [] := by
      have := derives_pos h
      intro hc
      simp at hc
      simp [hc.1] at this
    rw [hfirst _ hne]
    cases h with
    | this => simp [firstLoop, ruleParser_this rest, ← toks_cons]
    | cu a => simp [firstLoop, ruleParser_cu a rest hr, ← toks_cons]
    | ttu a b => simp [firstLoop, ruleParser_ttu a b rest, ← toks_cons]
    | @group ss e hd =>
      simp at hn
      have h1 : parseIfType .groupBegin (toks (.lp :: (ss ++ .rp :: rest))) = .ok (tokOf .lp, toks (ss ++ .rp :: rest)) :=
        parseIfType_hit .lp _
      have h2 := expr_complete ih hd (by omega) (.rp :: rest) (by simp [stopExpr])
      have h3 : parseIfType .groupEnd (toks (.rp :: rest)) = .ok (tokOf .rp, toks rest) := parseIfType_hit .rp _
      have h4 : ruleParser (toks (.lp :: (ss ++ .rp :: rest))) = .err .parse := ruleParser_lp _
      have e1 : [Sym.lp] ++ ss ++ [Sym.rp] ++ rest = .lp :: (ss ++ .rp :: rest) := by simp
      rw [e1]
      simp only [firstLoop, h4, subexprParser, h1, Res.bind_ok, h2, h3, Res.pure_eq]

theorem skipEof_toks (ss : List Sym) : many (parseIfType .eof) (toks ss) =
    match ss with
    | [] => .ok ([⟨.eof, ""⟩], [])
    | _ :: _ => .ok ([], toks ss) := by
  rw [many_toks]
  cases ss with
  | nil => rfl
  | cons s r =>
    have : parseIfType .eof (toks (s :: r)) = .err .parse := by
      rw [parseIfType_eq]
      cases s <;> rfl
    simp only [manyN, this]

theorem toks_getLast (ss : List Sym) : (toks ss).getLast? = some ⟨.eof, ""⟩ := by
  simp [toks]

/-- `parseTokens` on a symbol list decides the grammar and returns the derived tree -/
theorem parseTokens_iff (ss : List Sym) (e : ExprTree) : parseTokens (toks ss) = .ok e ↔ Derives .expr ss e := by
  constructor
  · intro h
    unfold parseTokens at h
    rw [toks_getLast] at h
    simp only [reduceCtorEq, if_false] at h
    rw [Res.bind_eq_ok] at h
    obtain ⟨⟨a, r⟩, h1, h⟩ := h
    obtain ⟨s1, s2, rfl, rfl, hd⟩ := psound_expr (psound_term _) _ _ _ h1
    rw [Res.bind_eq_ok] at h
    obtain ⟨⟨es, r2⟩, h2, h⟩ := h
    simp only at h2
    rw [skipEof_toks] at h2
    cases s2 with
    | nil =>
      simp at h2
      obtain ⟨rfl, rfl⟩ := h2
      simp at h
      subst h
      simpa using hd
    | cons s r =>
      simp at h2
      obtain ⟨rfl, rfl⟩ := h2
      simp at h
  · intro h
    have h1 := expr_complete (term_complete (ss.length + 1)) h (by omega) [] (by simp [stopExpr])
    simp only [List.append_nil] at h1
    unfold parseTokens
    rw [toks_getLast]
    simp only [reduceCtorEq, if_false, toks_length]
    have h2 := skipEof_toks []
    simp only at h2
    rw [h1, Res.bind_ok, h2]
    rfl

/-! ### Printing -/

/-- symbol of an operator -/
def symOfOp : Operator → Sym
  | .union => .plus
  | .intersection => .amp
  | _ => .minus

/-- symbols of the printed form of a tree -/
def printSyms : ExprTree → List Sym
  | .nil => []
  | .unset => []
  | .rule .unset => []
  | .rule .this => [.this]
  | .rule (.cu n) => [.ident n.toList]
  | .rule (.ttu a b) => [.ident a.toList, .arrow, .ident b.toList]
  | .op l o r => [.lp] ++ (printSyms l ++ [symOfOp o] ++ printSyms r) ++ [.rp]

theorem printSyms_derives (f : Char → Bool) : ∀ {e : ExprTree}, Printable f e → Derives .term (printSyms e) e := by
  intro e
  induction e with
  | nil => intro h; exact h.elim
  | unset => intro h; exact h.elim
  | rule r =>
    intro h
    cases r with
    | unset => exact h.elim
    | this => exact .this
    | cu n =>
      have := Derives.cu n.toList
      simpa [printSyms] using this
    | ttu a b =>
      have := Derives.ttu a.toList b.toList
      simpa [printSyms] using this
  | op l o r ihl ihr =>
    intro h
    obtain ⟨ho, hl, hr⟩ := h
    refine .group (.binary (.single (ihl hl)) ?_ (ihr hr))
    cases o with
    | union => exact .plus
    | intersection => exact .amp
    | difference => exact .minus
    | unknown => exact absurd rfl ho

/-- `Good rest`: text that can follow a printed term (does not extend an identifier) -/
theorem print_renders (U : Unicode) : ∀ {e : ExprTree}, Printable U.isIdent e →
    ∃ s, e.print = .ok s ∧
      ∀ (rest : List Char) (ss : List Sym), (∀ c, rest.head? = some c → U.isIdent c = false) →
        Renders U.isIdent whiteSpace rest ss → Renders U.isIdent whiteSpace (s.toList ++ rest) (printSyms e ++ ss) := by
  have ident1 : ∀ (n : List Char) (rest : List Char) (ss : List Sym), IdentOK U.isIdent n →
      (∀ c, rest.head? = some c → U.isIdent c = false) → Renders U.isIdent whiteSpace rest ss →
      Renders U.isIdent whiteSpace (n ++ rest) (.ident n :: ss) := by
    intro n rest ss hn hf hr
    have := Renders.cons (ws := []) (s := .ident n) (by simp) (fun m hm => by cases hm; exact hn) hf hr
    simpa [Sym.spell] using this
  have sym1 : ∀ (s : Sym) (rest : List Char) (ss : List Sym), (∀ n, s ≠ .ident n) → Follows U.isIdent s rest →
      Renders U.isIdent whiteSpace rest ss → Renders U.isIdent whiteSpace (s.spell ++ rest) (s :: ss) := by
    intro s rest ss hs hf hr
    have := Renders.cons (ws := []) (s := s) (by simp) (fun m hm => absurd hm (hs m)) hf hr
    simpa using this
  have space1 : ∀ (rest : List Char) (ss : List Sym), Renders U.isIdent whiteSpace rest ss →
      Renders U.isIdent whiteSpace (' ' :: rest) ss := by
    intro rest ss hr
    cases hr with
    | nil h => exact .nil (by intro c hc; simp at hc; rcases hc with rfl | hc; decide; exact h c hc)
    | @cons ws r s ss' h hi hf hr =>
      have : ' ' :: (ws ++ s.spell ++ r) = (' ' :: ws) ++ s.spell ++ r := by simp
      rw [this]
      exact .cons (by intro c hc; simp at hc; rcases hc with rfl | hc; decide; exact h c hc) hi hf hr
  obtain ⟨p1, p2, p3, p4, p5, p6⟩ := not_ident_punct U
  intro e
  induction e with
  | nil => intro h; exact h.elim
  | unset => intro h; exact h.elim
  | rule r =>
    intro h
    cases r with
    | unset => exact h.elim
    | this =>
      refine ⟨_, rfl, ?_⟩
      intro rest ss hf hr
      have := sym1 .this rest ss (by simp) trivial hr
      simpa [printSyms, Rule.print, Sym.spell] using this
    | cu n =>
      refine ⟨_, rfl, ?_⟩
      intro rest ss hf hr
      exact ident1 n.toList rest ss h hf hr
    | ttu a b =>
      refine ⟨_, rfl, ?_⟩
      intro rest ss hf hr
      have h1 := ident1 b.toList rest ss h.2 hf hr
      have h2 := sym1 .arrow _ _ (by simp) trivial h1
      have h3 := ident1 a.toList _ _ h.1 (by simp [Sym.spell, p3]) h2
      simpa [printSyms, Rule.print, Sym.spell] using h3
  | op l o r ihl ihr =>
    intro h
    obtain ⟨ho, hl, hr⟩ := h
    obtain ⟨ls, hls, hl'⟩ := ihl hl
    obtain ⟨rs, hrs, hr'⟩ := ihr hr
    refine ⟨"(" ++ ls ++ " " ++ o.print ++ " " ++ rs ++ ")", by simp [ExprTree.print, hls, hrs], ?_⟩
    intro rest ss hf hrest
    have h1 := sym1 .rp rest ss (by simp) trivial hrest
    have h2 := hr' _ _ (by simp [Sym.spell, p2]) h1
    have h3 := space1 _ _ h2
    have h4 : Renders U.isIdent whiteSpace (o.print.toList ++ (' ' :: (rs.toList ++ (Sym.rp.spell ++ rest))))
        (symOfOp o :: (printSyms r ++ .rp :: ss)) := by
      cases o with
      | union => exact sym1 .plus _ _ (by simp) trivial h3
      | intersection => exact sym1 .amp _ _ (by simp) trivial h3
      | difference => exact sym1 .minus _ _ (by simp) (by simp [Follows]) h3
      | unknown => exact absurd rfl ho
    have h5 := space1 _ _ h4
    have h6 := hl' _ _ (by simp [p6]) h5
    have h7 := sym1 .lp _ _ (by simp) trivial h6
    simpa [printSyms, Sym.spell, String.toList_append] using h7

end Zanzi
