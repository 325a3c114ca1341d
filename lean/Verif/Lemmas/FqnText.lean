import Verif.Model.FqnText
import Verif.Lemmas.Kv

namespace Zanzi.FqnText

/-- Value of a hexadecimal digit. -/
def hexVal (c : Char) : Nat := if c.toNat < 58 then c.toNat - 48 else c.toNat - 87

/-- Reads the inside of a quoted text up to the closing quote. -/
def unquote : Nat → List Char → Option (List Char × List Char)
  | 0, _ => none
  | _ + 1, '"' :: rest => some ([], rest)
  | n + 1, '\\' :: 'x' :: a :: b :: rest => (unquote n rest).map (fun p => (Char.ofNat (hexVal a * 16 + hexVal b) :: p.1, p.2))
  | n + 1, '\\' :: 'u' :: _ :: _ :: a :: b :: rest => (unquote n rest).map (fun p => (Char.ofNat (hexVal a * 16 + hexVal b) :: p.1, p.2))
  | n + 1, '\\' :: 'n' :: rest => (unquote n rest).map (fun p => ('\n' :: p.1, p.2))
  | n + 1, '\\' :: 'r' :: rest => (unquote n rest).map (fun p => ('\r' :: p.1, p.2))
  | n + 1, '\\' :: 't' :: rest => (unquote n rest).map (fun p => ('\t' :: p.1, p.2))
  | n + 1, '\\' :: c :: rest => (unquote n rest).map (fun p => (c :: p.1, p.2))
  | n + 1, c :: rest => (unquote n rest).map (fun p => (c :: p.1, p.2))
  | _ + 1, [] => none

theorem hex_back : ∀ n, n < 160 → Char.ofNat (hexVal (hexDigit (n / 16)) * 16 + hexVal (hexDigit (n % 16))) = Char.ofNat n := by decide +kernel

theorem unquote_esc (c : Char) (n : Nat) (rest : List Char) :
    unquote (n + 1) (esc c ++ rest) = (unquote n rest).map (fun p => (c :: p.1, p.2)) := by
  unfold esc
  split
  · next h => subst h; rfl
  split
  · next h => subst h; rfl
  split
  · next h => subst h; rfl
  split
  · next h => subst h; rfl
  split
  · next h => subst h; rfl
  split
  · next h =>
    show (unquote n rest).map _ = _
    rw [hex_back c.toNat (by omega), Char.ofNat_toNat]
  split
  · next h =>
    show (unquote n rest).map _ = _
    rw [hex_back c.toNat (by omega), Char.ofNat_toNat]
  · next h1 h2 _ _ _ _ _ =>
    show unquote (n + 1) (c :: rest) = _
    rw [unquote] <;> first | (intros; simp_all; done) | skip

theorem unquote_all (l : List Char) (rest : List Char) (n : Nat) (hn : l.length ≤ n) :
    unquote (n + 1) (l.flatMap esc ++ '"' :: rest) = some (l, rest) := by
  induction l generalizing n with
  | nil => rfl
  | cons c l ih =>
    cases n with
    | zero => simp at hn
    | succ n =>
      rw [List.flatMap_cons, List.append_assoc, unquote_esc, ih n (by simpa using hn)]
      rfl

/-- What precedes a quoted text can be told from it. -/
theorem quoted_inj {s s' : String} {r r' : List Char} (h : quoted s ++ r = quoted s' ++ r') : s = s' ∧ r = r' := by
  have h1 := unquote_all s.toList r (max s.toList.length s'.toList.length) (by omega)
  have h2 := unquote_all s'.toList r' (max s.toList.length s'.toList.length) (by omega)
  simp only [quoted, List.cons_append, List.append_assoc, List.cons.injEq, true_and, List.nil_append] at h
  rw [h, h2] at h1
  obtain ⟨h3, h4⟩ := Prod.mk.inj (Option.some.inj h1)
  exact ⟨String.toList_inj.1 h3.symm, h4.symm⟩

/-- What follows the resource. -/
def tail (wide : Bool) (b : String) : List Char :=
  if b = "" then [] else (if wide then [' ', ' '] else [' ']) ++ ("relation_name".toList ++ ':' :: quoted b)

theorem tail_inj {wide : Bool} {b b' : String} (h : tail wide b = tail wide b') : b = b' := by
  unfold tail at h
  by_cases h1 : b = "" <;> by_cases h2 : b' = ""
  · rw [h1, h2]
  · rw [if_pos h1, if_neg h2] at h
    cases wide <;> simp at h
  · rw [if_neg h1, if_pos h2] at h
    cases wide <;> simp at h
  · rw [if_neg h1, if_neg h2, List.append_right_inj, List.append_right_inj, List.cons.injEq] at h
    exact (quoted_inj (r := []) (r' := []) (by simpa using h.2)).1

theorem relationKey_left {wide : Bool} {a b : String} (h : a ≠ "") :
    relationKey wide a b = "resource_name".toList ++ ':' :: (quoted a ++ tail wide b) := by
  unfold relationKey field tail
  by_cases hb : b = ""
  · rw [if_neg h, if_pos (.inr hb), if_pos hb, if_pos hb, List.append_nil, List.append_nil, List.append_nil]
  · rw [if_neg h, if_neg (by rintro (h' | h') <;> contradiction), if_neg hb, if_neg hb, List.append_assoc, List.append_assoc, List.cons_append]

theorem relationKey_right {wide : Bool} {b : String} : relationKey wide "" b = field "relation_name" b := by
  have : field "resource_name" "" = [] := if_pos rfl
  rw [relationKey, this, if_pos (.inl rfl)]
  rfl

theorem field_third {b : String} {x : List Char} : field "relation_name" b ≠ "resource_name".toList ++ x := by
  unfold field
  split
  · simp
  · intro h
    have := congrArg (fun l : List Char => l[2]?) h
    simp at this

theorem relationKey_inj {wide : Bool} {a b a' b' : String} (h : relationKey wide a b = relationKey wide a' b') : a = a' ∧ b = b' := by
  by_cases h1 : a = "" <;> by_cases h2 : a' = ""
  · subst h1 h2
    rw [relationKey_right, relationKey_right] at h
    refine ⟨rfl, ?_⟩
    unfold field at h
    by_cases h3 : b = "" <;> by_cases h4 : b' = ""
    · rw [h3, h4]
    · simp [h3, h4] at h
    · simp [h3, h4] at h
    · rw [if_neg h3, if_neg h4, List.append_right_inj, List.cons.injEq] at h
      exact (quoted_inj (r := []) (r' := []) (by simpa using h.2)).1
  · subst h1
    rw [relationKey_right, relationKey_left h2] at h
    exact absurd h field_third
  · subst h2
    rw [relationKey_right, relationKey_left h1] at h
    exact absurd h.symm field_third
  · rw [relationKey_left h1, relationKey_left h2, List.append_right_inj, List.cons.injEq] at h
    obtain ⟨h3, h4⟩ := quoted_inj h.2
    exact ⟨h3, tail_inj h4⟩

/-! The lookup table keyed by text. -/

theorem kvInsert_key {K K' V : Type} {f : K → K'} {m : List (K × V)} {k : K} {v : V} :
    kvInsert (fun _ _ => false) (m.map (fun p => (f p.1, p.2))) (f k) v = (kvInsert (fun _ _ => false) m k v).map (fun p => (f p.1, p.2)) := by
  induction m with
  | nil => rfl
  | cons p m ih =>
    simp only [List.map_cons, kvInsert, Bool.false_eq_true, if_false, ih]

theorem kvGet_key {K K' V : Type} [DecidableEq K] [DecidableEq K'] {f : K → K'} (hf : ∀ a b, f a = f b → a = b) {m : List (K × V)} {k : K} :
    kvGet (m.map (fun p => (f p.1, p.2))) (f k) = kvGet m k := by
  induction m with
  | nil => rfl
  | cons p m ih =>
    obtain ⟨k', v⟩ := p
    simp only [List.map_cons, kvGet, ih]
    by_cases h : k' = k
    · rw [if_pos h, if_pos (by rw [h])]
    · rw [if_neg h, if_neg (fun e => h (hf _ _ e))]

theorem kvPut_key {K K' V : Type} [DecidableEq K] [DecidableEq K'] {f : K → K'} (hf : ∀ a b, f a = f b → a = b) {m : List (K × V)} {k : K} {v : V} :
    kvPut (fun _ _ => false) (m.map (fun p => (f p.1, p.2))) (f k) v = (kvPut (fun _ _ => false) m k v).map (fun p => (f p.1, p.2)) := by
  unfold kvPut
  rw [kvGet_key hf]
  split
  · rw [List.map_map, List.map_map]
    refine List.map_congr_left (fun p _ => ?_)
    by_cases h : p.1 = k
    · simp [h]
    · have h' : ¬ f p.1 = f k := fun e => h (hf _ _ e)
      simp [h, h']
  · exact kvInsert_key

theorem lutRelations_eq (wide : Bool) (p : Policy) :
    lutRelations wide p = (newLut p).relations.map (fun q => (relationKey wide q.1.1 q.1.2, q.2)) := by
  have hf : ∀ a b : String × String, relationKey wide a.1 a.2 = relationKey wide b.1 b.2 → a = b :=
    fun a b h => Prod.ext (relationKey_inj h).1 (relationKey_inj h).2
  have inner : ∀ (name : String) (rels : List Relation) (m : List ((String × String) × Relation)),
      rels.foldl (fun m rel => kvPut (fun _ _ => false) m (relationKey wide name rel.name) rel) (m.map (fun q => (relationKey wide q.1.1 q.1.2, q.2))) =
      (lutAddRelations name m rels).map (fun q => (relationKey wide q.1.1 q.1.2, q.2)) := by
    intro name rels
    induction rels with
    | nil => intro m; rfl
    | cons r rels ih =>
      intro m
      rw [List.foldl_cons, lutAddRelations, List.foldl_cons]
      rw [show relationKey wide name r.name = (fun a : String × String => relationKey wide a.1 a.2) (name, r.name) from rfl,
        kvPut_key (f := fun a : String × String => relationKey wide a.1 a.2) hf]
      exact ih _
  have outer : ∀ (rs : List Resource) (l : Lut),
      rs.foldl (fun m res => res.relations.foldl (fun m rel => kvPut (fun _ _ => false) m (relationKey wide res.name rel.name) rel) m)
        (l.relations.map (fun q => (relationKey wide q.1.1 q.1.2, q.2))) =
      (rs.foldl (fun lut res => { resources := kvPut (fun _ _ => false) lut.resources res.name res, relations := lutAddRelations res.name lut.relations res.relations }) l : Lut).relations.map
        (fun q => (relationKey wide q.1.1 q.1.2, q.2)) := by
    intro rs
    induction rs with
    | nil => intro l; rfl
    | cons r rs ih =>
      intro l
      rw [List.foldl_cons, List.foldl_cons, inner]
      exact ih ⟨lutAddRelations r.name l.relations r.relations, kvPut (fun _ _ => false) l.resources r.name r⟩
  exact outer p.resources ⟨[], []⟩

theorem lookup_eq (wide : Bool) (p : Policy) (res rel : String) :
    kvGet (lutRelations wide p) (relationKey wide res rel) = (newLut p).getRelation res rel := by
  rw [lutRelations_eq]
  exact kvGet_key (f := fun a : String × String => relationKey wide a.1 a.2) (k := (res, rel))
    (fun a b h => Prod.ext (relationKey_inj h).1 (relationKey_inj h).2)

end Zanzi.FqnText
