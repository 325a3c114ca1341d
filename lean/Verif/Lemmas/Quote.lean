import Verif.Spec.Quote
import Verif.Props.Explain
import Verif.Props.Dump
import Verif.Lemmas.RelySem
import Verif.Lemmas.Containers

/-
DOT quoting: lemmas.
-/

namespace Zanzi

open Spec

theorem readBody_quote {cs : List Char} (h : cs ≠ []) : readBody ('"' :: cs) = none := by
  cases cs with
  | nil => exact absurd rfl h
  | cons => rfl

theorem readBody_esc (cs : List Char) : readBody ('\\' :: '"' :: cs) = (readBody cs).map ('"' :: ·) := by
  rw [readBody]

theorem readBody_pair {c : Char} (hc : c ≠ '"') (cs : List Char) : readBody ('\\' :: c :: cs) = (readBody cs).map (fun r => '\\' :: c :: r) := by
  rw [readBody]
  exact fun h => hc h

theorem readBody_plain {c : Char} (hq : c ≠ '"') (hb : c ≠ '\\') (cs : List Char) : readBody (c :: cs) = (readBody cs).map (c :: ·) := by
  rw [readBody] <;> simp_all

theorem map_some_iff {f : List Char → List Char} (hf : ∀ a b, f a = f b → a = b) {o : Option (List Char)} {a : List Char} :
    o.map f = some (f a) ↔ o = some a := by
  cases o with
  | none => simp
  | some b => simp; exact ⟨fun h => hf _ _ h, fun h => by rw [h]⟩

theorem readBody_wrap (cs : List Char) : readBody (cs ++ ['"']) = some cs ↔ '"' ∉ cs ∧ midPair cs = false := by
  induction hn : cs.length using Nat.strongRecOn generalizing cs with
  | _ n ih =>
    cases cs with
    | nil => simp [readBody, midPair]
    | cons c cs =>
      by_cases hq : c = '"'
      · subst hq
        rw [List.cons_append, readBody_quote (by simp)]
        simp
      · by_cases hb : c = '\\'
        · subst hb
          cases cs with
          | nil => simp [readBody, midPair]
          | cons c cs =>
            by_cases hc : c = '"'
            · subst hc
              rw [List.cons_append, List.cons_append, readBody_esc]
              constructor
              · intro h
                obtain ⟨a, _, h⟩ := Option.map_eq_some_iff.1 h
                cases h
              · intro h; simp at h
            · rw [List.cons_append, List.cons_append, readBody_pair hc, map_some_iff (f := fun r => '\\' :: c :: r) (by simp),
                ih cs.length (by subst hn; simp; omega) cs rfl, midPair]
              simp [Ne.symm hc]
        · rw [List.cons_append, readBody_plain hq hb, map_some_iff (f := (c :: ·)) (by simp),
            ih cs.length (by subst hn; simp) cs rfl, show midPair (c :: cs) = midPair cs by rw [midPair] <;> simp_all]
          simp [Ne.symm hq]

theorem readBody_escape (cs : List Char) : readBody (MapDiGraph.escape cs ++ ['"']) = some cs ↔ pairedQuote cs = false := by
  induction hn : cs.length using Nat.strongRecOn generalizing cs with
  | _ n ih =>
    cases cs with
    | nil => simp [readBody, pairedQuote, MapDiGraph.escape]
    | cons c cs =>
      by_cases hq : c = '"'
      · subst hq
        rw [MapDiGraph.escape, List.cons_append, List.cons_append, readBody_esc, map_some_iff (f := ('"' :: ·)) (by simp),
          ih cs.length (by subst hn; simp) cs rfl, show pairedQuote ('"' :: cs) = pairedQuote cs by rw [pairedQuote] <;> simp]
      · rw [MapDiGraph.escape.eq_3 _ _ hq]
        by_cases hb : c = '\\'
        · subst hb
          cases cs with
          | nil => simp [readBody, pairedQuote, MapDiGraph.escape]
          | cons c cs =>
            by_cases hc : c = '"'
            · subst hc
              rw [MapDiGraph.escape, List.cons_append, List.cons_append, List.cons_append, readBody_pair (by decide), readBody_quote (by simp), pairedQuote]
              simp
            · rw [MapDiGraph.escape.eq_3 _ _ hc, List.cons_append, List.cons_append, readBody_pair hc, map_some_iff (f := fun r => '\\' :: c :: r) (by simp),
                ih cs.length (by subst hn; simp; omega) cs rfl, show pairedQuote ('\\' :: c :: cs) = pairedQuote cs by rw [pairedQuote]; exact fun h => hc h]
        · rw [List.cons_append, readBody_plain hq hb, map_some_iff (f := (c :: ·)) (by simp),
            ih cs.length (by subst hn; simp) cs rfl, show pairedQuote (c :: cs) = pairedQuote cs by rw [pairedQuote] <;> simp_all]

theorem midPair_append_last {c : Char} (hc : c ≠ '\\') (cs : List Char) : midPair (cs ++ [c]) = false := by
  induction hn : cs.length using Nat.strongRecOn generalizing cs with
  | _ n ih =>
    cases cs with
    | nil => rw [List.nil_append, midPair] <;> simp_all [midPair]
    | cons d cs =>
      by_cases hd : d = '\\'
      · subst hd
        cases cs with
        | nil => simp [midPair]
        | cons e cs =>
          rw [List.cons_append, List.cons_append, midPair]
          exact ih cs.length (by subst hn; simp; omega) cs rfl
      · rw [List.cons_append, show midPair (d :: (cs ++ [c])) = midPair (cs ++ [c]) by rw [midPair] <;> simp_all]
        exact ih cs.length (by subst hn; simp) cs rfl

theorem reads_wrap_iff (l : String) : Reads (dotWrap l) l ↔ QuoteFree l ∧ midPair l.toList = false := by
  have : (dotWrap l).toList = '"' :: (l.toList ++ ['"']) := by simp [dotWrap, String.toList_append]
  unfold Reads QuoteFree
  rw [this, ← readBody_wrap]
  constructor
  · rintro ⟨cs, h1, h2⟩
    cases h1
    exact h2
  · intro h; exact ⟨_, rfl, h⟩

theorem reads_mapId_iff (id : String) : Reads (MapDiGraph.mapId id) id ↔ pairedQuote id.toList = false := by
  have : (MapDiGraph.mapId id).toList = '"' :: (MapDiGraph.escape id.toList ++ ['"']) := by
    simp [MapDiGraph.mapId, MapDiGraph.wrap, String.toList_append]
  unfold Reads
  rw [this, ← readBody_escape]
  constructor
  · rintro ⟨cs, h1, h2⟩
    cases h1
    exact h2
  · intro h; exact ⟨_, rfl, h⟩

theorem reads_number (k : Nat) : Reads (DotId.num k).written (toString k) := by
  have hd : ∀ c ∈ (toString k).toList, c.isDigit = true := by
    intro c hc
    simp only [toString, Nat.repr_eq_ofList_toDigits, String.toList_ofList] at hc
    exact Nat.isDigit_of_mem_toDigits (by omega) (by omega) hc
  refine (reads_wrap_iff _).2 ⟨fun h => absurd (hd _ h) (by decide), ?_⟩
  generalize (toString k).toList = cs at hd
  induction cs with
  | nil => rfl
  | cons c cs ih =>
    have hb : c ≠ '\\' := by
      rintro rfl
      exact absurd (hd _ List.mem_cons_self) (by decide)
    rw [show midPair (c :: cs) = midPair cs by rw [midPair] <;> simp_all]
    exact ih (fun d h => hd d (List.mem_cons_of_mem _ h))

theorem _root_.Zanzi.Spec.QuoteFree.append {a b : String} (ha : QuoteFree a) (hb : QuoteFree b) : QuoteFree (a ++ b) := by
  simp only [QuoteFree, String.toList_append, List.mem_append, not_or] at *
  exact ⟨ha, hb⟩

theorem quoteFree_append {a b : String} : QuoteFree (a ++ b) ↔ QuoteFree a ∧ QuoteFree b := by
  simp only [QuoteFree, String.toList_append, List.mem_append, not_or]

/-! ### Goal trees -/

mutual
/-- The nodes of a tree with their reasons satisfy `Q`. -/
def AllAt (Q : RelationNode → String → Prop) : GoalTree → Prop
  | .or _ ps => AllAtList Q ps
  | .and _ ps => AllAtList Q ps
  | .diff _ a b => AllAt Q a ∧ AllAt Q b
  | .leaf _ n why => Q n why
  | .path _ n why c => Q n why ∧ AllAt Q c
def AllAtList (Q : RelationNode → String → Prop) : List GoalTree → Prop
  | [] => True
  | t :: ts => AllAt Q t ∧ AllAtList Q ts
end

def AllAtTask (Q : RelationNode → String → Prop) : Task → Out → Prop
  | .tree t, .tree t' => AllAt Q t → AllAt Q t'
  | .or ts, .list ts' _ => AllAtList Q ts → AllAtList Q ts'
  | .and ts, .list ts' _ => AllAtList Q ts → AllAtList Q ts'
  | .path n why, .tree t' => Q n why → AllAt Q t'
  | _, _ => True

theorem Ev.allAt {H : String → Nat} {build : RelationNode → GoalTree → Prop} {goal : Option RelationNode} {Q : RelationNode → String → Prop}
    (hb : ∀ n why t, Q n why → n.isTerminal = false → build n t → AllAt Q t) {k s o s'} (h : Ev H build goal k s o s') : AllAtTask Q k o := by
  induction h with
  | or _ ih => simp only [AllAtTask, AllAt] at *; exact ih
  | and _ ih => simp only [AllAtTask, AllAt] at *; exact ih
  | diff _ _ ih1 ih2 => simp only [AllAtTask, AllAt] at *; exact fun h => ⟨ih1 h.1, ih2 h.2⟩
  | leaf _ ih => simp only [AllAtTask, AllAt] at *; exact ih
  | inner _ ih => simp only [AllAtTask, AllAt] at *; exact fun h => ih h.1
  | orNil => exact id
  | orStop _ _ ih => simp only [AllAtTask, AllAtList] at *; exact fun h => ⟨ih h.1, h.2⟩
  | orGo _ _ _ ih1 ih2 => simp only [AllAtTask, AllAtList] at *; exact fun h => ⟨ih1 h.1, ih2 h.2⟩
  | andNil => exact id
  | andStop _ _ ih => simp only [AllAtTask, AllAtList] at *; exact fun h => ⟨ih h.1, h.2⟩
  | andGo _ _ _ ih1 ih2 => simp only [AllAtTask, AllAtList] at *; exact fun h => ⟨ih1 h.1, ih2 h.2⟩
  | repeated => simp only [AllAtTask, AllAt]; exact id
  | ended => simp only [AllAtTask, AllAt]; exact id
  | @expanded n reason id b t t' s s' hid hout hgf hterm hbu hev ih =>
    simp only [Bool.or_eq_false_iff] at hterm
    simp only [AllAtTask, AllAt] at *
    exact fun h => ⟨h, ih (hb _ _ _ h hterm.2 hbu)⟩

theorem quoteFree_str (r : SearchResult) : QuoteFree r.str := by
  cases r <;> unfold QuoteFree <;> decide

theorem midPair_str (a : String) (r : SearchResult) : midPair (a ++ r.str).toList = false := by
  rw [String.toList_append]
  cases r with
  | unknown => exact (by simpa [SearchResult.str] using midPair_append_last (c := 'N') (by decide) (a.toList ++ ['U', 'N', 'K', 'N', 'O', 'W']))
  | success => exact (by simpa [SearchResult.str] using midPair_append_last (c := 'S') (by decide) (a.toList ++ ['S', 'U', 'C', 'C', 'E', 'S']))
  | failure => exact (by simpa [SearchResult.str] using midPair_append_last (c := 'E') (by decide) (a.toList ++ ['F', 'A', 'I', 'L', 'U', 'R']))

theorem reads_result {a : String} {r : SearchResult} (h : QuoteFree a) : Reads (dotWrap (a ++ r.str)) (a ++ r.str) :=
  (reads_wrap_iff _).2 ⟨h.append (quoteFree_str r), midPair_str a r⟩

/-- Nodes and reasons without quotes. -/
def PlainAt (n : RelationNode) (why : String) : Prop := NodePlain n ∧ QuoteFree why

theorem pathLabel_reads {n : RelationNode} {why text : String} {r : SearchResult} (h : PlainAt n why) (hn : n.prettyString = .ok text) :
    Reads (dotWrap (pathLabel text why r)) (pathLabel text why r) := by
  unfold pathLabel
  refine reads_result ?_
  have h1 := h.1 _ (prettyString_iff.1 hn)
  have h2 := h.2
  exact ((((show QuoteFree "PathNode\nrelation node: " by unfold QuoteFree; decide).append h1).append
    (show QuoteFree "\nreason: " by unfold QuoteFree; decide)).append h2).append (show QuoteFree "\nresult: " by unfold QuoteFree; decide)

mutual
theorem dotTree_reads {t : GoalTree} {parent : DotId} {c : Nat} {q : List DotCall × Nat} (h : dotTree parent t c = .ok q) (ha : AllAt PlainAt t) :
    ∀ d l, .node d l ∈ q.1 → Reads (dotWrap l) l := by
  intro d l hm
  match t with
  | .leaf r n why =>
    rw [dotTree] at h
    obtain ⟨text, h1, h⟩ := Res.bind_eq_ok.1 h
    cases h
    rw [AllAt] at ha
    simp at hm
    obtain ⟨rfl, rfl⟩ := hm
    exact pathLabel_reads ha h1
  | .path r n why child =>
    rw [dotTree] at h
    obtain ⟨text, h1, h⟩ := Res.bind_eq_ok.1 h
    obtain ⟨q', h2, h⟩ := Res.bind_eq_ok.1 h
    cases h
    rw [AllAt] at ha
    simp at hm
    rcases hm with ⟨rfl, rfl⟩ | hm
    · exact pathLabel_reads ha.1 h1
    · exact dotTree_reads h2 ha.2 d l hm
  | .or r ps =>
    rw [dotTree] at h
    obtain ⟨q', h2, h⟩ := Res.bind_eq_ok.1 h
    cases h
    rw [AllAt] at ha
    simp at hm
    rcases hm with ⟨rfl, rfl⟩ | hm
    · exact reads_result (by unfold QuoteFree; decide)
    · exact dotList_reads h2 ha d l hm
  | .and r ps =>
    rw [dotTree] at h
    obtain ⟨q', h2, h⟩ := Res.bind_eq_ok.1 h
    cases h
    rw [AllAt] at ha
    simp at hm
    rcases hm with ⟨rfl, rfl⟩ | hm
    · exact reads_result (by unfold QuoteFree; decide)
    · exact dotList_reads h2 ha d l hm
  | .diff r a b =>
    rw [dotTree] at h
    obtain ⟨q', h2, h⟩ := Res.bind_eq_ok.1 h
    obtain ⟨q'', h3, h⟩ := Res.bind_eq_ok.1 h
    cases h
    rw [AllAt] at ha
    simp at hm
    rcases hm with ⟨rfl, rfl⟩ | hm | hm
    · exact reads_result (by unfold QuoteFree; decide)
    · exact dotTree_reads h2 ha.1 d l hm
    · exact dotTree_reads h3 ha.2 d l hm
theorem dotList_reads {ts : List GoalTree} {parent : DotId} {c : Nat} {q : List DotCall × Nat} (h : dotList parent ts c = .ok q) (ha : AllAtList PlainAt ts) :
    ∀ d l, .node d l ∈ q.1 → Reads (dotWrap l) l := by
  intro d l hm
  match ts with
  | [] =>
    rw [dotList] at h
    cases h
    cases hm
  | t :: ts =>
    rw [dotList] at h
    obtain ⟨q', h2, h⟩ := Res.bind_eq_ok.1 h
    obtain ⟨q'', h3, h⟩ := Res.bind_eq_ok.1 h
    cases h
    rw [AllAtList] at ha
    rcases List.mem_append.1 hm with hm | hm
    · exact dotTree_reads h2 ha.1 d l hm
    · exact dotList_reads h3 ha.2 d l hm
end

theorem dotSerialize_wellQuoted {t : GoalTree} {cs : List DotCall} (h : dotSerialize t = .ok cs) (ha : AllAt PlainAt t) : WellQuoted cs := by
  obtain ⟨q, h1, h⟩ := Res.bind_eq_ok.1 h
  cases h
  refine ⟨fun d l hm => ?_, fun k _ _ => reads_number k⟩
  rcases List.mem_cons.1 hm with hm | hm
  · cases hm
    exact (reads_wrap_iff "").2 ⟨by unfold QuoteFree; decide, rfl⟩
  · exact dotTree_reads h1 ha d l hm

section
variable {env : Env} {s : Store} {pid : String} {rec : PolicyRecord}

theorem nodePlain_entitySet {o : Entity} {rel : String} :
    NodePlain (.entitySet (some o) rel) ↔ QuoteFree o.resource ∧ QuoteFree o.id ∧ QuoteFree rel := by
  have h1 : QuoteFree "(" := by unfold QuoteFree; decide
  have h2 : QuoteFree ":" := by unfold QuoteFree; decide
  have h3 : QuoteFree ")" := by unfold QuoteFree; decide
  have h4 : QuoteFree ", " := by unfold QuoteFree; decide
  have h5 : QuoteFree "" := by unfold QuoteFree; decide
  unfold NodePlain NodeText
  by_cases hr : rel = ""
  · subst hr
    simp [quoteFree_append, h1, h2, h3, h5]
  · simp [quoteFree_append, h1, h2, h3, h4, hr, and_assoc]

theorem nodePlain_entity {o : Entity} : NodePlain (.entity (some o)) ↔ QuoteFree o.resource ∧ QuoteFree o.id := by
  have h1 : QuoteFree "(" := by unfold QuoteFree; decide
  have h2 : QuoteFree ":" := by unfold QuoteFree; decide
  have h3 : QuoteFree ")" := by unfold QuoteFree; decide
  unfold NodePlain NodeText
  simp [quoteFree_append, h1, h2, h3]

theorem pointsTo_plain {sub : Subject} {o : Entity} (h : NodePlain (subjectNode sub)) (hp : pointsTo sub = some o) : QuoteFree o.resource ∧ QuoteFree o.id := by
  cases sub with
  | unset => cases hp
  | resourceSet n => cases hp
  | entity e => cases hp; exact nodePlain_entity.1 h
  | entitySet e rel =>
    cases e with
    | none => cases hp
    | some e =>
      cases hp
      obtain ⟨h1, h2, _⟩ := nodePlain_entitySet.1 h
      exact ⟨h1, h2⟩

theorem ruleNodes_plain (hd : PlainSubjects (Present s pid)) {y : USet} (hy : NodePlain y.node) {r : Rule} (hr : QuoteFree (ruleText r))
    {ns : List RelationNode} (h : ruleNodes env.H s pid y r = .ok ns) : ∀ n ∈ ns, NodePlain n := by
  intro n hn
  obtain ⟨h1, h2, _⟩ := nodePlain_entitySet.1 hy
  cases r with
  | unset => cases h
  | this =>
    cases h
    obtain ⟨r, sub, h3, h4, rfl⟩ := mem_succs_present hn
    exact hd r sub h3 h4
  | cu t =>
    cases h
    rw [List.mem_singleton] at hn
    subst hn
    exact nodePlain_entitySet.2 ⟨h1, h2, (quoteFree_append.1 hr).2⟩
  | ttu a b =>
    obtain ⟨m, hm, e⟩ := (mapSliceErr_mem (f := buildTtuNode b) h).1 n hn
    obtain ⟨r, sub, h3, h4, rfl⟩ := mem_succs_present hm
    have := ttuNode_spec e
    subst this
    cases hpt : pointsTo sub with
    | none => intro text ht; cases ht
    | some o =>
      obtain ⟨h5, h6⟩ := pointsTo_plain (hd r sub h3 h4) hpt
      exact nodePlain_entitySet.2 ⟨h5, h6, (quoteFree_append.1 hr).2⟩

theorem allAtList_map {Q : RelationNode → String → Prop} {why : String} : ∀ {ns : List RelationNode}, (∀ n ∈ ns, Q n why) →
    AllAtList Q (ns.map (fun n => .leaf .unknown n why)) := by
  intro ns
  induction ns with
  | nil => intro _; trivial
  | cons n ns ih =>
    intro h
    rw [List.map_cons, AllAtList, AllAt]
    exact ⟨h n List.mem_cons_self, ih (fun m hm => h m (List.mem_cons_of_mem _ hm))⟩

theorem pBuild_plain (hd : PlainSubjects (Present s pid)) {y : USet} (hy : NodePlain y.node) : ∀ {e : ExprTree} {t : GoalTree},
    (∀ rule ∈ leaves e, QuoteFree (ruleText rule)) → pBuild env.H s pid y e = .ok t → AllAt PlainAt t := by
  intro e
  induction e with
  | nil => intro t _ h; cases h
  | unset => intro t _ h; cases h
  | rule r =>
    intro t hk h
    unfold pBuild at h
    obtain ⟨ns, hns, h⟩ := Res.bind_eq_ok.1 h
    cases h
    have hr := hk r (by simp [leaves])
    rw [AllAt]
    refine allAtList_map (fun n hn => ⟨ruleNodes_plain hd hy hr hns n hn, ?_⟩)
    have : reasonBuilder r = ruleText r := by cases r <;> rfl
    rw [this]
    exact hr
  | op l o r ihl ihr =>
    intro t hk h
    unfold pBuild at h
    obtain ⟨a, ha, h⟩ := Res.bind_eq_ok.1 h
    obtain ⟨b, hb, h⟩ := Res.bind_eq_ok.1 h
    have h1 := ihl (fun x hx => hk x (by simp [leaves, hx])) ha
    have h2 := ihr (fun x hx => hk x (by simp [leaves, hx])) hb
    cases o <;> cases h <;> simp [AllAt, AllAtList, h1, h2]

theorem search_plain (hs : WF env s) (hp : policyAt s pid = some rec) (hr : PlainRules env.U rec.policy) (hd : PlainSubjects (Present s pid))
    {fuel : Nat} {root goal : Option RelationNode} (hroot : ∀ n, root = some n → NodePlain n) {t : GoalTree}
    (h : pSearch env rec.policy s fuel root goal = .ok t) : AllAt PlainAt t := by
  obtain ⟨o, seen, rfl, hev⟩ := pSearch_ev h
  refine hev.allAt (Q := PlainAt) (fun n why t hq ht hb => ?_) ⟨hroot _ rfl, by unfold QuoteFree; decide⟩
  obtain ⟨y, rfl, e, h1, h2⟩ := bld_node (hs.policy_valid hp).1 ht hb
  rw [hs.policy_id hp] at h2
  exact pBuild_plain hd hq.1 (hr y e h1) h2

end

end Zanzi
