import Verif.Lemmas.Definition
import Verif.Props.Parser
import Verif.Props.Policy
import Verif.Props.Policies
import Verif.Props.Isolation

/-
Properties C51, C52 and C53: policies written as compact (YAML) definitions.
-/

namespace Zanzi

open Spec

/-- A definition with two resources out of order, a placeholder resource, and every kind of type constraint. -/
def exDef : PolicyDef where
  id := "p"
  name := "n"
  doc := "d"
  attributes := [("k", "v")]
  resources := ⟨[("user", none),
    ("doc", some ⟨"", "docs", ⟨[("viewer", some ⟨"", "", "_this", ["group:member", "user"]⟩), ("owner", some ⟨"", "o", "_this", ["*"]⟩)], by decide⟩⟩),
    ("group", some ⟨"", "", ⟨[("member", some ⟨"", "", "_this", ["user"]⟩)], by decide⟩⟩)], by decide⟩

/-- Iterate backwards. -/
def backOrder : RangeOrder := ⟨List.reverse, List.reverse_perm⟩

/-! ### C52: type constraints -/

/-- C52: the mapped restriction permits exactly the subjects the type list admits. -/
theorem C52_types_exact (types : List String) (s : Subject) : Permits (mapSubjectRestriction types) s ↔ TypesAdmit types s := by
  unfold mapSubjectRestriction
  split
  · next h =>
    have h : "*" ∈ types := by simpa using h
    exact ⟨fun _ => .all s h, fun _ => .universal s⟩
  · next h =>
    have h : "*" ∉ types := by simpa using h
    constructor
    · intro hp
      cases hp with
      | entity hm =>
        obtain ⟨t, ht, he⟩ := List.mem_map.1 hm
        obtain ⟨rfl, h2⟩ := elem_entity.1 he
        exact .entity _ ht h2
      | all hm =>
        obtain ⟨t, ht, he⟩ := List.mem_map.1 hm
        obtain ⟨rfl, h2⟩ := elem_entity.1 he
        exact .wildcard _ ht h2
      | entitySet hm =>
        obtain ⟨t, ht, he⟩ := List.mem_map.1 hm
        obtain ⟨rfl, h2⟩ := elem_entitySet.1 he
        exact .userset _ _ ht h2
    · intro ha
      cases ha with
      | all _ h' => exact absurd h' h
      | entity e h1 h2 => exact .entity (List.mem_map.2 ⟨_, h1, elem_entity.2 ⟨rfl, h2⟩⟩)
      | wildcard r h1 h2 => exact .all (List.mem_map.2 ⟨_, h1, elem_entity.2 ⟨rfl, h2⟩⟩)
      | userset e x h1 h2 => exact .entitySet (List.mem_map.2 ⟨_, h1, elem_entitySet.2 ⟨rfl, h2⟩⟩)

/-- Different type constraints that allow and refuse. -/
example : TypesAdmit ["group:member", "user"] (.entitySet (some ⟨"group", "g"⟩) "member") ∧ TypesAdmit ["group:member", "user"] (.resourceSet "user") ∧
    ¬ TypesAdmit ["group:member", "user"] (.entity ⟨"group", "g"⟩) ∧ ¬ TypesAdmit ["group:member", "user"] (.entitySet (some ⟨"user", "u"⟩) "member") := by
  refine ⟨.userset ⟨"group", "g"⟩ "member" (by decide +kernel) (by decide), .wildcard _ (by decide) (by decide), fun h => ?_, fun h => ?_⟩
  · cases h with
    | all _ h => exact absurd h (by decide)
    | entity _ h => exact absurd h (by decide)
  · cases h with
    | all _ h => exact absurd h (by decide)
    | userset _ _ h => exact absurd h (by decide +kernel)

/-! ### C51: the mapped policy -/

theorem describes_relation (k : String) (b : Option RelationDef) : DescribesRelation k b (mapRelation { b.getD ⟨"", "", "", []⟩ with name := k }) := by
  cases b with
  | none => exact ⟨rfl, rfl, rfl, _, rfl, C52_types_exact []⟩
  | some b => exact ⟨rfl, rfl, rfl, _, rfl, C52_types_exact b.types⟩

theorem describes_resource (k : String) (b : Option ResourceDef) : DescribesResource k b (resourceOf k b) := by
  refine ⟨rfl, rfl, resourceOf_names k b, fun d hd => ?_, fun k' b' h => ?_⟩
  · obtain ⟨k', b', h, rfl⟩ := mem_resourceOf.1 hd
    exact ⟨k', b', h, describes_relation k' b'⟩
  · exact ⟨_, mem_resourceOf.2 ⟨k', b', h, rfl⟩, describes_relation k' b'⟩

theorem describes_policy (d : PolicyDef) : Describes d (policyOf d) := by
  refine ⟨rfl, rfl, rfl, rfl, policyOf_names d, fun r hr => ?_, fun k b h => ?_⟩
  · obtain ⟨k, b, h, rfl⟩ := mem_policyOf.1 hr
    exact ⟨k, b, h, describes_resource k b⟩
  · exact ⟨_, mem_policyOf.2 ⟨k, b, h, rfl⟩, describes_resource k b⟩

/-- C51: mapping a decoded definition succeeds and gives the described policy, sorted, with names from the keys; the result is the same for all
iteration orders. -/
theorem C51_order_independent (d : PolicyDef) :
    ∃ p, Describes d p ∧ ∀ (top : RangeOrder) (o : String → RangeOrder), policyFromDef top o d = .ok p :=
  ⟨policyOf d, describes_policy d, fun top o => policyFromDef_ok top o d⟩

/-- The model's sort stands for any sort: a permutation ordered by keys is unique when keys differ. -/
theorem C51_sort_unique {V : Type} (key : V → String) (l out : List V) (hn : (l.map key).Nodup) (hp : out.Perm l)
    (ho : out.Pairwise (fun a b => ¬ key b < key a)) : out = sortBy key l :=
  sortBy_unique hn hp ho

/-- Creating or updating a policy from YAML does not depend on iteration orders. -/
theorem C51_service_order_independent (env env' : Env) (hU : env.U = env'.U) (hd : env.decode = env'.decode) (s : Store) (now : Timestamp)
    (def' : Option PolicyDefinition) (a : Bytes) :
    serve env (.createPolicy now def' a) s = serve env' (.createPolicy now def' a) s ∧ serve env (.updatePolicy def' a) s = serve env' (.updatePolicy def' a) s := by
  have hy : env.yaml = env'.yaml := by
    funext text
    unfold Env.yaml
    rw [hd]
    simp only [policyFromDef_ok]
  have hg : getPolicyFromDefinition env = getPolicyFromDefinition env' := by
    funext d
    unfold getPolicyFromDefinition
    rw [hy]
  constructor
  · show ((Call.createPolicy now def' a).prog env).run s = ((Call.createPolicy now def' a).prog env').run s
    simp only [Call.prog, Service.createPolicy, hg, hU]
  · show ((Call.updatePolicy def' a).prog env).run s = ((Call.updatePolicy def' a).prog env').run s
    simp only [Call.prog, Service.updatePolicy, hg, hU]

/-- `exDef` forwards and backwards. -/
example : (match policyFromDef listOrder (fun _ => listOrder) exDef with
      | .ok p => decide (p.resources.map (fun r => (r.name, r.relations.map (·.name))) = [("doc", ["owner", "viewer"]), ("group", ["member"]), ("user", [])])
      | _ => false) = true ∧
    policyFromDef listOrder (fun _ => listOrder) exDef = policyFromDef backOrder (fun _ => backOrder) exDef :=
  ⟨by decide +kernel, by rw [policyFromDef_ok, policyFromDef_ok]⟩

/-- The same two resources built in Go rather than decoded: `MapPolicyDefinition` is exported, but only `UnmarshalPolicyDefinition` sets the
names. -/
def handMade : PolicyDef where
  id := "p"
  name := ""
  doc := ""
  attributes := []
  resources := ⟨[("doc", some ⟨"", "documents", ⟨[], .nil⟩⟩), ("user", some ⟨"", "users", ⟨[], .nil⟩⟩)], by decide⟩

/-- C51 does not extend to the exported `MapPolicyDefinition` on definitions not decoded from YAML: names are empty, the result depends on the
iteration order, and a placeholder panics. -/
theorem C51_unnamed_violated :
    mapPolicyDefinition listOrder (fun _ => listOrder) handMade ≠ mapPolicyDefinition backOrder (fun _ => backOrder) handMade ∧
    (∀ top o p, mapPolicyDefinition top o handMade = .ok p → ∀ r ∈ p.resources, r.name = "") ∧
    mapPolicyDefinition listOrder (fun _ => listOrder) { handMade with resources := ⟨[("user", none)], by decide⟩ } = .panic := by
  refine ⟨by decide +kernel, fun top o p h r hr => ?_, by decide +kernel⟩
  obtain ⟨l, h1, h⟩ := Res.bind_eq_ok.1 h
  obtain ⟨rs, h2, h⟩ := Res.bind_eq_ok.1 h
  cases h
  have h3 : mapItemsToSlice top handMade.resources (·.name) = .ok l := h1
  obtain ⟨items, h4, h5⟩ := Res.bind_eq_ok.1 h1
  cases h5
  have hitems : ∀ x ∈ items, x.name = "" := by
    have hr : ∀ x ∈ handMade.resources.range top, ∀ v, x = some v → v.name = "" := by
      intro x hx v hv
      have := (GoMap.range_perm top handMade.resources).mem_iff.1 hx
      subst hv
      simp [handMade] at this
      rcases this with rfl | rfl <;> rfl
    generalize handMade.resources.range top = l at h4 hr
    clear h1 h3 h2 h
    induction l generalizing items with
    | nil => cases h4; intro x hx; cases hx
    | cons a l ih =>
      obtain ⟨v, hv, h4⟩ := Res.bind_eq_ok.1 h4
      obtain ⟨vs, hvs, h4⟩ := Res.bind_eq_ok.1 h4
      cases h4
      cases a with
      | none => cases hv
      | some a =>
        cases hv
        intro x hx
        rcases List.mem_cons.1 hx with rfl | hx
        · exact hr _ List.mem_cons_self _ rfl
        · exact ih vs hvs (fun y hy => hr y (List.mem_cons_of_mem _ hy)) x hx
  have : ∀ (l : List ResourceDef) (rs : List Resource), (∀ x ∈ l, x.name = "") → mapSliceErr (mapResource o) l = .ok rs → ∀ r ∈ rs, r.name = "" := by
    intro l
    induction l with
    | nil => intro rs _ h r hr; cases h; cases hr
    | cons a l ih =>
      intro rs hl h r hr
      rw [mapSliceErr] at h
      cases h6 : mapResource o a with
      | ok b =>
        rw [h6] at h
        dsimp only at h
        cases h7 : mapSliceErr (mapResource o) l with
        | ok bs =>
          rw [h7] at h
          cases h
          rcases List.mem_cons.1 hr with rfl | hr
          · obtain ⟨_, _, h6⟩ := Res.bind_eq_ok.1 h6
            cases h6
            exact hl a List.mem_cons_self
          · exact ih bs (fun x hx => hl x (List.mem_cons_of_mem _ hx)) h7 r hr
        | err => rw [h7] at h; cases h
        | panic => rw [h7] at h; cases h
        | fuel => rw [h7] at h; cases h
      | err => rw [h6] at h; cases h
      | panic => rw [h6] at h; cases h
      | fuel => rw [h6] at h; cases h
  exact this _ rs (fun x hx => hitems x ((sortBy_perm _ _).mem_iff.1 hx)) h2 r hr

/-! ### C52: admission under a YAML policy -/

theorem policyOf_unique (d : PolicyDef) : NamesUnique (policyOf d) := by
  have : ∀ l : List String, Increasing l → l.Nodup := by
    intro l h
    refine h.imp ?_
    intro a b hlt he
    subst he
    exact String.lt_irrefl _ hlt
  refine ⟨this _ (policyOf_names d), fun r hr => ?_⟩
  obtain ⟨k, b, _, rfl⟩ := mem_policyOf.1 hr
  exact this _ (resourceOf_names k b)

/-- C52 at admission: under the policy a definition describes, a relationship is admitted exactly when the definition has an entry for its object's
resource and relation whose types allow the (declared) subject. -/
theorem C52_admission (d : PolicyDef) (p : Policy) (top : RangeOrder) (o : String → RangeOrder) (hp : policyFromDef top o d = .ok p) (r : Relationship) :
    allowedRelationship (some r) (newLut p) = .ok () ↔
      ∃ e s rb b, r.object = some e ∧ r.subject = some s ∧ (e.resource, rb) ∈ d.resources.entries ∧ (r.relation, b) ∈ relationEntries rb ∧
        SubjectKnown p s ∧ TypesAdmit (match b with | some b => b.types | none => []) s := by
  rw [policyFromDef_ok] at hp
  cases hp
  rw [C12_admission_exact _ (policyOf_unique d)]
  constructor
  · rintro ⟨⟨e, s, he, hs, _, _, hk⟩, e', s', dr, sr, he', hs', ⟨res, hres, hn, hdr, hdn⟩, hsr, hperm⟩
    rw [he] at he'; cases he'
    rw [hs] at hs'; cases hs'
    obtain ⟨k, rb, hkb, rfl⟩ := mem_policyOf.1 hres
    obtain ⟨k', b, hkb', rfl⟩ := mem_resourceOf.1 hdr
    cases hsr
    have hn : k = e.resource := hn
    have hdn : k' = r.relation := hdn
    subst hn hdn
    refine ⟨e, s, rb, b, he, hs, hkb, hkb', hk, ?_⟩
    have := (C52_types_exact _ _).1 hperm
    cases b <;> exact this
  · rintro ⟨e, s, rb, b, he, hs, hkb, hkb', hk, ha⟩
    have hdec : Declares (policyOf d) e.resource r.relation (mapRelation { b.getD ⟨"", "", "", []⟩ with name := r.relation }) :=
      ⟨resourceOf e.resource rb, mem_policyOf.2 ⟨_, _, hkb, rfl⟩, rfl, mem_resourceOf.2 ⟨_, _, hkb', rfl⟩, rfl⟩
    refine ⟨⟨e, s, he, hs, ⟨_, mem_policyOf.2 ⟨_, _, hkb, rfl⟩, rfl⟩, ⟨_, hdec⟩, hk⟩, e, s, _, _, he, hs, hdec, rfl, ?_⟩
    refine (C52_types_exact _ _).2 ?_
    cases b <;> exact ha

/-! ### C53: placeholders -/

theorem empty_expr (U : Unicode) : ∀ t, parse U "" ≠ .ok t := by
  intro t h
  cases h

theorem defines_yaml (env : Env) (text : String) (d : PolicyDef) (hd : env.decode text = .ok d) : Defines env (some (.yaml text)) (policyOf d) := by
  refine .inr ⟨text, rfl, ?_⟩
  rw [Env.yaml, hd]
  exact policyFromDef_ok _ _ _

/-- C53 is false for relations: no definition with a relation placeholder is ever accepted, by create or update, in any state — the default
expression is empty and does not parse. -/
theorem C53_placeholder_violated (env : Env) (s : Store) (now : Timestamp) (text : String) (a : Bytes) (d : PolicyDef) (hd : env.decode text = .ok d)
    (res rel : String) (b : ResourceDef) (hr : (res, some b) ∈ d.resources.entries) (hrel : (rel, none) ∈ b.relations.entries) (ans : Answer) :
    ((serve env (.createPolicy now (some (.yaml text)) a) s).1 ≠ .ok ans ∧ (serve env (.createPolicy now (some (.yaml text)) a) s).2 = s) ∧
    ((serve env (.updatePolicy (some (.yaml text)) a) s).1 ≠ .ok ans ∧ (serve env (.updatePolicy (some (.yaml text)) a) s).2 = s) := by
  have hdef := defines_yaml env text d hd
  have hbad : ¬ ValidPolicy env.U (policyOf d) := by
    rintro ⟨_, _, h3⟩
    obtain ⟨t, ht, _⟩ := h3 _ (mem_policyOf.2 ⟨_, _, hr, rfl⟩) _ (mem_resourceOf.2 ⟨rel, none, hrel, rfl⟩)
    rcases ht with ht | ⟨x, syms, hx, hs1, hs2⟩
    · cases ht
    · cases hx
      exact empty_expr env.U t ((C02_parse_iff_grammar env.U "" t).2 ⟨syms, hs1, hs2⟩)
  have hc := C23_create_exclusive env s now (some (.yaml text)) a _ hdef
  have hu := C24_update env s (some (.yaml text)) a _ hdef
  constructor
  · cases hp : policyAt s (policyOf d).id with
    | some rec => rw [hc.1 (by rw [hp]; rfl)]; exact ⟨nofun, rfl⟩
    | none =>
      have := hc.2.2 hp hbad _ _ rfl
      exact ⟨this.1 ans, this.2⟩
  · cases hp : policyAt s (policyOf d).id with
    | none => rw [hu.1 hp]; exact ⟨nofun, rfl⟩
    | some rec =>
      have := hu.2.2 rec hp hbad _ _ rfl
      exact ⟨this.1 ans, this.2⟩

/-- Write the placeholders of resources out as resources without relations. -/
def spellOut (d : PolicyDef) : PolicyDef :=
  { d with resources := ⟨d.resources.entries.map (fun e => (e.1, some (e.2.getD ⟨"", "", ⟨[], .nil⟩⟩))), by
      rw [List.map_map]
      exact d.resources.nodup⟩ }

/-- Add an entry to the resources map. -/
def addEntry (d : PolicyDef) (k : String) (b : Option ResourceDef) (hk : k ∉ d.resources.entries.map (·.1)) : PolicyDef :=
  { d with resources := ⟨d.resources.entries ++ [(k, b)], by
      rw [List.map_append, List.nodup_append]
      refine ⟨d.resources.nodup, by simp, ?_⟩
      rintro x hx y hy rfl
      simp at hy
      exact hk (hy ▸ hx)⟩ }

theorem placeholder_keeps (U : Unicode) (d : PolicyDef) (k : String) (hk : k ∉ d.resources.entries.map (·.1)) (hv : ValidPolicy U (policyOf d)) :
    ValidPolicy U (policyOf (addEntry d k none hk)) := by
  obtain ⟨_, h2, h3⟩ := hv
  have hsub : ∀ r ∈ (policyOf d).resources, r ∈ (policyOf (addEntry d k none hk)).resources := by
    intro r hr
    obtain ⟨k', b, h, rfl⟩ := mem_policyOf.1 hr
    exact mem_policyOf.2 ⟨k', b, List.mem_append.2 (.inl h), rfl⟩
  have hinv : ∀ r ∈ (policyOf (addEntry d k none hk)).resources, ∀ x ∈ r.relations, r ∈ (policyOf d).resources := by
    intro r hr x hx
    obtain ⟨k', b, h, rfl⟩ := mem_policyOf.1 hr
    rcases List.mem_append.1 h with h | h
    · exact mem_policyOf.2 ⟨k', b, h, rfl⟩
    · simp at h
      obtain ⟨rfl, rfl⟩ := h
      obtain ⟨_, _, h, _⟩ := mem_resourceOf.1 hx
      cases h
  have hrel : ∀ a b, HasRelation (policyOf d) a b → HasRelation (policyOf (addEntry d k none hk)) a b := by
    rintro a b ⟨x, r, hr, h⟩
    exact ⟨x, r, hsub r hr, h⟩
  refine ⟨policyOf_unique _, fun r hr x hx sr hsr => ?_, fun r hr x hx => ?_⟩
  · have := h2 r (hinv r hr x hx) x hx sr hsr
    cases sr with
    | restrictionSet rs =>
      intro y hy
      have := this y hy
      cases y with
      | entity n =>
        obtain ⟨r', hr', h⟩ := this
        exact ⟨r', hsub r' hr', h⟩
      | entitySet n m => exact hrel _ _ this
      | unset => exact this
    | universalSet => trivial
    | unset => exact this
  · obtain ⟨t, ht, hn, hl⟩ := h3 r (hinv r hr x hx) x hx
    refine ⟨t, ht, hn, fun y hy => ?_⟩
    have := hl y hy
    cases y with
    | cu _ => exact hrel _ _ this
    | this => trivial
    | ttu _ _ => exact hrel _ _ this
    | unset => exact this

/-- C53 for resources: a resource written with no body gets the defaults (it means the same as an empty body); adding such a resource to a
definition never turns an accepted definition into a rejected one; and a definition with nothing but such resources is accepted when its id is
free. Missing: relations with no body, see `C53_placeholder_violated`. -/
theorem C53_resource_partial (env : Env) (s : Store) (now : Timestamp) (a : Bytes) (d : PolicyDef) :
    (∀ top o, policyFromDef top o (spellOut d) = policyFromDef top o d) ∧
    (∀ text text' k hk rec, env.decode text = .ok d → env.decode text' = .ok (addEntry d k none hk) →
      (serve env (.createPolicy now (some (.yaml text)) a) s).1 = .ok (.created rec) →
      ∃ rec' r, (serve env (.createPolicy now (some (.yaml text')) a) s).1 = .ok (.created rec') ∧ r ∈ rec'.policy.resources ∧
        r.name = k ∧ r.relations = []) ∧
    (∀ text, env.decode text = .ok d → (∀ e ∈ d.resources.entries, e.2 = none) → policyAt s d.id = none →
      ∃ p, Describes d p ∧ (serve env (.createPolicy now (some (.yaml text)) a) s).1 = .ok (.created ⟨p, a, now⟩)) := by
  refine ⟨fun top o => ?_, fun text text' k hk rec hd hd' hc => ?_, fun text hd hn hfree => ?_⟩
  · rw [policyFromDef_ok, policyFromDef_ok]
    have : namedResources (spellOut d) = namedResources d := by
      show (d.resources.entries.map _).map _ = d.resources.entries.map _
      rw [List.map_map]
      apply List.map_congr_left
      rintro ⟨k, b⟩ _
      cases b <;> rfl
    rw [policyOf, policyOf, this]
    rfl
  · have hdef := defines_yaml env text d hd
    have hdef' := defines_yaml env text' _ hd'
    have hx := C23_create_exclusive env s now (some (.yaml text)) a _ hdef
    have hy := C23_create_exclusive env s now (some (.yaml text')) a _ hdef'
    have hfree : policyAt s d.id = none := by
      cases hp : policyAt s d.id with
      | none => rfl
      | some x => rw [hx.1 (by show (policyAt s d.id).isSome = true; rw [hp]; rfl)] at hc; cases hc
    by_cases hv : ValidPolicy env.U (policyOf d)
    · obtain ⟨s', h, _⟩ := hy.2.1 hfree (placeholder_keeps env.U d k hk hv)
      refine ⟨_, resourceOf k none, by rw [h], mem_policyOf.2 ⟨k, none, List.mem_append.2 (.inr List.mem_cons_self), rfl⟩, rfl, rfl⟩
    · exact absurd hc ((hx.2.2 hfree hv _ _ rfl).1 _)
  · have hx := C23_create_exclusive env s now (some (.yaml text)) a _ (defines_yaml env text d hd)
    have hv : ValidPolicy env.U (policyOf d) := by
      have hno : ∀ r ∈ (policyOf d).resources, ∀ x ∈ r.relations, False := by
        intro r hr x hx
        obtain ⟨k, b, h, rfl⟩ := mem_policyOf.1 hr
        obtain ⟨_, _, h', _⟩ := mem_resourceOf.1 hx
        have := hn _ h
        dsimp only at this
        subst this
        cases h'
      exact ⟨policyOf_unique d, fun r hr x hx => (hno r hr x hx).elim, fun r hr x hx => (hno r hr x hx).elim⟩
    obtain ⟨s', h, _⟩ := hx.2.1 hfree hv
    exact ⟨_, describes_policy d, by rw [h]⟩

/-- A resource with a relation placeholder, as in the documentation of the format. -/
def holeDef : PolicyDef where
  id := "p"
  name := ""
  doc := ""
  attributes := []
  resources := ⟨[("doc", some ⟨"", "", ⟨[("viewer", none)], by decide⟩⟩), ("user", none)], by decide⟩

/-- Decoder of two texts. -/
def holeEnv : Env := ⟨U0, fun _ => 0, fun t => if t = "hole" then .ok holeDef else if t = "full" then .ok exDef else .err .yaml, listOrder, fun _ => listOrder⟩

/-- The hypotheses are met: the definition with a relation placeholder is refused on the empty store, `exDef` with its resource placeholder is
accepted. -/
example : (∀ ans, (serve holeEnv (.createPolicy 0 (some (.yaml "hole")) []) Store.empty).1 ≠ .ok ans) ∧
    (match (serve holeEnv (.createPolicy 0 (some (.yaml "full")) []) Store.empty).1 with | .ok (.created _) => true | _ => false) = true :=
  ⟨fun ans => (C53_placeholder_violated holeEnv Store.empty 0 "hole" [] holeDef rfl "doc" "viewer" _ List.mem_cons_self List.mem_cons_self ans).1.1,
    by decide +kernel⟩

end Zanzi
