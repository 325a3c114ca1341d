import Verif.Lemmas.YamlOrder
import Verif.Props.Definition

/-
Property C83: which YAML documents are policy definitions, and what policies they give.
-/

namespace Zanzi

open Spec

/-- What the service makes of a text that reads as a document. -/
theorem withYaml_decode {env : Env} {read : String → Res Yaml} {text : String} {y : Yaml} (hr : read text = .ok y) :
    (env.withYaml read).decode text = y.definition := by
  show (read text >>= fun y => y.definition) = _
  rw [hr]
  rfl

/-- A document that is a definition, as the service reads it. -/
theorem withYaml_policy {env : Env} {read : String → Res Yaml} {text : String} {y : Yaml} {d : PolicyDef} (hr : read text = .ok y) (hd : y.definition = .ok d) :
    getPolicyFromDefinition (env.withYaml read) (some (.yaml text)) = .ok (policyOf d) :=
  getPolicyFromDefinition_ok_iff.2 (defines_yaml _ _ _ (by rw [withYaml_decode hr, hd]))

/-- A document that is not a definition. -/
theorem withYaml_refused {env : Env} {read : String → Res Yaml} {text : String} {y : Yaml} (hr : read text = .ok y) (hd : y.definition = .err .yaml) :
    getPolicyFromDefinition (env.withYaml read) (some (.yaml text)) = .err .yaml := by
  show (env.withYaml read).yaml text = _
  rw [Env.yaml, withYaml_decode hr, hd]
  rfl

theorem got_policy {env : Env} {s s' : Store} {id : String} {o : Option PolicyRecord} (h : serve env (.getPolicy id) s = (.ok (.policy o), s')) :
    policyAt s id = o := by
  rw [serve_getPolicy] at h
  rw [policyAt_eq]
  have := (Prod.mk.inj h).1
  injection this with this
  injection this

theorem yaml_describes {y : Yaml} {d : PolicyDef} (h : y.definition = .ok d) : Spec.Yaml.Describes y (policyOf d) := by
  obtain ⟨h1, h2, h3, h4, h5, h6⟩ := Yaml.definition_says h
  have hres : ∀ r ∈ (policyOf d).resources, ∃ b z, r = resourceOf r.name b ∧ Spec.Yaml.At y ["resources", r.name] z ∧ Yaml.resource z = .ok b := by
    intro r hr
    obtain ⟨k, b, hk, rfl⟩ := mem_policyOf.1 hr
    obtain ⟨z, hz, hb⟩ := (h5 k b).1 hk
    exact ⟨b, z, rfl, hz, hb⟩
  refine ⟨h1, h2, h3, h4, ⟨policyOf_names d, fun k => ?_⟩, fun r hr => ?_, fun r hr => ?_, fun r hr x hx => ?_⟩
  · constructor
    · intro hk
      obtain ⟨r, hr, rfl⟩ := List.mem_map.1 hk
      obtain ⟨_, z, _, hz, _⟩ := hres r hr
      exact ⟨z, hz⟩
    · rintro ⟨z, hz⟩
      obtain ⟨⟨b, hb⟩, _⟩ := h6 k z hz
      exact List.mem_map.2 ⟨resourceOf k b, mem_policyOf.2 ⟨k, b, (h5 k b).2 ⟨z, hz, hb⟩, rfl⟩, rfl⟩
  · obtain ⟨b, z, he, hz, hb⟩ := hres r hr
    obtain ⟨_, _, h7, _⟩ := h6 _ z hz
    have := (Yaml.resource_says hb).1
    rw [h7, congrArg Resource.description he]
    cases b <;> exact this
  · obtain ⟨b, z, he, hz, hb⟩ := hres r hr
    obtain ⟨_, h7, _, _⟩ := h6 _ z hz
    obtain ⟨_, h8, h9⟩ := Yaml.resource_says hb
    refine ⟨by rw [he]; exact resourceOf_names _ b, fun k => ?_⟩
    have hk : k ∈ r.relations.map (·.name) ↔ ∃ w, Spec.Yaml.At z ["relations", k] w := by
      constructor
      · intro hk
        obtain ⟨x, hx, rfl⟩ := List.mem_map.1 hk
        rw [he] at hx
        obtain ⟨k', b', hm, rfl⟩ := mem_resourceOf.1 hx
        obtain ⟨w, hw, _⟩ := (h8 k' b').1 hm
        exact ⟨w, hw⟩
      · rintro ⟨w, hw⟩
        obtain ⟨⟨b', hb'⟩, _⟩ := h9 k w hw
        refine List.mem_map.2 ⟨mapRelation { b'.getD ⟨"", "", "", []⟩ with name := k }, ?_, rfl⟩
        rw [he]
        exact mem_resourceOf.2 ⟨k, b', (h8 k b').2 ⟨w, hw, hb'⟩, rfl⟩
    rw [hk]
    exact ⟨fun ⟨w, hw⟩ => ⟨w, (h7 _ _).2 hw⟩, fun ⟨w, hw⟩ => ⟨w, (h7 _ _).1 hw⟩⟩
  · obtain ⟨b, z, he, hz, hb⟩ := hres r hr
    obtain ⟨_, _, h7, h7'⟩ := h6 _ z hz
    obtain ⟨_, h8, h9⟩ := Yaml.resource_says hb
    rw [he] at hx
    obtain ⟨k, b', hm, rfl⟩ := mem_resourceOf.1 hx
    obtain ⟨w, hw, hb'⟩ := (h8 k b').1 hm
    obtain ⟨_, h10, h11⟩ := h9 k w hw
    obtain ⟨h12, h13, h14⟩ := Yaml.relation_says hb'
    have hn : (mapRelation { b'.getD ⟨"", "", "", []⟩ with name := k }).name = k := rfl
    rw [hn]
    refine ⟨?_, ⟨_, rfl, ?_⟩, ⟨_, _, rfl, ?_, C52_types_exact _⟩⟩
    · rw [h7, h10]
      cases b' <;> exact h12
    · rw [h7, h10]
      cases b' <;> exact h13
    · rw [h7', h11]
      cases b' <;> exact h14

/-- C83, which documents are definitions: a document gives a policy exactly when it has the shape `IsDefinition` asks for — only known keys, none given
twice, texts where texts belong — and any other is refused by create and by update with a YAML error, in any state, leaving the store as it was. -/
theorem C83_accepts_exact (env : Env) (read : String → Res Yaml) (text : String) (y : Yaml) (hr : read text = .ok y) :
    ((∃ p, Defines (env.withYaml read) (some (.yaml text)) p) ↔ Spec.Yaml.IsDefinition y) ∧
    (¬ Spec.Yaml.IsDefinition y → ∀ s now a, serve (env.withYaml read) (.createPolicy now (some (.yaml text)) a) s = (.err .yaml, s) ∧
      serve (env.withYaml read) (.updatePolicy (some (.yaml text)) a) s = (.err .yaml, s)) := by
  have hbad : ¬ Spec.Yaml.IsDefinition y → getPolicyFromDefinition (env.withYaml read) (some (.yaml text)) = .err .yaml := by
    intro h
    rcases Yaml.definition_tame y with ⟨d, hd⟩ | hd
    · exact absurd ((Yaml.definition_ok y).1 ⟨d, hd⟩) h
    · exact withYaml_refused hr hd
  refine ⟨⟨fun ⟨p, hp⟩ => ?_, fun h => ?_⟩, fun h s now a => ?_⟩
  · have hp := getPolicyFromDefinition_ok_iff.2 hp
    refine Classical.byContradiction fun hn => ?_
    rw [hbad hn] at hp
    cases hp
  · obtain ⟨d, hd⟩ := (Yaml.definition_ok y).2 h
    exact ⟨_, getPolicyFromDefinition_ok_iff.1 (withYaml_policy hr hd)⟩
  · rw [serve_create, serve_update, hbad h]
    exact ⟨rfl, rfl⟩

/-- C83, what a definition means: the policy that create answers with, and the one found stored after an update, is the one the document describes. -/
theorem C83_meaning (env : Env) (read : String → Res Yaml) (text : String) (y : Yaml) (hr : read text = .ok y) (s s' : Store) (a : Bytes) :
    (∀ p, Defines (env.withYaml read) (some (.yaml text)) p → Spec.Yaml.Describes y p) ∧
    (∀ now rec, serve (env.withYaml read) (.createPolicy now (some (.yaml text)) a) s = (.ok (.created rec), s') →
      Spec.Yaml.Describes y rec.policy ∧ policyAt s' rec.policy.id = some rec) ∧
    (serve (env.withYaml read) (.updatePolicy (some (.yaml text)) a) s = (.ok .updated, s') →
      ∃ rec, Spec.Yaml.Describes y rec.policy ∧ policyAt s' rec.policy.id = some rec) := by
  have hdesc : ∀ p, Defines (env.withYaml read) (some (.yaml text)) p → Spec.Yaml.Describes y p := by
    intro p hp
    obtain ⟨d, hd⟩ := (Yaml.definition_ok y).2 ((C83_accepts_exact env read text y hr).1.1 ⟨p, hp⟩)
    have h1 := getPolicyFromDefinition_ok_iff.2 hp
    rw [withYaml_policy hr hd] at h1
    cases h1
    exact yaml_describes hd
  refine ⟨hdesc, fun now rec h => ?_, fun h => ?_⟩
  · by_cases hd : Spec.Yaml.IsDefinition y
    · obtain ⟨p, hp⟩ := (C83_accepts_exact env read text y hr).1.2 hd
      obtain ⟨h1, h2, h3⟩ := C23_create_exclusive _ s now _ a p hp
      cases hs : policyAt s p.id with
      | some x => rw [h1 (by rw [hs]; rfl)] at h; cases h
      | none =>
        by_cases hv : ValidPolicy (env.withYaml read).U p
        · obtain ⟨s'', h4, h5, _⟩ := h2 hs hv
          rw [h4] at h
          cases h
          exact ⟨hdesc p hp, got_policy h5⟩
        · exact absurd rfl ((h3 hs hv _ _ h).1 _)
    · rw [((C83_accepts_exact env read text y hr).2 hd s now a).1] at h
      cases h
  · by_cases hd : Spec.Yaml.IsDefinition y
    · obtain ⟨p, hp⟩ := (C83_accepts_exact env read text y hr).1.2 hd
      obtain ⟨h1, h2, h3⟩ := C24_update _ s _ a p hp
      cases hs : policyAt s p.id with
      | none => rw [h1 hs] at h; cases h
      | some x =>
        by_cases hv : ValidPolicy (env.withYaml read).U p
        · obtain ⟨s'', h4, h5, _⟩ := h2 x hs hv
          rw [h4] at h
          cases h
          exact ⟨⟨p, a, x.createdAt⟩, hdesc p hp, got_policy h5⟩
        · exact absurd rfl ((h3 x hs hv _ _ h).1 _)
    · rw [((C83_accepts_exact env read text y hr).2 hd s 0 a).2] at h
      cases h

/-- C83, every definition can be written down: a document written from a definition decodes to that definition, nothing lost or added. -/
theorem C83_round_trip (env : Env) (read : String → Res Yaml) (text : String) (d : PolicyDef) (hn : Unnamed d) (ha : Increasing (d.attributes.map (·.1)))
    (hr : read text = .ok (Spec.Yaml.write d)) :
    (env.withYaml read).decode text = .ok d := by
  rw [withYaml_decode hr, Yaml.definition_write hn ha]

/-- The hypotheses are met by the definition with every kind of type constraint. -/
example : Unnamed exDef ∧ Increasing (exDef.attributes.map (·.1)) := by
  refine ⟨?_, List.pairwise_singleton _ _⟩
  intro k b h
  simp [exDef] at h
  rcases h with ⟨rfl, rfl⟩ | ⟨rfl, rfl⟩
  · refine ⟨rfl, fun k' b' h' => ?_⟩
    simp at h'
    rcases h' with ⟨rfl, rfl⟩ | ⟨rfl, rfl⟩ <;> rfl
  · refine ⟨rfl, fun k' b' h' => ?_⟩
    simp at h'
    rcases h' with ⟨rfl, rfl⟩
    rfl

/-- C83, order: writing the entries of mappings in another order, at any depth, changes nothing — the same answers and the same stores. -/
theorem C83_order (env : Env) (read : String → Res Yaml) (text text' : String) (y y' : Yaml) (hr : read text = .ok y) (hr' : read text' = .ok y')
    (h : Spec.Yaml.Reordered y y') (s : Store) (now : Timestamp) (a : Bytes) :
    serve (env.withYaml read) (.createPolicy now (some (.yaml text)) a) s = serve (env.withYaml read) (.createPolicy now (some (.yaml text')) a) s ∧
    serve (env.withYaml read) (.updatePolicy (some (.yaml text)) a) s = serve (env.withYaml read) (.updatePolicy (some (.yaml text')) a) s := by
  have : getPolicyFromDefinition (env.withYaml read) (some (.yaml text)) = getPolicyFromDefinition (env.withYaml read) (some (.yaml text')) := by
    rcases Yaml.definition_tame y with ⟨d, hd⟩ | hd
    · obtain ⟨d', hd', he⟩ := Yaml.definition_reordered h hd
      rw [withYaml_policy hr hd, withYaml_policy hr' hd', he]
    · rcases Yaml.definition_tame y' with ⟨d', hd'⟩ | hd'
      · obtain ⟨d, hd2, _⟩ := Yaml.definition_reordered (Yaml.reordered_symm h) hd'
        rw [hd] at hd2
        cases hd2
      · rw [withYaml_refused hr hd, withYaml_refused hr' hd']
  rw [serve_create, serve_create, serve_update, serve_update, this]
  exact ⟨rfl, rfl⟩

/-- The documented format is not the accepted one: no document with the sections that docs/policy-definition.md marks as required is ever accepted, by create
or update, in any state. -/
theorem C83_documented_violated (env : Env) (read : String → Res Yaml) (text : String) (y : Yaml) (hr : read text = .ok y) (h : Spec.Yaml.AsDocumented y)
    (s : Store) (now : Timestamp) (a : Bytes) :
    serve (env.withYaml read) (.createPolicy now (some (.yaml text)) a) s = (.err .yaml, s) ∧
    serve (env.withYaml read) (.updatePolicy (some (.yaml text)) a) s = (.err .yaml, s) := by
  refine (C83_accepts_exact env read text y hr).2 ?_ s now a
  intro hd
  obtain ⟨v, hv⟩ := h "version" (by decide)
  cases hv with
  | step es _ v _ _ h1 _ =>
    have := (Yaml.isTable_map.1 hd).2 _ _ h1
    simp at this

theorem says_one {y : Yaml} {d : PolicyDef} (hd : y.definition = .ok d) {t : String} (h : Spec.Yaml.Says y ["id"] t) : d.id = t := by
  obtain ⟨h1, _⟩ := Yaml.definition_says hd
  have hu : ∀ t t', Spec.Yaml.At y ["id"] (.scalar t) → Spec.Yaml.At y ["id"] (.scalar t') → t = t' := by
    intro t t' h h'
    cases y with
    | map es =>
      have hn := (Yaml.isTable_map.1 ((Yaml.definition_ok _).1 ⟨d, hd⟩)).1
      have := ((Yaml.at_one hn _ _).1 h).2.symm.trans ((Yaml.at_one hn _ _).1 h').2
      cases this
      rfl
    | _ => cases h
  rcases h1 with h1 | ⟨h1, h2⟩
  · rcases h with h | ⟨_, h⟩
    · exact hu _ _ h1 h
    · exact absurd h1 (h _)
  · rcases h with h | ⟨h, _⟩
    · exact absurd h (h2 _)
    · rw [h1, h]

/-- Attributes have no part in the id of a policy, nor has anything but what is written under `id`: once a document has been created, any document with
the same text under `id` — in particular, both without one — is refused as existing, whatever else it says. -/
theorem C83_ids_violated (env : Env) (read : String → Res Yaml) (text text' : String) (y y' : Yaml) (hr : read text = .ok y) (hr' : read text' = .ok y')
    (t : String) (hi : Spec.Yaml.Says y ["id"] t) (hi' : Spec.Yaml.Says y' ["id"] t) (hd' : Spec.Yaml.IsDefinition y')
    (s s' : Store) (now now' : Timestamp) (a a' : Bytes) (rec : PolicyRecord)
    (h : serve (env.withYaml read) (.createPolicy now (some (.yaml text)) a) s = (.ok (.created rec), s')) :
    rec.policy.id = t ∧ serve (env.withYaml read) (.createPolicy now' (some (.yaml text')) a') s' = (.err .policyExists, s') := by
  obtain ⟨hdesc, hat⟩ := (C83_meaning env read text y hr s s' a).2.1 now rec h
  obtain ⟨d', hd'⟩ := (Yaml.definition_ok y').2 hd'
  have hid' := says_one hd' hi'
  have hid : rec.policy.id = t := by
    rcases Yaml.definition_tame y with ⟨d, hd⟩ | hd
    · have h1 := hdesc.id
      have h2 := (says_one hd h1).symm
      rw [h2]
      exact says_one hd hi
    · rw [serve_create, withYaml_refused hr hd] at h
      cases h
  refine ⟨hid, ?_⟩
  refine (C23_create_exclusive _ s' now' _ a' _ (getPolicyFromDefinition_ok_iff.1 (withYaml_policy hr' hd'))).1 ?_
  show (policyAt s' d'.id).isSome = true
  rw [hid', ← hid, hat]
  rfl

/-! ### Examples -/

/-- A definition with its keys in one order. -/
def docYaml (value : String) : Yaml :=
  .map [("id", .scalar "p"), ("resources", .map [("user", .null), ("doc", .map [("relations", .map [("viewer", .map [("types", .seq [.scalar "user", .null]),
    ("expr", .scalar "_this")])])])]), ("attributes", .map [("k", .scalar value)])]

/-- The same in another order, at three depths. -/
def docYaml' : Yaml :=
  .map [("attributes", .map [("k", .scalar "v")]), ("id", .scalar "p"), ("resources", .map [("doc", .map [("relations", .map [("viewer", .map [("expr", .scalar "_this"),
    ("types", .seq [.scalar "user", .null])])])]), ("user", .null)])]

/-- A document with the sections the documentation requires. -/
def docsYaml : Yaml := .map [("version", .scalar "0.1"), ("name", .scalar "n"), ("resources", .map [("doc", .null)]), ("actors", .map [("user", .null)])]

/-- A reader of these documents. -/
def docRead (text : String) : Res Yaml :=
  if text = "one" then .ok (docYaml "v") else if text = "other" then .ok (docYaml "w") else if text = "turned" then .ok docYaml' else
  if text = "docs" then .ok docsYaml else .err .yaml

def createdBy (text : String) (s : Store) : Res Answer × Store := serve (holeEnv.withYaml docRead) (.createPolicy 0 (some (.yaml text)) []) s

/-- The first document is a definition and is created; what it says is in the policy. -/
example : ∃ rec, (createdBy "one" .empty).1 = .ok (.created rec) ∧ rec.policy.id = "p" ∧ rec.policy.resources.map (·.name) = ["doc", "user"] ∧
    rec.policy.attributes = [("k", "v")] := by
  obtain ⟨p, hp⟩ := (C83_accepts_exact holeEnv docRead "one" _ rfl).1.2 ((Yaml.definition_ok _).1 ⟨_, rfl⟩)
  cases hp' : (createdBy "one" .empty).1 with
  | ok ans =>
    have h : (match (createdBy "one" .empty).1 with
      | .ok (.created rec) => decide (rec.policy.id = "p" ∧ rec.policy.resources.map (·.name) = ["doc", "user"] ∧ rec.policy.attributes = [("k", "v")])
      | _ => false) = true := by decide +kernel
    rw [hp'] at h
    cases ans with
    | created rec => exact ⟨rec, rfl, of_decide_eq_true h⟩
    | _ => cases h
  | _ =>
    have h : (match (createdBy "one" .empty).1 with | .ok _ => true | _ => false) = true := by decide +kernel
    rw [hp'] at h
    cases h

/-- The second is the first in another order. -/
example : Spec.Yaml.Reordered (docYaml "v") docYaml' := by
  refine .trans _ _ _ (.entry [("id", .scalar "p")] _ "resources" _ _ (.trans _ _ _ (.perm _ _ (.swap _ _ _)) (.entry [] _ "doc" _ _
    (.entry [] _ "relations" _ _ (.entry [] _ "viewer" _ _ (.perm _ _ (.swap _ _ _))))))) (.perm _ _ ?_)
  exact (List.perm_append_comm (l₁ := [_, _]) (l₂ := [_]))

/-- The documented one is refused. -/
example : Spec.Yaml.AsDocumented docsYaml ∧ (createdBy "docs" .empty).1 = .err .yaml := by
  refine ⟨?_, rfl⟩
  intro key hk
  simp only [List.mem_cons, List.not_mem_nil, or_false] at hk
  rcases hk with rfl | rfl | rfl | rfl
  · exact ⟨_, .step _ _ _ _ _ (List.mem_cons_self) (.here _)⟩
  · exact ⟨_, .step _ _ _ _ _ (.tail _ List.mem_cons_self) (.here _)⟩
  · exact ⟨_, .step _ _ _ _ _ (.tail _ (.tail _ List.mem_cons_self)) (.here _)⟩
  · exact ⟨_, .step _ _ _ _ _ (.tail _ (.tail _ (.tail _ List.mem_cons_self))) (.here _)⟩

/-- The first document with another attribute is refused as existing. -/
example : Spec.Yaml.Says (docYaml "v") ["id"] "p" ∧ Spec.Yaml.Says (docYaml "w") ["id"] "p" ∧ Spec.Yaml.IsDefinition (docYaml "w") ∧
    (match (createdBy "one" .empty).1 with | .ok (.created _) => true | _ => false) = true ∧
    (match (createdBy "other" (createdBy "one" .empty).2).1 with | .err .policyExists => true | _ => false) = true :=
  ⟨.inl (.step _ _ _ _ _ List.mem_cons_self (.here _)), .inl (.step _ _ _ _ _ List.mem_cons_self (.here _)), (Yaml.definition_ok _).1 ⟨_, rfl⟩,
    by decide +kernel, by decide +kernel⟩

end Zanzi
