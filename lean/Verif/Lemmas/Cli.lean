import Verif.Spec.Cli

/-
Lemmas about the command line client.
-/

namespace Zanzi.Cli

open Spec Wire

/-! ### Merging -/

theorem mergeStr_empty (s : String) : mergeStr "" s = s := by unfold mergeStr; split <;> simp_all
theorem mergeStr_none (s : String) : mergeStr s "" = s := if_pos rfl
theorem mergeStr_full {s : String} (h : s ≠ "") (d : String) : mergeStr d s = s := if_neg h
theorem mergeBytes_empty (s : Bytes) : mergeBytes [] s = s := by unfold mergeBytes; split <;> simp_all
theorem mergeBytes_none (s : Bytes) : mergeBytes s [] = s := if_pos rfl
theorem mergeBytes_full {s : Bytes} (h : s ≠ []) (d : Bytes) : mergeBytes d s = s := if_neg h
theorem mergeNum_empty (s : Nat) : mergeNum 0 s = s := by unfold mergeNum; split <;> simp_all
theorem mergeFormat_empty (s : ExplainFormat) : mergeFormat .spew s = s := by cases s <;> rfl
theorem mergeDumpFormat_empty (s : GraphService.DumpFormat) : mergeDumpFormat .dot s = s := by cases s <;> rfl
theorem mergeMsg_none {α : Type} (f : α → α → α) (s : Option α) : mergeMsg f none s = s := by cases s <;> rfl

/-- Merging into the empty message. -/
theorem merge_empty (x : Vars) (m : Method) : mergeRequest (emptyRequest m) (x.request m) = x.request m := by
  cases m <;> simp [emptyRequest, Vars.request, mergeRequest, mergeStr_empty, mergeBytes_empty, mergeNum_empty, mergeFormat_empty, mergeDumpFormat_empty, mergeMsg_none]

theorem mergeEntity_full {e : Entity} (h : FullEntity e) (d : Entity) : mergeEntity d e = e := by
  unfold mergeEntity
  rw [mergeStr_full h.1, mergeStr_full h.2]

theorem mergeMsg_full {α : Type} {f : α → α → α} {x : α} (h : ∀ d, f d x = x) (d : Option α) : mergeMsg f d (some x) = some x := by
  cases d with
  | none => rfl
  | some d => exact congrArg some (h d)

theorem mergeSubject_full {s : Subject} (h : FullSubject s) (d : Subject) : mergeSubject d s = s := by
  cases s with
  | unset => exact h.elim
  | entity e => cases d <;> first | rfl | exact congrArg _ (mergeEntity_full h _)
  | entitySet e r =>
    obtain ⟨⟨x, rfl, hx⟩, hr⟩ := h
    cases d <;> first | rfl | simp only [mergeSubject, mergeMsg_full (mergeEntity_full hx), mergeStr_full hr]
  | resourceSet n => cases d <;> first | rfl | exact congrArg _ (mergeStr_full h _)

theorem mergeNode_full {s : RelationNode} (h : FullNode s) (d : RelationNode) : mergeNode d s = s := by
  cases s with
  | unset => exact h.elim
  | entity e =>
    obtain ⟨x, rfl, hx⟩ := h
    cases d <;> first | rfl | simp only [mergeNode, mergeMsg_full (mergeEntity_full hx)]
  | entitySet e r =>
    obtain ⟨⟨x, rfl, hx⟩, hr⟩ := h
    cases d <;> first | rfl | simp only [mergeNode, mergeMsg_full (mergeEntity_full hx), mergeStr_full hr]
  | wildcard n => cases d <;> first | rfl | exact congrArg _ (mergeStr_full h _)

theorem mergeRelationship_full {r : Relationship} (h : FullRelationship r) (d : Relationship) : mergeRelationship d r = r := by
  obtain ⟨o, rel, s⟩ := r
  obtain ⟨⟨o, rfl, ho⟩, hr, s, rfl, hs⟩ := h
  simp only [mergeRelationship, mergeMsg_full (mergeEntity_full ho), mergeStr_full hr, mergeMsg_full (mergeSubject_full hs)]

theorem mergeAccess_full {r : AccessRequest} (h : FullAccess r) (d : AccessRequest) : mergeAccess d r = r := by
  obtain ⟨o, rel, s⟩ := r
  obtain ⟨⟨o, rfl, ho⟩, hr, s, rfl, hs⟩ := h
  simp only [mergeAccess, mergeMsg_full (mergeEntity_full ho), mergeStr_full hr, mergeMsg_full (mergeEntity_full hs)]

theorem mergeSelector_full {r : Selector} (h : FullSelector r) (d : Selector) : mergeSelector d r = r := by
  obtain ⟨o, rel, s⟩ := r
  obtain ⟨⟨o, rfl, ho, ho'⟩, ⟨r, rfl, hr⟩, s, rfl, hs, hs'⟩ := h
  have h1 : ∀ d, mergeObjectSelector d o = o := by
    intro d
    cases o with
    | unset => exact absurd rfl ho
    | objectSpec e => cases d <;> first | rfl | exact congrArg _ (mergeEntity_full (ho' e rfl) _)
    | _ => cases d <;> rfl
  have h2 : ∀ d, mergeRelationSelector d r = r := by
    intro d
    cases r with
    | unset => exact absurd rfl hr
    | _ => cases d <;> rfl
  have h3 : ∀ d, mergeSubjectSelector d s = s := by
    intro d
    cases s with
    | unset => exact absurd rfl hs
    | subjectSpec e => cases d <;> first | rfl | exact congrArg _ (mergeSubject_full (hs' e rfl) _)
    | _ => cases d <;> rfl
  simp only [mergeSelector, mergeMsg_full h1, mergeMsg_full h2, mergeMsg_full h3]

/-- A request no part of which is empty replaces whatever it is merged into. -/
theorem mergeRequest_full {r : Request} (h : FullRequest r) (d : Request) : mergeRequest d r = r := by
  have hf : ∀ {f : ExplainFormat}, f ≠ .spew → ∀ d, mergeFormat d f = f := fun {f} hf d => by cases f <;> first | rfl | exact absurd rfl hf
  have hg : ∀ {f : GraphService.DumpFormat}, f ≠ .dot → ∀ d, mergeDumpFormat d f = f := fun {f} hf d => by cases f <;> first | rfl | exact absurd rfl hf
  cases r with
  | createPolicy x a =>
    obtain ⟨⟨t, rfl⟩, ha⟩ := h
    have : ∀ d, mergeDefinition d (.yaml t) = .yaml t := fun d => by cases d <;> rfl
    cases d <;> first | rfl | simp only [mergeRequest, mergeMsg_full this, mergeBytes_full ha]
  | updatePolicy x a n =>
    obtain ⟨⟨t, rfl⟩, ha, hn⟩ := h
    have : ∀ d, mergeDefinition d (.yaml t) = .yaml t := fun d => by cases d <;> rfl
    have hn' : ∀ d, mergeNum d n = n := fun d => if_neg hn
    cases d <;> first | rfl | simp only [mergeRequest, mergeMsg_full this, mergeBytes_full ha, hn']
  | deletePolicy i =>
    have h : i ≠ "" := h
    cases d <;> first | rfl | simp only [mergeRequest, mergeStr_full h]
  | getPolicy i =>
    have h : i ≠ "" := h
    cases d <;> first | rfl | simp only [mergeRequest, mergeStr_full h]
  | listPolicyIds => cases d <;> rfl
  | setRelationship p r a =>
    obtain ⟨hp, ⟨x, rfl, hx⟩, ha⟩ := h
    cases d <;> first | rfl | simp only [mergeRequest, mergeStr_full hp, mergeMsg_full (mergeRelationship_full hx), mergeBytes_full ha]
  | deleteRelationship p r =>
    obtain ⟨hp, x, rfl, hx⟩ := h
    cases d <;> first | rfl | simp only [mergeRequest, mergeStr_full hp, mergeMsg_full (mergeRelationship_full hx)]
  | getRelationship p r =>
    obtain ⟨hp, x, rfl, hx⟩ := h
    cases d <;> first | rfl | simp only [mergeRequest, mergeStr_full hp, mergeMsg_full (mergeRelationship_full hx)]
  | findRelationshipRecords p s =>
    obtain ⟨hp, x, rfl, hx⟩ := h
    cases d <;> first | rfl | simp only [mergeRequest, mergeStr_full hp, mergeMsg_full (mergeSelector_full hx)]
  | deleteRelationships p s =>
    obtain ⟨hp, x, rfl, hx⟩ := h
    cases d <;> first | rfl | simp only [mergeRequest, mergeStr_full hp, mergeMsg_full (mergeSelector_full hx)]
  | check p q =>
    obtain ⟨hp, x, rfl, hx⟩ := h
    cases d <;> first | rfl | simp only [mergeRequest, mergeStr_full hp, mergeMsg_full (mergeAccess_full hx)]
  | explainCheck p q f =>
    obtain ⟨hp, ⟨x, rfl, hx⟩, hf'⟩ := h
    cases d <;> first | rfl | simp only [mergeRequest, mergeStr_full hp, mergeMsg_full (mergeAccess_full hx), hf hf']
  | expand p n f =>
    obtain ⟨hp, ⟨x, rfl, hx⟩, hf'⟩ := h
    cases d <;> first | rfl | simp only [mergeRequest, mergeStr_full hp, mergeMsg_full (mergeNode_full hx), hf hf']
  | dumpRelationships p f =>
    obtain ⟨hp, hf'⟩ := h
    cases d <;> first | rfl | simp only [mergeRequest, mergeStr_full hp, hg hf']

theorem mergeEntity_none (e : Entity) : mergeEntity e ⟨"", ""⟩ = e := rfl

theorem ne_none {α : Type} {o : Option α} (h : o ≠ none) : ∃ x, o = some x := by
  cases o with
  | none => exact absurd rfl h
  | some x => exact ⟨x, rfl⟩

/-- Without flags, a request with its messages is sent as it is. -/
theorem merge_unset {r : Request} (h : Filled r) : mergeRequest r (Vars.request {} r.method) = r := by
  have hs : ∀ s : Subject, mergeSubject s .unset = s := fun s => by cases s <;> rfl
  have hn : ∀ s : RelationNode, mergeNode s .unset = s := fun s => by cases s <;> rfl
  have hd : ∀ s : PolicyDefinition, mergeDefinition s .unset = s := fun s => by cases s <;> rfl
  have h1 : ∀ s : ObjectSelector, mergeObjectSelector s .unset = s := fun s => by cases s <;> rfl
  have h2 : ∀ s : RelationSelector, mergeRelationSelector s .unset = s := fun s => by cases s <;> rfl
  have h3 : ∀ s : SubjectSelector, mergeSubjectSelector s .unset = s := fun s => by cases s <;> rfl
  have hr : ∀ x : Relationship, x.object ≠ none → x.subject ≠ none → mergeRelationship x (Vars.relationship {}) = x := by
    intro x h1 h2
    obtain ⟨o, rel, s⟩ := x
    obtain ⟨o, rfl⟩ := ne_none h1
    obtain ⟨s, rfl⟩ := ne_none h2
    simp [mergeRelationship, Vars.relationship, SubjectVars.value, mergeMsg, mergeEntity_none, mergeStr_none, hs]
  have hq : ∀ x : AccessRequest, x.object ≠ none → x.subject ≠ none → mergeAccess x (Vars.access {}) = x := by
    intro x h1 h2
    obtain ⟨o, rel, s⟩ := x
    obtain ⟨o, rfl⟩ := ne_none h1
    obtain ⟨s, rfl⟩ := ne_none h2
    simp [mergeAccess, Vars.access, mergeMsg, mergeEntity_none, mergeStr_none]
  have hl : ∀ x : Selector, x.object ≠ none → x.relation ≠ none → x.subject ≠ none → mergeSelector x (Vars.selector {}) = x := by
    intro x e1 e2 e3
    obtain ⟨o, rel, s⟩ := x
    obtain ⟨o, rfl⟩ := ne_none e1
    obtain ⟨rel, rfl⟩ := ne_none e2
    obtain ⟨s, rfl⟩ := ne_none e3
    simp [mergeSelector, Vars.selector, ObjectSelectorVars.value, SubjectSelectorVars.value, mergeMsg, h1, h2, h3]
  cases r with
  | createPolicy d a =>
    obtain ⟨d, rfl⟩ := ne_none h
    simp [Request.method, Vars.request, mergeRequest, DefinitionVars.value, mergeMsg, hd, mergeBytes_none]
  | updatePolicy d a n =>
    obtain ⟨d, rfl⟩ := ne_none h
    simp [Request.method, Vars.request, mergeRequest, DefinitionVars.value, mergeMsg, hd, mergeBytes_none, mergeNum]
  | setRelationship p r a =>
    obtain ⟨x, rfl, e1, e2⟩ := h
    simp [Request.method, Vars.request, mergeRequest, mergeMsg, hr x e1 e2, mergeBytes_none, mergeStr_none]
  | deleteRelationship p r =>
    obtain ⟨x, rfl, e1, e2⟩ := h
    simp [Request.method, Vars.request, mergeRequest, mergeMsg, hr x e1 e2, mergeStr_none]
  | getRelationship p r =>
    obtain ⟨x, rfl, e1, e2⟩ := h
    simp [Request.method, Vars.request, mergeRequest, mergeMsg, hr x e1 e2, mergeStr_none]
  | findRelationshipRecords p s =>
    obtain ⟨x, rfl, e1, e2, e3⟩ := h
    simp [Request.method, Vars.request, mergeRequest, mergeMsg, hl x e1 e2 e3, mergeStr_none]
  | deleteRelationships p s =>
    obtain ⟨x, rfl, e1, e2, e3⟩ := h
    simp [Request.method, Vars.request, mergeRequest, mergeMsg, hl x e1 e2 e3, mergeStr_none]
  | check p q =>
    obtain ⟨x, rfl, e1, e2⟩ := h
    simp [Request.method, Vars.request, mergeRequest, mergeMsg, hq x e1 e2, mergeStr_none]
  | explainCheck p q f =>
    obtain ⟨x, rfl, e1, e2⟩ := h
    simp [Request.method, Vars.request, mergeRequest, mergeMsg, hq x e1 e2, mergeStr_none, mergeFormat]
  | expand p n f =>
    obtain ⟨x, rfl⟩ := ne_none h
    simp [Request.method, Vars.request, mergeRequest, mergeMsg, NodeVars.value, hn, mergeStr_none, mergeFormat]
  | dumpRelationships p f => simp [Request.method, Vars.request, mergeRequest, mergeStr_none, mergeDumpFormat]
  | deletePolicy i => simp [Request.method, Vars.request, mergeRequest, mergeStr_none]
  | getPolicy i => simp [Request.method, Vars.request, mergeRequest, mergeStr_none]
  | listPolicyIds => rfl

theorem mergeMsg_some {α : Type} {f : α → α → α} (d : Option α) (x : α) : ∃ y, mergeMsg f d (some x) = some y := by cases d <;> exact ⟨_, rfl⟩

/-- Whatever is sent has its messages. -/
theorem merge_filled (x : Vars) {d : Request} {m : Method} (hd : d.method = m) : Filled (mergeRequest d (x.request m)) ∧ (mergeRequest d (x.request m)).method = m := by
  have hr : ∀ d : Option Relationship, ∃ y, mergeMsg mergeRelationship d (some x.relationship) = some y ∧ y.object ≠ none ∧ y.subject ≠ none := by
    intro d
    cases d with
    | none => exact ⟨_, rfl, nofun, nofun⟩
    | some d =>
      obtain ⟨a, ha⟩ := mergeMsg_some (f := mergeEntity) d.object x.object
      obtain ⟨b, hb⟩ := mergeMsg_some (f := mergeSubject) d.subject x.subject.value
      refine ⟨_, rfl, ?_, ?_⟩
      · show mergeMsg mergeEntity d.object (some x.object) ≠ none
        rw [ha]; nofun
      · show mergeMsg mergeSubject d.subject (some x.subject.value) ≠ none
        rw [hb]; nofun
  have hq : ∀ d : Option AccessRequest, ∃ y, mergeMsg mergeAccess d (some x.access) = some y ∧ y.object ≠ none ∧ y.subject ≠ none := by
    intro d
    cases d with
    | none => exact ⟨_, rfl, nofun, nofun⟩
    | some d =>
      obtain ⟨a, ha⟩ := mergeMsg_some (f := mergeEntity) d.object x.object
      obtain ⟨b, hb⟩ := mergeMsg_some (f := mergeEntity) d.subject x.accessSubject
      refine ⟨_, rfl, ?_, ?_⟩
      · show mergeMsg mergeEntity d.object (some x.object) ≠ none
        rw [ha]; nofun
      · show mergeMsg mergeEntity d.subject (some x.accessSubject) ≠ none
        rw [hb]; nofun
  have hl : ∀ d : Option Selector, ∃ y, mergeMsg mergeSelector d (some x.selector) = some y ∧ y.object ≠ none ∧ y.relation ≠ none ∧ y.subject ≠ none := by
    intro d
    cases d with
    | none => exact ⟨_, rfl, nofun, nofun, nofun⟩
    | some d =>
      refine ⟨_, rfl, ?_, ?_, ?_⟩
      · obtain ⟨a, ha⟩ := mergeMsg_some (f := mergeObjectSelector) d.object x.objectSelector.value
        show mergeMsg mergeObjectSelector d.object (some x.objectSelector.value) ≠ none
        rw [ha]; nofun
      · show mergeMsg mergeRelationSelector d.relation (some _) ≠ none
        cases d.relation <;> nofun
      · obtain ⟨a, ha⟩ := mergeMsg_some (f := mergeSubjectSelector) d.subject x.subjectSelector.value
        show mergeMsg mergeSubjectSelector d.subject (some x.subjectSelector.value) ≠ none
        rw [ha]; nofun
  subst hd
  cases d with
  | createPolicy d a => exact ⟨(by show mergeMsg _ d (some _) ≠ none; cases d <;> nofun), rfl⟩
  | updatePolicy d a n => exact ⟨(by show mergeMsg _ d (some _) ≠ none; cases d <;> nofun), rfl⟩
  | expand p n f => exact ⟨(by show mergeMsg _ n (some _) ≠ none; cases n <;> nofun), rfl⟩
  | setRelationship p r a => exact ⟨hr r, rfl⟩
  | deleteRelationship p r => exact ⟨hr r, rfl⟩
  | getRelationship p r => exact ⟨hr r, rfl⟩
  | findRelationshipRecords p s => exact ⟨hl s, rfl⟩
  | deleteRelationships p s => exact ⟨hl s, rfl⟩
  | check p q => exact ⟨hq q, rfl⟩
  | explainCheck p q f => exact ⟨hq q, rfl⟩
  | dumpRelationships p f => exact ⟨trivial, rfl⟩
  | deletePolicy i => exact ⟨trivial, rfl⟩
  | getPolicy i => exact ⟨trivial, rfl⟩
  | listPolicyIds => exact ⟨trivial, rfl⟩

/-! ### Flags -/

/-- The variables after some flags. -/
abbrev run (flags : List Flag) (x : Vars) : Vars := flags.foldl (fun (x : Vars) (f : Flag) => f.set x) x

theorem sends_none (m : Method) (flags : List Flag) : sends m flags none = if flags.all (accepts m) then some ((run flags {}).request m) else none := by
  unfold sends
  rw [Option.getD_none, merge_empty]

theorem putAttribute_keys (l : List (String × String)) (k v : String) :
    (putAttribute l k v).map (·.1) = if k ∈ l.map (·.1) then l.map (·.1) else l.map (·.1) ++ [k] := by
  have hany : l.any (fun x => x.1 == k) = true ↔ k ∈ l.map (·.1) := by
    rw [List.any_eq_true, List.mem_map]
    exact ⟨fun ⟨x, hx, he⟩ => ⟨x, hx, beq_iff_eq.mp he⟩, fun ⟨x, hx, he⟩ => ⟨x, hx, beq_iff_eq.mpr he⟩⟩
  unfold putAttribute
  by_cases h : k ∈ l.map (·.1)
  · rw [if_pos (hany.mpr h), if_pos h, List.map_map]
    apply List.map_congr_left
    intro x _
    show (if (x.1 == k) = true then (k, v) else x).1 = x.1
    split
    · next he => exact (beq_iff_eq.mp he).symm
    · rfl
  · rw [if_neg (fun c => h (hany.mp c)), if_neg h, List.map_append]
    rfl

theorem putAttribute_nodup {l : List (String × String)} (h : (l.map (·.1)).Nodup) (k v : String) : ((putAttribute l k v).map (·.1)).Nodup := by
  rw [putAttribute_keys]
  split
  · exact h
  · next hk =>
    rw [List.nodup_append]
    refine ⟨h, by simp, ?_⟩
    intro a ha b hb
    rw [List.mem_singleton] at hb
    subst hb
    exact fun c => hk (c ▸ ha)

theorem putAttribute_new {l : List (String × String)} {k : String} (h : k ∉ l.map (·.1)) (v : String) : putAttribute l k v = l ++ [(k, v)] := by
  refine if_neg (fun c => h ?_)
  obtain ⟨x, hx, he⟩ := List.any_eq_true.mp c
  exact List.mem_map.mpr ⟨x, hx, beq_iff_eq.mp he⟩

theorem set_nodup (f : Flag) (x : Vars) (h : (x.definition.policy.attributes.map (·.1)).Nodup) : ((f.set x).definition.policy.attributes.map (·.1)).Nodup := by
  cases f with
  | definition f =>
    cases f with
    | policyAttribute k v => exact putAttribute_nodup h k v
    | _ => exact h
  | _ => exact h

theorem run_nodup (flags : List Flag) : ∀ x : Vars, (x.definition.policy.attributes.map (·.1)).Nodup → ((run flags x).definition.policy.attributes.map (·.1)).Nodup := by
  induction flags with
  | nil => exact fun _ h => h
  | cons f l ih => exact fun x h => ih _ (set_nodup f x h)

theorem value_whole (x : SubjectVars) : WholeSubject x.value := by
  unfold SubjectVars.value
  split <;> trivial

theorem value_sayable (x : Vars) : SayableSelector x.selector := by
  refine ⟨⟨_, rfl, ?_⟩, ⟨_, rfl, ?_⟩, _, rfl, ?_, ?_⟩
  · unfold ObjectSelectorVars.value
    split <;> nofun
  · cases x.relationSelector <;> nofun
  · unfold SubjectSelectorVars.value
    split <;> nofun
  · unfold SubjectSelectorVars.value
    intro y
    split
    · nofun
    · intro h
      cases h
      exact value_whole _
    · nofun

theorem request_sayable (x : Vars) (h : (x.definition.policy.attributes.map (·.1)).Nodup) (m : Method) : Sayable (x.request m) := by
  have hd : ∃ y, some x.definition.value = some y ∧ ∀ p, y = PolicyDefinition.policy p → (p.attributes.map (·.1)).Nodup := by
    refine ⟨_, rfl, fun p hp => ?_⟩
    unfold DefinitionVars.value at hp
    split at hp
    · cases hp
    · cases hp; exact h
    · cases hp
  have hr : ∃ y, some x.relationship = some y ∧ WholeRelationship y := ⟨_, rfl, nofun, _, rfl, value_whole _⟩
  cases m with
  | createPolicy => exact hd
  | updatePolicy => exact hd
  | deletePolicy => trivial
  | getPolicy => trivial
  | listPolicyIds => trivial
  | setRelationship => exact hr
  | deleteRelationship => exact hr
  | getRelationship => exact hr
  | deleteRelationships => exact ⟨_, rfl, value_sayable x⟩
  | findRelationshipRecords => exact ⟨_, rfl, value_sayable x⟩
  | check => exact ⟨_, rfl, nofun, nofun⟩
  | explainCheck => exact ⟨_, rfl, nofun, nofun⟩
  | expand =>
    refine ⟨_, rfl, fun r => ?_, ?_⟩ <;> (unfold NodeVars.value; split <;> nofun)
  | dumpRelationships => trivial

/-! ### Saying a request -/

/-- Flags that say an entity. -/
def sayEntity (e : Entity) : List EntityFlag := [.resource e.resource, .id e.id]
/-- Flags that say a subject. -/
def saySubject : Subject → List SubjectFlag
  | .unset => []
  | .entity e => (sayEntity e).map .entityPart
  | .entitySet e r => (match e with | some e => (sayEntity e).map .entitySetEntity | none => []) ++ [.entitySetRelation r]
  | .resourceSet n => [.resourceSetName n]
/-- Flags that say a relationship. -/
def sayRelationship (r : Relationship) : List Flag :=
  (match r.object with | some o => (sayEntity o).map .object | none => []) ++ [.relation r.relation] ++ (match r.subject with | some s => (saySubject s).map .subject | none => [])
/-- Flags that say a selector. -/
def saySelector (s : Selector) : List Flag :=
  (match s.object with | some (.objectSpec e) => (sayEntity e).map (fun f => .objectSelector (.objectSpecPart f)) | some (.resourceSpec n) => [.objectSelector (.resourceSpec n)] | _ => []) ++
  (match s.relation with | some (.relationName n) => [.relationSelector n] | _ => []) ++
  (match s.subject with | some (.subjectSpec x) => .subjectSelector .subjectSpec :: (saySubject x).map (fun f => .subjectSelector (.subjectSpecPart f)) | some (.resourceSpec n) => [.subjectSelector (.resourceSpec n)] | _ => [])
/-- Flags that say an access request. -/
def sayAccess (q : AccessRequest) : List Flag :=
  (match q.object with | some o => (sayEntity o).map .object | none => []) ++ [.relation q.relation] ++ (match q.subject with | some s => (sayEntity s).map .accessSubject | none => [])
/-- Flags that say a node. -/
def sayNode : RelationNode → List Flag
  | .unset => []
  | .entitySet o r => (match o with | some o => (sayEntity o).map (fun f => .root (.entitySetObject f)) | none => []) ++ [.root (.entitySetRelation r)]
  | .entity o => (match o with | some o => (sayEntity o).map (fun f => .root (.entityObject f)) | none => [])
  | .wildcard n => [.root (.wildcardResource n)]
/-- Flags that say a policy. -/
def sayDefinition : PolicyDefinition → List DefinitionFlag
  | .unset => []
  | .yaml t => [.yaml t]
  | .policy p => [.policyId p.id, .policyName p.name, .policyDescription p.description] ++ p.resources.map .policyResource ++ p.attributes.map (fun x => .policyAttribute x.1 x.2)

theorem run_definition (l : List DefinitionFlag) : ∀ x : Vars,
    run (l.map .definition) x = { x with definition := l.foldl (fun (y : DefinitionVars) (f : DefinitionFlag) => f.set y) x.definition } := by
  induction l with
  | nil => exact fun _ => rfl
  | cons f l ih => exact fun x => ih _

theorem fold_resources (l : List Resource) : ∀ x : DefinitionVars, x.kind = some true →
    (l.map DefinitionFlag.policyResource).foldl (fun (y : DefinitionVars) (f : DefinitionFlag) => f.set y) x = { x with policy := { x.policy with resources := x.policy.resources ++ l } } := by
  induction l with
  | nil =>
    intro x _
    simp
  | cons r l ih =>
    intro x hx
    rw [List.map_cons, List.foldl_cons, ih _ rfl]
    simp [DefinitionFlag.set, hx]

theorem fold_attributes (l : List (String × String)) : ∀ x : DefinitionVars, x.kind = some true → ((x.policy.attributes ++ l).map (·.1)).Nodup →
    (l.map (fun x => DefinitionFlag.policyAttribute x.1 x.2)).foldl (fun (y : DefinitionVars) (f : DefinitionFlag) => f.set y) x =
      { x with policy := { x.policy with attributes := x.policy.attributes ++ l } } := by
  induction l with
  | nil =>
    intro x _ _
    simp
  | cons r l ih =>
    intro x hx hn
    have hnew : r.1 ∉ x.policy.attributes.map (·.1) := by
      rw [List.map_append, List.nodup_append] at hn
      exact fun c => hn.2.2 _ c r.1 (by simp) rfl
    have he : (DefinitionFlag.policyAttribute r.1 r.2).set x = { x with policy := { x.policy with attributes := x.policy.attributes ++ [r] } } := by
      simp [DefinitionFlag.set, hx, putAttribute_new hnew]
    rw [List.map_cons, List.foldl_cons, he]
    refine (ih { x with policy := { x.policy with attributes := x.policy.attributes ++ [r] } } hx ?_).trans ?_
    · show ((x.policy.attributes ++ [r] ++ l).map (·.1)).Nodup
      rw [List.append_assoc]
      exact hn
    · show ({ x with policy := { x.policy with attributes := x.policy.attributes ++ [r] ++ l } } : DefinitionVars) = _
      rw [List.append_assoc]
      rfl

theorem say_definition {d : PolicyDefinition} (h : ∀ p, d = .policy p → (p.attributes.map (·.1)).Nodup) :
    ((sayDefinition d).foldl (fun (y : DefinitionVars) (f : DefinitionFlag) => f.set y) {}).value = d := by
  cases d with
  | unset => rfl
  | yaml t => rfl
  | policy p =>
    unfold sayDefinition
    rw [List.foldl_append, List.foldl_append, fold_resources _ _ rfl, fold_attributes _ _ rfl (by simpa [DefinitionFlag.set] using h p rfl)]
    simp [DefinitionVars.value, DefinitionFlag.set]

/-- Flags that say a request. -/
def say : Request → List Flag
  | .createPolicy d a => (match d with | some d => (sayDefinition d).map .definition | none => []) ++ [.appData a]
  | .updatePolicy d a n => (match d with | some d => (sayDefinition d).map .definition | none => []) ++ [.appData a, .strategy n]
  | .deletePolicy i | .getPolicy i => [.policyId i]
  | .listPolicyIds => []
  | .setRelationship p r a => .policyId p :: .appData a :: (match r with | some r => sayRelationship r | none => [])
  | .deleteRelationship p r | .getRelationship p r => .policyId p :: (match r with | some r => sayRelationship r | none => [])
  | .findRelationshipRecords p s | .deleteRelationships p s => .policyId p :: (match s with | some s => saySelector s | none => [])
  | .check p q => .policyId p :: (match q with | some q => sayAccess q | none => [])
  | .explainCheck p q f => .policyId p :: .format f :: (match q with | some q => sayAccess q | none => [])
  | .expand p n f => .policyId p :: .format f :: (match n with | some n => sayNode n | none => [])
  | .dumpRelationships p f => [.policyId p, .dumpFormat f]

theorem say_relationship {r : Relationship} (h : WholeRelationship r) (x : Vars) (hx : x.subject = {}) :
    (run (sayRelationship r) x).relationship = r ∧ (run (sayRelationship r) x).policyId = x.policyId ∧ (run (sayRelationship r) x).appData = x.appData := by
  obtain ⟨o, rel, s⟩ := r
  obtain ⟨ho, s, rfl, hs⟩ := h
  obtain ⟨o, rfl⟩ := ne_none ho
  rcases s with _ | e | ⟨_ | e, r⟩ | n
  · exact ⟨by simp [sayRelationship, sayEntity, saySubject, run, Flag.set, EntityFlag.set, Vars.relationship, hx, SubjectVars.value], rfl, rfl⟩
  · exact ⟨rfl, rfl, rfl⟩
  · exact hs.elim
  · exact ⟨rfl, rfl, rfl⟩
  · exact ⟨rfl, rfl, rfl⟩

theorem say_relationship_ok (r : Relationship) {m : Method} (hm : m = .setRelationship ∨ m = .deleteRelationship ∨ m = .getRelationship) : (sayRelationship r).all (accepts m) = true := by
  obtain ⟨o, rel, s⟩ := r
  rcases hm with rfl | rfl | rfl <;> rcases o with _ | o <;> rcases s with _ | _ | e | ⟨_ | e, r⟩ | n <;> rfl

theorem say_selector {s : Selector} (h : SayableSelector s) (p : String) :
    (run (Flag.policyId p :: saySelector s) {}).selector = s ∧ (run (Flag.policyId p :: saySelector s) {}).policyId = p := by
  obtain ⟨o, rel, s⟩ := s
  obtain ⟨⟨o, rfl, ho⟩, ⟨rel, rfl, hr⟩, s, rfl, hs, hw⟩ := h
  cases o with
  | wildcard => exact absurd rfl ho
  | _ =>
    cases rel with
    | wildcard => exact absurd rfl hr
    | _ =>
      rcases s with _ | y | _ | n
      · exact ⟨rfl, rfl⟩
      · have hw := hw y rfl
        rcases y with _ | e | ⟨_ | e, r⟩ | n
        · exact ⟨rfl, rfl⟩
        · exact ⟨rfl, rfl⟩
        · exact hw.elim
        · exact ⟨rfl, rfl⟩
        · exact ⟨rfl, rfl⟩
      · first | exact absurd rfl hs | exact ⟨rfl, rfl⟩
      · first | exact absurd rfl hs | exact ⟨rfl, rfl⟩

theorem say_selector_ok (s : Selector) {m : Method} (hm : m = .findRelationshipRecords ∨ m = .deleteRelationships) : (saySelector s).all (accepts m) = true := by
  obtain ⟨o, rel, s⟩ := s
  have h1 : ∀ o : Option ObjectSelector, (match o with | some (.objectSpec e) => (sayEntity e).map (fun f => Flag.objectSelector (.objectSpecPart f)) | some (.resourceSpec n) => [.objectSelector (.resourceSpec n)] | _ => []).all (accepts m) = true := by
    intro o
    rcases hm with rfl | rfl <;> rcases o with _ | _ | _ | _ | _ <;> rfl
  have h2 : ∀ o : Option RelationSelector, (match o with | some (.relationName n) => [Flag.relationSelector n] | _ => []).all (accepts m) = true := by
    intro o
    rcases hm with rfl | rfl <;> rcases o with _ | _ | _ | _ <;> rfl
  have h3 : ∀ o : Option SubjectSelector, (match o with | some (.subjectSpec x) => Flag.subjectSelector .subjectSpec :: (saySubject x).map (fun f => .subjectSelector (.subjectSpecPart f)) | some (.resourceSpec n) => [.subjectSelector (.resourceSpec n)] | _ => []).all (accepts m) = true := by
    intro o
    rcases o with _ | o
    · rfl
    · cases o with
      | subjectSpec y => rcases hm with rfl | rfl <;> rcases y with _ | e | ⟨_ | e, r⟩ | n <;> rfl
      | _ => rcases hm with rfl | rfl <;> rfl
  unfold saySelector
  rw [List.all_append, List.all_append, h1, h2, h3]
  rfl

/-- Sayable requests are said. -/
theorem say_said {r : Request} (h : Sayable r) : sends r.method (say r) none = some r := by
  rw [sends_none]
  have hdef : ∀ (m : Method) (_ : ∀ f, accepts m (.definition f) = true) (d : PolicyDefinition), ((sayDefinition d).map Flag.definition).all (accepts m) = true := by
    intro m hm d
    rw [List.all_map, List.all_eq_true]
    exact fun f _ => hm f
  cases r with
  | createPolicy d a =>
    obtain ⟨d, rfl, hd⟩ := h
    have ha : (say (.createPolicy (some d) a)).all (accepts .createPolicy) = true := by
      show ((sayDefinition d).map Flag.definition ++ [Flag.appData a]).all (accepts .createPolicy) = true
      rw [List.all_append, hdef .createPolicy (fun _ => rfl)]
      rfl
    rw [show (Request.createPolicy (some d) a).method = .createPolicy from rfl, if_pos ha]
    show some ((run ((sayDefinition d).map Flag.definition ++ [Flag.appData a]) {}).request .createPolicy) = _
    unfold run
    rw [List.foldl_append]
    have := run_definition (sayDefinition d) {}
    unfold run at this
    rw [this]
    exact congrArg (fun y => some (Request.createPolicy (some y) a)) (say_definition hd)
  | updatePolicy d a n =>
    obtain ⟨d, rfl, hd⟩ := h
    have ha : (say (.updatePolicy (some d) a n)).all (accepts .updatePolicy) = true := by
      show ((sayDefinition d).map Flag.definition ++ [Flag.appData a, Flag.strategy n]).all (accepts .updatePolicy) = true
      rw [List.all_append, hdef .updatePolicy (fun _ => rfl)]
      rfl
    rw [show (Request.updatePolicy (some d) a n).method = .updatePolicy from rfl, if_pos ha]
    show some ((run ((sayDefinition d).map Flag.definition ++ [Flag.appData a, Flag.strategy n]) {}).request .updatePolicy) = _
    unfold run
    rw [List.foldl_append]
    have := run_definition (sayDefinition d) {}
    unfold run at this
    rw [this]
    exact congrArg (fun y => some (Request.updatePolicy (some y) a n)) (say_definition hd)
  | deletePolicy i => rfl
  | getPolicy i => rfl
  | listPolicyIds => rfl
  | setRelationship p r a =>
    obtain ⟨r, rfl, hr⟩ := h
    have ha : (say (.setRelationship p (some r) a)).all (accepts .setRelationship) = true := say_relationship_ok r (.inl rfl)
    rw [show (Request.setRelationship p (some r) a).method = .setRelationship from rfl, if_pos ha]
    obtain ⟨h1, h2, h3⟩ := say_relationship hr { policyId := p, appData := a } rfl
    show some (Request.setRelationship (run (sayRelationship r) { policyId := p, appData := a }).policyId (some (run (sayRelationship r) { policyId := p, appData := a }).relationship) (run (sayRelationship r) { policyId := p, appData := a }).appData) = _
    rw [h1, h2, h3]
  | deleteRelationship p r =>
    obtain ⟨r, rfl, hr⟩ := h
    have ha : (say (.deleteRelationship p (some r))).all (accepts .deleteRelationship) = true := say_relationship_ok r (.inr (.inl rfl))
    rw [show (Request.deleteRelationship p (some r)).method = .deleteRelationship from rfl, if_pos ha]
    obtain ⟨h1, h2, h3⟩ := say_relationship hr { policyId := p } rfl
    show some (Request.deleteRelationship (run (sayRelationship r) { policyId := p }).policyId (some (run (sayRelationship r) { policyId := p }).relationship)) = _
    rw [h1, h2]
  | getRelationship p r =>
    obtain ⟨r, rfl, hr⟩ := h
    have ha : (say (.getRelationship p (some r))).all (accepts .getRelationship) = true := say_relationship_ok r (.inr (.inr rfl))
    rw [show (Request.getRelationship p (some r)).method = .getRelationship from rfl, if_pos ha]
    obtain ⟨h1, h2, h3⟩ := say_relationship hr { policyId := p } rfl
    show some (Request.getRelationship (run (sayRelationship r) { policyId := p }).policyId (some (run (sayRelationship r) { policyId := p }).relationship)) = _
    rw [h1, h2]
  | findRelationshipRecords p s =>
    obtain ⟨s, rfl, hs⟩ := h
    have ha : (say (.findRelationshipRecords p (some s))).all (accepts .findRelationshipRecords) = true := say_selector_ok s (.inl rfl)
    rw [show (Request.findRelationshipRecords p (some s)).method = .findRelationshipRecords from rfl, if_pos ha]
    obtain ⟨h1, h2⟩ := say_selector hs p
    show some (Request.findRelationshipRecords (run (Flag.policyId p :: saySelector s) {}).policyId (some (run (Flag.policyId p :: saySelector s) {}).selector)) = _
    rw [h1, h2]
  | deleteRelationships p s =>
    obtain ⟨s, rfl, hs⟩ := h
    have ha : (say (.deleteRelationships p (some s))).all (accepts .deleteRelationships) = true := say_selector_ok s (.inr rfl)
    rw [show (Request.deleteRelationships p (some s)).method = .deleteRelationships from rfl, if_pos ha]
    obtain ⟨h1, h2⟩ := say_selector hs p
    show some (Request.deleteRelationships (run (Flag.policyId p :: saySelector s) {}).policyId (some (run (Flag.policyId p :: saySelector s) {}).selector)) = _
    rw [h1, h2]
  | check p q =>
    obtain ⟨⟨o, rel, s⟩, rfl, ho, hs⟩ := h
    obtain ⟨o, rfl⟩ := ne_none ho
    obtain ⟨s, rfl⟩ := ne_none hs
    rfl
  | explainCheck p q f =>
    obtain ⟨⟨o, rel, s⟩, rfl, ho, hs⟩ := h
    obtain ⟨o, rfl⟩ := ne_none ho
    obtain ⟨s, rfl⟩ := ne_none hs
    rfl
  | expand p n f =>
    obtain ⟨n, rfl, h1, h2⟩ := h
    rcases n with _ | ⟨_ | o, r⟩ | ⟨_ | o⟩ | n
    · rfl
    · exact absurd rfl (h1 r)
    · rfl
    · exact absurd rfl h2
    · rfl
    · rfl
  | dumpRelationships p f => rfl

/-! ### Order -/

theorem entity_comm {f g : EntityFlag} (h : entityWords f ≠ entityWords g) (x : Entity) : g.set (f.set x) = f.set (g.set x) := by
  cases f <;> cases g <;> first | rfl | exact absurd rfl h

/-- Alternatives are told by the first word. -/
theorem subject_comm {f g : SubjectFlag} (h : subjectWords f ≠ subjectWords g) (hr : ∀ a b l l', subjectWords f = a :: l → subjectWords g = b :: l' → a = b) (x : SubjectVars) :
    g.set (f.set x) = f.set (g.set x) := by
  cases f <;> cases g
  case entityPart.entityPart a b => exact congrArg (fun e => { x with kind := some .entity, entity := e }) (entity_comm (fun c => h (congrArg (fun l => "Entity" :: l) c)) _)
  case entitySetEntity.entitySetEntity a b => exact congrArg (fun e => { x with kind := some .entitySet, setEntity := e }) (entity_comm (fun c => h (congrArg (fun l => "EntitySet" :: "Entity" :: l) c)) _)
  all_goals first
    | rfl
    | exact absurd rfl h
    | exact absurd (hr _ _ _ _ rfl rfl) (by decide)

theorem rivals_of (c : Choice) {f g : Flag} {a b : String} {l l' : List String} (hf : flagName f = c.words ++ a :: l) (hg : flagName g = c.words ++ b :: l') (hab : a ≠ b) : Rivals f g :=
  ⟨c, a, b, hab, ⟨l, by rw [hf]; simp⟩, ⟨l', by rw [hg]; simp⟩⟩

/-- Flags with different names that are not rivals can be given in either order. -/
theorem flag_comm {f g : Flag} (h : flagName f ≠ flagName g) (hr : ¬ Rivals f g) (x : Vars) : g.set (f.set x) = f.set (g.set x) := by
  cases f with
  | object f =>
    cases g with
    | object g => exact congrArg (fun e => { x with object := e }) (entity_comm (fun c => h (congrArg (fun l => "Object" :: l) c)) _)
    | _ => rfl
  | accessSubject f =>
    cases g with
    | accessSubject g => exact congrArg (fun e => { x with accessSubject := e }) (entity_comm (fun c => h (congrArg (fun l => "AccessRequest" :: "Subject" :: l) c)) _)
    | _ => rfl
  | subject f =>
    cases g with
    | subject g =>
      refine congrArg (fun e => { x with subject := e }) (subject_comm (fun c => h (congrArg (fun l => "Subject" :: l) c)) ?_ _)
      intro a b l l' ha hb
      refine Classical.byContradiction fun hab => ?_
      exact hr (rivals_of .subject (congrArg (fun l => "Subject" :: l) ha) (congrArg (fun l => "Subject" :: l) hb) hab)
    | _ => rfl
  | objectSelector f =>
    cases g with
    | objectSelector g =>
      cases f <;> cases g <;> first
        | rfl
        | exact absurd rfl h
        | exact absurd (rivals_of .objectSelector rfl rfl (by decide)) hr
        | exact congrArg (fun e => { x with objectSelector := { x.objectSelector with kind := some true, object := e } }) (entity_comm (fun c => h (congrArg (fun l => "ObjectSelector" :: "ObjectSpec" :: l) c)) _)
    | _ => rfl
  | subjectSelector f =>
    cases g with
    | subjectSelector g =>
      cases f <;> cases g
      case subjectSpecPart.subjectSpecPart f g =>
        refine congrArg (fun e => { x with subjectSelector := { x.subjectSelector with kind := some true, subject := e } }) (subject_comm (fun c => h (congrArg (fun l => "SubjectSelector" :: "SubjectSpec" :: l) c)) ?_ _)
        intro a b l l' ha hb
        refine Classical.byContradiction fun hab => ?_
        exact hr (rivals_of .subjectSpec (congrArg (fun l => "SubjectSelector" :: "SubjectSpec" :: l) ha) (congrArg (fun l => "SubjectSelector" :: "SubjectSpec" :: l) hb) hab)
      all_goals first
        | rfl
        | exact absurd rfl h
        | exact absurd (rivals_of .subjectSelector rfl rfl (by decide)) hr
    | _ => rfl
  | root f =>
    cases g with
    | root g =>
      cases f <;> cases g <;> first
        | rfl
        | exact absurd rfl h
        | exact absurd (rivals_of .root rfl rfl (by decide)) hr
        | exact congrArg (fun e => { x with root := { x.root with kind := some .entitySet, setObject := e } }) (entity_comm (fun c => h (congrArg (fun l => "Root" :: "EntitySet" :: "Object" :: l) c)) _)
        | exact congrArg (fun e => { x with root := { x.root with kind := some .entity, object := e } }) (entity_comm (fun c => h (congrArg (fun l => "Root" :: "Entity" :: "Object" :: l) c)) _)
    | _ => rfl
  | definition f =>
    cases g with
    | definition g =>
      cases f <;> cases g <;> first
        | rfl
        | exact absurd rfl h
        | exact absurd (rivals_of .definition rfl rfl (by decide)) hr
    | _ => rfl
  | _ => cases g <;> first | rfl | exact absurd rfl h

theorem rivals_symm {f g : Flag} (h : Rivals f g) : Rivals g f :=
  let ⟨c, a, b, hab, h1, h2⟩ := h
  ⟨c, b, a, hab.symm, h2, h1⟩

/-- Flags without rivals and repetitions, in any order. -/
theorem run_perm {l l' : List Flag} (hp : l.Perm l') (h : l.Pairwise fun f g => flagName f ≠ flagName g ∧ ¬ Rivals f g) (x : Vars) : run l x = run l' x := by
  refine hp.foldl_eq' ?_ x
  have : ∀ a ∈ l, ∀ b ∈ l, a = b ∨ (flagName a ≠ flagName b ∧ ¬ Rivals a b) := by
    intro a ha b hb
    refine List.Pairwise.forall_of_forall_of_flip (R := fun f g => f = g ∨ (flagName f ≠ flagName g ∧ ¬ Rivals f g)) (l := l) ?_ ?_ ?_ ha hb
    · exact fun _ _ => .inl rfl
    · exact h.imp .inr
    · exact h.imp fun ⟨h1, h2⟩ => .inr ⟨h1.symm, fun c => h2 (rivals_symm c)⟩
  intro a ha b hb z
  rcases this a ha b hb with rfl | ⟨h1, h2⟩
  · rfl
  · exact flag_comm h1 h2 z

/-! ### Repetitions -/

/-- The first word of a flag's name. -/
def firstWord : Flag → String
  | .policyId _ => "PolicyId" | .object _ => "Object" | .relation _ => "Relation" | .subject _ => "Subject" | .accessSubject _ => "AccessRequest" | .objectSelector _ => "ObjectSelector"
  | .relationSelector _ => "RelationSelector" | .subjectSelector _ => "SubjectSelector" | .root _ => "Root" | .definition _ => "PolicyDefinition" | .appData _ => "AppData" | .strategy _ => "Strategy"
  | .format _ => "Format" | .dumpFormat _ => "DumpFormat"

theorem name_first (f : Flag) : (flagName f).head? = some (firstWord f) := by
  cases f with
  | objectSelector f => cases f <;> rfl
  | subjectSelector f => cases f <;> rfl
  | root f => cases f <;> rfl
  | definition f => cases f <;> rfl
  | _ => rfl

theorem first_of_name {f g : Flag} (h : flagName f = flagName g) : firstWord f = firstWord g :=
  Option.some.inj ((name_first f).symm.trans ((congrArg List.head? h).trans (name_first g)))

theorem entity_again {f g : EntityFlag} (h : entityWords f = entityWords g) (x : Entity) : g.set (f.set x) = g.set x := by
  cases f <;> cases g <;> first | rfl | exact absurd h (by simp [entityWords])

theorem entityWords_ne (f : EntityFlag) : entityWords f ≠ [] := by cases f <;> nofun

theorem entityWords_object (f : EntityFlag) (l : List String) : entityWords f ≠ "Object" :: l ∧ entityWords f ≠ "Relation" :: l ∧ entityWords f ≠ "Entity" :: l := by
  cases f <;> simp [entityWords]

theorem subject_again {f g : SubjectFlag} (h : subjectWords f = subjectWords g) (x : SubjectVars) : g.set (f.set x) = g.set x := by
  cases f with
  | entityPart a =>
    cases g with
    | entityPart b => exact congrArg (fun e => { x with kind := some .entity, entity := e }) (entity_again (List.cons.inj h).2 _)
    | _ => cases a <;> simp [subjectWords, entityWords] at h
  | entitySetEntity a =>
    cases g with
    | entitySetEntity b => exact congrArg (fun e => { x with kind := some .entitySet, setEntity := e }) (entity_again (List.cons.inj (List.cons.inj h).2).2 _)
    | _ => cases a <;> simp [subjectWords, entityWords] at h
  | _ =>
    cases g with
    | entityPart b => cases b <;> simp [subjectWords, entityWords] at h
    | entitySetEntity b => cases b <;> simp [subjectWords, entityWords] at h
    | _ => first | rfl | (simp [subjectWords] at h; done)

theorem subjectWords_ne (f : SubjectFlag) : subjectWords f ≠ [] := by cases f <;> nofun

/-- A flag given again replaces what it said. -/
theorem flag_again {f g : Flag} (h : flagName f = flagName g) (hr : ¬ Repeatable f) (x : Vars) : g.set (f.set x) = g.set x := by
  have hh := first_of_name h
  cases f with
  | object a =>
    cases g with
    | object b => exact congrArg (fun e => { x with object := e }) (entity_again (List.cons.inj h).2 _)
    | _ => simp [firstWord] at hh
  | accessSubject a =>
    cases g with
    | accessSubject b => exact congrArg (fun e => { x with accessSubject := e }) (entity_again (List.cons.inj (List.cons.inj h).2).2 _)
    | _ => simp [firstWord] at hh
  | subject a =>
    cases g with
    | subject b => exact congrArg (fun e => { x with subject := e }) (subject_again (List.cons.inj h).2 _)
    | _ => simp [firstWord] at hh
  | objectSelector a =>
    cases g with
    | objectSelector b =>
      cases a <;> cases b
      case objectSpecPart.objectSpecPart a b =>
        exact congrArg (fun e => { x with objectSelector := { x.objectSelector with kind := some true, object := e } }) (entity_again (List.cons.inj (List.cons.inj h).2).2 _)
      all_goals first | rfl | (simp [flagName, entityWords_ne, (entityWords_ne _).symm] at h; done)
    | _ => simp [firstWord] at hh
  | subjectSelector a =>
    cases g with
    | subjectSelector b =>
      cases a <;> cases b
      case subjectSpecPart.subjectSpecPart a b =>
        exact congrArg (fun e => { x with subjectSelector := { x.subjectSelector with kind := some true, subject := e } }) (subject_again (List.cons.inj (List.cons.inj h).2).2 _)
      all_goals first | rfl | (simp [flagName, subjectWords_ne, (subjectWords_ne _).symm] at h; done)
    | _ => simp [firstWord] at hh
  | root a =>
    cases g with
    | root b =>
      cases a <;> cases b
      case entitySetObject.entitySetObject a b =>
        exact congrArg (fun e => { x with root := { x.root with kind := some .entitySet, setObject := e } }) (entity_again (List.cons.inj (List.cons.inj (List.cons.inj h).2).2).2 _)
      case entityObject.entityObject a b =>
        exact congrArg (fun e => { x with root := { x.root with kind := some .entity, object := e } }) (entity_again (List.cons.inj (List.cons.inj (List.cons.inj h).2).2).2 _)
      all_goals first | rfl | (simp [flagName] at h; done)
    | _ => simp [firstWord] at hh
  | definition a =>
    cases g with
    | definition b =>
      cases a <;> cases b <;> first
        | rfl
        | exact absurd (.inl ⟨_, rfl⟩) hr
        | exact absurd (.inr ⟨_, _, rfl⟩) hr
        | (simp [flagName] at h; done)
    | _ => simp [firstWord] at hh
  | _ => cases g <;> first | rfl | (simp [firstWord] at hh; done)

/-- Two entities that one flag makes equal stay so. -/
theorem entity_last {g : EntityFlag} {x y : Entity} (h : g.set x = g.set y) (f : EntityFlag) : g.set (f.set x) = g.set (f.set y) := by
  obtain ⟨a, b⟩ := x
  obtain ⟨c, d⟩ := y
  cases g <;> cases f <;> simp_all [EntityFlag.set]

theorem subject_last {g : SubjectFlag} {x y : SubjectVars} (h : g.set x = g.set y) (f : SubjectFlag) : g.set (f.set x) = g.set (f.set y) := by
  obtain ⟨a1, ⟨a2, a3⟩, ⟨a4, a5⟩, a6, a7⟩ := x
  obtain ⟨b1, ⟨b2, b3⟩, ⟨b4, b5⟩, b6, b7⟩ := y
  rcases g with _ | ⟨_ | _⟩ | _ | ⟨_ | _⟩ | _ | _ | _ <;> rcases f with _ | ⟨_ | _⟩ | _ | ⟨_ | _⟩ | _ | _ | _ <;> simp_all [SubjectFlag.set, EntityFlag.set]

theorem objectSelector_last {g : ObjectSelectorFlag} {x y : ObjectSelectorVars} (h : g.set x = g.set y) (f : ObjectSelectorFlag) : g.set (f.set x) = g.set (f.set y) := by
  obtain ⟨a1, ⟨a2, a3⟩, a4⟩ := x
  obtain ⟨b1, ⟨b2, b3⟩, b4⟩ := y
  rcases g with _ | ⟨_ | _⟩ | _ <;> rcases f with _ | ⟨_ | _⟩ | _ <;> simp_all [ObjectSelectorFlag.set, EntityFlag.set]

theorem subjectSelector_last {g : SubjectSelectorFlag} {x y : SubjectSelectorVars} (h : g.set x = g.set y) (f : SubjectSelectorFlag) : g.set (f.set x) = g.set (f.set y) := by
  obtain ⟨a1, a2, a3⟩ := x
  obtain ⟨b1, b2, b3⟩ := y
  cases g <;> cases f
  case subjectSpecPart.subjectSpecPart g f =>
    simp only [SubjectSelectorFlag.set, SubjectSelectorVars.mk.injEq, true_and] at h ⊢
    exact ⟨subject_last h.1 f, h.2⟩
  case subjectSpecPart.subjectSpec g => simpa [SubjectSelectorFlag.set] using h
  all_goals simp_all [SubjectSelectorFlag.set]

theorem root_last {g : NodeFlag} {x y : NodeVars} (h : g.set x = g.set y) (f : NodeFlag) : g.set (f.set x) = g.set (f.set y) := by
  obtain ⟨a1, ⟨a2, a3⟩, a4, ⟨a5, a6⟩, a7⟩ := x
  obtain ⟨b1, ⟨b2, b3⟩, b4, ⟨b5, b6⟩, b7⟩ := y
  rcases g with _ | ⟨_ | _⟩ | _ | _ | ⟨_ | _⟩ | _ | _ <;> rcases f with _ | ⟨_ | _⟩ | _ | _ | ⟨_ | _⟩ | _ | _ <;> simp_all [NodeFlag.set, EntityFlag.set]

theorem definition_last {g : DefinitionFlag} (hr : ¬ Repeatable (.definition g)) {x y : DefinitionVars} (h : g.set x = g.set y) (f : DefinitionFlag) : g.set (f.set x) = g.set (f.set y) := by
  obtain ⟨a1, ⟨a2, a3, a4, a5, a6⟩, a7⟩ := x
  obtain ⟨b1, ⟨b2, b3, b4, b5, b6⟩, b7⟩ := y
  cases g with
  | policyResource v => exact absurd (.inl ⟨v, rfl⟩) hr
  | policyAttribute k v => exact absurd (.inr ⟨k, v, rfl⟩) hr
  | _ => cases f <;> simp_all [DefinitionFlag.set]

theorem through {f g : Flag} (hc : ∀ x, g.set (f.set x) = f.set (g.set x)) {x y : Vars} (h : g.set x = g.set y) : g.set (f.set x) = g.set (f.set y) := by
  rw [hc, hc, h]

/-- States that a flag makes equal stay so. -/
theorem flag_last {g : Flag} (hr : ¬ Repeatable g) {x y : Vars} (h : g.set x = g.set y) (f : Flag) : g.set (f.set x) = g.set (f.set y) := by
  cases g with
  | object g =>
    cases f with
    | object f => exact (congrArg (fun z => { z with object := g.set (f.set x.object) }) h).trans (congrArg (fun e => { y with object := e }) (entity_last (congrArg Vars.object h) f))
    | _ => refine through ?_ h; intro z; rfl
  | accessSubject g =>
    cases f with
    | accessSubject f => exact (congrArg (fun z => { z with accessSubject := g.set (f.set x.accessSubject) }) h).trans (congrArg (fun e => { y with accessSubject := e }) (entity_last (congrArg Vars.accessSubject h) f))
    | _ => refine through ?_ h; intro z; rfl
  | subject g =>
    cases f with
    | subject f => exact (congrArg (fun z => { z with subject := g.set (f.set x.subject) }) h).trans (congrArg (fun e => { y with subject := e }) (subject_last (congrArg Vars.subject h) f))
    | _ => refine through ?_ h; intro z; rfl
  | objectSelector g =>
    cases f with
    | objectSelector f => exact (congrArg (fun z => { z with objectSelector := g.set (f.set x.objectSelector) }) h).trans (congrArg (fun e => { y with objectSelector := e }) (objectSelector_last (congrArg Vars.objectSelector h) f))
    | _ => refine through ?_ h; intro z; rfl
  | subjectSelector g =>
    cases f with
    | subjectSelector f => exact (congrArg (fun z => { z with subjectSelector := g.set (f.set x.subjectSelector) }) h).trans (congrArg (fun e => { y with subjectSelector := e }) (subjectSelector_last (congrArg Vars.subjectSelector h) f))
    | _ => refine through ?_ h; intro z; rfl
  | root g =>
    cases f with
    | root f => exact (congrArg (fun z => { z with root := g.set (f.set x.root) }) h).trans (congrArg (fun e => { y with root := e }) (root_last (congrArg Vars.root h) f))
    | _ => refine through ?_ h; intro z; rfl
  | definition g =>
    cases f with
    | definition f => exact (congrArg (fun z => { z with definition := g.set (f.set x.definition) }) h).trans (congrArg (fun e => { y with definition := e }) (definition_last hr (congrArg Vars.definition h) f))
    | _ => refine through ?_ h; intro z; rfl
  | _ => cases f <;> first | exact h | (refine through ?_ h; intro z; rfl)

theorem run_last {g : Flag} (hr : ¬ Repeatable g) (l : List Flag) : ∀ {x y : Vars}, g.set x = g.set y → g.set (run l x) = g.set (run l y) := by
  induction l with
  | nil => exact fun h => h
  | cons f l ih => exact fun h => ih (flag_last hr h f)

theorem accepts_of_name {f g : Flag} (h : flagName f = flagName g) (m : Method) : accepts m f = accepts m g := by
  have hh := first_of_name h
  cases f <;> cases g <;> first | (simp [firstWord] at hh; done) | (cases m <;> rfl)

theorem repeatable_of_name {f g : Flag} (h : flagName f = flagName g) (hr : ¬ Repeatable f) : ¬ Repeatable g := by
  rintro (⟨v, rfl⟩ | ⟨k, v, rfl⟩)
  · have hh := first_of_name h
    cases f <;> first | (simp [firstWord] at hh; done) | skip
    next f => cases f <;> first | exact hr (.inl ⟨_, rfl⟩) | (simp [flagName] at h; done)
  · have hh := first_of_name h
    cases f <;> first | (simp [firstWord] at hh; done) | skip
    next f => cases f <;> first | exact hr (.inr ⟨_, _, rfl⟩) | (simp [flagName] at h; done)

/-! ### Part by part -/

/-- What the flags say, if they say anything, else what the input says. -/
def Picks (sent said input : Option String) : Prop := (∀ v, sent = some v → v = if said.getD "" = "" then input.getD "" else said.getD "") ∧ (said.isSome → sent.isSome)

theorem picks_same (a : Option String) : Picks a none a := ⟨fun v h => by simp [h], nofun⟩
theorem picks_new (a b : Option String) (h : b = none) : Picks a a b := ⟨fun v hv => by subst h; simp [hv], fun h => h⟩
theorem picks_str (a b : String) : Picks (some (mergeStr a b)) (some b) (some a) := ⟨fun v hv => (Option.some.inj hv).symm, fun _ => rfl⟩
theorem picks_none (b : Option String) : Picks none none b := ⟨nofun, nofun⟩

theorem part_merge (p : Part) (a b : Entity) : p.of (mergeEntity a b) = mergeStr (p.of a) (p.of b) := by cases p <;> rfl

theorem picks_entity (p : Part) (d s : Option Entity) : Picks ((mergeMsg mergeEntity d s).map p.of) (s.map p.of) (d.map p.of) := by
  cases s with
  | none => cases d <;> exact picks_same _
  | some s =>
    cases d with
    | none => exact picks_new _ _ rfl
    | some d =>
      show Picks (some (p.of (mergeEntity d s))) _ _
      rw [part_merge]
      exact picks_str _ _

theorem picks_subject (p : SubjectPart) (d s : Subject) : Picks (p.of (mergeSubject d s)) (p.of s) (p.of d) := by
  have he : ∀ (q : Part) (a b : Entity), Picks (some (q.of (mergeEntity a b))) (some (q.of b)) (some (q.of a)) := fun q a b => part_merge q a b ▸ picks_str _ _
  rcases s with _ | e | ⟨_ | e, r⟩ | n <;> rcases d with _ | e' | ⟨_ | e', r'⟩ | n' <;> cases p <;>
    first | exact picks_same _ | exact picks_new _ _ rfl | exact picks_none _ | exact picks_str _ _ | exact he _ _ _

theorem picks_subject_msg (p : SubjectPart) (d s : Option Subject) : Picks ((mergeMsg mergeSubject d s).bind p.of) (s.bind p.of) (d.bind p.of) := by
  cases s with
  | none => cases d <;> exact picks_same _
  | some s =>
    cases d with
    | none => exact picks_new _ _ rfl
    | some d => exact picks_subject p d s

theorem picks_msg {α : Type} {f : α → α → α} {t : α → Option String} (h : ∀ d s, Picks (t (f d s)) (t s) (t d)) (d s : Option α) : Picks ((mergeMsg f d s).bind t) (s.bind t) (d.bind t) := by
  cases s with
  | none => cases d <;> exact picks_same _
  | some s =>
    cases d with
    | none => exact picks_new _ _ rfl
    | some d => exact h d s

theorem picks_relationship (f : Field) (d s : Relationship) : Picks (relationshipText (mergeRelationship d s) f) (relationshipText s f) (relationshipText d f) := by
  cases f with
  | object p => exact picks_entity p _ _
  | relation => exact picks_str _ _
  | subject p => exact picks_subject_msg p _ _
  | _ => exact picks_none _

theorem picks_access (f : Field) (d s : AccessRequest) : Picks (accessText (mergeAccess d s) f) (accessText s f) (accessText d f) := by
  cases f with
  | object p => exact picks_entity p _ _
  | relation => exact picks_str _ _
  | accessSubject p => exact picks_entity p _ _
  | _ => exact picks_none _

theorem picks_selector (f : Field) (d s : Selector) : Picks (selectorText (mergeSelector d s) f) (selectorText s f) (selectorText d f) := by
  obtain ⟨do', dr, ds⟩ := d
  obtain ⟨so, sr, ss⟩ := s
  have he : ∀ (q : Part) (a b : Entity), Picks (some (q.of (mergeEntity a b))) (some (q.of b)) (some (q.of a)) := fun q a b => part_merge q a b ▸ picks_str _ _
  cases f with
  | objectSpec p =>
    rcases do' with _ | _ | _ | _ | _ <;> rcases so with _ | _ | _ | _ | _ <;> first | exact picks_none _ | exact picks_same _ | exact picks_new _ _ rfl | exact he _ _ _
  | subjectSpec p =>
    rcases ds with _ | _ | _ | _ | _ <;> rcases ss with _ | _ | _ | _ | _ <;> first | exact picks_none _ | exact picks_same _ | exact picks_new _ _ rfl | exact picks_subject p _ _
  | _ => exact picks_none _

theorem picks_node (f : Field) (d s : RelationNode) : Picks (nodeText (mergeNode d s) f) (nodeText s f) (nodeText d f) := by
  cases f <;> cases d <;> cases s <;> first | exact picks_none _ | exact picks_same _ | exact picks_new _ _ rfl | exact picks_str _ _ | exact picks_entity _ _ _

theorem picks_definition (f : Field) (d s : PolicyDefinition) : Picks (definitionText (mergeDefinition d s) f) (definitionText s f) (definitionText d f) := by
  cases f <;> cases d <;> cases s <;> first | exact picks_none _ | exact picks_same _ | exact picks_new _ _ rfl | exact picks_str _ _

/-- Texts of merged requests. -/
theorem picks_request (f : Field) {d s : Request} (hm : d.method = s.method) : Picks (textOf f (mergeRequest d s)) (textOf f s) (textOf f d) := by
  cases d <;> cases s <;> first | (cases hm; done) | skip
  case createPolicy.createPolicy => exact picks_msg (picks_definition f) _ _
  case updatePolicy.updatePolicy => exact picks_msg (picks_definition f) _ _
  case listPolicyIds.listPolicyIds => exact picks_none _
  case setRelationship.setRelationship => cases f <;> first | exact picks_str _ _ | exact picks_msg (picks_relationship _) _ _
  case deleteRelationship.deleteRelationship => cases f <;> first | exact picks_str _ _ | exact picks_msg (picks_relationship _) _ _
  case getRelationship.getRelationship => cases f <;> first | exact picks_str _ _ | exact picks_msg (picks_relationship _) _ _
  case findRelationshipRecords.findRelationshipRecords => cases f <;> first | exact picks_str _ _ | exact picks_msg (picks_selector _) _ _
  case deleteRelationships.deleteRelationships => cases f <;> first | exact picks_str _ _ | exact picks_msg (picks_selector _) _ _
  case check.check => cases f <;> first | exact picks_str _ _ | exact picks_msg (picks_access _) _ _
  case explainCheck.explainCheck => cases f <;> first | exact picks_str _ _ | exact picks_msg (picks_access _) _ _
  case expand.expand => cases f <;> first | exact picks_str _ _ | exact picks_msg (picks_node _) _ _
  all_goals cases f <;> first | exact picks_none _ | exact picks_str _ _

theorem subjectAlternative_merge (a b : Subject) : subjectAlternative (mergeSubject a b) = (subjectAlternative b).or (subjectAlternative a) := by
  cases a <;> cases b <;> rfl

theorem subjectAlternative_msg (a b : Option Subject) :
    (mergeMsg mergeSubject a b).bind subjectAlternative = (b.bind subjectAlternative).or (a.bind subjectAlternative) := by
  cases b with
  | none => cases a <;> rfl
  | some b =>
    cases a with
    | none => exact (Option.or_none).symm
    | some a => exact subjectAlternative_merge a b

theorem msg_or {α β : Type} {f : α → α → α} {t : α → Option β} (h : ∀ d s, t (f d s) = (t s).or (t d)) (d s : Option α) : (mergeMsg f d s).bind t = (s.bind t).or (d.bind t) := by
  cases s with
  | none => cases d <;> rfl
  | some s =>
    cases d with
    | none => exact (Option.or_none).symm
    | some d => exact h d s

/-- The alternative of the flags, if they choose one, else that of the input. -/
theorem merge_alternative (c : Choice) (hc : c ≠ .subjectSpec) {d s : Request} (hm : d.method = s.method) :
    alternative c (mergeRequest d s) = (alternative c s).or (alternative c d) := by
  cases c with
  | subject =>
    cases d <;> cases s <;> first
      | (cases hm; done)
      | rfl
      | exact msg_or (t := fun (r : Relationship) => r.subject.bind subjectAlternative) (fun d s => subjectAlternative_msg d.subject s.subject) _ _
  | objectSelector =>
    cases d <;> cases s <;> first
      | (cases hm; done)
      | rfl
      | exact msg_or (f := mergeSelector) (fun d s => msg_or (f := mergeObjectSelector) (fun a b => by cases a <;> cases b <;> rfl) d.object s.object) _ _
  | subjectSelector =>
    cases d <;> cases s <;> first
      | (cases hm; done)
      | rfl
      | exact msg_or (f := mergeSelector) (fun d s => msg_or (f := mergeSubjectSelector) (fun a b => by cases a <;> cases b <;> rfl) d.subject s.subject) _ _
  | subjectSpec => exact absurd rfl hc
  | root =>
    cases d <;> cases s <;> first
      | (cases hm; done)
      | rfl
      | exact msg_or (f := mergeNode) (fun a b => by cases a <;> cases b <;> rfl) _ _
  | definition =>
    cases d <;> cases s <;> first
      | (cases hm; done)
      | rfl
      | exact msg_or (f := mergeDefinition) (fun a b => by cases a <;> cases b <;> rfl) _ _

theorem merge_subjectSpec {d s : Request} (hm : d.method = s.method) (h : alternative .subjectSelector (mergeRequest d s) = some "SubjectSpec") :
    alternative .subjectSpec (mergeRequest d s) = (alternative .subjectSpec s).or (alternative .subjectSpec d) := by
  have key : ∀ d s : Option Selector, alternative .subjectSelector (.findRelationshipRecords "" (mergeMsg mergeSelector d s)) = some "SubjectSpec" →
      alternative .subjectSpec (.findRelationshipRecords "" (mergeMsg mergeSelector d s)) = (alternative .subjectSpec (.findRelationshipRecords "" s)).or (alternative .subjectSpec (.findRelationshipRecords "" d)) := by
    intro d s h
    rcases s with _ | ⟨so, sr, ss⟩
    · cases d <;> rfl
    · rcases d with _ | ⟨do', dr, ds⟩
      · exact (Option.or_none).symm
      · rcases ss with _ | ss
        · rcases ds with _ | ds <;> rfl
        · rcases ds with _ | ds
          · exact (Option.or_none).symm
          · cases ss with
            | unset => rfl
            | wildcard => exact absurd (show some "Wildcard" = some "SubjectSpec" by cases ds <;> exact h) (by decide)
            | resourceSpec n => exact absurd (show some "ResourceSpec" = some "SubjectSpec" by cases ds <;> exact h) (by decide)
            | subjectSpec x =>
              cases ds with
              | subjectSpec y => exact subjectAlternative_merge y x
              | _ => exact (Option.or_none).symm
  cases d <;> cases s <;> first
    | (cases hm; done)
    | rfl
    | exact key _ _ h

/-! ### The last of a choice -/

/-- The alternative the variables choose. -/
def chosen (x : Vars) : Choice → Option String
  | .subject => subjectAlternative x.subject.value
  | .objectSelector => match x.objectSelector.kind with | none => none | some true => some "ObjectSpec" | some false => some "ResourceSpec"
  | .subjectSelector => match x.subjectSelector.kind with | none => none | some true => some "SubjectSpec" | some false => some "ResourceSpec"
  | .subjectSpec => subjectAlternative x.subjectSelector.subject.value
  | .root => match x.root.kind with | none => none | some .entitySet => some "EntitySet" | some .entity => some "Entity" | some .wildcard => some "Wildcard"
  | .definition => match x.definition.kind with | none => none | some true => some "Policy" | some false => some "PolicyYaml"

theorem wordAfter_first {c : Choice} {f : Flag} {w : String} (h : wordAfter c f = some w) : c.words.head? = some (firstWord f) := by
  unfold wordAfter at h
  split at h
  · next hp =>
    obtain ⟨l, hl⟩ := List.isPrefixOf_iff_prefix.mp hp
    rw [← name_first f, ← hl]
    cases c <;> rfl
  · cases h

theorem chosen_set (c : Choice) (f : Flag) (x : Vars) : chosen (f.set x) c = (wordAfter c f).or (chosen x c) := by
  by_cases hw : c.words.head? = some (firstWord f)
  · cases f with
    | subject f =>
      cases c <;> first | (simp [Choice.words, firstWord] at hw; done) | (cases f <;> simp [chosen, wordAfter, flagName, subjectWords, Choice.words, Flag.set, SubjectFlag.set, SubjectVars.value, subjectAlternative])
    | objectSelector f =>
      cases c <;> first | (simp [Choice.words, firstWord] at hw; done) | (cases f <;> simp [chosen, wordAfter, flagName, Choice.words, Flag.set, ObjectSelectorFlag.set])
    | subjectSelector f =>
      cases c with
      | subjectSelector => cases f <;> simp [chosen, wordAfter, flagName, Choice.words, Flag.set, SubjectSelectorFlag.set]
      | subjectSpec =>
        cases f with
        | subjectSpecPart f => cases f <;> simp [chosen, wordAfter, flagName, subjectWords, Choice.words, Flag.set, SubjectSelectorFlag.set, SubjectFlag.set, SubjectVars.value, subjectAlternative]
        | _ => simp [chosen, wordAfter, flagName, Choice.words, Flag.set, SubjectSelectorFlag.set]
      | _ => simp [Choice.words, firstWord] at hw
    | root f =>
      cases c <;> first | (simp [Choice.words, firstWord] at hw; done) | (cases f <;> simp [chosen, wordAfter, flagName, Choice.words, Flag.set, NodeFlag.set])
    | definition f =>
      cases c <;> first | (simp [Choice.words, firstWord] at hw; done) | (cases f <;> simp [chosen, wordAfter, flagName, Choice.words, Flag.set, DefinitionFlag.set])
    | _ => cases c <;> simp [Choice.words, firstWord] at hw
  · have : wordAfter c f = none := by
      cases hv : wordAfter c f with
      | none => rfl
      | some w => exact absurd (wordAfter_first hv) hw
    rw [this]
    show chosen (f.set x) c = chosen x c
    cases f <;> cases c <;> first | rfl | (simp [Choice.words, firstWord] at hw; done)

theorem chosen_run (c : Choice) (l : List Flag) : ∀ x : Vars, chosen (run l x) c = ((l.filterMap (wordAfter c)).getLast?).or (chosen x c) := by
  induction l with
  | nil => exact fun _ => rfl
  | cons f l ih =>
    intro x
    show chosen (run l (f.set x)) c = _
    rw [ih, chosen_set]
    cases hw : wordAfter c f with
    | none => rw [List.filterMap_cons_none hw]; rfl
    | some w =>
      rw [List.filterMap_cons_some hw]
      cases hl : l.filterMap (wordAfter c) with
      | nil => rfl
      | cons a b =>
        rw [List.getLast?_cons_cons]
        cases hg : (a :: b).getLast? with
        | none => simp at hg
        | some g => rfl

/-- A command with a flag of a choice. -/
def offers : Choice → Method → Bool
  | .subject, .setRelationship | .subject, .deleteRelationship | .subject, .getRelationship => true
  | .objectSelector, .findRelationshipRecords | .objectSelector, .deleteRelationships => true
  | .subjectSelector, .findRelationshipRecords | .subjectSelector, .deleteRelationships => true
  | .subjectSpec, .findRelationshipRecords | .subjectSpec, .deleteRelationships => true
  | .root, .expand => true
  | .definition, .createPolicy | .definition, .updatePolicy => true
  | _, _ => false

theorem offers_of {c : Choice} {m : Method} {f : Flag} (ha : accepts m f = true) (hf : c.words.head? = some (firstWord f)) : offers c m = true := by
  cases f <;> cases c <;> first | (simp [Choice.words, firstWord] at hf; done) | (cases m <;> first | rfl | cases ha)

theorem alternative_none {c : Choice} {r : Request} (h : offers c r.method = false) : alternative c r = none := by
  cases r <;> cases c <;> first | rfl | cases h

theorem request_method (x : Vars) (m : Method) : (x.request m).method = m := by cases m <;> rfl

theorem request_alternative (x : Vars) {c : Choice} {m : Method} (ho : offers c m = true) (hs : c = .subjectSpec → alternative .subjectSelector (x.request m) = some "SubjectSpec") :
    alternative c (x.request m) = chosen x c := by
  have h1 : ∀ y : ObjectSelectorVars, (match y.value with | .unset => none | .wildcard => some "Wildcard" | .objectSpec _ => some "ObjectSpec" | .resourceSpec _ => some "ResourceSpec") =
      (match y.kind with | none => none | some true => some "ObjectSpec" | some false => some "ResourceSpec") := by
    rintro ⟨_ | _ | _, _, _⟩ <;> rfl
  have h2 : ∀ y : SubjectSelectorVars, (match y.value with | .unset => none | .wildcard => some "Wildcard" | .subjectSpec _ => some "SubjectSpec" | .resourceSpec _ => some "ResourceSpec") =
      (match y.kind with | none => none | some true => some "SubjectSpec" | some false => some "ResourceSpec") := by
    rintro ⟨_ | _ | _, _, _⟩ <;> rfl
  have h3 : ∀ y : SubjectSelectorVars, (match y.kind with | none => none | some true => some "SubjectSpec" | some false => some "ResourceSpec") = some "SubjectSpec" →
      (match y.value with | .subjectSpec x => subjectAlternative x | _ => none) = subjectAlternative y.subject.value := by
    rintro ⟨_ | _ | _, _, _⟩ h
    · cases h
    · exact absurd (show some "ResourceSpec" = some "SubjectSpec" from h) (by decide)
    · rfl
  have h4 : ∀ y : NodeVars, (match y.value with | .unset => none | .entitySet _ _ => some "EntitySet" | .entity _ => some "Entity" | .wildcard _ => some "Wildcard") =
      (match y.kind with | none => none | some .entitySet => some "EntitySet" | some .entity => some "Entity" | some .wildcard => some "Wildcard") := by
    rintro ⟨_ | _ | _ | _, _, _, _, _⟩ <;> rfl
  have h5 : ∀ y : DefinitionVars, (match y.value with | .unset => none | .policy _ => some "Policy" | .yaml _ => some "PolicyYaml") =
      (match y.kind with | none => none | some true => some "Policy" | some false => some "PolicyYaml") := by
    rintro ⟨_ | _ | _, _, _⟩ <;> rfl
  cases c with
  | subject => cases m <;> first | rfl | cases ho
  | objectSelector => cases m <;> first | (cases ho; done) | exact h1 _
  | subjectSelector => cases m <;> first | (cases ho; done) | exact h2 _
  | subjectSpec =>
    have hs := hs rfl
    cases m <;> first | (cases ho; done) | exact h3 _ ((h2 _).symm.trans hs)
  | root => cases m <;> first | (cases ho; done) | exact h4 _
  | definition => cases m <;> first | (cases ho; done) | exact h5 _

/-- Without a flag of the choice. -/
theorem no_words {c : Choice} {m : Method} (ho : offers c m = false) {l : List Flag} (h : l.all (accepts m) = true) : l.filterMap (wordAfter c) = [] := by
  rw [List.filterMap_eq_nil_iff]
  intro f hf
  cases hw : wordAfter c f with
  | none => rfl
  | some w => exact absurd (offers_of (List.all_eq_true.mp h f hf) (wordAfter_first hw)) (by rw [ho]; decide)

/-! ### Attributes -/

/-- The value of an attribute. -/
abbrev look (k : String) (l : List (String × String)) : Option String := (l.find? (·.1 == k)).map (·.2)

theorem look_put (j : String) (l : List (String × String)) (k v : String) : look j (putAttribute l k v) = if k = j then some v else look j l := by
  unfold putAttribute
  by_cases hk : l.any (fun x => x.1 == k) = true
  · rw [if_pos hk]
    induction l with
    | nil => simp at hk
    | cons x l ih =>
      rw [List.map_cons]
      unfold look
      rw [List.find?_cons, List.find?_cons]
      by_cases hx : x.1 = k
      · simp only [hx, beq_self_eq_true, if_true]
        by_cases hj : k = j
        · simp [hj]
        · have hj' : (k == j) = false := beq_eq_false_iff_ne.mpr hj
          simp only [hj', if_neg hj]
          by_cases hk' : l.any (fun x => x.1 == k) = true
          · have := ih hk'
            rw [if_neg hj] at this
            exact this
          · congr 2
            have : l.map (fun x => if (x.1 == k) = true then (k, v) else x) = l := by
              conv => rhs; rw [← List.map_id l]
              apply List.map_congr_left
              intro y hy
              have : (y.1 == k) = false := by
                cases h : (y.1 == k) with
                | false => rfl
                | true => exact absurd (List.any_eq_true.mpr ⟨y, hy, h⟩) hk'
              simp [this]
            rw [this]
      · have hx' : (x.1 == k) = false := beq_eq_false_iff_ne.mpr hx
        have hk' : l.any (fun x => x.1 == k) = true := by
          rw [List.any_cons, hx', Bool.false_or] at hk
          exact hk
        have := ih hk'
        simp only [hx', Bool.false_eq_true, if_false]
        by_cases hj : x.1 = j
        · have : k ≠ j := fun c => hx (hj.trans c.symm)
          simp [hj, this]
        · have hj' : (x.1 == j) = false := beq_eq_false_iff_ne.mpr hj
          simp only [hj']
          exact this
  · rw [if_neg hk]
    unfold look
    rw [List.find?_append]
    by_cases hj : k = j
    · subst hj
      have : l.find? (·.1 == k) = none := by
        rw [List.find?_eq_none]
        exact fun x hx c => hk (List.any_eq_true.mpr ⟨x, hx, c⟩)
      simp [this]
    · have : (k == j) = false := beq_eq_false_iff_ne.mpr hj
      simp [this, hj]

theorem look_merge (j : String) (s : List (String × String)) : ∀ d : List (String × String), (s.map (·.1)).Nodup →
    look j (s.foldl (fun m x => putAttribute m x.1 x.2) d) = (look j s).or (look j d) := by
  induction s with
  | nil => exact fun _ _ => rfl
  | cons x s ih =>
    intro d hn
    rw [List.map_cons, List.nodup_cons] at hn
    rw [List.foldl_cons, ih _ hn.2, look_put]
    unfold look
    rw [List.find?_cons]
    by_cases hj : x.1 = j
    · have h0 : s.find? (·.1 == j) = none := by
        rw [List.find?_eq_none]
        exact fun y hy c => hn.1 (List.mem_map.mpr ⟨y, hy, (beq_iff_eq.mp c).trans hj.symm⟩)
      simp [hj, h0]
    · have : (x.1 == j) = false := beq_eq_false_iff_ne.mpr hj
      simp [this, hj]

theorem merge_attributes (k : String) {d s : Request} (hm : d.method = s.method) (hs : Sayable s) (h : alternative .definition (mergeRequest d s) = some "Policy") :
    attributeOf k (mergeRequest d s) = (attributeOf k s).or (attributeOf k d) ∧ resourcesOf (mergeRequest d s) = resourcesOf d ++ resourcesOf s := by
  have key : ∀ d s : Option PolicyDefinition, (∃ x, s = some x ∧ ∀ p, x = .policy p → (p.attributes.map (·.1)).Nodup) → alternative .definition (.createPolicy (mergeMsg mergeDefinition d s) []) = some "Policy" →
      attributeOf k (.createPolicy (mergeMsg mergeDefinition d s) []) = (attributeOf k (.createPolicy s [])).or (attributeOf k (.createPolicy d [])) ∧
      resourcesOf (.createPolicy (mergeMsg mergeDefinition d s) []) = resourcesOf (.createPolicy d []) ++ resourcesOf (.createPolicy s []) := by
    rintro d s ⟨x, rfl, hx⟩ h
    cases x with
    | unset => 
      rcases d with _ | _ | p | y
      · cases h
      · cases h
      · exact ⟨rfl, (List.append_nil _).symm⟩
      · exact absurd (Option.some.inj h) (by decide)
    | yaml t => exact absurd (show some "PolicyYaml" = some "Policy" by rcases d with _ | _ | p | y <;> exact h) (by decide)
    | policy p =>
      rcases d with _ | _ | q | y
      · exact ⟨(Option.or_none).symm, rfl⟩
      · exact ⟨(Option.or_none).symm, rfl⟩
      · exact ⟨look_merge k p.attributes q.attributes (hx p rfl), rfl⟩
      · exact ⟨(Option.or_none).symm, rfl⟩
  have hcu : ∀ (d : Option PolicyDefinition) (a : Bytes) (n : Nat), attributeOf k (.createPolicy d a) = attributeOf k (.createPolicy d []) ∧ attributeOf k (.updatePolicy d a n) = attributeOf k (.createPolicy d []) ∧
      resourcesOf (.createPolicy d a) = resourcesOf (.createPolicy d []) ∧ resourcesOf (.updatePolicy d a n) = resourcesOf (.createPolicy d []) := by
    intro d a n
    rcases d with _ | _ | _ | _ <;> exact ⟨rfl, rfl, rfl, rfl⟩
  cases d <;> cases s <;> first | (cases hm; done) | (cases h; done) | skip
  case createPolicy.createPolicy d a d' a' =>
    simp only [mergeRequest, (hcu _ _ 0).1, (hcu _ _ 0).2.2.1]
    exact key d d' hs h
  case updatePolicy.updatePolicy d a n d' a' n' =>
    simp only [mergeRequest, (hcu _ _ _).2.1, (hcu _ _ _).2.2.2]
    exact key d d' hs h

end Zanzi.Cli
