import Verif.Model.Rpc

/-
The command line client: /repo/cmd/zanzi-cli/main.go:13-32 runs the generated commands of /repo/pkg/api/policy_service.cobra.pb.go and /repo/pkg/api/relation_graph.cobra.pb.go.  Each command fills a request
from its flags, in the order given, reads a request from its input, merges the former into the latter with `proto.Merge`, and sends the result.
Simplifications: flags arrive parsed (base64, enum names and JSON messages are values here, a resource or attribute per flag); an unknown flag stops the command; the parsing of the input (JSON, YAML) is not modelled,
`none` is no input; environment variables, which set flags, and connection flags are left out.
-/

namespace Zanzi.Cli

open Wire

/-- Flags of an `Entity`, e.g. policy_service.cobra.pb.go:326-327. -/
inductive EntityFlag where
  | resource (v : String)
  | id (v : String)

/-- `StringVar` into an entity. -/
def EntityFlag.set : EntityFlag → Entity → Entity
  | .resource v, e => { e with resource := v }
  | .id v, e => { e with id := v }

/-- Flags of a `Subject` — policy_service.cobra.pb.go:329-363 (also 415-449, 500-534, and inside selectors 598-655, 723-780). -/
inductive SubjectFlag where
  | entity
  | entityPart (f : EntityFlag)
  | entitySet
  | entitySetEntity (f : EntityFlag)
  | entitySetRelation (v : String)
  | resourceSet
  | resourceSetName (v : String)

/-- Alternatives of `Subject`. -/
inductive SubjectKind where
  | entity | entitySet | resourceSet
  deriving DecidableEq

/-- The variables behind those flags, and the alternative the last of them chose. -/
structure SubjectVars where
  kind : Option SubjectKind := none
  entity : Entity := ⟨"", ""⟩
  setEntity : Entity := ⟨"", ""⟩
  setRelation : String := ""
  resourceName : String := ""

/-- Setting a flag and its hook (`WithPostSetHook`), which points the oneof at the variable; a boolean flag only has the hook. -/
def SubjectFlag.set : SubjectFlag → SubjectVars → SubjectVars
  | .entity, x => { x with kind := some .entity }
  | .entityPart f, x => { x with kind := some .entity, entity := f.set x.entity }
  | .entitySet, x => { x with kind := some .entitySet }
  | .entitySetEntity f, x => { x with kind := some .entitySet, setEntity := f.set x.setEntity }
  | .entitySetRelation v, x => { x with kind := some .entitySet, setRelation := v }
  | .resourceSet, x => { x with kind := some .resourceSet }
  | .resourceSetName v, x => { x with kind := some .resourceSet, resourceName := v }

/-- The subject the variables make up. -/
def SubjectVars.value (x : SubjectVars) : Subject :=
  match x.kind with
  | none => .unset
  | some .entity => .entity x.entity
  | some .entitySet => .entitySet (some x.setEntity) x.setRelation
  | some .resourceSet => .resourceSet x.resourceName

/-- Flags of an `ObjectSelector` — policy_service.cobra.pb.go:581-594 (also 706-719).  There is none for the wildcard. -/
inductive ObjectSelectorFlag where
  | objectSpec
  | objectSpecPart (f : EntityFlag)
  | resourceSpec (v : String)

/-- The variables behind them; `kind` is `some true` for an object, `some false` for a resource. -/
structure ObjectSelectorVars where
  kind : Option Bool := none
  object : Entity := ⟨"", ""⟩
  resource : String := ""

/-- Setting a flag. -/
def ObjectSelectorFlag.set : ObjectSelectorFlag → ObjectSelectorVars → ObjectSelectorVars
  | .objectSpec, x => { x with kind := some true }
  | .objectSpecPart f, x => { x with kind := some true, object := f.set x.object }
  | .resourceSpec v, x => { x with kind := some false, resource := v }

/-- The selector they make up. -/
def ObjectSelectorVars.value (x : ObjectSelectorVars) : ObjectSelector :=
  match x.kind with
  | none => .unset
  | some true => .objectSpec x.object
  | some false => .resourceSpec x.resource

/-- Flags of a `SubjectSelector` — policy_service.cobra.pb.go:598-658 (also 723-783).  There is none for the wildcard. -/
inductive SubjectSelectorFlag where
  | subjectSpec
  | subjectSpecPart (f : SubjectFlag)
  | resourceSpec (v : String)

/-- The variables behind them; `kind` is `some true` for a subject, `some false` for a resource. -/
structure SubjectSelectorVars where
  kind : Option Bool := none
  subject : SubjectVars := {}
  resource : String := ""

/-- Setting a flag. -/
def SubjectSelectorFlag.set : SubjectSelectorFlag → SubjectSelectorVars → SubjectSelectorVars
  | .subjectSpec, x => { x with kind := some true }
  | .subjectSpecPart f, x => { x with kind := some true, subject := f.set x.subject }
  | .resourceSpec v, x => { x with kind := some false, resource := v }

/-- The selector they make up. -/
def SubjectSelectorVars.value (x : SubjectSelectorVars) : SubjectSelector :=
  match x.kind with
  | none => .unset
  | some true => .subjectSpec x.subject.value
  | some false => .resourceSpec x.resource

/-- Flags of a `RelationNode` — relation_graph.cobra.pb.go:176-200. -/
inductive NodeFlag where
  | entitySet
  | entitySetObject (f : EntityFlag)
  | entitySetRelation (v : String)
  | entity
  | entityObject (f : EntityFlag)
  | wildcard
  | wildcardResource (v : String)

/-- Alternatives of `RelationNode`. -/
inductive NodeKind where
  | entitySet | entity | wildcard
  deriving DecidableEq

/-- The variables behind them. -/
structure NodeVars where
  kind : Option NodeKind := none
  setObject : Entity := ⟨"", ""⟩
  setRelation : String := ""
  object : Entity := ⟨"", ""⟩
  resource : String := ""

/-- Setting a flag. -/
def NodeFlag.set : NodeFlag → NodeVars → NodeVars
  | .entitySet, x => { x with kind := some .entitySet }
  | .entitySetObject f, x => { x with kind := some .entitySet, setObject := f.set x.setObject }
  | .entitySetRelation v, x => { x with kind := some .entitySet, setRelation := v }
  | .entity, x => { x with kind := some .entity }
  | .entityObject f, x => { x with kind := some .entity, object := f.set x.object }
  | .wildcard, x => { x with kind := some .wildcard }
  | .wildcardResource v, x => { x with kind := some .wildcard, resource := v }

/-- The node they make up. -/
def NodeVars.value (x : NodeVars) : RelationNode :=
  match x.kind with
  | none => .unset
  | some .entitySet => .entitySet (some x.setObject) x.setRelation
  | some .entity => .entity (some x.object)
  | some .wildcard => .wildcard x.resource

/-- Flags of a `PolicyDefinition` — policy_service.cobra.pb.go:77-92 (also 137-152). -/
inductive DefinitionFlag where
  | policy
  | policyId (v : String)
  | policyName (v : String)
  | policyDescription (v : String)
  | policyResource (v : Resource)
  | policyAttribute (key v : String)
  | yaml (v : String)

/-- The variables behind them; `kind` is `some true` for a policy, `some false` for YAML. -/
structure DefinitionVars where
  kind : Option Bool := none
  policy : Policy := { id := "", resources := [] }
  yaml : String := ""

/-- An entry of a map of strings is set. -/
def putAttribute (m : List (String × String)) (k v : String) : List (String × String) :=
  if m.any (fun x => x.1 == k) then m.map (fun x => if x.1 == k then (k, v) else x) else m ++ [(k, v)]

/-- Setting a flag: `SliceVar` appends, `StringToStringVar` sets entries. -/
def DefinitionFlag.set : DefinitionFlag → DefinitionVars → DefinitionVars
  | .policy, x => { x with kind := some true }
  | .policyId v, x => { x with kind := some true, policy := { x.policy with id := v } }
  | .policyName v, x => { x with kind := some true, policy := { x.policy with name := v } }
  | .policyDescription v, x => { x with kind := some true, policy := { x.policy with description := v } }
  | .policyResource v, x => { x with kind := some true, policy := { x.policy with resources := x.policy.resources ++ [v] } }
  | .policyAttribute k v, x => { x with kind := some true, policy := { x.policy with attributes := putAttribute x.policy.attributes k v } }
  | .yaml v, x => { x with kind := some false, yaml := v }

/-- The definition they make up. -/
def DefinitionVars.value (x : DefinitionVars) : PolicyDefinition :=
  match x.kind with
  | none => .unset
  | some true => .policy x.policy
  | some false => .yaml x.yaml

/-- The flags of all commands.  `policyId` is also the flag `Id` of DeletePolicy and GetPolicy; `object` and `relation` belong to relationships and to access requests. -/
inductive Flag where
  | policyId (v : String)
  | object (f : EntityFlag)
  | relation (v : String)
  | subject (f : SubjectFlag)
  | accessSubject (f : EntityFlag)
  | objectSelector (f : ObjectSelectorFlag)
  | relationSelector (v : String)
  | subjectSelector (f : SubjectSelectorFlag)
  | root (f : NodeFlag)
  | definition (f : DefinitionFlag)
  | appData (v : Bytes)
  | strategy (v : Nat)
  | format (v : ExplainFormat)
  | dumpFormat (v : GraphService.DumpFormat)

/-- The variables behind the flags. -/
structure Vars where
  policyId : String := ""
  object : Entity := ⟨"", ""⟩
  relation : String := ""
  subject : SubjectVars := {}
  accessSubject : Entity := ⟨"", ""⟩
  objectSelector : ObjectSelectorVars := {}
  relationSelector : Option String := none
  subjectSelector : SubjectSelectorVars := {}
  root : NodeVars := {}
  definition : DefinitionVars := {}
  appData : Bytes := []
  strategy : Nat := 0
  format : ExplainFormat := .spew
  dumpFormat : GraphService.DumpFormat := .dot

/-- Setting a flag. -/
def Flag.set : Flag → Vars → Vars
  | .policyId v, x => { x with policyId := v }
  | .object f, x => { x with object := f.set x.object }
  | .relation v, x => { x with relation := v }
  | .subject f, x => { x with subject := f.set x.subject }
  | .accessSubject f, x => { x with accessSubject := f.set x.accessSubject }
  | .objectSelector f, x => { x with objectSelector := f.set x.objectSelector }
  | .relationSelector v, x => { x with relationSelector := some v }
  | .subjectSelector f, x => { x with subjectSelector := f.set x.subjectSelector }
  | .root f, x => { x with root := f.set x.root }
  | .definition f, x => { x with definition := f.set x.definition }
  | .appData v, x => { x with appData := v }
  | .strategy v, x => { x with strategy := v }
  | .format v, x => { x with format := v }
  | .dumpFormat v, x => { x with dumpFormat := v }

/-- The flags a command has — the `PersistentFlags` of each command: policy_service.cobra.pb.go:77-93, 137-154, 196, 238, 325-364, 411-449, 496-534, 580-658, 705-783; relation_graph.cobra.pb.go:75-80, 127-133, 175-202, 243-244. -/
def accepts : Method → Flag → Bool
  | .createPolicy, .definition _ | .createPolicy, .appData _ => true
  | .updatePolicy, .definition _ | .updatePolicy, .appData _ | .updatePolicy, .strategy _ => true
  | .deletePolicy, .policyId _ | .getPolicy, .policyId _ => true
  | .setRelationship, .policyId _ | .setRelationship, .object _ | .setRelationship, .relation _ | .setRelationship, .subject _ | .setRelationship, .appData _ => true
  | .deleteRelationship, .policyId _ | .deleteRelationship, .object _ | .deleteRelationship, .relation _ | .deleteRelationship, .subject _ => true
  | .getRelationship, .policyId _ | .getRelationship, .object _ | .getRelationship, .relation _ | .getRelationship, .subject _ => true
  | .deleteRelationships, .policyId _ | .deleteRelationships, .objectSelector _ | .deleteRelationships, .relationSelector _ | .deleteRelationships, .subjectSelector _ => true
  | .findRelationshipRecords, .policyId _ | .findRelationshipRecords, .objectSelector _ | .findRelationshipRecords, .relationSelector _ | .findRelationshipRecords, .subjectSelector _ => true
  | .check, .policyId _ | .check, .object _ | .check, .relation _ | .check, .accessSubject _ => true
  | .explainCheck, .policyId _ | .explainCheck, .object _ | .explainCheck, .relation _ | .explainCheck, .accessSubject _ | .explainCheck, .format _ => true
  | .expand, .policyId _ | .expand, .root _ | .expand, .format _ => true
  | .dumpRelationships, .policyId _ | .dumpRelationships, .dumpFormat _ => true
  | _, _ => false

/-- `&domain.Relationship{...}` — policy_service.cobra.pb.go:284-289. -/
def Vars.relationship (x : Vars) : Relationship := ⟨some x.object, x.relation, some x.subject.value⟩
/-- `&domain.RelationshipSelector{...}` — policy_service.cobra.pb.go:540-546. -/
def Vars.selector (x : Vars) : Selector :=
  ⟨some x.objectSelector.value, some (match x.relationSelector with | none => .unset | some v => .relationName v), some x.subjectSelector.value⟩
/-- `&domain.AccessRequest{...}` — relation_graph.cobra.pb.go:34-39. -/
def Vars.access (x : Vars) : AccessRequest := ⟨some x.object, x.relation, some x.accessSubject⟩

/-- The request `req` of a command: messages inside are always there — policy_service.cobra.pb.go:39-41, 99-101, 160, 202, 244, 284-289, 370-375, 455-460, 540-546, 665-671; relation_graph.cobra.pb.go:34-39, 86-91, 138-140, 206. -/
def Vars.request (x : Vars) : Method → Request
  | .createPolicy => .createPolicy (some x.definition.value) x.appData
  | .updatePolicy => .updatePolicy (some x.definition.value) x.appData x.strategy
  | .deletePolicy => .deletePolicy x.policyId
  | .getPolicy => .getPolicy x.policyId
  | .listPolicyIds => .listPolicyIds
  | .setRelationship => .setRelationship x.policyId (some x.relationship) x.appData
  | .deleteRelationship => .deleteRelationship x.policyId (some x.relationship)
  | .getRelationship => .getRelationship x.policyId (some x.relationship)
  | .deleteRelationships => .deleteRelationships x.policyId (some x.selector)
  | .findRelationshipRecords => .findRelationshipRecords x.policyId (some x.selector)
  | .check => .check x.policyId (some x.access)
  | .explainCheck => .explainCheck x.policyId (some x.access) x.format
  | .expand => .expand x.policyId (some x.root.value) x.format
  | .dumpRelationships => .dumpRelationships x.policyId x.dumpFormat

/-! ### `proto.Merge(dst, src)`: fields set in `src` replace those of `dst`; messages are merged, lists appended, maps united.  A field without presence is set when it is not empty or zero. -/

/-- String fields. -/
def mergeStr (dst src : String) : String := if src = "" then dst else src
/-- Bytes fields. -/
def mergeBytes (dst src : Bytes) : Bytes := if src = [] then dst else src
/-- Message fields. -/
def mergeMsg {α : Type} (f : α → α → α) : Option α → Option α → Option α
  | dst, none => dst
  | none, some src => some src
  | some dst, some src => some (f dst src)

/-- `Entity`. -/
def mergeEntity (dst src : Entity) : Entity := ⟨mergeStr dst.resource src.resource, mergeStr dst.id src.id⟩

/-- `Subject`; the same alternative is merged, another one replaces. -/
def mergeSubject : Subject → Subject → Subject
  | dst, .unset => dst
  | .entity e, .entity e' => .entity (mergeEntity e e')
  | .entitySet e r, .entitySet e' r' => .entitySet (mergeMsg mergeEntity e e') (mergeStr r r')
  | .resourceSet n, .resourceSet n' => .resourceSet (mergeStr n n')
  | _, src => src

/-- `Relationship`. -/
def mergeRelationship (dst src : Relationship) : Relationship :=
  ⟨mergeMsg mergeEntity dst.object src.object, mergeStr dst.relation src.relation, mergeMsg mergeSubject dst.subject src.subject⟩

/-- `ObjectSelector`; an alternative that is a string replaces even when empty. -/
def mergeObjectSelector : ObjectSelector → ObjectSelector → ObjectSelector
  | dst, .unset => dst
  | .objectSpec e, .objectSpec e' => .objectSpec (mergeEntity e e')
  | _, src => src

/-- `RelationSelector`. -/
def mergeRelationSelector : RelationSelector → RelationSelector → RelationSelector
  | dst, .unset => dst
  | _, src => src

/-- `SubjectSelector`. -/
def mergeSubjectSelector : SubjectSelector → SubjectSelector → SubjectSelector
  | dst, .unset => dst
  | .subjectSpec s, .subjectSpec s' => .subjectSpec (mergeSubject s s')
  | _, src => src

/-- `RelationshipSelector`. -/
def mergeSelector (dst src : Selector) : Selector :=
  ⟨mergeMsg mergeObjectSelector dst.object src.object, mergeMsg mergeRelationSelector dst.relation src.relation, mergeMsg mergeSubjectSelector dst.subject src.subject⟩

/-- `AccessRequest`. -/
def mergeAccess (dst src : AccessRequest) : AccessRequest :=
  ⟨mergeMsg mergeEntity dst.object src.object, mergeStr dst.relation src.relation, mergeMsg mergeEntity dst.subject src.subject⟩

/-- `RelationNode`. -/
def mergeNode : RelationNode → RelationNode → RelationNode
  | dst, .unset => dst
  | .entitySet o r, .entitySet o' r' => .entitySet (mergeMsg mergeEntity o o') (mergeStr r r')
  | .entity o, .entity o' => .entity (mergeMsg mergeEntity o o')
  | .wildcard n, .wildcard n' => .wildcard (mergeStr n n')
  | _, src => src

/-- `Policy`. -/
def mergePolicy (dst src : Policy) : Policy :=
  { id := mergeStr dst.id src.id, name := mergeStr dst.name src.name, description := mergeStr dst.description src.description, resources := dst.resources ++ src.resources,
    attributes := src.attributes.foldl (fun m x => putAttribute m x.1 x.2) dst.attributes }

/-- `PolicyDefinition`. -/
def mergeDefinition : PolicyDefinition → PolicyDefinition → PolicyDefinition
  | dst, .unset => dst
  | .policy p, .policy p' => .policy (mergePolicy p p')
  | _, src => src

/-- Enum fields. -/
def mergeFormat (dst src : ExplainFormat) : ExplainFormat := match src with | .spew => dst | _ => src
/-- Enum fields. -/
def mergeDumpFormat (dst src : GraphService.DumpFormat) : GraphService.DumpFormat := match src with | .dot => dst | _ => src
/-- Enum fields. -/
def mergeNum (dst src : Nat) : Nat := if src = 0 then dst else src

/-- Requests of one method. -/
def mergeRequest : Request → Request → Request
  | .createPolicy d a, .createPolicy d' a' => .createPolicy (mergeMsg mergeDefinition d d') (mergeBytes a a')
  | .updatePolicy d a n, .updatePolicy d' a' n' => .updatePolicy (mergeMsg mergeDefinition d d') (mergeBytes a a') (mergeNum n n')
  | .deletePolicy i, .deletePolicy i' => .deletePolicy (mergeStr i i')
  | .getPolicy i, .getPolicy i' => .getPolicy (mergeStr i i')
  | .setRelationship p r a, .setRelationship p' r' a' => .setRelationship (mergeStr p p') (mergeMsg mergeRelationship r r') (mergeBytes a a')
  | .deleteRelationship p r, .deleteRelationship p' r' => .deleteRelationship (mergeStr p p') (mergeMsg mergeRelationship r r')
  | .getRelationship p r, .getRelationship p' r' => .getRelationship (mergeStr p p') (mergeMsg mergeRelationship r r')
  | .findRelationshipRecords p s, .findRelationshipRecords p' s' => .findRelationshipRecords (mergeStr p p') (mergeMsg mergeSelector s s')
  | .deleteRelationships p s, .deleteRelationships p' s' => .deleteRelationships (mergeStr p p') (mergeMsg mergeSelector s s')
  | .check p q, .check p' q' => .check (mergeStr p p') (mergeMsg mergeAccess q q')
  | .explainCheck p q f, .explainCheck p' q' f' => .explainCheck (mergeStr p p') (mergeMsg mergeAccess q q') (mergeFormat f f')
  | .expand p n f, .expand p' n' f' => .expand (mergeStr p p') (mergeMsg mergeNode n n') (mergeFormat f f')
  | .dumpRelationships p f, .dumpRelationships p' f' => .dumpRelationships (mergeStr p p') (mergeDumpFormat f f')
  | _, src => src

/-- The empty message `v` of a command — e.g. policy_service.cobra.pb.go:57. -/
def emptyRequest : Method → Request
  | .createPolicy => .createPolicy none []
  | .updatePolicy => .updatePolicy none [] 0
  | .deletePolicy => .deletePolicy ""
  | .getPolicy => .getPolicy ""
  | .listPolicyIds => .listPolicyIds
  | .setRelationship => .setRelationship "" none []
  | .deleteRelationship => .deleteRelationship "" none
  | .getRelationship => .getRelationship "" none
  | .deleteRelationships => .deleteRelationships "" none
  | .findRelationshipRecords => .findRelationshipRecords "" none
  | .check => .check "" none
  | .explainCheck => .explainCheck "" none .spew
  | .expand => .expand "" none .spew
  | .dumpRelationships => .dumpRelationships "" .dot

/-- The request a command sends; `none`: it stops with an error about a flag — e.g. policy_service.cobra.pb.go:43-75. -/
def sends (m : Method) (flags : List Flag) (input : Option Request) : Option Request :=
  if flags.all (accepts m) then some (mergeRequest (input.getD (emptyRequest m)) ((flags.foldl (fun (x : Vars) (f : Flag) => f.set x) {}).request m)) else none

end Zanzi.Cli
