import Verif.Model.Cli

/-
Vocabulary for the command line client.
-/

namespace Zanzi.Spec

open Cli Wire

/-- The words of a flag's name, as given to `FlagNamer`; with dashes and in lower case they are what users type. -/
def entityWords : EntityFlag → List String
  | .resource _ => ["Resource"]
  | .id _ => ["Id"]

/-- Words after those of the subject. -/
def subjectWords : SubjectFlag → List String
  | .entity => ["Entity"]
  | .entityPart f => "Entity" :: entityWords f
  | .entitySet => ["EntitySet"]
  | .entitySetEntity f => "EntitySet" :: "Entity" :: entityWords f
  | .entitySetRelation _ => ["EntitySet", "Relation"]
  | .resourceSet => ["ResourceSet"]
  | .resourceSetName _ => ["ResourceSet", "ResourceName"]

/-- The name of a flag. -/
def flagName : Flag → List String
  | .policyId _ => ["PolicyId"]
  | .object f => "Object" :: entityWords f
  | .relation _ => ["Relation"]
  | .subject f => "Subject" :: subjectWords f
  | .accessSubject f => "AccessRequest" :: "Subject" :: entityWords f
  | .objectSelector .objectSpec => ["ObjectSelector", "ObjectSpec"]
  | .objectSelector (.objectSpecPart f) => "ObjectSelector" :: "ObjectSpec" :: entityWords f
  | .objectSelector (.resourceSpec _) => ["ObjectSelector", "ResourceSpec"]
  | .relationSelector _ => ["RelationSelector", "RelationName"]
  | .subjectSelector .subjectSpec => ["SubjectSelector", "SubjectSpec"]
  | .subjectSelector (.subjectSpecPart f) => "SubjectSelector" :: "SubjectSpec" :: subjectWords f
  | .subjectSelector (.resourceSpec _) => ["SubjectSelector", "ResourceSpec"]
  | .root .entitySet => ["Root", "EntitySet"]
  | .root (.entitySetObject f) => "Root" :: "EntitySet" :: "Object" :: entityWords f
  | .root (.entitySetRelation _) => ["Root", "EntitySet", "Relation"]
  | .root .entity => ["Root", "Entity"]
  | .root (.entityObject f) => "Root" :: "Entity" :: "Object" :: entityWords f
  | .root .wildcard => ["Root", "Wildcard"]
  | .root (.wildcardResource _) => ["Root", "Wildcard", "Resource"]
  | .definition .policy => ["PolicyDefinition", "Policy"]
  | .definition (.policyId _) => ["PolicyDefinition", "Policy", "Id"]
  | .definition (.policyName _) => ["PolicyDefinition", "Policy", "Name"]
  | .definition (.policyDescription _) => ["PolicyDefinition", "Policy", "Description"]
  | .definition (.policyResource _) => ["PolicyDefinition", "Policy", "Resources"]
  | .definition (.policyAttribute _ _) => ["PolicyDefinition", "Policy", "Attributes"]
  | .definition (.yaml _) => ["PolicyDefinition", "PolicyYaml"]
  | .appData _ => ["AppData"]
  | .strategy _ => ["Strategy"]
  | .format _ => ["Format"]
  | .dumpFormat _ => ["DumpFormat"]

/-- The fields of which a message has one alternative. -/
inductive Choice where
  | subject | objectSelector | subjectSelector | subjectSpec | root | definition

/-- How their flags begin. -/
def Choice.words : Choice → List String
  | .subject => ["Subject"]
  | .objectSelector => ["ObjectSelector"]
  | .subjectSelector => ["SubjectSelector"]
  | .subjectSpec => ["SubjectSelector", "SubjectSpec"]
  | .root => ["Root"]
  | .definition => ["PolicyDefinition"]

/-- Two flags belong to different alternatives of a choice. -/
def Rivals (f g : Flag) : Prop := ∃ c : Choice, ∃ a b, a ≠ b ∧ (c.words ++ [a]) <+: flagName f ∧ (c.words ++ [b]) <+: flagName g

/-- A flag that may be given several times. -/
def Repeatable (f : Flag) : Prop := (∃ v, f = .definition (.policyResource v)) ∨ ∃ k v, f = .definition (.policyAttribute k v)

/-- No message is missing where the message around it needs it. -/
def WholeSubject : Subject → Prop
  | .entitySet none _ => False
  | _ => True

/-- A relationship without missing messages. -/
def WholeRelationship (r : Relationship) : Prop := r.object ≠ none ∧ ∃ s, r.subject = some s ∧ WholeSubject s

/-- A selector without missing messages, and without wildcards. -/
def SayableSelector (s : Selector) : Prop :=
  (∃ o, s.object = some o ∧ o ≠ .wildcard) ∧ (∃ r, s.relation = some r ∧ r ≠ .wildcard) ∧
  ∃ x, s.subject = some x ∧ x ≠ .wildcard ∧ ∀ y, x = .subjectSpec y → WholeSubject y

/-- Requests that can be said with flags. -/
def Sayable : Request → Prop
  | .createPolicy d _ | .updatePolicy d _ _ => ∃ x, d = some x ∧ ∀ p, x = .policy p → (p.attributes.map (·.1)).Nodup
  | .setRelationship _ r _ | .deleteRelationship _ r | .getRelationship _ r => ∃ x, r = some x ∧ WholeRelationship x
  | .findRelationshipRecords _ s | .deleteRelationships _ s => ∃ x, s = some x ∧ SayableSelector x
  | .check _ q | .explainCheck _ q _ => ∃ x, q = some x ∧ x.object ≠ none ∧ x.subject ≠ none
  | .expand _ n _ => ∃ x, n = some x ∧ (∀ r, x ≠ .entitySet none r) ∧ x ≠ .entity none
  | _ => True

/-- Requests in which the messages every such request needs are there. -/
def Filled : Request → Prop
  | .createPolicy d _ | .updatePolicy d _ _ => d ≠ none
  | .setRelationship _ r _ | .deleteRelationship _ r | .getRelationship _ r => ∃ x, r = some x ∧ x.object ≠ none ∧ x.subject ≠ none
  | .findRelationshipRecords _ s | .deleteRelationships _ s => ∃ x, s = some x ∧ x.object ≠ none ∧ x.relation ≠ none ∧ x.subject ≠ none
  | .check _ q | .explainCheck _ q _ => ∃ x, q = some x ∧ x.object ≠ none ∧ x.subject ≠ none
  | .expand _ n _ => n ≠ none
  | _ => True

/-- No part is left empty. -/
def FullEntity (e : Entity) : Prop := e.resource ≠ "" ∧ e.id ≠ ""

/-- No part is left empty. -/
def FullSubject : Subject → Prop
  | .unset => False
  | .entity e => FullEntity e
  | .entitySet e r => (∃ x, e = some x ∧ FullEntity x) ∧ r ≠ ""
  | .resourceSet n => n ≠ ""

/-- No part is left empty. -/
def FullRelationship (r : Relationship) : Prop := (∃ o, r.object = some o ∧ FullEntity o) ∧ r.relation ≠ "" ∧ ∃ s, r.subject = some s ∧ FullSubject s

/-- No part is left empty. -/
def FullSelector (s : Selector) : Prop :=
  (∃ o, s.object = some o ∧ o ≠ .unset ∧ ∀ e, o = .objectSpec e → FullEntity e) ∧ (∃ r, s.relation = some r ∧ r ≠ .unset) ∧
  ∃ x, s.subject = some x ∧ x ≠ .unset ∧ ∀ y, x = .subjectSpec y → FullSubject y

/-- No part is left empty. -/
def FullAccess (q : AccessRequest) : Prop := (∃ o, q.object = some o ∧ FullEntity o) ∧ q.relation ≠ "" ∧ ∃ s, q.subject = some s ∧ FullEntity s

/-- No part is left empty. -/
def FullNode : RelationNode → Prop
  | .unset => False
  | .entitySet o r => (∃ x, o = some x ∧ FullEntity x) ∧ r ≠ ""
  | .entity o => ∃ x, o = some x ∧ FullEntity x
  | .wildcard n => n ≠ ""

/-- Requests no part of which is left empty or at its default; policies are given as YAML. -/
def FullRequest : Request → Prop
  | .createPolicy d a => (∃ t, d = some (.yaml t)) ∧ a ≠ []
  | .updatePolicy d a n => (∃ t, d = some (.yaml t)) ∧ a ≠ [] ∧ n ≠ 0
  | .deletePolicy i | .getPolicy i => i ≠ ""
  | .listPolicyIds => True
  | .setRelationship p r a => p ≠ "" ∧ (∃ x, r = some x ∧ FullRelationship x) ∧ a ≠ []
  | .deleteRelationship p r | .getRelationship p r => p ≠ "" ∧ ∃ x, r = some x ∧ FullRelationship x
  | .findRelationshipRecords p s | .deleteRelationships p s => p ≠ "" ∧ ∃ x, s = some x ∧ FullSelector x
  | .check p q => p ≠ "" ∧ ∃ x, q = some x ∧ FullAccess x
  | .explainCheck p q f => p ≠ "" ∧ (∃ x, q = some x ∧ FullAccess x) ∧ f ≠ .spew
  | .expand p n f => p ≠ "" ∧ (∃ x, n = some x ∧ FullNode x) ∧ f ≠ .spew
  | .dumpRelationships p f => p ≠ "" ∧ f ≠ .dot

/-- The alternative of a choice a flag belongs to. -/
def wordAfter (c : Choice) (f : Flag) : Option String := if c.words.isPrefixOf (flagName f) then (flagName f)[c.words.length]? else none

/-- Alternatives of `Subject`. -/
def subjectAlternative : Subject → Option String
  | .unset => none
  | .entity _ => some "Entity"
  | .entitySet _ _ => some "EntitySet"
  | .resourceSet _ => some "ResourceSet"

/-- The alternative a request takes of a choice. -/
def alternative (c : Choice) (r : Request) : Option String :=
  match c, r with
  | .subject, .setRelationship _ r _ | .subject, .deleteRelationship _ r | .subject, .getRelationship _ r => do subjectAlternative (← (← r).subject)
  | .objectSelector, .findRelationshipRecords _ s | .objectSelector, .deleteRelationships _ s => do
    match (← (← s).object) with | .unset => none | .wildcard => some "Wildcard" | .objectSpec _ => some "ObjectSpec" | .resourceSpec _ => some "ResourceSpec"
  | .subjectSelector, .findRelationshipRecords _ s | .subjectSelector, .deleteRelationships _ s => do
    match (← (← s).subject) with | .unset => none | .wildcard => some "Wildcard" | .subjectSpec _ => some "SubjectSpec" | .resourceSpec _ => some "ResourceSpec"
  | .subjectSpec, .findRelationshipRecords _ s | .subjectSpec, .deleteRelationships _ s => do
    match (← (← s).subject) with | .subjectSpec x => subjectAlternative x | _ => none
  | .root, .expand _ n _ => do match (← n) with | .unset => none | .entitySet _ _ => some "EntitySet" | .entity _ => some "Entity" | .wildcard _ => some "Wildcard"
  | .definition, .createPolicy d _ | .definition, .updatePolicy d _ _ => do match (← d) with | .unset => none | .policy _ => some "Policy" | .yaml _ => some "PolicyYaml"
  | _, _ => none

/-- Parts of an entity. -/
inductive Part where
  | resource | id

/-- The text of a part. -/
def Part.of : Part → Entity → String
  | .resource, e => e.resource
  | .id, e => e.id

/-- Parts of a subject. -/
inductive SubjectPart where
  | entity (p : Part) | setEntity (p : Part) | setRelation | resourceName

/-- The text of a part; `none`: the subject has no such part. -/
def SubjectPart.of : SubjectPart → Subject → Option String
  | .entity p, .entity e => some (p.of e)
  | .setEntity p, .entitySet (some e) _ => some (p.of e)
  | .setRelation, .entitySet _ r => some r
  | .resourceName, .resourceSet n => some n
  | _, _ => none

/-- Texts in requests, but for those that are alternatives themselves. -/
inductive Field where
  | policyId | object (p : Part) | relation | subject (p : SubjectPart) | accessSubject (p : Part) | objectSpec (p : Part) | subjectSpec (p : SubjectPart)
  | rootObject (p : Part) | rootRelation | rootEntity (p : Part) | rootWildcard | name | description | id

/-- Texts of a relationship. -/
def relationshipText (r : Relationship) : Field → Option String
  | .object p => r.object.map p.of
  | .relation => some r.relation
  | .subject p => r.subject.bind p.of
  | _ => none

/-- Texts of an access request. -/
def accessText (q : AccessRequest) : Field → Option String
  | .object p => q.object.map p.of
  | .relation => some q.relation
  | .accessSubject p => q.subject.map p.of
  | _ => none

/-- Texts of a selector. -/
def selectorText (s : Selector) : Field → Option String
  | .objectSpec p => match s.object with | some (.objectSpec e) => some (p.of e) | _ => none
  | .subjectSpec p => match s.subject with | some (.subjectSpec x) => p.of x | _ => none
  | _ => none

/-- Texts of a node. -/
def nodeText (n : RelationNode) (f : Field) : Option String :=
  match f, n with
  | .rootObject p, .entitySet o _ => o.map p.of
  | .rootRelation, .entitySet _ r => some r
  | .rootEntity p, .entity o => o.map p.of
  | .rootWildcard, .wildcard n => some n
  | _, _ => none

/-- Texts of a policy. -/
def definitionText (d : PolicyDefinition) (f : Field) : Option String :=
  match f, d with
  | .id, .policy p => some p.id
  | .name, .policy p => some p.name
  | .description, .policy p => some p.description
  | _, _ => none

/-- Texts of a request; `none`: it has no such part. -/
def textOf (f : Field) : Request → Option String
  | .createPolicy d _ | .updatePolicy d _ _ => d.bind (definitionText · f)
  | .deletePolicy i | .getPolicy i => match f with | .policyId => some i | _ => none
  | .listPolicyIds => none
  | .setRelationship p r _ | .deleteRelationship p r | .getRelationship p r => match f with | .policyId => some p | f => r.bind (relationshipText · f)
  | .findRelationshipRecords p s | .deleteRelationships p s => match f with | .policyId => some p | f => s.bind (selectorText · f)
  | .check p q | .explainCheck p q _ => match f with | .policyId => some p | f => q.bind (accessText · f)
  | .expand p n _ => match f with | .policyId => some p | f => n.bind (nodeText · f)
  | .dumpRelationships p _ => match f with | .policyId => some p | _ => none

/-- Attributes of the policy in a request. -/
def attributeOf (k : String) : Request → Option String
  | .createPolicy (some (.policy p)) _ | .updatePolicy (some (.policy p)) _ _ => (p.attributes.find? (·.1 == k)).map (·.2)
  | _ => none

/-- Resources of the policy in a request. -/
def resourcesOf : Request → List Resource
  | .createPolicy (some (.policy p)) _ | .updatePolicy (some (.policy p)) _ _ => p.resources
  | _ => []

end Zanzi.Spec
