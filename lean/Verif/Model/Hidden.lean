import Verif.Model.Service

/-
Messages as Go structs in memory.  Generated messages have unexported fields beside their own (/repo/pkg/domain/relationship.pb.go:28-37, 154-164, 252-260, 301-310):
`state`, which holds a pointer to the message's type information once `ProtoReflect` was called on it (lines 54-64), `sizeCache` and `unknownFields`.
`reflect.DeepEqual`, which selectors use (/repo/internal/policy/selector_spec.go:62, 92), compares them too.  The other models leave them out.
Simplifications: the unexported fields of the selector messages themselves are never compared and are left out here as well; no unknown fields
are nil (an empty slice that is not nil does not arise).
-/

namespace Zanzi

/-- `state`, `sizeCache`, `unknownFields`: whether the type information is set (it is the type's own, the same for all messages of a type), the cached size, the
bytes of unknown fields. -/
structure Hidden where
  info : Bool
  size : Nat
  unknown : Bytes
  deriving DecidableEq, Repr

/-- The unexported fields of a struct just made by a composite literal. -/
def Hidden.zero : Hidden := ⟨false, 0, []⟩

/-- `domain.Entity` — relationship.pb.go:28-37. -/
structure MEntity where
  hidden : Hidden
  resource : String
  id : String
  deriving DecidableEq, Repr

/-- The oneof of `domain.Subject` — relationship.pb.go:163, 226-243, with `EntitySet` (301-310) and `ResourceSet` (252-260). -/
inductive MSubjectKind where
  | unset
  | entity (e : MEntity)
  | entitySet (hidden : Hidden) (e : Option MEntity) (relation : String)
  | resourceSet (hidden : Hidden) (resourceName : String)
  deriving DecidableEq, Repr

/-- `domain.Subject` — relationship.pb.go:154-164. -/
structure MSubject where
  hidden : Hidden
  kind : MSubjectKind
  deriving DecidableEq, Repr

/-- `domain.Relationship` as `Satisfies` sees it. -/
structure MRelationship where
  object : Option MEntity
  relation : String
  subject : Option MSubject
  deriving DecidableEq, Repr

/-- `ObjectSelector` — selector.proto. -/
inductive MObjectSelector where
  | unset
  | objectSpec (e : MEntity)
  | resourceSpec (resource : String)
  | wildcard
  deriving DecidableEq, Repr

/-- `SubjectSelector` — selector.proto. -/
inductive MSubjectSelector where
  | unset
  | subjectSpec (s : MSubject)
  | resourceSpec (resource : String)
  | wildcard
  deriving DecidableEq, Repr

/-- `RelationshipSelector` — selector.proto. -/
structure MSelector where
  object : Option MObjectSelector
  relation : Option RelationSelector
  subject : Option MSubjectSelector
  deriving DecidableEq, Repr

/-- The exported fields. -/
def MEntity.value (e : MEntity) : Entity := ⟨e.resource, e.id⟩

/-- The exported fields. -/
def MSubject.value (s : MSubject) : Subject :=
  match s.kind with
  | .unset => .unset
  | .entity e => .entity e.value
  | .entitySet _ e r => .entitySet (e.map MEntity.value) r
  | .resourceSet _ n => .resourceSet n

/-- The exported fields. -/
def MRelationship.value (r : MRelationship) : Relationship := ⟨r.object.map MEntity.value, r.relation, r.subject.map MSubject.value⟩

/-- The exported fields. -/
def MObjectSelector.value : MObjectSelector → ObjectSelector
  | .unset => .unset
  | .objectSpec e => .objectSpec e.value
  | .resourceSpec n => .resourceSpec n
  | .wildcard => .wildcard

/-- The exported fields. -/
def MSubjectSelector.value : MSubjectSelector → SubjectSelector
  | .unset => .unset
  | .subjectSpec s => .subjectSpec s.value
  | .resourceSpec n => .resourceSpec n
  | .wildcard => .wildcard

/-- The exported fields. -/
def MSelector.value (m : MSelector) : Selector := ⟨m.object.map MObjectSelector.value, m.relation, m.subject.map MSubjectSelector.value⟩

/-- `&domain.Entity{Resource: ..., Id: ...}`. -/
def Entity.literal (e : Entity) : MEntity := ⟨.zero, e.resource, e.id⟩

/-- `FromInternal` — mapper.go:46-84, which writes a composite literal for every message. -/
def fromInternalM (i : IRel) : MRelationship :=
  match fromInternal i with
  | ⟨o, rel, s⟩ => ⟨o.map Entity.literal, rel, s.map (fun s => ⟨.zero,
    match s with
    | .unset => .unset
    | .entity e => .entity e.literal
    | .entitySet e r => .entitySet .zero (e.map Entity.literal) r
    | .resourceSet n => .resourceSet .zero n⟩)⟩

/-- What `String` (relationship.pb.go:48-50), and any other use of `ProtoReflect` (lines 54-64), does to a message. -/
def Hidden.reflected (h : Hidden) : Hidden := { h with info := true }

/-- Printing or comparing an entity. -/
def MEntity.reflected (e : MEntity) : MEntity := { e with hidden := e.hidden.reflected }

/-- Printing a subject visits the messages inside. -/
def MSubject.reflected (s : MSubject) : MSubject :=
  ⟨s.hidden.reflected,
    match s.kind with
    | .unset => .unset
    | .entity e => .entity e.reflected
    | .entitySet h e r => .entitySet h.reflected (e.map MEntity.reflected) r
    | .resourceSet h n => .resourceSet h.reflected n⟩

/-- Printing a selector visits the messages inside. -/
def MSelector.reflected (m : MSelector) : MSelector :=
  { m with
    object := m.object.map (fun o => match o with | .objectSpec e => .objectSpec e.reflected | o => o)
    subject := m.subject.map (fun s => match s with | .subjectSpec s => .subjectSpec s.reflected | s => s) }

/-- `NewSelectorSpec` — selector_spec.go:19-54. -/
def newSelectorSpecM (sel : Option MSelector) : Res (MObjectSelector × RelationSelector × MSubjectSelector) := do
  let sel ← Res.deref sel
  let o ← Res.deref sel.object
  if o = .unset then .err .invalidVariant else do
  let r ← Res.deref sel.relation
  if r = .unset then .err .invalidVariant else do
  let s ← Res.deref sel.subject
  if s = .unset then .err .invalidVariant else
  return (o, r, s)

/-- Object predicates — selector_spec.go:60-76; `reflect.DeepEqual` of two pointers compares all fields of the structs, unexported or not. -/
def objectPredicateM (sel : MObjectSelector) (r : MRelationship) : Res Bool :=
  match sel with
  | .objectSpec e => .ok (decide (some e = r.object))
  | .wildcard => .ok true
  | .resourceSpec n => do
    let o ← Res.deref r.object
    return decide (o.resource = n)
  | .unset => .panic

/-- Subject predicates — selector_spec.go:90-115. -/
def subjectPredicateM (sel : MSubjectSelector) (r : MRelationship) : Res Bool :=
  match sel with
  | .subjectSpec s => .ok (decide (r.subject = some s))
  | .wildcard => .ok true
  | .resourceSpec n => do
    let s ← Res.deref r.subject
    match s.kind with
    | .entity e => return decide (e.resource = n)
    | .entitySet _ e _ => do
      let e ← Res.deref e
      return decide (e.resource = n)
    | .resourceSet _ m => return decide (m = n)
    | .unset => return false
  | .unset => .panic

/-- `RelationshipSelectorSpec.Satisfies` — selector_spec.go:56-58. -/
def selectorSatisfiesM (spec : MObjectSelector × RelationSelector × MSubjectSelector) (r : MRelationship) : Res Bool := do
  if (← objectPredicateM spec.1 r) then
    if (← relationPredicate spec.2.1 r.value) then subjectPredicateM spec.2.2 r
    else return false
  else return false

/-- `FindRelationships` — policy_repository.go:150-169. -/
def Repo.findRelationshipsM (pid : String) (sel : Option MSelector) : Prog (List Relationship) := do
  let rels ← Prog.edgeList pid
  let spec ← Prog.lift (newSelectorSpecM sel)
  let found ← Prog.lift (filterRes (selectorSatisfiesM spec) (rels.map fromInternalM))
  return found.map MRelationship.value

/-- `FindRelationshipRecords` — service.go:227-256, policy_repository.go:187-201; the validation reads exported fields only (spec.go:340-425). -/
def Service.findRelationshipRecordsM (env : Env) (pid : String) (sel : Option MSelector) : Prog (List (Option RelationshipRecord)) := do
  let policy ← Repo.getPolicy pid
  match policy with
  | none => Prog.lift (.err .policyNotFound)
  | some policy => do
    Prog.lift (validSelector (sel.map MSelector.value) policy.policy)
    let rels ← Repo.findRelationshipsM pid sel
    Prog.mapSlice (fun r => Repo.getRelationship env.H pid (some r)) rels

/-- `DeleteRelationships` — service.go:258-271, policy_repository.go:203-218. -/
def Service.deleteRelationshipsM (env : Env) (pid : String) (sel : Option MSelector) : Prog Nat := do
  let rels ← Repo.findRelationshipsM pid sel
  let founds ← Prog.mapSlice (fun r => Repo.deleteRelationship env.H pid (some r)) rels
  return founds.length

end Zanzi
