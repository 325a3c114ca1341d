import Verif.Model.Parser
import Verif.Model.Kv
import Verif.Model.Validate

/-
Model of /repo/internal/policy/types.go, helpers.go, spec.go and selector_spec.go.
-/

namespace Zanzi

/-! ### Lookup table (types.go) -/

/-- `PolicyLookUpTable` — types.go:36-39.  The relation key is the text of a `RelationFQN` message
(types.go:57-60), which is injective in the two names (Model/FqnText, C11), so the key is the pair. -/
structure Lut where
  relations : List ((String × String) × Relation)
  resources : List (String × Resource)

/-- Inner loop of `NewPolicyLookUpTable` — types.go:49-52; later entries overwrite earlier ones. -/
def lutAddRelations (resName : String) (m : List ((String × String) × Relation)) (rels : List Relation) :
    List ((String × String) × Relation) :=
  rels.foldl (fun m rel => kvPut (fun _ _ => false) m (resName, rel.name) rel) m

/-- `NewPolicyLookUpTable` — types.go:41-55. -/
def newLut (p : Policy) : Lut :=
  p.resources.foldl
    (fun lut res =>
      { resources := kvPut (fun _ _ => false) lut.resources res.name res
        relations := lutAddRelations res.name lut.relations res.relations })
    ⟨[], []⟩

/-- `PolicyLookUpTable.GetRelation` — types.go:62-69. -/
def Lut.getRelation (l : Lut) (resource relation : String) : Option Relation :=
  kvGet l.relations (resource, relation)

/-- `PolicyLookUpTable.GetResource` — types.go:71-77. -/
def Lut.getResource (l : Lut) (name : String) : Option Resource := kvGet l.resources name

/-! ### Expression of a relation (helpers.go) -/

/-- `GetExpressionTree` — helpers.go:20-37; a nil `RelationExpression` is dereferenced. -/
def getExpressionTree (U : Unicode) (r : Relation) : Res ExprTree :=
  match r.relationExpression with
  | none => .panic
  | some (.expr text) => parse U text
  | some (.tree t) => .ok t
  | some .unset => .err .invalidVariant

/-! ### ValidPolicySpec (spec.go:9-167) -/

/-- The duplicate-name loops — spec.go:45-62 and 64-76: a set of names seen so far. -/
def uniqueLoop (f : α → String × Res Unit) : List α → List String → Res Unit
  | [], _ => .ok ()
  | a :: as, names =>
    if names.contains (f a).1 then .err .duplicateDefinition
    else
      match (f a).2 with
      | .ok () => uniqueLoop f as ((f a).1 :: names)
      | .err e => .err e
      | .panic => .panic
      | .fuel => .fuel

/-- `UniqueRelationNameForResource` — spec.go:64-76. -/
def uniqueRelationNames (r : Resource) : Res Unit :=
  uniqueLoop (fun (rel : Relation) => (rel.name, .ok ())) r.relations []

/-- `UniqueResourceAndRelationsNames` — spec.go:45-62. -/
def uniqueNames (p : Policy) : Res Unit :=
  uniqueLoop (fun (r : Resource) => (r.name, uniqueRelationNames r)) p.resources []

/-- `RequiredFieldsPresent` — spec.go:41-43: the generated validator. -/
def requiredFieldsPresent (p : Policy) : Res Unit := p.validate

/-- One entry of `validSubjectRestrictionSet` — spec.go:151-165. -/
def validRestriction (lut : Lut) : Restriction → Res Unit
  | .entity n => if (lut.getResource n).isNone then .err .restriction else .ok ()
  | .entitySet n rel => if (lut.getRelation n rel).isNone then .err .restriction else .ok ()
  | .unset => .err .restriction

/-- `ValidSubjectRestriction` — spec.go:138-147 and 149-167. -/
def validSubjectRestriction (lut : Lut) : SubjectRestriction → Res Unit
  | .restrictionSet rs => forEach (validRestriction lut) rs
  | .universalSet => .ok ()
  | .unset => .err .restriction

/-- `SubjectRestrictionsConsistent` — spec.go:123-136; an absent restriction is accepted. -/
def subjectRestrictionsConsistent (p : Policy) (lut : Lut) : Res Unit :=
  forEach (fun (res : Resource) =>
    forEach (fun (rel : Relation) =>
      match rel.subjectRestriction with
      | none => .ok ()
      | some sr =>
        match validSubjectRestriction lut sr with
        | .ok () => .ok ()
        | .err _ => .err .subjectRestriction
        | .panic => .panic
        | .fuel => .fuel) res.relations) p.resources

/-- `policyContainsRelationsInRule` — spec.go:97-121.  The right-hand relation of an arrow is not
checked. -/
def policyContainsRelationsInRule (resource : String) (lut : Lut) : Rule → Res Unit
  | .cu target => if (lut.getRelation resource target).isNone then .err .relExpTree else .ok ()
  | .this => .ok ()
  | .ttu tupleset _ => if (lut.getRelation resource tupleset).isNone then .err .relExpTree else .ok ()
  | .unset => .err .invalidVariant

/-- `RelationExpressionWellDefined` — spec.go:78-95. -/
def relationExpressionWellDefined (U : Unicode) (p : Policy) (lut : Lut) : Res Unit :=
  forEach (fun (res : Resource) =>
    forEach (fun (rel : Relation) => do
      let tree ← getExpressionTree U rel
      let rules ← tree.getRules
      forEach (policyContainsRelationsInRule res.name lut) rules) res.relations) p.resources

/-- `ValidPolicySpec.Verify`/`verify` — spec.go:11-39. -/
def verifyPolicy (U : Unicode) (p : Policy) : Res Unit := do
  let lut := newLut p
  uniqueNames p
  requiredFieldsPresent p
  subjectRestrictionsConsistent p lut
  relationExpressionWellDefined U p lut

/-! ### AllowedRelationshipSpec and SubjectRestrictionSpec (spec.go:171-335) -/

/-- `AllowedRelationshipSpec.requiredFields` — spec.go:175-181: the generated validator; a nil relationship pointer passes. -/
def relRequiredFields (r : Option Relationship) : Res Unit :=
  match validateOpt Relationship.validate r with
  | .ok () => .ok ()
  | .err _ => .err .invalidRelationship
  | .panic => .panic
  | .fuel => .fuel

/-- `checkSymbols` — spec.go:185-220. -/
def checkSymbols (rel : Option Relationship) (lut : Lut) : Res Unit := do
  let r ← Res.deref rel
  let o ← Res.deref r.object
  if (lut.getResource o.resource).isNone then .err .resourceNotFound else
  if (lut.getRelation o.resource r.relation).isNone then .err .relationNotFound else do
  let s ← Res.deref r.subject
  match s with
  | .entity e => if (lut.getResource e.resource).isNone then .err .resourceNotFound else .ok ()
  | .entitySet e rel => do
    let e ← Res.deref e
    if (lut.getRelation e.resource rel).isNone then .err .relationNotFound else .ok ()
  | .resourceSet n => if (lut.getResource n).isNone then .err .resourceNotFound else .ok ()
  | .unset => .err .invalidVariant

/-- `satisfiesRestriction` — spec.go:322-335: subjects that are entities or resource sets. -/
def satisfiesRestriction (resource : String) : Restriction → Bool
  | .entity n => n == resource
  | .entitySet _ _ => false
  | .unset => false

/-- `satisfiesRestrictionForEntitySet` — spec.go:302-318. -/
def satisfiesRestrictionForEntitySet (resource relation : String) : Restriction → Bool
  | .entity _ => false
  | .entitySet n rel => n == resource && rel == relation
  | .unset => false

/-- `satisfiesRestrictionSet` — spec.go:276-298. -/
def satisfiesRestrictionSet (s : Subject) (rs : List Restriction) : Res Unit :=
  match s with
  | .entity e => if rs.any (satisfiesRestriction e.resource) then .ok () else .err .restriction
  | .entitySet none _ => .panic
  | .entitySet (some e) rel =>
    if rs.any (satisfiesRestrictionForEntitySet e.resource rel) then .ok () else .err .restriction
  | .resourceSet n => if rs.any (satisfiesRestriction n) then .ok () else .err .restriction
  | .unset => if rs.any (satisfiesRestriction "") then .ok () else .err .restriction

/-- `SubjectRestrictionSpec.Satisfies` — spec.go:252-274; `relation.SubjectRestriction` is dereferenced. -/
def subjectRestrictionSatisfies (r : Relationship) (lut : Lut) : Res Unit := do
  let o ← Res.deref r.object
  match lut.getRelation o.resource r.relation with
  | none => .err .relationNotFound
  | some relation => do
    let restriction ← Res.deref relation.subjectRestriction
    match restriction with
    | .universalSet => .ok ()
    | .restrictionSet rs => do
      let s ← Res.deref r.subject
      match satisfiesRestrictionSet s rs with
      | .ok () => .ok ()
      | .err _ => .err .subjectNotAllowed
      | .panic => .panic
      | .fuel => .fuel
    | .unset => .err .subjectNotAllowed

/-- `AllowedRelationshipSpec.Satisfies` — spec.go:222-245. -/
def allowedRelationship (rel : Option Relationship) (lut : Lut) : Res Unit := do
  relRequiredFields rel
  checkSymbols rel lut
  let r ← Res.deref rel
  subjectRestrictionSatisfies r lut

/-! ### Selectors (selector.proto, spec.go:337-425, selector_spec.go) -/

/-- selector.proto `ObjectSelector`. -/
inductive ObjectSelector where
  | unset
  | objectSpec (e : Entity)
  | resourceSpec (resource : String)
  | wildcard
  deriving DecidableEq, Repr

/-- selector.proto `RelationSelector`. -/
inductive RelationSelector where
  | unset
  | relationName (name : String)
  | wildcard
  deriving DecidableEq, Repr

/-- selector.proto `SubjectSelector`. -/
inductive SubjectSelector where
  | unset
  | subjectSpec (s : Subject)
  | resourceSpec (resource : String)
  | wildcard
  deriving DecidableEq, Repr

/-- selector.proto `RelationshipSelector`. -/
structure Selector where
  object : Option ObjectSelector
  relation : Option RelationSelector
  subject : Option SubjectSelector
  deriving DecidableEq, Repr

/-- `allRelationshipsSelector` — helpers.go:12-18. -/
def allSelector : Selector := ⟨some .wildcard, some .wildcard, some .wildcard⟩

/-- `validObjectSelector` — spec.go:359-377 (`selector.Selector` on a nil selector panics; the error for an unset
selector is formatted with `%v`, line 374, so it wraps no sentinel). -/
def validObjectSelector (s : Option ObjectSelector) (p : Policy) : Res Unit := do
  let s ← Res.deref s
  match s with
  | .objectSpec e => if (p.getResourceByName e.resource).isNone then .err .resourceNotFound else .ok ()
  | .resourceSpec n => if (p.getResourceByName n).isNone then .err .resourceNotFound else .ok ()
  | .wildcard => .ok ()
  | .unset => .err .restriction

/-- `getObjectSelectorResourceName` — spec.go:396-404. -/
def objectSelectorResourceName : ObjectSelector → String
  | .objectSpec e => e.resource
  | .resourceSpec n => n
  | _ => ""

/-- `validRelationSelector` — spec.go:379-394.  The generated getters accept a nil receiver, so a nil relation
selector counts as the empty relation name; `GetRelationByName` on a missing resource panics. -/
def validRelationSelector (o : Option ObjectSelector) (r : Option RelationSelector) (p : Policy) : Res Unit := do
  match r with
  | some .wildcard => .ok ()
  | _ => do
    let relName := match r with
      | some (.relationName n) => n
      | _ => ""
    let o ← Res.deref o
    let resource := p.getResourceByName (objectSelectorResourceName o)
    let relation ← getRelationByName resource relName
    if relation.isNone then .err .relationNotFound else .ok ()

/-- `validSubjectSelector` — spec.go:406-425. -/
def validSubjectSelector (s : Option SubjectSelector) (p : Policy) : Res Unit := do
  let s ← Res.deref s
  match s with
  | .resourceSpec n => if (p.getResourceByName n).isNone then .err .resourceNotFound else .ok ()
  | .subjectSpec s => if (p.getResourceByName s.getResourceName).isNone then .err .resourceNotFound else .ok ()
  | .wildcard => .ok ()
  | .unset => .err .invalidVariant

/-- `ValidSelectorSpec.Satisfies` — spec.go:340-357. -/
def validSelector (sel : Option Selector) (p : Policy) : Res Unit := do
  let sel ← Res.deref sel
  validObjectSelector sel.object p
  validRelationSelector sel.object sel.relation p
  validSubjectSelector sel.subject p

/-- `NewSelectorSpec` — selector_spec.go:19-54: the checks made when the predicate is built. -/
def newSelectorSpec (sel : Option Selector) : Res (ObjectSelector × RelationSelector × SubjectSelector) := do
  let sel ← Res.deref sel
  let o ← Res.deref sel.object
  if o = .unset then .err .invalidVariant else do
  let r ← Res.deref sel.relation
  if r = .unset then .err .invalidVariant else do
  let s ← Res.deref sel.subject
  if s = .unset then .err .invalidVariant else
  return (o, r, s)

/-- Object predicates — selector_spec.go:60-76; `reflect.DeepEqual` is read as
equality of the message fields (it also compares the unexported bookkeeping fields of the generated
structs; Model/Hidden has them, and C85 says when that makes a difference). -/
def objectPredicate (sel : ObjectSelector) (r : Relationship) : Res Bool :=
  match sel with
  | .objectSpec e => .ok (decide (r.object = some e))
  | .wildcard => .ok true
  | .resourceSpec n => do
    let o ← Res.deref r.object
    return decide (o.resource = n)
  | .unset => .panic

/-- Relation predicates — selector_spec.go:78-88. -/
def relationPredicate (sel : RelationSelector) (r : Relationship) : Res Bool :=
  match sel with
  | .relationName n => .ok (decide (r.relation = n))
  | .wildcard => .ok true
  | .unset => .panic

/-- Subject predicates — selector_spec.go:90-115. -/
def subjectPredicate (sel : SubjectSelector) (r : Relationship) : Res Bool :=
  match sel with
  | .subjectSpec s => .ok (decide (r.subject = some s))
  | .wildcard => .ok true
  | .resourceSpec n => do
    let s ← Res.deref r.subject
    match s with
    | .entity e => return decide (e.resource = n)
    | .entitySet e _ => do
      let e ← Res.deref e
      return decide (e.resource = n)
    | .resourceSet m => return decide (m = n)
    | .unset => return false
  | .unset => .panic

/-- `RelationshipSelectorSpec.Satisfies` — selector_spec.go:56-58, with Go's short-circuit `&&`. -/
def selectorSatisfies (spec : ObjectSelector × RelationSelector × SubjectSelector) (r : Relationship) : Res Bool := do
  if (← objectPredicate spec.1 r) then
    if (← relationPredicate spec.2.1 r) then subjectPredicate spec.2.2 r
    else return false
  else return false

end Zanzi
