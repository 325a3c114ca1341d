import Verif.Model.Builder
import Verif.Model.Yaml
import Verif.Model.Containers
import Verif.Props.Check

/-
The repository's own tests, replayed on the model.  These are tests of the model, not proofs of properties: each `example` runs
the calls of one Go test and states what the Go test requires.  Sources: /repo/test/integration/policy_service_test.go,
/repo/test/integration/relation_graph/relation_graph_test.go and fixture.go, /repo/internal/store/store_test_suite.go,
/repo/internal/relation_expression_parser/{lexer,parser,primitives}_test.go, /repo/pkg/domain/relation_expression_tree_test.go,
/repo/pkg/policy_definition/unmarshaler_test.go, /repo/pkg/types/map_graph_test.go and the program /repo/example/embedded/main.go.

Two of these Go tests do not agree with the Go code they test, and so not with the model:
`TestCreatePolicy` (policy_service_test.go:244-246) requires an empty response where service.go:61-63 returns the record, and
`TestSetRelationshipWithEmptyObjectErrorsOut` (policy_service_test.go:491-503) requires a refusal by the generated validator, which has no
rules (relationship.pb.validate.go:52-68; this is `C10_violated`).  The examples there state what the code does.
-/

namespace Zanzi.RepoTests

open RelationshipBuilder

/-- The parts of responses the tests look at. -/
inductive Said where
  | created (rec : PolicyRecord)
  | updated
  | deletedPolicy (found : Bool) (removed : Nat)
  | policy (rec : Option PolicyRecord)
  | ids (l : List String)
  | overwritten (b : Bool)
  | relationship (r : Option RelationshipRecord)
  | authorized (b : Bool)
  | refused (e : Err)
  | other
  deriving DecidableEq

def said : Res Answer → Said
  | .ok (.created r) => .created r
  | .ok .updated => .updated
  | .ok (.deletedPolicy f n) => .deletedPolicy f n
  | .ok (.policy r) => .policy r
  | .ok (.ids l) => .ids l
  | .ok (.overwritten b) => .overwritten b
  | .ok (.relationship r) => .relationship r
  | .ok (.authorized b) => .authorized b
  | .err e => .refused e
  | _ => .other

/-- What a fresh server answers to requests made one after the other. -/
def answers (env : Env) (cs : List Call) : List Said := (runCalls env cs Store.empty).1.map said

def relDef (name description expr : String) (sr : SubjectRestriction) : Relation := ⟨name, description, some (.expr expr), some sr⟩

/-- `testPolicy` — policy_service_test.go:51-131; `setupPolicy` — fixture.go:7-87; `policyDef` — store_test_suite.go:26-106. -/
def testPolicy : Policy where
  id := "10"
  name := "test"
  description := "a test policy"
  resources := [
    ⟨"file", "file resource", [
      relDef "owner" "file owner" "_this" .universalSet,
      relDef "read" "allowed to read file" "owner + directory->owner" (.restrictionSet []),
      relDef "directory" "references the directory which contains the file" "_this" .universalSet]⟩,
    ⟨"directory", "directories", [relDef "owner" "directory owner" "_this" .universalSet]⟩,
    ⟨"user", "", []⟩]
  attributes := [("foo", "bar")]

/-- `restrictedPolicy` — policy_service_test.go:133-220. -/
def restrictedPolicy : Policy where
  id := "11"
  name := "test"
  description := "policy with restrictions"
  resources := [
    ⟨"a", "", [
      relDef "empty_restriction_set" "" "_this" (.restrictionSet []),
      relDef "universal" "" "_this" .universalSet,
      relDef "entity or entity set" "userset restriction" "_this" (.restrictionSet [.entity "group", .entitySet "group" "member"])]⟩,
    ⟨"group", "", [relDef "member" "" "_this" .universalSet]⟩]

/-- A create request made at time 7. -/
def create (p : Policy) (appData : Bytes) : Call := .createPolicy 7 (some (.policy p)) appData
/-- A set request made at time 8. -/
def set (pid : String) (r : Relationship) (appData : Bytes) : Call := .setRelationship 8 pid (some r) appData
/-- A selector made by the builder. -/
def sel (ops : List SelectorOp) : Option Selector := some (SelectorBuilder.run ops).build

/-! ### policy_service_test.go -/

/-- `TestCreatePolicy`, with the response the code gives. -/
example : answers gEnv [create testPolicy [1], .getPolicy "10"] = [.created ⟨testPolicy, [1], 7⟩, .policy (some ⟨testPolicy, [1], 7⟩)] := by
  decide +kernel

/-- `TestCreatePolicyWithIdClashRaisesError`. -/
example : answers gEnv [create testPolicy [1], create testPolicy [2]] = [.created ⟨testPolicy, [1], 7⟩, .refused .policyExists] := by
  decide +kernel

/-- `TestUpdatePolicyUpdatesPolicy`. -/
example : answers gEnv [create testPolicy [1], .updatePolicy (some (.policy { testPolicy with name := "some name" })) [2], .getPolicy "10"] =
    [.created ⟨testPolicy, [1], 7⟩, .updated, .policy (some ⟨{ testPolicy with name := "some name" }, [2], 7⟩)] := by decide +kernel

/-- `TestGetNonExistingPolicyReturnsNil`. -/
example : answers gEnv [.getPolicy "10"] = [.policy none] := by decide +kernel

/-- `TestDeletingPolicyRemovesFromStore`. -/
example : answers gEnv [create testPolicy [1], .deletePolicy "10", .getPolicy "10"] =
    [.created ⟨testPolicy, [1], 7⟩, .deletedPolicy true 0, .policy none] := by decide +kernel

/-- `TestDeletingNonExistingPolicyReturnsNotFound`. -/
example : answers gEnv [.deletePolicy "10"] = [.deletedPolicy false 0] := by decide +kernel

/-- `TestSetRelationshipAllowedBySubjectRestrictionRulesSavesRelationship`. -/
example : answers gEnv [create testPolicy [1], set "10" (relationship "file" "readme.txt" "owner" "user" "bob") [9],
      .getRelationship "10" (some (relationship "file" "readme.txt" "owner" "user" "bob"))] =
    [.created ⟨testPolicy, [1], 7⟩, .overwritten false, .relationship (some ⟨"10", relationship "file" "readme.txt" "owner" "user" "bob", 8, [9]⟩)] := by
  decide +kernel

/-- `TestSetRelationshipNotAllowedByRestrictionGraphErrors`, `…WithUnknownObjectResourceErrors`, `…WithUnknownSubjectResourceErrors` and
`…WithUnknownRelationErrors`. -/
example : answers gEnv [create restrictedPolicy [1],
      set "11" (relationship "a" "blah" "empty_restriction_set" "group" "testers") [],
      set "11" (relationship "unknown" "blah" "empty_restriction_set" "group" "testers") [],
      set "11" (relationship "a" "blah" "empty_restriction_set" "foo" "testers") [],
      set "11" (relationship "a" "blah" "no" "group" "testers") []] =
    [.created ⟨restrictedPolicy, [1], 7⟩, .refused .subjectNotAllowed, .refused .resourceNotFound, .refused .resourceNotFound,
      .refused .relationNotFound] := by decide +kernel

/-- `TestSetRelationshipWithEmptyObjectErrorsOut`: the Go test requires `ErrInvalidRelationship`; the code accepts (C10). -/
example : answers gEnv [create restrictedPolicy [1], set "11" (relationship "a" "" "universal" "group" "testers") []] =
    [.created ⟨restrictedPolicy, [1], 7⟩, .overwritten false] := by decide +kernel

/-- `TestListPolicyIdsReturnsAllPolicies`. -/
example : answers gEnv [create testPolicy [1], create restrictedPolicy [1], .listPolicyIds] =
    [.created ⟨testPolicy, [1], 7⟩, .created ⟨restrictedPolicy, [1], 7⟩, .ids ["10", "11"]] := by decide +kernel

/-- The three `TestFindRelationshipRecords_…` tests. -/
example : answers gEnv [create testPolicy [1],
      .findRelationshipRecords "10" (sel [.withObject ⟨"unknown-resource", "abc"⟩, .anyRelation, .anySubject]),
      .findRelationshipRecords "10" (sel [.withObject ⟨"file", "abc"⟩, .withRelation "a-relation", .anySubject]),
      .findRelationshipRecords "10" (sel [.withObject ⟨"file", "abc"⟩, .withRelation "owner", .withSubject (.entity ⟨"missing-resource", "abc"⟩)])] =
    [.created ⟨testPolicy, [1], 7⟩, .refused .resourceNotFound, .refused .relationNotFound, .refused .resourceNotFound] := by decide +kernel

/-! ### relation_graph_test.go -/

/-- `TestCheckForSimpleObject`. -/
example : answers gEnv [create testPolicy [1], set "10" (relationship "file" "readme" "owner" "user" "bob") [],
      .check 10 "10" (some ⟨some ⟨"file", "readme"⟩, "read", some ⟨"user", "bob"⟩⟩)] =
    [.created ⟨testPolicy, [1], 7⟩, .overwritten false, .authorized true] := by decide +kernel

/-! ### store_test_suite.go -/

/-- `TestPolicySetGet`. -/
example : ((Repo.setPolicy ⟨testPolicy, [1], 7⟩).run Store.empty).1 = .ok false ∧
    ((Repo.getPolicy "10").run ((Repo.setPolicy ⟨testPolicy, [1], 7⟩).run Store.empty).2).1 = .ok (some ⟨testPolicy, [1], 7⟩) := by decide +kernel

/-- `TestDeletingASetPolicy`. -/
example : ((Repo.deletePolicy "10").run ((Repo.setPolicy ⟨testPolicy, [1], 7⟩).run Store.empty).2).1 = .ok true := by decide +kernel

/-- `TestDeletingAnUnknownPolicyDoesNotErrorOut`. -/
example : ((Repo.deletePolicy "").run Store.empty).1 = .ok false := by decide +kernel

/-- `TestListingPolicyIdsReturnAllIds`. -/
example : (Repo.listPolicyIds.run ((Repo.setPolicy ⟨{ id := "2", resources := [] }, [], 0⟩).run
    ((Repo.setPolicy ⟨{ id := "1", resources := [] }, [], 0⟩).run Store.empty).2).2).1 = .ok ["1", "2"] := by decide +kernel

/-! ### relation_expression_parser -/

/-- `TestTokens` — lexer_test.go:11-29. -/
example : lex U0 "read + write - admin & (res->root)".toList = some [⟨.identifier, "read"⟩, ⟨.union, "+"⟩, ⟨.identifier, "write"⟩,
    ⟨.difference, "-"⟩, ⟨.identifier, "admin"⟩, ⟨.intersection, "&"⟩, ⟨.groupBegin, "("⟩, ⟨.identifier, "res"⟩, ⟨.arrow, "->"⟩,
    ⟨.identifier, "root"⟩, ⟨.groupEnd, ")"⟩, ⟨.eof, ""⟩] := by decide +kernel

/-- `TestExpressionParserSimple`, `…Nested` and `…DoublyNested` — parser_test.go:11-60. -/
example : parse U0 "a + b" = .ok (.op (.rule (.cu "a")) .union (.rule (.cu "b"))) ∧
    parse U0 "a + (c - d) + b" =
      .ok (.op (.op (.rule (.cu "a")) .union (.op (.rule (.cu "c")) .difference (.rule (.cu "d")))) .union (.rule (.cu "b"))) ∧
    parse U0 "a + (_this - (f->g & d)) + b" =
      .ok (.op (.op (.rule (.cu "a")) .union (.op (.rule .this) .difference (.op (.rule (.ttu "f" "g")) .intersection (.rule (.cu "d")))))
        .union (.rule (.cu "b"))) := by decide +kernel

/-- `TestRuleParserTTU`, `TestRuleParserCU` and `TestRuleParserThis` — parser_test.go:62-101. -/
example : ruleParser [⟨.identifier, "from"⟩, ⟨.arrow, ""⟩, ⟨.identifier, "to"⟩, ⟨.identifier, "tail"⟩] =
      .ok (.rule (.ttu "from" "to"), [⟨.identifier, "tail"⟩]) ∧
    ruleParser [⟨.identifier, "relation"⟩, ⟨.identifier, "to"⟩] = .ok (.rule (.cu "relation"), [⟨.identifier, "to"⟩]) ∧
    ruleParser [⟨.this, ""⟩, ⟨.identifier, "tail"⟩] = .ok (.rule .this, [⟨.identifier, "tail"⟩]) := by decide +kernel

/-- primitives_test.go:16-94. -/
example : unitP [⟨.identifier, "first"⟩, ⟨.identifier, "second"⟩] = .ok (⟨.identifier, "first"⟩, [⟨.identifier, "second"⟩]) ∧
    unitP [] = .err .parse ∧
    many unitP [⟨.identifier, "first"⟩, ⟨.identifier, "second"⟩, ⟨.this, ""⟩] =
      .ok ([⟨.identifier, "first"⟩, ⟨.identifier, "second"⟩, ⟨.this, ""⟩], []) ∧
    many unitP [] = .ok ([], []) ∧
    parseIfAnyType [.groupBegin, .groupEnd, .arrow] [⟨.identifier, "first"⟩] = .err .parse ∧
    parseIfAnyType [.groupBegin, .identifier, .arrow] [⟨.identifier, "first"⟩] = .ok (⟨.identifier, "first"⟩, []) := by decide +kernel

/-- relation_expression_tree_test.go. -/
example : (ExprTree.rule .this).print = .ok "_this" ∧ (ExprTree.rule (.cu "relation")).print = .ok "relation" ∧
    (ExprTree.rule (.ttu "parent" "owner")).print = .ok "parent->owner" ∧
    (ExprTree.op (.rule (.cu "left")) .union (.rule (.cu "right"))).print = .ok "(left + right)" ∧
    (ExprTree.op (.rule (.cu "left")) .intersection (.rule (.cu "right"))).print = .ok "(left & right)" ∧
    (ExprTree.op (.rule (.cu "left")) .difference (.rule (.cu "right"))).print = .ok "(left - right)" := by decide +kernel

/-! ### map_graph_test.go -/

/-- The diamond a → b, c → d of map_graph_test.go:20-32. -/
def diamond : MapGraph String :=
  [("a", "b"), ("a", "c"), ("b", "d"), ("c", "d")].foldl (fun g e => (g.setEdge e.1 e.2).2)
    (["a", "b", "c", "d"].foldl (fun g n => g.setNode n n) .new)

/-- `TestAddingANodeReturnsIt`, `TestGetAncestorsReturnAncestorNodes` and `TestGetSucessorsReturnDirectChild`. -/
example : (MapGraph.setNode .new "a" "node a").getNode "a" = some "node a" ∧
    diamond.getAncestors listOrder "b" = ["a"] ∧ (diamond.getSucessors listOrder "a").Perm ["b", "c"] := by decide +kernel

/-! ### unmarshaler_test.go -/

/-- The refusal of a definition. -/
def refusal {α : Type} : Res α → Option Err
  | .err e => some e
  | _ => none

/-- `TestUnmarshalPolicyDefinitionFailsIfDefinitionHasExtraFields`. -/
example : refusal (Yaml.definition (.map [("extra_field", .scalar "askfjaskdfj"), ("name", .scalar "Pastebin Policy"),
    ("resources", .map [("snippet", .map [("relations", .map [("author", .null)])])])])) = some .yaml := by decide +kernel

/-! ### example/embedded/main.go -/

/-- `policyYaml` — main.go:96-146, as a document tree. -/
def embeddedYaml : Yaml := .map [
  ("id", .scalar "10"), ("name", .scalar "test"), ("doc", .scalar "test policy"),
  ("resources", .map [
    ("file", .map [("doc", .scalar "file resource"), ("relations", .map [
      ("owner", .map [("expr", .scalar "_this"), ("types", .seq [.scalar "*"])]),
      ("parent", .map [("expr", .scalar "_this"), ("types", .seq [.scalar "directory"])]),
      ("read", .map [("expr", .scalar "owner + parent->read"), ("types", .seq [])])])]),
    ("directory", .map [("relations", .map [
      ("owner", .map [("types", .seq [.scalar "user", .scalar "group:member", .scalar "group:owner"]), ("expr", .scalar "_this")]),
      ("reader", .map [("expr", .scalar "_this"), ("types", .seq [.scalar "user", .scalar "group:member"])]),
      ("read", .map [("expr", .scalar "owner + reader")])])]),
    ("group", .map [("relations", .map [
      ("member", .map [("expr", .scalar "_this + owner"), ("types", .seq [.scalar "user"])]),
      ("owner", .map [("expr", .scalar "_this"), ("types", .seq [.scalar "user"])])])]),
    ("user", .null)]),
  ("attributes", .map [("foo", .scalar "bar")])]

/-- A server whose YAML reader reads that document. -/
def embeddedEnv : Env := gEnv.withYaml (fun _ => .ok embeddedYaml)

/-- `relationships` — main.go:150-157. -/
def embeddedRels : List Relationship := [
  relationship "file" "readme" "owner" "user" "charlie",
  relationship "file" "readme" "parent" "directory" "proj",
  entitySet "directory" "proj" "owner" "group" "eng" "owner",
  entitySet "directory" "proj" "reader" "group" "eng" "member",
  relationship "group" "eng" "owner" "user" "alice",
  relationship "group" "eng" "member" "user" "bob"]

def embeddedSetup : List Call := .createPolicy 7 (some (.yaml "policyYaml")) [] :: embeddedRels.map (fun r => set "10" r [])

/-- `setupData` ends without `log.Fatal` — main.go:70-94. -/
example : ((answers embeddedEnv embeddedSetup).drop 1) = List.replicate 6 (.overwritten false) := by decide +kernel

/-- The file is readable by its owner and, through the directory and the group, by bob and alice, and by nobody else. -/
example : ["charlie", "bob", "alice", "dave"].map (fun u =>
      said (serve embeddedEnv (.check 20 "10" (some ⟨some ⟨"file", "readme"⟩, "read", some ⟨"user", u⟩⟩)) (runCalls embeddedEnv embeddedSetup Store.empty).2).1) =
    [.authorized true, .authorized true, .authorized true, .authorized false] := by decide +kernel

end Zanzi.RepoTests
