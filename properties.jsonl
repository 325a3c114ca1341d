{"id": "C01", "title": "Expression print/parse round trip", "statement": "Printing a relation expression tree in the mini language and parsing the text again yields the same tree, so a policy can be exported as text and re-imported without changing its meaning.", "quantifier": "every expression tree (any depth and operator mix) whose relation names are legal identifiers", "why_tests_cant": "the set of trees is infinite; tests sample a handful of shapes", "anchors": ["internal/relation_expression_parser/parser.go:Parse", "internal/relation_expression_parser/lexer.go:scan", "pkg/domain/relation_expression_tree.go:RelationExpression"]}
{"id": "C02", "title": "Parser accepts exactly the documented grammar, left associative", "statement": "A text is accepted as a relation expression exactly when it is a rendering of the documented grammar (rules combined with + & - and parentheses), all operators having equal precedence and grouping to the left; the tree returned is the one the grammar assigns.", "quantifier": "every input text", "why_tests_cant": "acceptance of every legal text and rejection of every illegal text range over an infinite language", "anchors": ["internal/relation_expression_parser/parser.go:expressionParser,termParser,ruleParser", "internal/relation_expression_parser/doc.go", "docs/relation-expression.md"]}
{"id": "C03", "title": "Parsing always terminates and never panics", "statement": "Submitting any text as a relation expression returns either a tree or an error; it never loops forever, never indexes out of range and never panics.", "quantifier": "every input text, including empty text and unbounded nesting", "why_tests_cant": "non-termination and out-of-range panics on some input cannot be excluded by sampling inputs", "anchors": ["internal/relation_expression_parser/parser.go:Parse", "internal/relation_expression_parser/primitives.go:many,first,parseIf", "internal/relation_expression_parser/lexer.go:scan"]}
{"id": "C04", "title": "Parse result does not depend on goroutine scheduling", "statement": "The lexer runs in its own goroutine and hands tokens over a bounded channel; for every interleaving the parser sees the same token sequence, the consumer neither misses nor duplicates a token, and the pair cannot deadlock.", "quantifier": "every interleaving of producer and consumer, every token sequence, every channel capacity of at least one", "why_tests_cant": "a test run exhibits a few schedules only", "anchors": ["internal/relation_expression_parser/lexer.go:NewLexer,emit,Lex", "internal/utils/utils.go:ConsumeChan", "internal/relation_expression_parser/parser.go:Parse"]}
{"id": "C05", "title": "Whitespace and redundant layout do not change an expression's meaning", "statement": "Adding or removing whitespace around tokens, where the tokens stay separated, does not change the parsed tree.", "quantifier": "every token sequence and every choice of whitespace between tokens", "why_tests_cant": "unbounded combinations of layouts", "anchors": ["internal/relation_expression_parser/lexer.go:skipSpaces,scan"]}
{"id": "C06", "title": "Every relation name can be referenced in an expression", "statement": "Every relation name made of letters, digits and underscores can be used in a relation expression and is read back as that name.", "quantifier": "every identifier", "why_tests_cant": "infinitely many identifiers; the failing ones are those beginning with the keyword", "anchors": ["internal/relation_expression_parser/lexer.go:lexTerminal,lexIdentifier,scan", "docs/relation-expression.md"]}
{"id": "C07", "title": "Accepted policies have unambiguous names", "statement": "CreatePolicy and UpdatePolicy accept a policy only if resource names are pairwise distinct and relation names are pairwise distinct inside each resource.", "quantifier": "every submitted policy", "why_tests_cant": "policies are unbounded in size", "anchors": ["internal/policy/spec.go:UniqueResourceAndRelationsNames,UniqueRelationNameForResource"]}
{"id": "C08", "title": "Accepted policies only reference relations they define", "statement": "In every accepted policy each relation named by an expression or by a subject restriction exists: computed relations and tupleset relations exist in the same resource, the relation on the right of an arrow exists in the resources the tupleset can point to, and restriction entries name existing resources and relations.", "quantifier": "every submitted policy", "why_tests_cant": "policies and expressions are unbounded", "anchors": ["internal/policy/spec.go:RelationExpressionWellDefined,policyContainsRelationsInRule,SubjectRestrictionsConsistent"]}
{"id": "C09", "title": "Policy validation is exact", "statement": "A well formed policy is accepted exactly when names are unique, restrictions are consistent and every rule reference checked by the validator resolves; nothing else makes validation fail.", "quantifier": "every policy", "why_tests_cant": "needs all policies, both directions", "anchors": ["internal/policy/spec.go:verify"]}
{"id": "C10", "title": "Required fields are enforced", "statement": "Fields documented as required (min length one: policy id, resource and relation names, entity resource and id, relationship relation) are never empty in accepted policies and relationships.", "quantifier": "every CreatePolicy, UpdatePolicy and SetRelationship request", "why_tests_cant": "must hold for every request", "anchors": ["proto/zanzi/zanzi/domain/policy.proto", "proto/zanzi/zanzi/domain/relationship.proto", "pkg/domain/policy.pb.validate.go", "pkg/domain/relationship.pb.validate.go", "internal/policy/spec.go:RequiredFieldsPresent,requiredFields"]}
{"id": "C11", "title": "Relation lookup is exact", "statement": "Looking up a (resource, relation) pair in an accepted policy yields precisely the relation declared under that resource with that name, and nothing for undeclared pairs; two different pairs never alias.", "quantifier": "every accepted policy and every pair of names", "why_tests_cant": "all pairs of strings", "anchors": ["internal/policy/types.go:NewPolicyLookUpTable,GetRelation,GetResource,buildRelationKey"]}
{"id": "C12", "title": "Relationship admission is exact", "statement": "SetRelationship succeeds exactly when the policy exists, the object's resource and relation and the subject's resource (and relation) are declared, and the relation's subject restriction permits the subject: universal permits anything, an entity entry permits entities and wildcards of that resource, an entity-set entry permits exactly that resource and relation.", "quantifier": "every policy and every relationship", "why_tests_cant": "all policies times all relationships", "anchors": ["internal/policy/spec.go:AllowedRelationshipSpec,SubjectRestrictionSpec", "internal/policy/service.go:SetRelationship"]}
{"id": "C13", "title": "A rejected request changes nothing", "statement": "Whenever a policy-service write returns an error because the request was invalid, every stored policy, relationship and record is unchanged.", "quantifier": "every state and every rejected CreatePolicy, UpdatePolicy or SetRelationship request", "why_tests_cant": "all states and requests", "anchors": ["internal/policy/service.go:CreatePolicy,UpdatePolicy,SetRelationship"]}
{"id": "C14", "title": "No API request crashes the service", "statement": "No request, however malformed, makes a service method panic.", "quantifier": "every request including ones with absent sub-messages, and every reachable store", "why_tests_cant": "panics hide in rare combinations of absent fields", "anchors": ["internal/policy/service.go", "internal/policy/spec.go", "internal/relation_graph/service.go", "internal/relation_graph/searcher.go", "internal/relation_graph/rule_evaluator.go:buildTupleToUsersetNode"]}
{"id": "C15", "title": "Read your writes", "statement": "After SetRelationship succeeds, GetRelationship for the same policy and relationship returns a record with that policy, relationship, application data and creation time, until the relationship is overwritten or deleted.", "quantifier": "every state, relationship and payload, and every later history not touching the relationship", "why_tests_cant": "needs all histories", "anchors": ["internal/store/kv_store/policy_repository.go:SetRelationship,GetRelationship", "internal/store/kv_store/mapper.go:FromInternalRecord"]}
{"id": "C16", "title": "Overwrite flag is exact", "statement": "SetRelationship reports RecordOverwritten exactly when that relationship was already present in that policy.", "quantifier": "every history", "why_tests_cant": "needs all histories", "anchors": ["internal/store/kv_store/policy_repository.go:SetRelationship"]}
{"id": "C17", "title": "Deleted relationships are gone, and the found flag is exact", "statement": "DeleteRelationship reports Found exactly when the relationship was present in the policy, afterwards it is absent, deleting again reports not found and changes nothing.", "quantifier": "every state and relationship", "why_tests_cant": "needs all states", "anchors": ["internal/store/kv_store/policy_repository.go:DeleteRelationship"]}
{"id": "C18", "title": "Find returns exactly the matching relationships", "statement": "FindRelationshipRecords returns one record for each stored relationship of the policy matched by the selector, nothing else, and no duplicates; object, relation and subject selectors are combined conjunctively with their documented meaning.", "quantifier": "every state and selector", "why_tests_cant": "all states times all selectors", "anchors": ["internal/policy/selector_spec.go", "internal/store/kv_store/policy_repository.go:FindRelationships,FindRelationshipRecords"]}
{"id": "C19", "title": "Bulk delete removes exactly what find would return", "statement": "DeleteRelationships removes exactly the relationships matching the selector, leaves every other relationship of every policy in place, and reports exactly the number removed.", "quantifier": "every state and selector", "why_tests_cant": "all states times all selectors", "anchors": ["internal/store/kv_store/policy_repository.go:DeleteRelationships"]}
{"id": "C20", "title": "Policies are isolated from each other", "statement": "No operation on one policy changes what relationship reads, record reads, finds or checks return for another policy.", "quantifier": "every state, pair of policies and operation", "why_tests_cant": "needs all pairs of policies and histories", "anchors": ["internal/store/kv_store/kv_store.go:getRelationshipStore,getRelationshipDataStore", "internal/store/kv_store/policy_repository.go"]}
{"id": "C21", "title": "Distinct relationships never alias in storage", "statement": "Setting, reading or deleting one relationship never affects a different relationship of the same policy, whatever characters resource names, ids and relation names contain.", "quantifier": "every pair of distinct relationships", "why_tests_cant": "collisions occur only for particular string splits", "anchors": ["internal/store/kv_store/model.go:relationNodeKeyer.Key"]}
{"id": "C22", "title": "Policy listing is exact", "statement": "ListPolicyIds returns exactly the ids of the policies created and not since deleted, each once, in key order.", "quantifier": "every history", "why_tests_cant": "needs all histories", "anchors": ["internal/store/kv_store/policy_repository.go:ListPolicyIds", "internal/policy/service.go:ListPolicyIds"]}
{"id": "C23", "title": "Create is exclusive", "statement": "CreatePolicy on an id that exists fails with 'policy exists' and leaves the existing policy and its relationships untouched; on a fresh id with a valid policy it succeeds and GetPolicy returns the created record.", "quantifier": "every state and request", "why_tests_cant": "all states", "anchors": ["internal/policy/service.go:CreatePolicy"]}
{"id": "C24", "title": "Update requires existence and preserves history", "statement": "UpdatePolicy fails with 'policy not found' on an unknown id; otherwise it replaces the policy and application data, keeps the creation time, and leaves relationships of all policies unchanged.", "quantifier": "every state and request", "why_tests_cant": "all states", "anchors": ["internal/policy/service.go:UpdatePolicy"]}
{"id": "C25", "title": "Deleting a policy removes all its relationships", "statement": "After DeletePolicy reports found, the policy and every relationship of it are gone, the reported count is the number of relationships it had, other policies keep theirs, and re-creating the policy starts with no relationships.", "quantifier": "every state", "why_tests_cant": "all states", "anchors": ["internal/policy/service.go:DeletePolicy", "internal/policy/helpers.go:allRelationshipsSelector"]}
{"id": "C26", "title": "Store behaves like an abstract map under any sequence of calls", "statement": "Any sequence of policy-service calls returns the same answers as an abstract store holding a map of policies and a map from (policy, relationship) to (data, time).", "quantifier": "every finite sequence of well formed calls", "why_tests_cant": "unbounded histories", "anchors": ["internal/policy/service.go", "internal/store/kv_store/policy_repository.go"]}
{"id": "C27", "title": "SetRelationship is crash atomic", "statement": "If the process stops at any point while serving SetRelationship, afterwards the relationship is either fully recorded (visible to Check, find and get with its data) or not recorded at all.", "quantifier": "every crash point and prior state", "why_tests_cant": "tests do not kill the process at each storage step", "anchors": ["internal/store/kv_store/policy_repository.go:SetRelationship"]}
{"id": "C28", "title": "DeleteRelationship is crash atomic and retryable", "statement": "If the process stops at any point while serving DeleteRelationship, the relationship is either intact or gone, and repeating the call completes the deletion.", "quantifier": "every crash point and prior state", "why_tests_cant": "needs each crash point", "anchors": ["internal/store/kv_store/policy_repository.go:DeleteRelationship"]}
{"id": "C29", "title": "DeletePolicy is crash safe", "statement": "If the process stops at any point while serving DeletePolicy, then repeating DeletePolicy finishes the job: no relationship of the deleted policy survives to be revived by a later CreatePolicy with the same id.", "quantifier": "every crash point and prior state", "why_tests_cant": "needs each crash point", "anchors": ["internal/policy/service.go:DeletePolicy"]}
{"id": "C30", "title": "Bulk delete is resumable", "statement": "If DeleteRelationships is interrupted at any point, no relationship outside the selector is lost, and running it again leaves the same relationships as an uninterrupted run.", "quantifier": "every crash point, state and selector", "why_tests_cant": "needs each crash point", "anchors": ["internal/store/kv_store/policy_repository.go:DeleteRelationships"]}
{"id": "C31", "title": "Concurrent creates are exclusive", "statement": "Of several concurrent CreatePolicy calls for the same id at most one succeeds.", "quantifier": "every interleaving of storage steps", "why_tests_cant": "needs every schedule", "anchors": ["internal/policy/service.go:CreatePolicy"]}
{"id": "C32", "title": "Every stored policy passed validation, under any schedule", "statement": "Whatever API calls run concurrently, crash or meet storage errors, every policy that is ever stored passed validation, and is stored under its own id.", "quantifier": "every interleaving, crash point and storage fault", "why_tests_cant": "needs every schedule", "anchors": ["internal/policy/service.go:CreatePolicy,UpdatePolicy", "internal/store/kv_store/policy_repository.go:SetPolicy"]}
{"id": "C33", "title": "No relationship outlives its policy under concurrency", "statement": "When SetRelationship and DeletePolicy run concurrently, in the end no relationship is stored for a policy that does not exist.", "quantifier": "every interleaving", "why_tests_cant": "needs every schedule", "anchors": ["internal/policy/service.go:SetRelationship,DeletePolicy"]}
{"id": "C34", "title": "Reads never write", "statement": "GetPolicy, ListPolicyIds, GetRelationship, FindRelationshipRecords, Check, ExplainCheck, Expand and DumpRelationships never change stored data, under any schedule or fault.", "quantifier": "every state, request, schedule and fault", "why_tests_cant": "needs every schedule", "anchors": ["internal/policy/service.go", "internal/relation_graph/service.go"]}
{"id": "C35", "title": "Storage errors surface as errors", "statement": "If any storage operation fails while a request is served, the caller receives an error, never a success response.", "quantifier": "every request, state and failing operation", "why_tests_cant": "needs every fault position", "anchors": ["internal/policy/service.go", "internal/store/kv_store/policy_repository.go"]}
{"id": "C36", "title": "Check grants only what the policy derives", "statement": "If Check answers authorized, the subject is derivable from the stored relationships under the policy's rewrite rules (set semantics of union, intersection, difference, computed and tuple-to-userset rules).", "quantifier": "every policy, relationship set and request", "why_tests_cant": "unbounded graphs", "anchors": ["internal/relation_graph/searcher.go", "internal/relation_graph/goal_tree.go", "internal/relation_graph/rule_evaluator.go"]}
{"id": "C37", "title": "Check grants everything the policy derives", "statement": "If the subject is derivable from the stored relationships under the policy's rewrite rules, Check answers authorized.", "quantifier": "every policy, relationship set and request", "why_tests_cant": "unbounded graphs", "anchors": ["internal/relation_graph/searcher.go", "internal/relation_graph/goal_tree.go"]}
{"id": "C38", "title": "Intersection grants when both sides grant", "statement": "For a relation defined as 'a & b', a subject holding both a and b on the object is authorized.", "quantifier": "every policy using an intersection, every relationship set", "why_tests_cant": "unbounded graphs", "anchors": ["internal/relation_graph/searcher.go:searchAND,searchPath"]}
{"id": "C39", "title": "Difference excludes", "statement": "For a relation defined as 'a - b', a subject holding b on the object is not authorized.", "quantifier": "every policy using a difference, every relationship set", "why_tests_cant": "unbounded graphs", "anchors": ["internal/relation_graph/searcher.go:searchDifference,searchPath"]}
{"id": "C40", "title": "Check terminates on every relationship graph", "statement": "Check, ExplainCheck and Expand return for every policy and relationship set, including cyclic usersets, self references and mutually recursive relations.", "quantifier": "every policy and relationship set", "why_tests_cant": "termination cannot be tested", "anchors": ["internal/relation_graph/searcher.go:searchPath"]}
{"id": "C41", "title": "Wildcard subjects grant to all and only entities of their resource", "statement": "A relationship whose subject is a resource wildcard grants the relation to every entity of that resource and to no entity of another resource.", "quantifier": "every resource, entity and relationship set", "why_tests_cant": "infinitely many entities", "anchors": ["internal/relation_graph/searcher.go:isEntityGoalFound"]}
{"id": "C42", "title": "Grants are monotone in union-only policies", "statement": "In a policy without intersection and difference, adding relationships never turns an authorized answer into a denial.", "quantifier": "every policy of that class, relationship sets S subset of S', request", "why_tests_cant": "all pairs of relationship sets", "anchors": ["internal/relation_graph/searcher.go"]}
{"id": "C43", "title": "Check does not depend on storage order", "statement": "Two stores holding the same relationships give the same Check answer, whatever order storage iterates them in.", "quantifier": "every permutation of the stored relationships", "why_tests_cant": "all permutations", "anchors": ["internal/relation_graph/searcher.go:searchOR", "internal/store/kv_store/node_repository.go:GetSucessors"]}
{"id": "C44", "title": "ExplainCheck agrees with Check and its tree justifies the answer", "statement": "ExplainCheck reports the same authorization as Check on the same data, and in the goal tree every visited result is justified by its children (OR by some success, AND by all, difference by left and not right) and each expansion is the one the policy prescribes.", "quantifier": "every policy, relationship set and request", "why_tests_cant": "unbounded trees", "anchors": ["internal/relation_graph/service.go:Check,ExplainCheck", "internal/relation_graph/searcher.go"]}
{"id": "C45", "title": "ExplainCheck and Expand can return JSON", "statement": "A request for the JSON format returns the goal tree as JSON whenever the search succeeds.", "quantifier": "every request", "why_tests_cant": "must hold for each tree shape", "anchors": ["internal/relation_graph/goal_tree_serializer.go:jsonSerializer", "internal/relation_graph/types.go", "internal/relation_graph/searcher.go"]}
{"id": "C46", "title": "DOT output contains the whole goal tree exactly once", "statement": "The DOT output has one vertex per goal tree node plus a root, distinct ids, and exactly the parent-child edges of the tree.", "quantifier": "every goal tree", "why_tests_cant": "unbounded trees", "anchors": ["internal/relation_graph/goal_tree_serializer.go:dotSerializer"]}
{"id": "C47", "title": "Expand visits every reachable node", "statement": "Expand's tree contains every node reachable from the root through the policy's rewrite rules.", "quantifier": "every policy, relationship set and root", "why_tests_cant": "unbounded graphs", "anchors": ["internal/relation_graph/service.go:Expand", "internal/relation_graph/searcher.go"]}
{"id": "C48", "title": "Graph node identity is unique", "statement": "Two different graph nodes (entity, entity set, wildcard) never share the identifier used to detect repeated visits.", "quantifier": "every pair of nodes", "why_tests_cant": "collisions occur only for particular strings", "anchors": ["pkg/domain/relation_graph.go:Id"]}
{"id": "C49", "title": "Check errors only on requests the policy cannot interpret", "statement": "For an accepted policy, Check on a declared relation of a declared resource returns an answer, not an error, whatever admitted relationships are stored.", "quantifier": "every accepted policy, admitted relationship set and declared request", "why_tests_cant": "all combinations", "anchors": ["internal/relation_graph/goal_tree.go:handleEntitySet", "internal/relation_graph/rule_evaluator.go", "internal/policy/spec.go"]}
{"id": "C50", "title": "DumpRelationships terminates and shows every relationship", "statement": "DumpRelationships returns for every relationship set and its output contains an edge for every stored relationship of the policy and no others.", "quantifier": "every relationship set", "why_tests_cant": "unbounded graphs, cycles", "anchors": ["internal/relation_graph/walker.go:Walk", "internal/relation_graph/relation_tree_serializer.go"]}
{"id": "C51", "title": "YAML mapping is deterministic and sorted", "statement": "Mapping a YAML policy definition yields the same policy whatever order Go iterates its maps in; resources and relations come out sorted by name with names taken from the map keys.", "quantifier": "every definition and every map iteration order", "why_tests_cant": "map order is random at run time", "anchors": ["pkg/policy_definition/mapper.go:MapPolicyDefinition,mapItemsToSlice", "pkg/policy_definition/unmarshaler.go:setEntityNames"]}
{"id": "C52", "title": "YAML type constraints keep their meaning", "statement": "A type list containing '*' admits every subject; otherwise 'r' admits entities and wildcards of r, and 'r:x' admits exactly the userset r#x.", "quantifier": "every type list", "why_tests_cant": "all strings", "anchors": ["pkg/policy_definition/mapper.go:mapSubjectRestriction,mapSubjectRestrictionElem"]}
{"id": "C53", "title": "Relation placeholders in YAML are accepted", "statement": "A relation or resource written with no body in a YAML policy is given defaults and the policy is accepted.", "quantifier": "every definition with empty placeholders", "why_tests_cant": "all definitions", "anchors": ["pkg/policy_definition/unmarshaler.go:setEntityNames", "internal/policy/helpers.go:GetExpressionTree"]}
{"id": "C54", "title": "Storage representation round trips", "statement": "Converting a relationship or graph node to its stored form and back gives the original.", "quantifier": "every relationship and node", "why_tests_cant": "all strings", "anchors": ["internal/store/kv_store/mapper.go"]}
{"id": "C55", "title": "Selector validation accepts valid selectors and rejects invalid ones without crashing", "statement": "FindRelationshipRecords rejects a selector exactly when it names a resource or relation the policy lacks, and never crashes.", "quantifier": "every policy and selector", "why_tests_cant": "all combinations", "anchors": ["internal/policy/spec.go:ValidSelectorSpec", "pkg/domain/relationship.go:GetResourceName"]}
{"id": "C56", "title": "Graph container keeps both edge directions consistent", "statement": "In the exported graph containers, x is a successor of y exactly when y is an ancestor of x; edges connect existing nodes only (map graph); a failed SetEdge changes nothing.", "quantifier": "every sequence of operations", "why_tests_cant": "all histories", "anchors": ["pkg/types/map_graph.go", "pkg/types/graph.go"]}
{"id": "C57", "title": "Rules of an expression are enumerated completely and in order", "statement": "The rule list extracted from an expression tree is exactly its leaves, left to right.", "quantifier": "every tree", "why_tests_cant": "unbounded trees", "anchors": ["pkg/domain/relation_expression_tree.go:GetRules"]}
{"id": "C58", "title": "Check ignores relationships of other policies", "statement": "Check on one policy depends only on that policy and its own relationships.", "quantifier": "every state and request", "why_tests_cant": "all pairs of policies", "anchors": ["internal/store/kv_store/node_repository.go:GetSucessors", "internal/relation_graph/service.go:Check"]}
{"id": "C59", "title": "Update leaves orphaned relationships inert", "statement": "After UpdatePolicy removes a relation, relationships stored under it stay stored (IGNORE_ORPHANS) and checks never pass through them by way of 'this' rules of other relations unless a rule or userset names them, in which case the caller gets an error rather than a grant.", "quantifier": "every update and relationship set", "why_tests_cant": "all combinations", "anchors": ["internal/policy/service.go:UpdatePolicy", "internal/relation_graph/goal_tree.go:handleEntitySet"]}
{"id": "C60", "title": "No access out of thin air", "statement": "Whenever Check or ExplainCheck grants, the request named a subject and some relationship of that policy, stored at some moment of the request, names that very subject or everyone of its resource; whatever the policy, the hash values and the concurrent requests are.", "quantifier": "every reachable state, policy, hash, request and interleaving", "why_tests_cant": "quantifies over all policies, colliding identifiers and schedules", "anchors": ["internal/relation_graph/goal_tree.go", "internal/relation_graph/searcher.go", "internal/relation_graph/service.go:Check"]}
{"id": "C61", "title": "Offboarding is complete", "statement": "After DeleteRelationships covered every relationship naming a user, no later Check or ExplainCheck grants that user anything, through any policy updates, failures and concurrent requests, as long as none sets a relationship naming the user.", "quantifier": "every state, every schedule in which the deletion runs, every later schedule", "why_tests_cant": "unbounded later histories and interleavings", "anchors": ["internal/policy/service.go:DeleteRelationships", "internal/relation_graph/service.go:Check"]}
{"id": "C62", "title": "Requests on other policies are invisible while a query runs", "statement": "The answer of a graph query is the same as if it ran alone, however requests addressed to other policies interleave with it.", "quantifier": "every reachable state, query and interleaving with requests of other policies", "why_tests_cant": "all interleavings", "anchors": ["internal/store/kv_store/kv_store.go", "internal/relation_graph/service.go"]}
{"id": "C63", "title": "Checks read one snapshot", "statement": "A Check that overlaps writes answers according to the relationships of one moment: it never grants what no moment grants (new enemy) and never denies what every moment grants.", "quantifier": "every schedule of concurrent writes", "why_tests_cant": "all interleavings of reads with writes", "anchors": ["internal/store/kv_store/node_repository.go:GetSucessors", "internal/relation_graph/searcher.go"]}
{"id": "C64", "title": "Answered writes are in effect", "statement": "When SetRelationship or DeleteRelationship answers success, the relationship is stored with its data, respectively gone, from that moment on, whatever other requests run, until another request writes it; likewise no relationship selected by DeleteRelationships, and neither the policy nor a relationship of it after DeletePolicy, is left.", "quantifier": "every reachable state and every interleaving, storage failure and crash before", "why_tests_cant": "all interleavings of the storage calls of the requests", "anchors": ["internal/store/kv_store/policy_repository.go:SetRelationship", "internal/store/kv_store/policy_repository.go:DeleteRelationship", "internal/store/kv_store/policy_repository.go:DeleteRelationships"]}
{"id": "C65", "title": "Overlapping writes of a relationship serialize", "statement": "Overlapping SetRelationship and DeleteRelationship requests for one relationship leave the state and report the flags that some order of them would.", "quantifier": "every schedule of overlapping writes", "why_tests_cant": "all interleavings", "anchors": ["internal/store/kv_store/policy_repository.go:SetRelationship", "internal/store/kv_store/policy_repository.go:DeleteRelationship"]}
{"id": "C66", "title": "Responses name the format of their text", "statement": "The text ExplainCheck and Expand return is in the requested format and the response names that format; unknown formats are refused, by ExplainCheck and Expand without reading anything.", "quantifier": "every request, every store", "why_tests_cant": "all trees and stores in every format", "anchors": ["internal/relation_graph/service.go:ExplainCheck", "internal/relation_graph/service.go:Expand", "internal/relation_graph/goal_tree_serializer.go:SerializerFactory"]}
{"id": "C67", "title": "DOT names and labels read back", "statement": "Every vertex name and label written into a DOT text is a quoted string that a DOT reader reads back as the text meant, whatever names objects, relations and graph nodes have.", "quantifier": "every store, request and graph; every string used as an id", "why_tests_cant": "ids are arbitrary strings", "anchors": ["internal/relation_graph/goal_tree_serializer.go:sprintf", "internal/relation_graph/relation_tree_serializer.go:wrap", "pkg/types/graph.go:mapId"]}
{"id": "C68", "title": "Builders mean what was called", "statement": "A selector built with SelectorBuilder selects exactly the relationships satisfying the last choice made for each part since the last Reset, a part never chosen being unrestricted; DeleteRelationships with it removes exactly those. Relationships built with RelationshipBuilder carry the given names, are complete, and are accepted exactly when the policy declares and permits them.", "quantifier": "every sequence of builder calls, every store and policy", "why_tests_cant": "call sequences are unbounded", "anchors": ["pkg/domain/selector.go:SelectorBuilder", "pkg/domain/relationship.go:RelationshipBuilder"]}
{"id": "C69", "title": "Instances are configured as their options ask", "statement": "New gives an instance exactly when every option works; the last option about the store and the last about logging decide; without an option about the store data persists under the default directory, and instances not asked to share a store do not; a path beginning with ~ is under the named home directory.", "quantifier": "every list of options, every environment", "why_tests_cant": "option lists and environments are unbounded", "anchors": ["zanzi.go:New", "zanzi.go:setDefaults", "zanzi.go:WithDefaultKVStore", "zanzi.go:WithMemKVStore", "zanzi.go:WithDevelopmentConfig"]}
{"id": "C70", "title": "Stores sharing one key-value store are separate", "statement": "Writes to the policies, to the relationships of one policy and to relationship data never show in one another, nor do writes to the relationships of another policy.", "quantifier": "every content, every key, every pair of policy ids", "why_tests_cant": "all keys and ids", "anchors": ["internal/store/kv_store/kv_store.go:NewKVStore", "internal/store/kv_store/kv_store.go:getRelationshipStore", "internal/store/kv_store/kv_store.go:getRelationshipDataStore"]}
{"id": "C71", "title": "Stored records are read back as written", "statement": "The bytes written to storage for a policy, a relationship or relationship data decode to the same record, whatever order the policy's attributes are written in, and different records are written as different bytes.", "quantifier": "every accepted policy, every relationship, every application data and creation time, every order of attributes", "why_tests_cant": "records, texts and nesting are unbounded", "anchors": ["internal/store/kv_store/kv_store.go:NewKVStore", "internal/store/kv_store/kv_store.go:getRelationshipStore", "internal/store/kv_store/kv_store.go:getRelationshipDataStore", "proto/zanzi/zanzi/domain/policy.proto:PolicyRecord", "proto/internal/kv_store/relationship_record.proto:Relationship"]}
{"id": "C72", "title": "Working on stored bytes is working on values", "statement": "As long as policies are nested no deeper than the decoder reads, the server that keeps encoded keys and records gives, in every history and in every schedule with crashes and storage faults, the answers of a server that keeps the values, in the same order, and its bytes determine the store. A stored policy that does not decode makes every request that needs it fail with a storage error and change nothing, and can still be deleted.", "quantifier": "every history, every schedule, every store reached, every policy text, every undecodable record", "why_tests_cant": "histories, interleavings, keys and records are unbounded; key order must agree for all texts", "anchors": ["internal/store/kv_store/kv_store.go:NewKVStore", "internal/store/kv_store/model.go:relationNodeKeyer.Key", "internal/store/kv_store/model.go:policyIDer.Id", "internal/store/kv_store/policy_repository.go:GetPolicy", "internal/store/kv_store/policy_repository.go:ListPolicyIds"]}
{"id": "C73", "title": "Remote callers get what local callers get", "statement": "For every history of requests sent over gRPC to a server keeping encoded records, the responses the clients read and the state left behind are those of the same calls made locally; requests under other names or with bytes that are no message are refused without effect; whatever bytes arrive, what they store can be read back and returned.", "quantifier": "every history of requests, every byte string under every method name, every service behind the handlers", "why_tests_cant": "histories, messages and byte strings are unbounded", "anchors": ["pkg/server/server.go:registerGRPCServices", "pkg/server/server.go:NewServer", "pkg/api/policy_service_grpc.pb.go:PolicyService_ServiceDesc", "pkg/api/relation_graph_grpc.pb.go:RelationGraph_ServiceDesc", "proto/zanzi/zanzi/api/policy_service.proto", "proto/zanzi/zanzi/api/relation_graph.proto"]}
{"id": "C74", "title": "A union grants what each alternative grants", "statement": "If relation x is defined as a union one of whose alternatives is relation c, whoever Check authorizes for c on an object is authorized for x on it.", "quantifier": "every policy, relationship set, object, user and position of the alternative", "why_tests_cant": "depends on what the other alternatives visit, over unbounded graphs", "anchors": ["internal/relation_graph/searcher.go:searchOR", "internal/relation_graph/searcher.go:searchPath"]}
{"id": "C75", "title": "Without differences, more relationships never take access away", "statement": "In a policy without difference (unions and intersections only), adding relationships never turns an authorized answer into a denial.", "quantifier": "every policy of that class, relationship sets S subset of S', request", "why_tests_cant": "all pairs of relationship sets", "anchors": ["internal/relation_graph/searcher.go"]}
{"id": "C76", "title": "Expand shows whoever Check authorizes", "statement": "If Check authorizes a user for a relation on an object, the tree Expand returns for that relation and object has an evaluated node that is the user or the wildcard of the user's namespace.", "quantifier": "every policy (all operators), relationship set, hash function, request", "why_tests_cant": "Check and Expand are two different traversals, of unbounded graphs; no finite set of graphs covers their agreement", "anchors": ["internal/relation_graph/searcher.go:searchPath", "internal/relation_graph/searcher.go:searchAND", "internal/relation_graph/service.go:Expand"]}
{"id": "C77", "title": "Answers do not depend on how the data was written", "statement": "If two histories of requests leave a policy and the set of its relationships the same, every Check, ExplainCheck, Expand and DumpRelationships of that policy gives the same response afterwards, including errors.", "quantifier": "every pair of histories (any length and order of creates, writes, overwrites, deletes), every request", "why_tests_cant": "all pairs of histories", "anchors": ["internal/store/kv_store/node_repository.go:GetSucessors", "internal/store/kv_store/kv_store.go", "internal/relation_graph/searcher.go"]}
{"id": "C78", "title": "Relationships elsewhere do not matter", "statement": "Check, ExplainCheck and Expand depend only on the relationships of the usersets the request consults: those reachable from it through the rules, and the tuplesets of their arrows. Setting or deleting any other relationship changes no response to it.", "quantifier": "every policy (all operators), pair of relationship sets agreeing on the consulted usersets without storage-key collisions on them, request", "why_tests_cant": "all pairs of stores and all graphs", "anchors": ["internal/relation_graph/searcher.go:searchPath", "internal/relation_graph/rule_evaluator.go", "internal/store/kv_store/node_repository.go:GetSucessors"]}
{"id": "C79", "title": "Messages and stored records follow the published schema", "statement": "Every request written in any way the .proto files allow (fields in any order, unknown fields, defaults written or left out, longer varints, fields given again, members of a oneof superseded by others) is understood as what it says, and every reply and every stored record the server writes is an encoding, by the field names and numbers of the .proto files, of what it should say. The methods answer to the names of the .proto files and to no others.", "quantifier": "every request of every method, every encoding of it the schema allows, every history of served bytes, every stored record", "why_tests_cant": "unbounded set of encodings and contents; a round-trip test passes when encoder and decoder agree on a wrong field number", "anchors": ["proto/zanzi/zanzi/api/policy_service.proto", "proto/zanzi/zanzi/api/relation_graph.proto", "proto/zanzi/zanzi/domain", "proto/internal/kv_store/relationship_record.proto", "pkg/api/policy_service_grpc.pb.go", "pkg/api/relation_graph_grpc.pb.go"]}
{"id": "C80", "title": "What other users are given does not affect a user", "statement": "A relationship whose subject is another user, or all entities of another resource, does not change the answer of Check for a user: setting or deleting it, anywhere, leaves every answer of that user as it was, and their explanation the same apart from leaves showing other users.", "quantifier": "every policy (all operators), store, user, request and relationship with such a subject", "why_tests_cant": "all pairs of stores, all graphs and all orders in which the search meets the other users", "anchors": ["internal/relation_graph/searcher.go:searchPath", "internal/relation_graph/searcher.go:GoalFoundSpec", "internal/relation_graph/rule_evaluator.go", "pkg/domain/relation_graph.go:Id"]}
{"id": "C81", "title": "Expand's tree is the set of users Check authorizes", "statement": "Reading the tree returned by Expand as a set expression (unions, intersections and differences of the users and wildcards evaluated at its leaves) gives exactly the users Check authorizes for that relation and object.", "quantifier": "every policy (all operators), store, relation and object, every user", "why_tests_cant": "Check and Expand walk the graph under different stopping rules with a shared visited set; agreement on sampled graphs says nothing about others, and disagreements appear only for particular orders of rules and wildcards.", "anchors": ["internal/relation_graph/searcher.go:56-221", "internal/relation_graph/service.go"]}
{"id": "C82", "title": "Node identifiers are faithful texts, and dumps name vertices by them", "statement": "RelationNode.Id is the base64 text of the 32 bytes of the hash, and two nodes have the same Id exactly if the hashed texts have the same hash; in the drawing DumpRelationships returns every vertex name reads back as the Id of the node it is labelled with, no two vertices share a name, none has the root's name, and edges join drawn vertices.", "quantifier": "every node, every 256-bit hash, every store, every order in which Go iterates the roots", "why_tests_cant": "the identifier is used as a map key and as a DOT name; that the encoding loses nothing and needs no escaping is a statement about all 2^256 hashes", "anchors": ["pkg/domain/relation_graph.go:36-63", "internal/relation_graph/relation_tree_serializer.go:27-70", "internal/relation_graph/walker.go:24-64"]}
{"id": "C83", "title": "YAML policy definitions mean what their keys say, in any order", "statement": "A YAML document is accepted exactly when it has only the known keys (id, name, doc, resources, attributes; doc, relations; doc, expr, types), none twice, with texts where texts belong; the policy it gives has the texts, resources, relations and type constraints found under those keys and nothing else; reordering mappings changes nothing; every definition can be written as such a document. The documented format (docs/policy-definition.md) is accepted, and different attributes give different policies.", "quantifier": "every YAML document tree, every reordering at any depth, every store", "why_tests_cant": "documents and their reorderings are unbounded, and tests of accepted documents say nothing about which others are refused", "anchors": ["pkg/policy_definition/unmarshaler.go:12-25", "pkg/policy_definition/types.go:20-81", "pkg/policy_definition/mapper.go:14-45", "docs/policy-definition.md:72-155"]}
{"id": "C84", "title": "The work a request causes is bounded by the stored data", "statement": "Check, ExplainCheck and Expand read the policy once and look every userset up at most once, however many ways lead to it; so their storage calls are at most one plus (relationships + 1) times relations times the lookups of the widest expression. The trees ExplainCheck and Expand answer are bounded by the nodes the expressions of those usersets unfold to. Every other request makes a fixed number of storage calls, or one to three per relationship of the policy. The drawing DumpRelationships answers is likewise bounded by the relationships it draws.", "quantifier": "every store, policy, request and recursion bound; every number of relationships", "why_tests_cant": "cost bounds quantify over all graphs; blow-ups show only on graphs with many ways between nodes, whose number grows exponentially", "anchors": ["internal/relation_graph/searcher.go:56-221", "internal/relation_graph/relation_tree_serializer.go:27-54", "internal/relation_graph/rule_evaluator.go:29-106", "internal/policy/service.go:30-271"]}
{"id": "C85", "title": "Selectors select by value", "statement": "Which relationships FindRelationshipRecords and DeleteRelationships select depends only on the fields of the selector, not on how the message was made or what was done with it before (printed, sent, received with fields of a newer schema).", "quantifier": "every selector message in memory, state and schedule", "why_tests_cant": "all states of the unexported fields of messages", "anchors": ["internal/policy/selector_spec.go:objectSpec,subjectSpec", "pkg/domain/relationship.pb.go:ProtoReflect"]}
{"id": "C86", "title": "Rewriting a policy without changing its meaning changes no answers", "statement": "Two policies whose expressions mean the same sets of users give the same answers to Check on the same relationships: unions and intersections may be regrouped or reordered, repeated operands dropped, and a relation defined as another one (w = c) may be used in its place.", "quantifier": "every pair of policies with equal meaning, store, userset and user", "why_tests_cant": "the rewritings, the policies and the relationships they are evaluated on are unbounded", "anchors": ["internal/relation_graph/searcher.go:56-221", "internal/relation_graph/rule_evaluator.go", "internal/policy/service.go:66"]}
{"id": "C87", "title": "An error says whose fault it is", "statement": "A failed request carries api.ErrInvalidRequest exactly if the request was at fault, and api.ErrInternal exactly if the service or its storage was.", "quantifier": "every request, store and pattern of storage failures", "why_tests_cant": "the failures can occur at any storage call of searches of any length", "anchors": ["pkg/api/errors.go:5-6", "internal/relation_graph/service.go:30-211", "internal/policy/service.go"]}
{"id": "C88", "title": "Records tell when they were created", "statement": "The CreatedAt of a policy or relationship record is the time of the request since which the record has existed without interruption; no relationship is recorded as older than its policy or younger than the last request.", "quantifier": "every history of requests", "why_tests_cant": "histories of updates, overwrites, deletions and re-creations are unbounded", "anchors": ["internal/policy/service.go:30-195", "internal/store/kv_store/policy_repository.go:92-121"]}
{"id": "C89", "title": "Names of objects and users do not matter", "statement": "Giving the objects and users of a store other ids, different ones to different ones, changes no answer of Check: the request under the other ids gets the answer of the request under the first ids, and explanations and Expand's trees are the same up to the ids.", "quantifier": "every policy, store, request and injective renaming of ids", "why_tests_cant": "the order of the search follows hashes of the ids, so a test settles only the ids it uses", "anchors": ["internal/relation_graph/searcher.go:30-269", "internal/store/kv_store/node_repository.go", "pkg/domain/relation_graph.go:36-63"]}
{"id": "C90", "title": "Intersections and exclusions that do not concern a user do not disturb their requests", "statement": "If among the usersets a request can reach no operand of an intersection and nothing subtracted by a difference leads to the user or to a wildcard covering them, Check answers what the rules say: it grants exactly when the user or such a wildcard is reached, which without differences is the least fixed point of the rules and in general every solution in which nobody is in a userset by virtue of that userset alone. (Storage keys and visit identifiers of the nodes reached do not collide.)", "quantifier": "every policy with any operators, every store, request and user", "why_tests_cant": "depends on all paths through arbitrary relationship graphs, including cycles and nodes reached both inside and outside of operators", "anchors": ["internal/relation_graph/searcher.go:56-221", "internal/relation_graph/goal_tree.go:85-183"]}
{"id": "C91", "title": "Everything stored was asked for", "statement": "Every stored policy was given, with its data, by one request that created or updated it, and its time is that of a request that created a policy with this id; every stored relationship was set by a request in this very policy, under a valid policy admitting it; every id answered by ListPolicyIds is that of such a policy, and every relationship answered by FindRelationshipRecords is such a relationship; every record answered by GetRelationship or FindRelationshipRecords carries the time and data of a request that set this relationship in this policy; a Check grants only if some request set, in this policy, a relationship naming the user.", "quantifier": "every set of requests and every interleaving of them at storage calls, with storage failures and crashes", "why_tests_cant": "ranges over all histories, interleavings, faults and crash points", "anchors": ["internal/policy/service.go:30-225", "internal/store/kv_store/policy_repository.go:49-185", "internal/store/kv_store/kv_store.go:59-65"]}
{"id": "C92", "title": "How a policy is written does not matter", "statement": "Two policies of the same id that declare the same resources and, in each, relations standing for the same expression trees and allowing the same subjects \u2014 whatever the order of declarations, the names and descriptions, the application data and the spelling of expressions \u2014 are alike to the service: if their names are unique, both are valid or neither; creating the one or the other, or updating the one to the other, leads to the same answers, errors and trees included, of every later request that does not fetch the policy itself.", "quantifier": "every policy, store and sequence of later requests, and every interleaving of them with storage failures and crashes", "why_tests_cant": "ranges over all spellings of all policies and all later histories; a lookup depending on position would pass tests using one order", "anchors": ["internal/policy/types.go:39-75", "internal/policy/spec.go:11-175", "internal/relation_graph/goal_tree.go:85-183", "internal/policy/service.go:30-99"]}
{"id": "C93", "title": "Sending an answered request again is harmless", "statement": "A request that was answered and is sent again, at whatever time, stores no other policy, relationship or application data than the first time (only the time of a relationship record set again is new), and is answered the same, except that creating a policy reports that it exists, setting a relationship that it was overwritten, and deleting that nothing was there.", "quantifier": "every reachable store, every request and time", "why_tests_cant": "ranges over all reachable stores and all kinds of requests", "anchors": ["internal/policy/service.go:30-256", "internal/store/kv_store/policy_repository.go:30-185"]}
{"id": "C94", "title": "Interrupted requests can be repeated", "statement": "CreatePolicy and UpdatePolicy interrupted by a crash or a storage failure have done all of their work or none. A request that would have been refused leaves nothing behind when interrupted. Repeating an interrupted CreatePolicy, UpdatePolicy, SetRelationship or DeleteRelationship leaves exactly the store the uninterrupted request would have left, and succeeds if that would have, except that CreatePolicy reports that the policy exists if the interrupted one had stored it.", "quantifier": "every store, request, crash point and storage failure", "why_tests_cant": "ranges over all crash points and failures of storage in all stores", "anchors": ["internal/policy/service.go:30-99", "internal/policy/service.go:166-210", "internal/store/kv_store/policy_repository.go:30-185"]}
{"id": "C95", "title": "Policies do not interfere", "statement": "Requests concerning a policy are answered the same whether or not requests concerning other policies are made, however all of them interleave, fail or are cut off by crashes. This covers every request naming the policy except the two that read the time and data of relationship records (these are shared between policies, C20). A policy deleted and created again starts afresh: its requests are answered as on a server that holds nothing.", "quantifier": "every pair of reachable servers agreeing on one policy, every interleaving, storage failure and crash, every sequence of requests", "why_tests_cant": "compares all executions with all executions from which the other policies' requests are removed", "anchors": ["internal/policy/service.go:30-256", "internal/store/kv_store/policy_repository.go:30-218", "internal/store/kv_store/kv_store.go:59-65"]}
{"id": "C96", "title": "Different relationships can be written in any order", "statement": "SetRelationship and DeleteRelationship requests for pairwise different relationships, or for the same relationship of different policies, get the same answers in whatever order they are made, and leave a store on which all later requests are answered the same.", "quantifier": "every reachable store, every list of such requests and every permutation of it, every sequence of later requests", "why_tests_cant": "ranges over all permutations of all request lists on all stores, and over all observations afterwards", "anchors": ["internal/policy/service.go:166-210", "internal/store/kv_store/policy_repository.go:92-148", "internal/store/kv_store/model.go:25-31"]}
{"id": "C97", "title": "Different relationships can be written in parallel", "statement": "SetRelationship and DeleteRelationship requests for pairwise different relationships running at the same time, their storage calls interleaving in any way without failing, are answered as if made one after the other, and leave a store on which all later requests are answered as after that.", "quantifier": "every reachable store, every list of such requests, every interleaving of their storage calls, every sequence of later requests", "why_tests_cant": "interleavings grow exponentially and cannot be forced by tests", "anchors": ["internal/policy/service.go:166-210", "internal/store/kv_store/policy_repository.go:92-148", "internal/store/kv_store/model.go:25-31"]}
{"id": "C98", "title": "Overlapping policy writes take effect one after the other", "statement": "When requests that create, update, delete or read policies, or query them, run at the same time, their storage calls interleaving in any way without failing, some order of the requests made one after the other gives each the answer it got and leaves the store they left.", "quantifier": "every store, every list of such requests, every interleaving of their storage calls", "why_tests_cant": "interleavings grow exponentially and cannot be forced by tests; policies and definitions are arbitrary", "anchors": ["internal/policy/service.go:30-164", "internal/store/kv_store/policy_repository.go:31-90", "internal/relation_graph/service.go:30-211"]}
{"id": "C99", "title": "Requests kept apart behave as if served one at a time, in the order callers saw", "statement": "If callers let requests overlap only when these read, update policies or create different policies, and make every other request while no other is waited for, then at any time when no request of another kind is waited for, serving some of the requests one at a time gives every caller the answer they got and leaves the present store, in an order in which a request over before another was made comes first. Storage calls of the requests allowed to overlap may fail, and the service may crash under them: such a request is then served entirely or not at all, and only a caller told of a storage failure or cut off by a crash is left unsure which.", "quantifier": "every initial store, every sequence of requests made, answered or cut off at any times that keep to the rule, every interleaving of their storage calls, every failure of these before or after taking effect, every crash while only such requests are waited for", "why_tests_cant": "the times at which requests are made and answered and the interleavings of their storage calls are unbounded; policies, definitions and stored data are arbitrary", "anchors": ["internal/policy/service.go:30-271", "internal/store/kv_store/policy_repository.go:31-218", "internal/relation_graph/service.go:30-211"]}
{"id": "C100", "title": "The clock decides nothing but recorded times", "statement": "The same requests served at any other times, by a server that holds the same but for creation times, are answered the same but for the creation times in the records returned, errors and trees included, and leave the same but for creation times. On a busy server any answer a request can get at some times it can get at any other times.", "quantifier": "every two stores equal but for creation times, every list of requests, every assignment of times to them; on a busy server every interleaving, failure and crash", "why_tests_cant": "histories and times are unbounded, and a dependence on the clock shows only at the times that matter", "anchors": ["internal/policy/service.go:30-271", "internal/relation_graph/service.go:30-211", "internal/store/kv_store/policy_repository.go:31-218"]}
{"id": "C101", "title": "A service can be copied through its own API", "statement": "Whoever fetches the policy ids, the policies and all relationship records of a service and sends them to an empty service, in any order and again where refused, has a copy once each was accepted: the same policies, application data and relationships, and the same answers to graph queries and record selections but for creation times. If the original served its requests one after the other, the copy answers every later sequence of requests as the original would, but for creation times. The copy can be made exactly if every policy admits the relationships it holds.", "quantifier": "every reachable store, every order and repetition of the copying requests at any times, every later sequence of requests", "why_tests_cant": "stores, import orders and later requests are unbounded; hidden state that no request returns would show only in some later request", "anchors": ["internal/policy/service.go:30-271", "internal/store/kv_store/policy_repository.go:31-218", "internal/relation_graph/service.go:30-211"]}
{"id": "C102", "title": "Adding to a policy changes no answer, taking away at worst turns answers into errors", "statement": "Updating a policy to a valid one that has all its resources and relations, with the same expressions and at least the same allowed subjects, and perhaps more, is accepted. Every request that would have been answered without the update is answered the same with it, trees and records included; only errors can become something else. Updating to a valid policy of which the stored one has everything is accepted too, and every request answered afterwards is answered as before.", "quantifier": "every reachable store, every stored policy and every such other policy, every later sequence of requests not fetching the policy itself up to the first refused write; on a busy server every interleaving, fault and crash, for the answers that can be had", "why_tests_cant": "policies, additions, stores and later requests are unbounded; whether an added relation leaks into a decision depends on all names and expressions of both policies", "anchors": ["internal/policy/service.go:66-99", "internal/policy/types.go:39-75", "internal/policy/spec.go:11-425", "internal/policy/selector_spec.go:1-115", "internal/relation_graph/goal_tree.go:85-183", "internal/relation_graph/searcher.go:1-269"]}
{"id": "C103", "title": "Widening a relation takes no access away", "statement": "If a policy is updated so that every relation is kept and its expression grants at least the users it granted before, whatever is stored, for instance by adding an alternative to a union, whoever was authorized for something still is.", "quantifier": "every reachable store, every stored policy and every such other policy, every user and userset", "why_tests_cant": "policies, expressions and relationship graphs are unbounded; which alternatives disturb others depends on the order of the search and on what it visited before", "anchors": ["internal/relation_graph/searcher.go:56-221", "internal/relation_graph/rule_evaluator.go", "internal/policy/service.go:66"]}
{"id": "C104", "title": "Every request is answered, however busy the server", "statement": "Whatever other requests do at the same time, a request is over after a bounded number of storage calls of its own: a Check, ExplainCheck or Expand after a number that depends on the policy asked and what is stored, any other request after a fixed number or a few for each relationship of the policy.", "quantifier": "every request, every reachable server state, every schedule of other requests with storage failures and crashes, unbounded", "why_tests_cant": "the schedules are unbounded in number and length; starvation appears only on schedules that keep feeding the search, which a test does not produce", "anchors": ["internal/relation_graph/searcher.go:56-221", "internal/relation_graph/goal_tree.go:32-183", "internal/policy/service.go", "internal/store/kv_store/policy_repository.go"]}
{"id": "C105", "title": "Access passes along usersets", "statement": "If a relation of an object is given to a userset (directly by a relationship, or through an arrow over a related object) and that alternative alone suffices for the relation, whoever Check authorizes for the userset it authorizes for the relation.", "quantifier": "all policies, stored relationships, objects, relations, usersets and users, unbounded", "why_tests_cant": "a test checks one group on one object; whether membership carries over depends on everything else the request meets before, in storage order", "anchors": ["internal/relation_graph/searcher.go:56-221", "internal/relation_graph/goal_tree.go:32-183", "internal/relation_graph/service.go"]}
{"id": "C106", "title": "HTTP callers get what gRPC callers get", "statement": "An HTTP request to the gateway of a method whose body holds a request message makes exactly that call and is given its result; the gateway in the process of the service and the one in front of a server leave the same store and give the same replies, request by request; every other HTTP request is refused and changes nothing.", "quantifier": "all HTTP requests and sequences of them, all marshalers, all services and stores, unbounded", "why_tests_cant": "paths, bodies and histories are unbounded; two generated families of handlers have to agree with each other and with the gRPC handlers on all of them", "anchors": ["pkg/api/policy_service.pb.gw.go", "pkg/api/relation_graph.pb.gw.go", "pkg/api/policy_service_grpc.pb.go"]}
{"id": "C107", "title": "Status codes say what went wrong", "statement": "The status code of a failed remote request says whether the request could not be read, was at fault, or the service or its storage failed.", "quantifier": "all requests over gRPC and HTTP, all services and stores", "why_tests_cant": "has to hold for every error of every method, including storage failures at any point", "anchors": ["pkg/api/errors.go", "internal/policy/service.go", "internal/relation_graph/service.go", "pkg/api/policy_service.pb.gw.go", "pkg/server/server.go:34-62"]}
{"id": "C108", "title": "No names matter", "statement": "Giving everything other names, different ones to different things (the policy, its resources and relations wherever the policy and the relationships mention them, objects and users), changes no answer of Check: the request under the other names gets the answer of the request under the first names, and explanations and Expand's trees are the same up to the names.", "quantifier": "every policy, store, request, and injective renaming of resources, relations, objects and users", "why_tests_cant": "keys, visit identifiers and the order of the search are made from hashes of the names, so a test settles only the names it uses", "anchors": ["internal/relation_graph/searcher.go:30-269", "internal/relation_graph/goal_tree.go:32-230", "internal/relation_graph/rule_evaluator.go:29-130", "internal/policy/types.go", "pkg/domain/relation_graph.go:36-63"]}
{"id": "C109", "title": "Subject restrictions bound who can be granted access", "statement": "Whatever requests the server has been given, a check grants a relation only to users of a resource that the subject restrictions of the policy leave room for: one the relation's own restriction allows, or one a userset, a computed relation or the relation behind an arrow that the restrictions allow can contain in turn; with an intersection, one both sides can contain.", "quantifier": "every policy, sequence and interleaving of requests with faults and crashes, request and user", "why_tests_cant": "restrictions are enforced one relationship at a time when it is written, and what they imply about checks goes through every chain of usersets and arrows in any data", "anchors": ["internal/policy/spec.go:171-345", "internal/policy/service.go", "internal/relation_graph/searcher.go:30-269", "internal/relation_graph/rule_evaluator.go:29-130", "proto/zanzi/zanzi/domain/policy.proto:75-128"]}
{"id": "C110", "title": "Every kind of user the restrictions leave room for can be given access", "statement": "If the subject restrictions of an accepted policy leave room for users of some resource to have a relation of objects of some resource, then for each such object and user there are relationships that the policy accepts, such that once they are stored a check grants the user that relation of the object.", "quantifier": "every policy, object, relation and user", "why_tests_cant": "that nothing a policy promises is out of reach needs, for every policy, a chain of relationships built along its rules, and the search to find its end", "anchors": ["internal/policy/spec.go:171-345", "internal/policy/service.go", "internal/relation_graph/searcher.go:30-269", "internal/relation_graph/rule_evaluator.go:29-130", "proto/zanzi/zanzi/domain/policy.proto:75-128"]}
{"id": "C111", "title": "A group can be replaced by its members", "statement": "Whether a relation of an object is given to the members of a group, or to each object and wildcard that makes them up, makes no difference to any access check; and the objects and wildcards Expand returns for the group make up its members.", "quantifier": "every policy, store, group, object, relation and user", "why_tests_cant": "the group may be nested and used anywhere along the rules, so the equality of answers ranges over all graphs of relationships and all ways to come across the group", "anchors": ["internal/relation_graph/searcher.go:30-269", "internal/relation_graph/rule_evaluator.go:29-130", "internal/relation_graph/walker.go", "proto/zanzi/zanzi/domain/relationship.proto"]}
{"id": "C112", "title": "Access can be revoked by following explanations", "statement": "Whenever ExplainCheck grants, its tree shows a relationship that names the user and by which the search succeeded; deleting a relationship the tree shows so is answered with found and takes exactly one relationship of the policy away. Asking and deleting what is shown, among any other requests that set no relationship of the policy, takes at most as many rounds as the policy has relationships, and ends where neither ExplainCheck nor Check grants.", "quantifier": "every policy, store, userset, user, run of requests and choice among the relationships shown", "why_tests_cant": "the number of rounds and the trees are unbounded, and operators, cycles and colliding keys make up infinitely many ways to succeed", "anchors": ["internal/relation_graph/searcher.go:30-269", "internal/relation_graph/service.go", "internal/relation_graph/goal_tree.go:32-183", "internal/store/kv_store/policy_repository.go:17-25"]}
{"id": "C113", "title": "Definitions a request does not come across do not matter", "statement": "Two policies that define every userset a request comes across alike, or both not at all, give the same answers to Check, ExplainCheck and Expand, errors, trees and drawings included, as long as the relationships under the keys the request reads are the same. In particular an UpdatePolicy that keeps those definitions is accepted and changes no answer to the request, whatever else it adds, drops or redefines.", "quantifier": "every pair of policies and stores, userset, user, operator and hash function (colliding keys included)", "why_tests_cant": "what a request comes across depends on policy and stored relationships together, and there are infinitely many edits to the rest of a policy", "anchors": ["internal/relation_graph/goal_tree.go:32-183", "internal/relation_graph/searcher.go:30-269", "internal/relation_graph/rule_evaluator.go:29-130", "internal/policy/service.go:66-99"]}
{"id": "C114", "title": "Storing what follows anyway changes nothing", "statement": "A relationship that gives a relation to a subject all of whose users have the relation anyway can be stored, or deleted again, without changing any answer to Check.", "quantifier": "every policy, pair of stores that differ in such a relationship, userset and user", "why_tests_cant": "that a relationship adds nothing depends on all ways in which its users get the relation, and the answers that must not change are those for every other userset", "anchors": ["internal/relation_graph/searcher.go:83-219", "internal/relation_graph/rule_evaluator.go:53-130", "internal/relation_graph/goal_tree.go:85-183"]}
{"id": "C115", "title": "Those who leave alone what a request comes across cannot change its answer or disturb it", "statement": "A Check, ExplainCheck or Expand that is served among any number of other requests, none of which sets or deletes a relationship under a key the request reads or redefines a userset it comes across, answers exactly as on the store as it was when they started, or reports that a storage call failed. After any schedule of such requests, storage failures and crashes included, the answers are unchanged.", "quantifier": "every reachable store, policy, userset, user, schedule of requests interleaved at storage calls, storage failures, crashes and hash function (colliding keys included)", "why_tests_cant": "the other requests, the moments at which they interleave and the failures are unbounded, and what a request comes across depends on policy and relationships together", "anchors": ["internal/relation_graph/searcher.go:30-269", "internal/relation_graph/goal_tree.go:32-183", "internal/relation_graph/rule_evaluator.go:29-130", "internal/policy/service.go:30-271", "internal/store/kv_store/node_repository.go:20-60"]}
{"id": "C116", "title": "An explanation stays good while what it rests on is there", "statement": "When ExplainCheck shows why a user has a relation, the relationships its tree says the grant rests on (the stored ones followed on the way through successful results, arrows and groups included) are enough: in every store with the same policy that holds them, whatever else is added or deleted, Check grants the user the relation.", "quantifier": "every policy, pair of stores with that policy, userset, user and explanation", "why_tests_cant": "there are infinitely many stores that hold what an explanation rests on, and the search in them can take quite another way than the one explained", "anchors": ["internal/relation_graph/searcher.go:30-269", "internal/relation_graph/goal_tree.go:32-183", "internal/relation_graph/rule_evaluator.go:53-130", "internal/relation_graph/service.go:80-120"]}
{"id": "C117", "title": "Users with the same relationships are treated alike", "statement": "Two users of the same kind, to whom exactly the same relations of the same objects are given by name, get the same answer to every Check, and Expand's trees contain both or neither.", "quantifier": "every policy, store, userset, and pair of such users", "why_tests_cant": "whether the answers for two users agree depends on everything else that is stored and on how it is ordered", "anchors": ["internal/relation_graph/searcher.go:30-269", "internal/relation_graph/goal_tree.go:32-183", "internal/relation_graph/rule_evaluator.go:53-130"]}
{"id": "C118", "title": "Objects with the same relationships are treated alike", "statement": "Two objects of the same kind that have exactly the same relationships get the same answers to Check, whichever relation and user is asked for, errors included, and the same explanations and trees of Expand up to the objects themselves.", "quantifier": "every policy, store, relation, user and pair of such objects", "why_tests_cant": "the answers depend on everything else that is stored and on the order in which hashed names put it", "anchors": ["internal/relation_graph/searcher.go:30-269", "internal/relation_graph/goal_tree.go:32-183", "internal/relation_graph/rule_evaluator.go:53-130", "internal/store/kv_store/policy_repository.go:17-25"]}
{"id": "C119", "title": "Application data is handed on unread", "statement": "Application data attached to policies and relationships decides nothing and is handed on as it is: whatever relation holds between the application data sent to and held by two servers that are otherwise the same holds between the application data they answer with and keep, and nothing else in their answers differs. No application data is made up: what an answer contains was in a request or was held before. On a busy server any answer a request can get it can get with other application data about.", "quantifier": "every relation between application data, every two stores equal but for application data it relates, every list of requests; on a busy server every interleaving, failure and crash", "why_tests_cant": "application data is arbitrary bytes and histories are unbounded; a dependence shows only for the bytes that matter", "anchors": ["internal/policy/service.go:30-271", "internal/relation_graph/service.go:30-211", "internal/store/kv_store/policy_repository.go:31-218", "proto/zanzi/zanzi/domain/policy.proto:33-42"]}
{"id": "C120", "title": "A change can be taken back", "statement": "Setting a relationship that is not there and deleting it again, with other requests in between, leaves things as if it had never been set; deleting one and setting it again with the same application data leaves things as they were but for when it was created.", "quantifier": "every reachable store, relationship, policy, list of requests in between and list of later requests", "why_tests_cant": "the requests in between and afterwards, and what is stored, are unbounded; what else is stored under the same key decides", "anchors": ["internal/policy/service.go:146-215", "internal/store/kv_store/policy_repository.go:88-218", "internal/store/kv_store/model.go:17-60"]}
{"id": "C121", "title": "A policy can be tried out and put back", "statement": "A policy update can be taken back by sending the policy and application data read before it. The update back is always accepted, and if in between the policy was left alone and only relationships that both versions admit were set in it, requests in between other than mere reads, and everything afterwards, are answered as if the policy had never been updated, creation times included.", "quantifier": "every reachable store, stored policy, accepted update, list of such requests in between and list of later requests", "why_tests_cant": "the requests in between and afterwards are unbounded, and whatever an update left behind would show only in some of them", "anchors": ["internal/policy/service.go:66-99", "internal/policy/service.go:30-64", "internal/policy/helpers.go:39-57", "internal/store/kv_store/policy_repository.go:33-60"]}
{"id": "C122", "title": "Restarting loses nothing", "statement": "However often daemons are started and stopped, by whom and with which flags, the requests answered from a data directory are answered as if all had been sent to one service that was never restarted and shared nothing with other directories. A daemon starts exactly when its directory can be used and is not used by a running daemon and its address can be listened on; a request is answered exactly when a daemon runs where it is sent. With requests in flight, faults and daemons killed at any moment, every daemon is in a state a single service can reach, so that what holds in all states of the service holds across restarts.", "quantifier": "every host, history of starts, stops and requests, data directory; every schedule of steps of the running daemons", "why_tests_cant": "histories and schedules are unbounded, and the tests run one in-memory instance that is never restarted", "anchors": ["cmd/zanzid/main.go:12-45", "pkg/server/server.go:14-72", "zanzi.go:64-84"]}
{"id": "C123", "title": "The command line sends what its flags say", "statement": "With zanzi-cli every request without missing messages and wildcard selectors can be said with flags, and nothing else; the server answers it as the local call. The order of flags matters only between alternatives of one choice; of a flag given twice the later counts, except that resources and attributes of a policy add up. A request given as input is sent as it is if no flags are given. Flags that say a request are sent as they say, whatever the input.", "quantifier": "every command, list of flags, input and request", "why_tests_cant": "lists of flags and inputs are unbounded; there are no tests of the command line, whose code is generated", "anchors": ["cmd/zanzi-cli/main.go:13-32", "pkg/api/policy_service.cobra.pb.go", "pkg/api/relation_graph.cobra.pb.go"]}
{"id": "C124", "title": "The steps of an explanation are answers themselves", "statement": "A userset that an explanation, or an expansion, expands on its way is shown with the result and the tree that asking about that userset by itself gives.", "quantifier": "every policy, store, user, request and every step of the returned tree", "why_tests_cant": "a step is searched after an unbounded choice of other nodes has been visited, and what was visited changes what the search below a node finds; tests look only at the answer of the whole request", "anchors": ["internal/relation_graph/searcher.go", "internal/relation_graph/service.go:ExplainCheck,Expand"]}
{"id": "C125", "title": "Whoever the expansion does not show has it as explanation", "statement": "Whoever the expansion of a userset does not show, neither by name nor by a wildcard of their type, is denied, and the explanation of that denial is the expansion itself; an explanation that does not show its user is the expansion and serves for everybody else it does not show. In policies of unions the explanation of every denial is the expansion.", "quantifier": "every policy, store, userset and user, every operator, every hash function", "why_tests_cant": "relates the answers for all users to one tree, over all policies and stores, collisions of identifiers included; tests compare single trees", "anchors": ["internal/relation_graph/searcher.go", "internal/relation_graph/service.go:Check,ExplainCheck,Expand"]}
{"id": "C126", "title": "The first mention of a node decides it", "statement": "Reading the visited part of an explanation or expansion from top to bottom, every node is decided where it is mentioned first and cut off at each later mention; so nothing is decided twice, and nothing is cut off that was not decided or begun above.", "quantifier": "every policy, store, userset and user, every operator, cycles included", "why_tests_cant": "concerns the order of all visits in every tree a search can produce over unbounded policies and stores; a test looks at single trees", "anchors": ["internal/relation_graph/searcher.go", "pkg/domain/relation_graph.go:Id"]}
{"id": "C127", "title": "Explanations given while others write are coherent", "statement": "Whatever other requests do to policies and relationships while ExplainCheck or Expand runs, the tree returned is rooted at what was asked about, its result is the answer, every result in it is justified by its children, each node is decided at its first mention, and each userset in it is expanded by its definition in one policy that was stored meanwhile, each rule showing exactly what it prescribed at some moment meanwhile.", "quantifier": "every schedule of concurrent requests, storage failures included, every policy, store, userset and user", "why_tests_cant": "interleavings of storage steps with other requests cannot be enumerated, nor the policies and stores they start from", "anchors": ["internal/relation_graph/service.go:ExplainCheck,Expand", "internal/relation_graph/searcher.go", "internal/relation_graph/goal_tree.go:buildGoalTree"]}
{"id": "C128", "title": "A grant explained while others write rests on relationships stored meanwhile", "statement": "Whatever other requests do to policies and relationships while ExplainCheck runs, an explanation that grants cites a relationship naming the user, and the relationships it rests on, each stored at some moment meanwhile, are together enough for the rules of one policy stored meanwhile to give the relation, exclusions apart.", "quantifier": "every schedule of concurrent requests, storage failures included, every policy, store, userset and user", "why_tests_cant": "interleavings of storage steps with other requests cannot be enumerated, nor the policies and stores they start from", "anchors": ["internal/relation_graph/service.go:ExplainCheck", "internal/relation_graph/searcher.go", "internal/relation_graph/goal_tree.go:buildGoalTree"]}
