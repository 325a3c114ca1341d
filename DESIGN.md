# Formal model of sourcenetwork/zanzi (Lean 4)

The Go source in /repo was read as text; nothing was built or run. This file says what is modelled, what is trusted, and how
each property of `properties.jsonl` is treated. Where the code does not have a property, the negation is proved with a concrete
witness (`..._violated`), and what does hold is kept as a theorem with suffix `_partial`. `MANIFEST.json` lists the theorem names.

## 1. Shape of the model

* `Verif/Model/*` — the code, function by function. Every definition cites the file and lines it models. Outcomes are
  `Res α = ok | err | panic | fuel`: Go errors are values (sentinels only, message texts dropped), nil dereferences and other
  run-time failures are `panic`; `fuel` is not a Go outcome: it marks that the recursion bound given to the model was too small.
  Theorems about searches say that beyond some bound the answer no longer depends on it (C40), or that every bound is too
  small where the Go code really does not return (C50).
* Optional message fields (Go nil pointers) are `Option`, oneofs have an explicit unset case, so malformed requests are inputs.
* Storage is a small instruction set of atomic key-value operations; API calls are programs over it (`Prog`, `Call.prog`).
  One program has four semantics: sequential run (`serve`), run with injected storage faults (`RunF`), state after a crash at step n
  (`Leaves`), interleaving with any other calls including crashes and faults (`Sys.Reachable`).
* SHA-256 is an arbitrary function `H : String → Nat`. Collision freedom is never an axiom; where it is needed, it is a hypothesis
  about the keys in play. `style_suffices` and `C21_id_style_suffices` discharge those hypotheses from a naming discipline and a hash without collisions on the texts in play (`CollisionFree`, satisfiable by 256-bit hashes).
* `Verif/Spec/*` — independent specifications: grammar (`Grammar`), valid policy, admissible relationship, selectors (`Policy`), abstract
  store (`Store`), set semantics of rewrite rules (`Graph`), justified goal trees (`Explain`), dumps (`Dump`), policy
  definitions (`Definition`), containers (`Containers`), DOT strings (`Quote`), builder choices (`Builder`), options (`Setup`), separate stores (`Layers`),
  nesting of messages (`Wire`), which bytes hold a store (`ByteStore`), what a
  remote caller should see (`Rpc`).
* `Verif/Lemmas/*` — helper lemmas. `Verif/Props/*` — the property theorems with `example`s showing their hypotheses are satisfiable.

### Code modelled

| Go file | Model |
|---|---|
| internal/relation_expression_parser/{lexer,parser,primitives}.go | Lexer, Parser, Channel |
| pkg/domain/relation_expression_tree.go (printing, rule listing) | Parser |
| internal/policy/{types,helpers,spec,selector_spec,service}.go | Policy, Service, FqnText |
| pkg/domain/{policy,relationship,relation_expression_tree}.pb.validate.go (`Validate`) | Validate |
| pkg/policy_definition/{types,unmarshaler,mapper}.go (from YAML document trees) | Definition, Yaml |
| internal/store/kv_store/* | Kv, Store |
| internal/relation_graph/{types,rule_evaluator,goal_tree,searcher,walker,service}.go | Graph, GraphService |
| internal/relation_graph/{goal_tree_serializer,relation_tree_serializer}.go | Serialize |
| pkg/domain/relation_graph.go (`Id`, base64 of the hash) | Domain, Base64 |
| pkg/types/{graph,map_graph}.go | Containers |
| pkg/domain/{selector,relationship}.go (builders) | Builder |
| internal/policy/selector_spec.go over messages with their unexported fields | Hidden |
| internal/relation_graph/service.go with the error values it wraps | Errors |
| zanzi.go (options, defaults) | Setup |
| internal/store/kv_store/kv_store.go (prefixes) | Layers |
| proto/zanzi/zanzi/domain/*.proto, proto/internal/kv_store/relationship_record.proto as stored by kv_store.go | Wire |
| internal/store/kv_store/{kv_store,model}.go over byte keys and encoded records | ByteStore |
| pkg/server (one goroutine per request, no locks), crashes, storage faults | Exec |
| cmd/zanzid/main.go, pkg/server/server.go (starting, listening) | Daemon |
| cmd/zanzi-cli/main.go, pkg/api/policy_service.cobra.pb.go, pkg/api/relation_graph.cobra.pb.go | Cli |
| pkg/server/server.go, pkg/api/*_grpc.pb.go, proto/zanzi/zanzi/{api,domain}/*.proto as sent to remote callers | Rpc |
| pkg/api/{policy_service,relation_graph}.pb.gw.go (routes, handlers; grpc-gateway's mux and status codes as documented) | Gateway |

### Code not modelled

Generated protobuf code other than the validators the policy service calls (getters and clone are used by meaning), the
connection under gRPC (sizes, deadlines, retries), the JSON marshaler and headers of the gateway, logging, parsing of flag values and inputs by zanzi-cli, the loose helpers of pkg/types that no service path uses.

## 2. Properties

Each line: what is modelled and how it is proved, or why it fails.

* C01 Printer and parser on characters; induction on the tree.
* C02 Grammar as inductive relations on tokens plus a rendering relation on text; both directions by induction; unambiguous, left associative.
* C03 The recursion bounds are irrelevant beyond the input length; no `panic` is reachable.
* C04 Producer/consumer transition system with bounded buffer, for every capacity; invariant, no deadlock, progress measure.
* C05 From C02: layout is not part of a rendering. White space is Spec.`whiteSpace`, the characters with the Unicode property White_Space, listed independently of the lexer.
* C06 Violated: a name beginning with `_this` cannot be referenced. Partial: all other identifiers.
* C07, C09 Iff between the validator and an independent predicate, and between success of CreatePolicy/UpdatePolicy and it (Props/Admission). C08 Violated: the relation right of an arrow is unchecked; partial for the rest.
* C10 Violated: the generated validators accept everything (proved by induction on the messages). Partial: relationship fields named by the policy.
* C11 Lookup table as overwriting maps; exact under unique names. The text keys (message text with escaped quotes and control characters) are proved injective
  by reading them back, so the pair of names is as good as the key.
* C12 Iff with an independent permission predicate (needs a restriction to be present, else C14), for the check and for SetRelationship on every well-formed store. The same two levels for C10 and C55.
* C13 By cases on all calls: an answer other than success leaves the store unchanged.
* C14 Violated by nil sub-messages, missing restriction, any-object selectors with relation, wildcard in a tupleset. Policy service: an iff per call saying which requests panic (`Spec/Panics`).
  Graph service partial: all other requests. Drawings of Expand: an iff (a wildcard behind an arrow of a right operand of an intersection panics only there).
* C15–C19, C21–C25 Run semantics against map laws. Key collisions (`doc:1#super_owner` against `doc:1super_#owner`) violate C15, C16, C17, C21 for every
  hash; partial when no stored relationship shares the key.
* C20 Violated: record data is keyed without the policy id. Partial: policies, relationship sets, graph queries, and reads whose keys are not shared.
* C26 Refinement of an abstract store by induction over histories; partial: relationships with pairwise different keys.
* C27, C28, C29 Violated by explicit crash points; partial: what every crash point leaves, and that retry completes. C30 Every crash point.
* C31, C33 Violated by explicit interleavings.  Proved: two CreatePolicy that both succeed overlap, on a busy server (weakest preconditions under interference); no orphans in any schedule in which SetRelationship and DeletePolicy of the policy do not overlap and no DeletePolicy fails (`Sys.Apart`, Spec/Apart; invariant by induction over schedules).
* C32, C34, C35 Invariants over every interleaving, crash and fault.
* C36, C37 Search modelled with its shared seen set. Soundness by induction on the search against the least/greatest set semantics
  (subtrahends dropped; difference-free; searches that cut nothing), completeness for unions by a closed-visited-set argument. Violated in general.
* C38, C39 Violated; general theorems that intersections never grant and differences never exclude in wildcard-free data, the former at any depth of a request (`C38_grants_without_intersection`). Partial: searches that cut nothing.
* C40 Measure: unvisited nodes of a finite universe. Includes malformed requests.
* C41, C42, C43 From C36/C37. C41 violated with intersections (an alternative tried earlier uses up the visit of the wildcard), C42 by usersets sharing a visit identifier, C43 for intersections.
* C44 Agreement with Check and justification by induction on the search; expansions violated under key collision.
* C45 Violated for every userset (parent pointers form a cycle). C46 Calls handed to gographviz, induction on the tree.
* C47 Violated with intersections; `C47_expand_exact` says for every operator what is shown instead: the nodes reachable without passing a right operand of an intersection. C48 Violated for every hash. C49 Violated by dangling arrows; `C49_expand_exact_partial`, `C49_check_outcome_partial` and `C49_union_denial_exact_partial` say which faults within reach (`Spec/Outcome`) spoil a request. C50 Violated by cycles. Partials outside.
* C51, C52, C53 Mapper for every map iteration order; C53 violated for relations.
* C54 Round trip by cases. C55 Violated, partial elsewhere. C56 Induction over operation histories. C57 Induction on trees.
* C58 Frame argument on storage operations. C59 Violated under key collisions; otherwise orphans are inert.
* C60 Induction on the search; read results range over all stores the server passes meanwhile. C61 From C60 and an invariant over every schedule; on a busy server, a weakest precondition of the bulk deletion under requests that set no relationship naming the user (Lemmas/Bulk.lean).
* C62 A query whose reads agree with one store answers as on that store. C63 Violated twice by explicit schedules (new enemy, moved user);
  partial: bounds by the relationships stored at some moment and at every moment of the request; exact at one moment when the overlapping requests only remove or only add relationships (the stores of the history are then nested, `Sys.Flight.along`) and only unions are met.
* C64 Weakest preconditions under interference; for DeleteRelationships and DeletePolicy, of every kind of relationship no other request sets. Violated by later writes of a different relationship with the same storage key; partial: no overlapping request writes the same storage key otherwise. C65 Violated by explicit schedules
  (a stored relationship without record; two creations reported); partial: only sets, or only deletions, overlap.
* C66 Proved for Expand and for unknown formats. Violated: ExplainCheck leaves the format of its response at SPEW whatever was asked; partial: its text is in the requested format.
* C67 DOT quoted strings are read by a small reader (Spec/Quote). Violated: quotes in names are not escaped in goal trees and dumps, nor backslashes in GraphToDOT.
  Partial: names without quotes; GraphToDOT exactly.
* C68 Induction on the calls; the choices in force decide. Violated: a part never chosen makes DeleteRelationships panic.
* C69 Induction on the options. Violated: the default store is in memory, one WithMemKVStore value shares its store, `~bob` is taken under the own home.
* C70 Iff: two prefixes are separate exactly when neither begins with the other. Violated for policy ids of which one begins with the other, if raccoondb
  concatenates prefix and key.
* C71 Encoder and decoder of the stored messages on bytes; exact decode-of-encode lemmas by induction. Violated: trees nested beyond the decoder's limit are
  stored and cannot be read. Partial: every other policy; relationships and their data always.
* C72 Simulation of the storage calls on bytes, lifted to histories and to schedules (both directions); UTF-8 keeps the order of texts. Requests must fit: policies
  within the decoder's nesting, texts shorter than 2^56 bytes, hashes of 32 bytes. A policy's attributes are written in the order given (any order: C71).

* C73 Encoder and decoder of every request and response, handlers by name, on top of the byte server of C72. Client histories and arbitrary bytes, both by
  simulation; a policy decoded from bytes is nested shallowly enough to be stored and returned, so #19 cannot arise remotely. Violated as to availability: five methods
  crash on the empty message. The outcome of a crash is one step; the history goes on with the store, as after a restart.

* C74 Violated: an alternative tried earlier uses up the visit of the user. Partial: the first alternative, for every operator met, because a search does not depend on
  visited nodes it never meets (induction on the search); every alternative of union-only requests.
* C75 Violated by the same defect in a policy of unions and intersections. Partial: explanations without a cut branch, where the answer is the least fixed point.
* C76 Proved for every operator, whatever collides (`C76_authorized_shown`, from C125). An older proof, absent storage key and visit id collisions: soundness of Check over the `Shown` nodes, which are those settled by Expand.
* C77 Proved: the store invariant keeps entries sorted by key without repeats, so the stored list is a function of the set of relationships, and graph queries read nothing else.
* C78 Proved for every operator, absent storage key collisions on the consulted usersets: congruence of the search over reachable nodes.
* C79 The .proto files as a table (Spec/Schema), encodings of the table's messages as an inductive relation on bytes, contents of the model's values by field name;
  nothing there mentions the encoders and decoders. Every decoder reads every encoding (one lemma per message, induction on expression trees); every encoder writes
  one. Sizes below 2^64, policies nested within the decoder's limit and with rooted trees as in C73. The encodings include fields given again
  (replaced, or merged when they are messages) and members of a oneof superseded by another.
* C80 Violated: a user with the empty id shares the visit identifier of the wildcard, and another user in a tupleset makes the request an error. Proved otherwise for every operator: each search is compared with the one from whose expansions other users are left out (Lemmas/Bystander), and the latter are equal.
* C81 Violated under wildcards, both ways. Proved for every operator for users no wildcard covers, by running both searches side by side (Lemmas/Expansion): the same until the user is visited, and afterwards neither finds them again; and for union-only requests with wildcards, from C37, C47 and C76; in policies of unions whatever collides, from C125. With wildcards and all operators for users whom no intersection and no subtraction concerns (C90): Lemmas/InvolvedSet shows by induction over the search without goal that the tree's set has the user exactly when they are reached.
* C82 The base64 step of `RelationNode.Id`, against RFC 4648 stated on bits (Spec/Base64): the text determines the bytes, has 44 characters and needs no escaping. The rest of the model keeps identifiers as the hash read as a number; `C82_id_exact` is the reason that loses nothing.
* C83 Violated: the documented format is refused, since decoding is strict and the required keys `version` and `actors` are unknown; attributes have no part in the id. Proved otherwise from document trees on (Model/Yaml): acceptance exactly by shape, meaning by paths of keys (Spec/Yaml), reordering at any depth, and writing a definition and decoding it.
* C84 Violated for DumpRelationships: a chain of n diamonds (4n relationships) is drawn with at least 2ⁿ lines, for every n (induction). Proved otherwise: the storage calls of a search are the lookups of pairwise distinct usersets (invariant over the search: a list of usersets, fresh for the visited set and marked in it, pays for every call), whence the bound; the other requests by their code. The trees and drawings ExplainCheck and Expand answer are bounded in the same way (C84_answer_size), and a dump's drawing has exactly two parts per way from a root (C84_dump_ways). Calls are counted at the storage interface (an iteration over a prefix is one).
* C85 Violated: `reflect.DeepEqual` also compares the unexported fields of messages, so a selector that was printed once, or came with unknown fields, selects nothing. Proved exactly: untouched selectors give the very programs of the other models; touched ones find and delete nothing.
* C86 Violated: `c + (a - b)` for `(a - b) + c`, or `a` for `a & a`, changes answers (Spec.`SameSet` is set semantics, independent of the search). Proved for every operator: the rewritings of Spec.`Regrouped` (associativity, repeated alternatives, a relation or the one it is defined as), also across an UpdatePolicy; both searches are compared with a canonical one on flattened expressions (Lemmas/RewriteSearch). For requests that meet only unions any rewriting with the same meaning, from C37. The same for users whom no intersection concerns where no difference is met, and, given a supported solution of the rules, for users whom neither concerns (Props/Unconcerned, from C90).
* C87 Violated: errors of a search (undeclared relation, failing storage call), of dumps and of the policy service carry neither, and JSON explanations are blamed on the service. Proved under all storage failures: what is said is right (C87_blame_right); an unknown format, an absent policy and a failing policy lookup are reported as they should. Model/Errors repeats the service methods with error values; forgetting these gives the other model (`forget_progE`).
* C88 Violated for relationships: setting a stored relationship again renews its CreatedAt (C88_overwritten_violated). Proved: a policy's CreatedAt is the time of the CreatePolicy since which it has existed, through all updates; with a clock that does not run backwards no relationship is recorded as older than its policy or younger than the last request. Lemmas/Effects lists the six ways in which a request changes a store.
* C89 Violated: everybody and user:u have a, user:u has b; `both = a & b` is denied to user:u and granted when the same data names them user:v, because the search order is that of hashed names (C89_names_violated). Proved: for requests meeting only unions; for all operators when no branch is cut off; and for all operators, errors, explanations and Expand's trees included, when the consulted relationships are stored in the same order, so the storage order is the only way in which names matter; and for all operators and any order, for users whom no intersection and no subtraction concerns (C90 on both sides). Missing: nothing else, KeysClear and IdsClear excluded as in C36.
* C90 Spec/Involved.lean says when an intersection or a subtraction concerns a user: one of its rules leads to the user, to a wildcard covering them, or to a userset from which one of these is reached. Proved for all operators by induction over the search (Lemmas/Involved.lean): where the user is not concerned the search finds nothing and visits only nodes from which the user is not reached (`Ev.cold`), so a search that does not succeed has visited every node from which the user is reached (`Ev.warm`). Union-only requests are the special case without guarded rules. C41, C42, C43, C74 and C75 follow for such users (`*_unconcerned_partial`). Together with `C38_grants_without_intersection` this leaves open, without wildcards, only users who are reached both inside and outside of intersections or subtractions; there the order of the search decides (C74_union_violated, C75_monotone_violated).
* C91 Spec/Trace.lean says what it means that requests asked for a policy or relationship. Proved by an invariant over all schedules with faults and crashes from the empty server (Lemmas/Trace.lean): every program writes only what was asked for, provided the policies it read were (`Prog.Lawful`), and such writes keep the invariant. Policies, relationships, GetPolicy, ListPolicyIds, the relationships found by FindRelationshipRecords and granting checks: full, also while other requests run. Time and data of records answered by GetRelationship or FindRelationshipRecords: violated, since the data store is shared by all policies and keyed by concatenated names (C91_records_violated: neither another relationship nor another policy's is told apart); proved if no request sets another relationship, or this one in another policy, under the same storage key. The policy admitting a relationship is one that was asked for, not necessarily the one stored now (C12 and the update properties).
* C92 `SaysSame` (Spec/Rewording.lean) compares declarations by name and expressions by the trees they denote. Full. Lemmas/Rewording.lean runs a request on both stores in lock step: programs are related when they make the same storage calls and react alike to alike policies (`ProgSim`), which needs look-up tables, expression trees and restrictions to agree whatever the order. Lifted to sequences of requests and to all schedules with faults and crashes. GetPolicy of this policy is left out, since it answers the policy as written.
* C93 `answeredAgain` (Spec/Repeat.lean) lists what the second answer is. Full, for every call and every reachable store; requests of others in between are not considered (C61-C66 for those).
* C94 Full for the requests named. DeletePolicy is the exception (C29, violated); a repeated DeleteRelationships leaves the same relationships (C30), but a data record whose relationship was already deleted stays.
* C95 Full for the requests named: two systems are run side by side, the second without the other policies' requests, and stay alike in the policy and its edges. GetRelationship and FindRelationshipRecords are left out (they read shared records, C20), ListPolicyIds names no policy. Edges are kept per policy id in the model; ids of which one begins with another are C70. `C95_afresh` assumes DeletePolicy ran to its end (C29).
* C96 `_partial` for relationships with different storage keys; `C96_order_id_style` turns this into different relationships for names in the style of C21. Stores are compared by what any later requests are answered. Violated otherwise (`C96_order_violated`): names running together (C21) and record data shared between policies (C20).
* C97 `_partial` likewise: storage calls under different keys commute, so every interleaving comes to the same as running the requests in turn. Violated for names running together: both requests report that nothing was overwritten and one relationship is lost (`C97_parallel_violated`). Overlapping writes of one relationship are C65.
* C98 `_partial`: each request takes effect at one of its storage calls (a creation or update at its write, a query at its read of the policy, as nothing else changes what it reads). Invariant over interleavings: the requests that have taken effect, in that order, lead from the old store to the present one, and what is left of them only reads relationships. Violated by an update overlapping a deletion (`C98_delete_violated`) and by overlapping creations of one id (C31).
* C99: requests are made and answered at any time (`Timeline`), under the rule that only reads, updates and creations of different policies overlap (`KeptApart`); storage calls of such requests may fail and the service may crash while only such requests are waited for. Invariant: as for C98 while such requests share the service, with requests numbered and appended to the order when they take effect, hence after all that were over before; a request whose storage call failed is bound to answer so (`Prog.FailStop`), whether it took effect or not; while another request is alone, what is left of it leads from the store explained so far to what serving it whole gives. The rule is needed: C31, C63, C98. Faults under the other requests are left out because those are not atomic: C27–C29, C33.
* C100: two runs of a request in step (`TimeAlike`): the same storage calls, but for the creation times in what is written, get answers equal but for creation times (`SameButTimes`) and go on alike; shown for each request's program, then for sequences and for interleavings with failures and crashes (`Sys.Flight`).
* C101: what is fetched (`Fetched`) determines the live part of the store; the copying requests keep the copy a part of the original (`Part`), never lose anything (`Grows`), and an accepted one brings what it was to bring (`Brought`), so the copy has the same policies, edges and data but for times (`Copied`). With sequential requests no relationship is orphaned (C33) and no datum is without a relationship (`Owned`), so the whole stores agree but for times, and C100 gives all later answers. Not covered: records fetched as nil because another policy deleted the shared data (C20); orphans of removed policies, which no request returns.
* C102: as C92, but with a relation in one direction (`PolLe`, `ProgLe`, `StoreLe`): the program run on the larger policy makes the same storage calls and gives the same result unless the other gives none. Errors only ever end a request, so what follows one on the left is unconstrained. Admission is monotone by the exact specification of C12. In the busy theorems a request the smaller policy turned down simply stays in flight on the other server.
* C103 Violated: `v = c` widened to `v = (a & b) + c` takes v from a user holding a and c, as the failed `a & b` uses up the visit of that user (C103_widening_violated); even an alternative put last can do so when the relation is met again on another object (C103_appended_violated). Spec/Widen.lean says that one policy's expressions grant at least another's. `_partial`: from C36 and C37 when only unions are met, when the explanation is clean, or (C90) when no intersection involves the user; and for all operators when the alternative is appended to the relation asked for, whole, and what else is met is unchanged: once the origin is marked visited, the two searches go the same way (`pPath_follow`) and the union stops at its first operand.
* C104 Violated: while other requests keep nesting a further group into the last one, a Check never answers (C104_starved_violated: for every recursion bound a schedule of such writes exhausts it). Spec/Busy.lean counts the storage calls a request makes itself on a schedule with failures and crashes (Sys.Attended). Proved by a budget carried through the program (Prog.Ends, Lemmas/Busy.lean): queries are over after 1 + (|L|+1)·m·k own calls, L being the relationships stored at some moment of the request (C104_queries_partial), whatever the model's recursion bound (C104_bound_irrelevant); all other requests are wait-free with the numbers of C84 (C104_others).
* C105 Violated: v on doc:1 is given to the members of a group and to `both = a & b`; a member who also has a is denied v, because the failed intersection used up the visit of the user; likewise through an arrow (C105_passing_violated). alternatives (Spec/Rewrite.lean) are the rules that suffice alone, RuleLeads (Spec/Involved.lean) where a rule leads. Proved for requests that meet only unions (C105_union_partial), for users whom no intersection and no subtraction concerns (C105_unconcerned_partial), when the explanation shows no branch cut off (C105_clean_partial; with differences C105_difference_clean_partial), and for all operators when the alternative is tried first and leads only to that userset (C105_first_partial).
* C106 Model/Gateway.lean has the routes of both registrations, path splitting and pattern matching, reading of bodies (an empty body leaves the request unset), the two handler families and their results; the marshaler is a parameter. A path reaches a method exactly if it is that method's gRPC name and the verb is POST (dispatch_iff), so requests make the call they hold (C106_server_calls, C106_client_calls), anything else is refused without effect (C106_refused), an empty body is the empty message (C106_empty_body), and on any history both gateways leave the same store, as values and as stored bytes, with replies alike but for crashes (C106_histories, by simulation on top of C73).
* C107 Violated: no error of the services carries a gRPC status, so whatever they complain of arrives as Unknown (C107_codes_violated). What holds: Unknown means exactly that the method was called and returned an error; the other codes mean that it was not called and nothing changed (C107_http_codes_partial, C107_grpc_codes_partial).
* C108 Violated: user:uuuuu and the members of group:1, all users, have a; user:uuuuu has b; `both = a & b` is denied to user:uuuuu and granted when the relation of groups is called m instead of member (C108_names_violated): keys are hashes of names, and the search follows them. `Vocab`, `RespelledPolicy`, `Respelled`, `TreeAs` (Spec/Respell.lean) rename resources, relations, objects and users throughout policy, relationships, requests and trees; the policy id may change too and expressions are compared by the trees they denote. C89 is the case where only ids change. Proved: for requests meeting only unions; for all operators when no branch is cut off; for users whom no intersection and no subtraction concerns, in any order; for all operators, errors, explanations (their texts included) and Expand's trees included, when the consulted relationships are stored in the same order (Lemmas/RespellSearch.lean runs both searches side by side). Missing: nothing else, KeysClear and IdsClear excluded as in C36.
* C109 Violated: (a) doc:1 has super_owner group:g, as allowed; owners must be users; group:g is granted owner of document "1super_" (C109_keys_violated); (b) after an update that takes groups out of a restriction, groups stored before are still granted (C109_update_violated). `MayHold` (Spec/Types.lean) is the least relation between kinds of users and relations closed under what the restrictions and expressions allow, computed from the policy alone. Proved: for every interleaving from the empty store, faults and crashes included, if one policy was given under the id and no requested relationship shares the storage key of another userset; and for every store that holds only relationships its present policy allows. Uses C91 (stored relationships were allowed by a policy given) and the bound of C63. Missing: the two violations.
* C110 Violated: (a) with `viewer = parent->missing + parent->owner` and no relation missing in folders, no store with the policy makes Check grant viewer to anybody, because every document with a parent fails at the first arrow (C110_arrow_violated, for all stores); (b) with `all = (a & b) & c` of relations restricted to users, no store with accepted relationships makes Check grant all: each operand must find the user at a node not visited before, and there are only user:u and user:* (C110_intersection_violated, for all stores; two operands can be satisfied with the wildcard). `MayHold` as in C109. `C110_attainable_partial`: for policies of unions without missing parts whose arrows lead to declared relations, in which names and ids can be told apart when written together and the hash has no collision on the texts in question, MayHold implies that some relationships are all stored without error on an empty server after the policy, and Check then answers true at every sufficient depth. Proof: induction on MayHold builds the relationships, all on objects with the id asked about (`mayHold_attained`, Lemmas/Attain); distinct storage keys, so all of them stay (`stored_all`); every userset reached is declared and no wildcard is met, so Check answers (C49), and the answer is exact on unions (C37).
* C111 Violated: (a) an arrow follows a userset to its object and not to its members: with `see = owner->member`, replacing the owner group:g#member by its only member group:h takes `see` away from group:h (C111_arrow_violated); (b) with `both = a & b` and both relations given to the same group, Check looks the group up only once and denies; when `a` is given to its members instead, Check grants (C111_intersection_violated). Partial: for requests that meet only unions, with no arrow that looks at the relation for objects and no colliding keys or ids, the answers before and after agree, whatever the nesting of the group (C111_replaced_partial, Spec/Flatten.lean: Replaces, Lists). For unions the objects and wildcards in Expand's tree are a list of members in that sense (C111_expand_lists).
* C112 Cites and Revoking (Spec/Revoke.lean): a relationship is cited when, through successful results, its subject was found directly below its userset. Invariants over the search (Lemmas/Revoke.lean): a success cites something, and what is cited was read from the store under the key of that very relationship, so deleting it finds it even when keys collide (C112_grant_cites, C112_cited_found). Rounds are bounded by counting relationships (C112_rounds_bounded) and can always go on until nothing is granted (C112_revocable).
* C113 Looked and AlikeFrom (Spec/Elsewhere.lean): what a request comes across is reached through the relationships storage shows under each key, so no assumption on keys is needed. At every reached userset both policies build the same goal tree, and the trees lead only to reached usersets; the searches then agree step by step (C113_elsewhere), and so do answers before and after an update that keeps the reached definitions (C113_update). reaches_looked: without colliding keys this is reachability through what is stored.
* C114 Violated: (a) group:team has a and group:g, whose members are all users, has b, so user:u of the team has `both = a & b`; when group:g is given a too, which user:u has anyway, they lose both, because the search meets group:g under a first and cuts it off under b (C114_intersection_violated); (b) an arrow follows a relationship to its object whoever has the relation (C114_arrow_violated). Idle and Adds (Spec/Idle.lean) say per user that the relationship adds nothing; `_partial`: when no arrow looks at the relation, for requests meeting only unions, for clean explanations, and for users whom no intersection concerns. That the relationship adds nothing can itself be told from Check: the user is granted the relation (C114_granted_idle), or denied the userset (C114_denied_idle).
* C115 Proved. Call.Aside (Spec/Aside.lean) says of a request that it neither sets nor deletes a relationship under a key that requests about x read (ReadFrom: the keys of the usersets they consult, with what storage shows under colliding keys) and that a policy it defines under the same id defines what they come across alike; requests to other policies are unrestricted. C115_undisturbed: a Check, ExplainCheck or Expand in flight among such requests answers as on the store as it was, or reports a storage fault, even if it reads a redefined policy and relationships from different moments; proved by an invariant of the stores passed (asideOp_exec, prog_aside) and by showing that every part of the search reads the same from all of them (searchGoal_const, about_settled). C115_unchanged: after any such schedule, crashes included, the answers are the same. Generalises C62 (other policies), C78 (one changed store) and C113 (one changed policy).
* C116 Violated: with `v = ((a + b) & c) + d`, deleting a relationship that the explanation does not rest on (all users have `a`) takes `v` from the user, because the search then meets their group below the failing intersection first (C116_removal_violated). RestsOn (Spec/Rests.lean) reads off the tree alone what a grant rests on. Proved for every operator: those relationships are enough for the rules to give the relation, exclusions apart (C116_enough; by induction on the justified tree of C44, Lemmas/Rests.lean). Hence Check grants in every store that holds them when the request meets only unions there (C116_union_partial), or no difference and a tree without cut-off branches (C116_clean_partial), or no difference and no intersection that concerns the user (C116_unconcerned_partial). Keys must not collide and tuplesets hold no wildcards.
* C117 Violated: two users are both given `a` by name and nothing distinguishes them but their names, yet Check grants `a` to one and denies it to the other (C117_order_violated): a userset stored between them is searched before the second and uses up their visit in a failing intersection. The rules themselves treat both alike for every operator (C117_rules). Proved of Check for requests that meet only unions, for all operators when no branch is cut off, and for all operators for users whom no intersection or subtraction concerns (one of them suffices), with Expand's tree then having both or neither.
* C118 Violated when the request leads back to one of the objects (C118_back_violated). Proved for every operator, errors, explanations and trees included, when it does not (C118_apart_partial: the second half of a storage key is that of the subject alone, so the subjects of both objects are stored in the same order, and exchanging the names leaves the search unchanged, C89). Leading back or not: for requests that meet only unions, without differences when no branch is cut off, and for users whom no intersection or subtraction concerns.
* C119: parametricity in application data. Two runs of a request in step (`DataAlike`), as for C100, with an arbitrary relation `R` between application data in place of equality; shown for each request's program, then for sequences (C119_unread) and interleavings with failures and crashes (C119_unread_busy). `R` true everywhere: application data decides nothing; `R` the graph of a function: it is handed on as it is; `R` a property of one side: none is made up (C119_nothing_made_up).
* C120 Violated through shared data and keys that run together (C120_undo_violated). Proved when Get and Set themselves say that nothing is there (C120_undo_partial), with reads and writes of relationships with other keys in between: a write can be moved past what comes between (`between_move`, from C96), and writing under a key and putting back what was there changes nothing (`write_back`). Putting back a deleted relationship: C120_redo_partial, the rest by C100.
* C121 Two stores that differ in the record of one policy (`Swapped`) stay so under every request that leaves the policy alone and sets in it only what both versions admit (C12), with the same answers but for reads; the record put back makes the sorted lists of policies, hence the stores, equal (`kv_ext`). That the update back is accepted: stored policies are valid (C32) and kept under their own id.
* C122 Model/Daemon: zanzid and pkg/server on a host with directories, sockets and users. Induction over histories: the machine runs the daemons the history says (`Runs`); a directory holds what its requests left. With requests in flight: simulation of each daemon by `Sys`, where stopping is its crash step; needs that no two daemons share a directory, which the LevelDB lock (assumed) gives. A relative data_dir means another directory from elsewhere (C122_relative_elsewhere).
* C123 Model/Cli: flags set variables in order, the request made of them is merged into the input (`proto.Merge`). Reading a request off the variables both ways gives what can be said; flags commute unless they share a name or a choice; a simulation shows that a later flag hides an earlier one. Of rival alternatives the last flag takes its own (`C123_last_chooses`), and every part not filled by flags comes from the input (`C123_part_by_part`, `C123_choices_over_input`, `C123_policy_over_input`). Partial: flags over the input holds for requests without empty parts (`C123_flags_over_input_partial`); empty values and enum defaults do not replace the input, resources add up, wildcards cannot be said (`C123_*_violated`). Parsing of flag values and of the input, environment variables and the connection are not modelled.
* C124 Spec.`steps` are the expanded nodes of a tree, Spec.`cuts` the nodes at which the search stopped because they had been visited. Every step is a search of its own, started after some nodes were visited (Lemmas/Steps `pPath_steps`); a search that stopped at none of those runs the same way when started afresh (`pPath_retraces`), and a search started afresh decides all it stops at. So, for every operator and hash, a step is explained (or expanded) by itself with the same tree if and only if it decides what it stops at (`C124_step_exact`, `C124_expand_step_exact`). Violated otherwise (`C124_cut_violated`). Proved then: without difference, steps shown with success are granted; with unions only they are authorized by themselves, and all steps of a denial are denied.
* C125 Two searches whose goals are told apart by none of the nodes one of them settled are the same (Lemmas/Unshown `pPath_shadows`), applied to Expand (no goal) and Check (the user); no hypotheses on operators, names or hashes. In policies of unions a search that fails settles no node naming the user (`Ev.unshown`). Shown users may be denied (`C125_shown_denied`).
* C126 Partial. Spec/FirstMention lists the visited nodes in reading order; by induction on the search (Lemmas/FirstMention `Ev.readsOff`) the list goes with the set of visited identifiers. Proved for Explain and Expand, whatever collides, in terms of visit identifiers, and that no node is decided twice (`C126_once`); that what is cut off has an earlier mention that is decided (`C126_cut_decided`); in terms of nodes where identifiers tell the visited nodes apart, as for names without slashes (`C126_plain_names_partial`). Violated where they do not (`C126_collision_violated`, the names of finding C48: doc:1#a/b is mentioned once and cut off there).
* C127 Partial. C44 and C126 for requests in flight: searches whose reads come from any stores passed meanwhile (`RBuilds`, Lemmas/Rely) are searches in the sense of the induction, and the trees built have the shape of the expression (`Shape`). Coherence is proved without hypotheses, for Explain and Expand; that each rule shows what it prescribed at some moment (Spec/BusyExplain) when no consulted storage keys collide and no wildcard is in a tupleset (a quiet server violates it otherwise: `C44_expansion_violated`). The example is a tree that no single moment would have given (the schedule of `C63_new_enemy_violated`).
* C128 Partial. C112 and its "enough" theorem for requests in flight. That a grant cites a relationship, that whatever is cited names the user, and that deleting it at some moment meanwhile would have found it, is proved without hypotheses, for every schedule; that what it rests on is enough (Lemmas/BusyRests, over `PrescribedDuring`) when no consulted storage keys collide and no wildcard is in a tupleset, exclusions apart. If all of it is stored at one moment and the rules met there have no difference, the grant is right at that moment. Missing: key collisions (`C44_expansion_violated`) and differences. The example is a grant true at no moment of its run (the schedule of `C63_new_enemy_violated`).

## 3. Findings (defects of the code, each with a kernel-checked witness)

1. The visited set is shared by all branches: in wildcard-free data an intersection of relations always denies and a difference never
   excludes (C36–C39). Granting the excluded user is an over-grant. A failing intersection or difference also spoils the alternatives after it: a holder of c is
   denied `(a & b) + c` once they are given a (C74, C75).
2. OR over results of which none succeeded is FAILURE even when some are UNKNOWN; answers depend on storage order (C43).
3. Storage keys concatenate resource, id and relation without separator; visit ids collide too (C16, C17, C21, C48).
4. Record data is shared between policies: deleting in one policy loses the record in another (C20).
5. SetRelationship and DeleteRelationship write two records non-atomically, DeletePolicy deletes the policy before its relationships;
   no locks (C27–C29, C31, C33).
   An UpdatePolicy overlapping a DeletePolicy brings the policy back, without its relationships, though the deletion reported success (C98).
6. Requests that panic: see C14. Wildcard subjects in a tupleset make Check panic, or only the drawing of Expand. The server has no recovery interceptor, so any remote caller can stop it,
   for instance with an empty CreatePolicy message (C73).
7. An arrow to an undeclared relation is accepted and later fails every Check through it (C08, C49).
8. JSON explanations always fail (C45).
9. DumpRelationships omits cycles, or never returns (C50).
10. Relation placeholders in YAML are refused; required fields are not required; any-object selectors with a relation panic, userset subject
    selectors are refused (C53, C10, C55).
11. `MapPolicyDefinition` on a definition not produced by the unmarshaller loses names (C51).
12. A Check reads the store at several moments: it can grant what no moment grants, and deny what every moment grants (C63).
13. SetRelationship overlapping DeleteRelationship can leave a relationship that grants access but that GetRelationship does not show (C65).
14. ExplainCheck responses say SPEW for JSON and DOT requests too (C66).
15. An object id with a quote breaks the DOT text of ExplainCheck, Expand and DumpRelationships; a node id ending in a backslash that of GraphToDOT (C67).
16. A selector built without choosing every part crashes the request (C68).
17. `New` without options keeps data in memory although its comment promises the data directory; an in-memory option value reused for two instances shares the data;
    `~bob/x` is opened as `<own home>bob/x` (C69).
18. Relationship stores of policies `a` and `ab` overlap if raccoondb does not delimit prefixes (C70).
19. A policy with an expression tree more than 4996 operators deep, given by an embedding program (over gRPC the same limit stops it earlier), is accepted
    and stored but can never be read again: protobuf decodes at most 10000 nested messages (C71). Every request
    needing it fails until DeletePolicy, which still works (C72).
20. A user with the empty id shares the visit identifier of the wildcard, so giving them a relationship can take access from others; another user's relationship in a
    tupleset makes the request an error (C80).
21. Expand and Check disagree once wildcards are involved, both ways (C81).
22. Every document with the sections docs/policy-definition.md marks as required is refused; policies differing only in attributes do not get different ids, and
    two definitions without `id` collide (C83).
23. DumpRelationships draws a node again for every path that leads to it: 4n relationships can take 2ⁿ lines (C84).
24. A selector naming an object or subject selects nothing once the message was printed, marshalled or compared, or if it came with a field of a newer schema (C85).
25. Reordering the operands of a union, or dropping the repeated operand of an intersection, changes answers (C86).
26. Callers cannot tell a storage failure during a check from a mistake in the request: the error wraps neither api.ErrInternal nor api.ErrInvalidRequest (C87).
27. Setting a relationship that is already stored renews its CreatedAt, unlike updating a policy (C88).
28. Renaming a user or an object can change answers, since names decide the order of the search (C89).
29. Adding an alternative to a union can take access away (C103).
30. A Check, ExplainCheck or Expand can be kept from ever answering by writers that extend what it searches (C104).
31. A member of a group to which a relation is given can be denied that relation (C105): usersets tried before use up the visit of the user.
32. Remote callers cannot tell by status code a wrong request from a failing service: all errors arrive as Unknown (C107).
33. Renaming a relation throughout a policy and its relationships can change answers (C108), for the reason of 28.
34. Subject restrictions do not bound who is granted once a policy was updated, or storage keys collide (C109): a group can be granted a relation restricted to users.
35. Accepted policies can have relations nobody can ever be given (C110): a union with an arrow to an undeclared relation before the arrow that counts, and an intersection of three relations of users.
36. Giving a relation to a group is not the same as giving it to the group's members (C111): arrows follow the group itself, and an intersection looks at a group only once.
37. Giving a group a relation that its members have anyway can take access from them (C114): an intersection then meets the group earlier and cuts it off where it is needed.
38. Deleting a relationship that the explanation of a grant does not use can take the grant away, in a policy without differences (C116).
39. Of two users with exactly the same relationships one can be granted what the other is denied, even a relation given to both by name; and of two objects with the same relationships one can grant what the other denies (C117, C118).
40. A relationship set in one policy, answered as overwriting nothing, and deleted again takes with it the application data of the same relationship in another policy (C120).
41. With zanzi-cli a flag set to an empty value or to the default of an enum does not override the request given as input, resources of a policy are added to those of the input, and wildcard selectors can only be given as input, not with flags (C123).
42. In the explanation of an answer a userset may be shown as failed although it is authorized when asked about by itself: with `v = a + _this` and `a = v + b`, the explanation of v shows a as failed because v was being visited (C124).

## 4. Trusted base

* Lean kernel; axioms propext, Classical.choice, Quot.sound only (checked with `#print axioms` for every theorem of the manifest).
  No `sorry`, no added axiom, no compiler-evaluated proof.
* Fidelity of the hand translation, definition by definition. As evidence, `Props/RepoTests` replays the repository's own tests and its embedded example on the model (tests, not proofs):
  all agree, except two Go tests that contradict the Go code they test, as explained there (`TestCreatePolicy`, `TestSetRelationshipWithEmptyObjectErrorsOut`; the latter is C10).
* raccoondb (source not available): an ordered key-value store whose calls are atomic one by one, iterating in key order, deleting a missing key
  without error. Stores of different policies are disjoint: kv_store.go:49 wraps with the policy id as prefix and no separator, so this holds
  only if raccoondb delimits prefixes or no policy id begins with another (C70).
* grpc (source not available): hands the bytes of a request to the handler registered under its name and the response back; decoding errors do not reach the handler.
* protobuf v1.31.0 (source not available): writes and reads bytes as `Model/Wire` says, which is why the other models store values (C71); and prints messages in one-line text format as `Model/FqnText` says (C11); strings are valid UTF-8;
  a selected oneof variant is non-nil; repeated fields have no nil element.
* Outside Model/Hidden `reflect.DeepEqual` on messages is equality of the exported fields, which C85 justifies for untouched messages. That decoding leaves
  the messages inside a request untouched and reflection marks all messages it visits is protobuf v1.31.0 as known. Goal comparison for
  usersets compares pointers and is modelled as false.
* Reading YAML text into a document tree is a parameter. Decoding trees follows yaml.v3 as known (its source is not here): strict keys, no key twice, null leaves zero values and is skipped in lists, scalars give strings their text; anchors, merge keys, explicit tags and non-text keys are not modelled. gographviz, spew and encoding/json texts are not modelled: DOT output is the list of calls, JSON is "succeeds or fails on cycles".
* Containers: stored pointers are treated as values.
* Logging, context cancellation, clock (an argument), memory exhaustion and Go stack limits are not modelled.

## 5. What seeded/LOG.jsonl shows

Each line is one wrong program: an edit of a model definition, tried in a scratch copy.

* `theorems_failed` lists the theorems whose proof, or a proof they use, no longer checks on the edited model. This does not show that each of them
  is false there: proofs share lemmas, so an edit of one service call also lists theorems its claim has nothing to do with. What counts
  is whether the theorems of the claim are in the list, and that an edit that breaks a claim never leaves all of them standing.
* `claim` was written before the run for edits made by hand. For generated edits (ids A...) nobody judged which claims the edit breaks; the line says so and names
  some properties with a broken proof.
* `witness` (ids PV...) gives runs of the unedited and the edited model that differ as the claim forbids, so there the claim is known to be broken. Only the
  C91 theorems were rebuilt for these. Other lines have no such check.
* Lines whose `theorems_failed` was recorded at an earlier state of the development are not rerun when theorems are added; lines with `rerun_of` are reruns.
* Generated edits whose model no longer compiles are not listed; such edits made by hand in the current harness have `not_tested`.
