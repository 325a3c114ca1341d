{
 "claims": [
  {
   "property": "C01",
   "status": "proved",
   "theorems": [
    "Zanzi.C01_print_parse_roundtrip"
   ],
   "note": ""
  },
  {
   "property": "C02",
   "status": "proved",
   "theorems": [
    "Zanzi.C02_parse_iff_grammar",
    "Zanzi.C02_parse_iff_grammar_ascii",
    "Zanzi.C02_parse_iff_grammar_latin1",
    "Zanzi.C02_grammar_unambiguous",
    "Zanzi.C02_left_assoc"
   ],
   "note": "White space is Spec.whiteSpace (Unicode White_Space, listed). The _ascii and _latin1 theorems also fix which characters names are made of; above Latin-1 the letter and digit tables are a parameter."
  },
  {
   "property": "C03",
   "status": "proved",
   "theorems": [
    "Zanzi.C03_parse_total",
    "Zanzi.C03_lexer_bound_irrelevant",
    "Zanzi.C03_parser_bound_irrelevant"
   ],
   "note": ""
  },
  {
   "property": "C04",
   "status": "proved",
   "theorems": [
    "Zanzi.C04_schedule_independent",
    "Zanzi.C04_no_deadlock",
    "Zanzi.C04_terminates",
    "Zanzi.C04_completes"
   ],
   "note": ""
  },
  {
   "property": "C05",
   "status": "proved",
   "theorems": [
    "Zanzi.C05_whitespace_insensitive",
    "Zanzi.C05_outer_whitespace"
   ],
   "note": ""
  },
  {
   "property": "C06",
   "status": "partial",
   "theorems": [
    "Zanzi.C06_identifier_violated",
    "Zanzi.C06_identifier_partial",
    "Zanzi.C06_identifier_exact_partial",
    "Zanzi.C06_ascii_names_partial"
   ],
   "note": "Violated: a declared name beginning with _this cannot be referenced. Proved for all other identifiers."
  },
  {
   "property": "C07",
   "status": "proved",
   "theorems": [
    "Zanzi.C07_names_unique",
    "Zanzi.C07_service_rejects_duplicates"
   ],
   "note": ""
  },
  {
   "property": "C08",
   "status": "partial",
   "theorems": [
    "Zanzi.C08_references_violated",
    "Zanzi.C08_references_partial"
   ],
   "note": "Violated: the relation on the right of an arrow is not checked. All other references are proved to exist."
  },
  {
   "property": "C09",
   "status": "proved",
   "theorems": [
    "Zanzi.C09_validation_exact",
    "Zanzi.C09_rejections_exact",
    "Zanzi.C09_service_accepts"
   ],
   "note": ""
  },
  {
   "property": "C10",
   "status": "partial",
   "theorems": [
    "Zanzi.C10_required_fields_violated",
    "Zanzi.C10_required_fields_unchecked",
    "Zanzi.C10_required_fields_partial",
    "Zanzi.C10_service_violated",
    "Zanzi.C10_service_partial"
   ],
   "note": "Violated: the required-field markers generate validators that accept every message, so no field is required in practice. Proved: relationship names are non-empty when the policy names are."
  },
  {
   "property": "C11",
   "status": "proved",
   "theorems": [
    "Zanzi.C11_lookup_exact",
    "Zanzi.C11_no_aliasing",
    "Zanzi.C11_key_text_injective",
    "Zanzi.C11_text_lookup_exact"
   ],
   "note": "The table keyed by message text is proved equal to the table keyed by pairs."
  },
  {
   "property": "C12",
   "status": "proved",
   "theorems": [
    "Zanzi.C12_admission_exact",
    "Zanzi.C12_subject_not_allowed_exact",
    "Zanzi.C12_service_admits",
    "Zanzi.C12_service_refuses"
   ],
   "note": ""
  },
  {
   "property": "C13",
   "status": "proved",
   "theorems": [
    "Zanzi.C13_rejected_changes_nothing"
   ],
   "note": ""
  },
  {
   "property": "C14",
   "status": "partial",
   "theorems": [
    "Zanzi.C14_panics_violated",
    "Zanzi.C14_policy_service_exact",
    "Zanzi.C14_policy_service_partial",
    "Zanzi.C14_graph_violated",
    "Zanzi.C14_graph_partial",
    "Zanzi.C14_expand_drawing_violated",
    "Zanzi.C14_expand_drawing_partial"
   ],
   "note": "Violated for requests with missing sub-messages, relations without a subject restriction, any-object selectors with a relation name, and a stored wildcard in a tupleset. C14_policy_service_exact says for every policy-service call on every reachable store exactly which requests panic (FindRelationshipRecords: under policies without empty names). The partial theorems cover policy-service calls and Check/ExplainCheck/Expand outside these cases (for the graph calls: no storage key collision on consulted usersets). C49_expand_exact_partial and C49_check_outcome_partial say when Expand and Check panic; C14_expand_drawing_partial says exactly when an Expand that answers as text panics as a drawing."
  },
  {
   "property": "C15",
   "status": "partial",
   "theorems": [
    "Zanzi.C15_read_your_write",
    "Zanzi.C15_read_until_changed_partial",
    "Zanzi.C15_until_changed_violated"
   ],
   "note": "Immediate read-back is proved without restriction. Until changed: violated (a write of another relationship with the same storage key, or of the same relationship in another policy, replaces data and time); proved for histories over relationships whose storage keys do not collide."
  },
  {
   "property": "C16",
   "status": "partial",
   "theorems": [
    "Zanzi.C16_overwrite_violated",
    "Zanzi.C16_overwrite_flag_partial"
   ],
   "note": "Violated when another stored relationship has the same storage key; proved when none does."
  },
  {
   "property": "C17",
   "status": "partial",
   "theorems": [
    "Zanzi.C17_deleted_is_gone",
    "Zanzi.C17_found_violated",
    "Zanzi.C17_found_flag_partial"
   ],
   "note": "Being gone afterwards is proved; the found flag is violated on colliding keys and proved otherwise."
  },
  {
   "property": "C18",
   "status": "partial",
   "theorems": [
    "Zanzi.C18_find_exact_partial",
    "Zanzi.C20_isolation_violated"
   ],
   "note": "Violated: a record can come back nil after its data was deleted through another policy. Proved when record data is present."
  },
  {
   "property": "C19",
   "status": "partial",
   "theorems": [
    "Zanzi.C19_bulk_delete_partial",
    "Zanzi.C20_isolation_violated"
   ],
   "note": "Violated: record data of the same relationship in another policy is lost. Proved for the relationship sets."
  },
  {
   "property": "C20",
   "status": "partial",
   "theorems": [
    "Zanzi.C20_isolation_violated",
    "Zanzi.C20_isolation_partial"
   ],
   "note": "Violated for record data, which is stored without the policy id; proved for relationship sets and graph queries."
  },
  {
   "property": "C21",
   "status": "partial",
   "theorems": [
    "Zanzi.C21_aliasing_violated",
    "Zanzi.C21_no_alias_partial",
    "Zanzi.C21_id_style_suffices"
   ],
   "note": "Violated: object and relation names are concatenated without separator before hashing. Proved for relationships with different keys, and a naming style that guarantees this."
  },
  {
   "property": "C22",
   "status": "proved",
   "theorems": [
    "Zanzi.C22_list_state",
    "Zanzi.C22_list_history"
   ],
   "note": ""
  },
  {
   "property": "C23",
   "status": "proved",
   "theorems": [
    "Zanzi.C23_create_exclusive"
   ],
   "note": ""
  },
  {
   "property": "C24",
   "status": "proved",
   "theorems": [
    "Zanzi.C24_update"
   ],
   "note": ""
  },
  {
   "property": "C25",
   "status": "proved",
   "theorems": [
    "Zanzi.C25_delete_policy"
   ],
   "note": ""
  },
  {
   "property": "C26",
   "status": "partial",
   "theorems": [
    "Zanzi.C26_refinement_partial",
    "Zanzi.C20_isolation_violated",
    "Zanzi.C21_aliasing_violated"
   ],
   "note": "Violated through key collisions and shared record data. Proved for call sequences over relationships with pairwise different storage keys and complete messages."
  },
  {
   "property": "C27",
   "status": "partial",
   "theorems": [
    "Zanzi.C27_set_crash_violated",
    "Zanzi.C27_set_crash_partial"
   ],
   "note": "Violated: a crash between the two writes leaves an edge without its record data. Partial: every crash or fault leaves the old state, the state with the edge only, or the finished state, and repeating the call finishes it."
  },
  {
   "property": "C28",
   "status": "partial",
   "theorems": [
    "Zanzi.C28_delete_crash_violated",
    "Zanzi.C28_delete_crash_partial"
   ],
   "note": "Violated: a crash between the two deletes leaves data without an edge, so the retry reports not found and leaves the data. Partial: at the level of the relationship set the call is atomic and retryable."
  },
  {
   "property": "C29",
   "status": "partial",
   "theorems": [
    "Zanzi.C29_delete_policy_crash_violated",
    "Zanzi.C29_delete_policy_crash_partial"
   ],
   "note": "Violated: a crash after the policy record is deleted leaves relationships that a later CreatePolicy revives. Partial: what every interrupted run leaves, and that other policies are untouched."
  },
  {
   "property": "C30",
   "status": "proved",
   "theorems": [
    "Zanzi.C30_bulk_delete_resumable",
    "Zanzi.C30_refused_changes_nothing"
   ],
   "note": ""
  },
  {
   "property": "C31",
   "status": "partial",
   "theorems": [
    "Zanzi.C31_concurrent_create_violated",
    "Zanzi.C31_create_exclusive_partial",
    "Zanzi.C31_create_overlap_partial"
   ],
   "note": "Violated: two overlapping CreatePolicy calls both succeed. Proved: of two that both succeed on a server however busy, with no DeletePolicy of that id, the later arrived before the earlier answered; once the policy is stored on an idle server, no later CreatePolicy of that id succeeds."
  },
  {
   "property": "C32",
   "status": "proved",
   "theorems": [
    "Zanzi.C32_stored_policies_valid"
   ],
   "note": ""
  },
  {
   "property": "C33",
   "status": "partial",
   "theorems": [
    "Zanzi.C33_orphan_violated",
    "Zanzi.C33_no_orphans_partial",
    "Zanzi.C33_sequential_no_orphans_partial",
    "Zanzi.C33_apart_partial"
   ],
   "note": "Violated by an interleaving of SetRelationship and DeletePolicy. Proved: every schedule, with failures and crashes, in which no SetRelationship of the policy overlaps a DeletePolicy of it and no DeletePolicy of it fails or is interrupted; every schedule without DeletePolicy of that id; every sequential history."
  },
  {
   "property": "C34",
   "status": "proved",
   "theorems": [
    "Zanzi.C34_reads_never_write"
   ],
   "note": ""
  },
  {
   "property": "C35",
   "status": "proved",
   "theorems": [
    "Zanzi.C35_storage_errors_surface"
   ],
   "note": ""
  },
  {
   "property": "C36",
   "status": "partial",
   "theorems": [
    "Zanzi.C36_overgrant_violated",
    "Zanzi.C36_sound_partial",
    "Zanzi.C36_sound_no_difference_partial",
    "Zanzi.C36_exact_partial"
   ],
   "note": "False in general: an excluded user is granted (witness). Proved: sound with respect to the rules with subtrahends dropped; sound for difference-free reachable rules; exact when the search cut no branch. Hypothesis: no storage key collision on consulted usersets. See C90 for users no intersection or subtraction concerns."
  },
  {
   "property": "C37",
   "status": "partial",
   "theorems": [
    "Zanzi.C37_undergrant_violated",
    "Zanzi.C37_complete_partial",
    "Zanzi.C37_union_exact_partial",
    "Zanzi.C37_clean_exact_partial"
   ],
   "note": "False in general: intersections deny a user who holds both sides (witness). Proved: complete and exact when all reachable rules are unions, and in policies without difference when the search cut no branch. See C90 for users no intersection or subtraction concerns."
  },
  {
   "property": "C38",
   "status": "partial",
   "theorems": [
    "Zanzi.C38_intersection_violated",
    "Zanzi.C38_intersection_never",
    "Zanzi.C38_grants_without_intersection",
    "Zanzi.C38_intersection_partial"
   ],
   "note": "False: without wildcards an intersection of relations never grants, at any depth of a request. Partial: exact on searches that cut no branch."
  },
  {
   "property": "C39",
   "status": "partial",
   "theorems": [
    "Zanzi.C39_difference_violated",
    "Zanzi.C39_difference_ignored",
    "Zanzi.C39_difference_partial"
   ],
   "note": "False: without wildcards the subtrahend is ignored. Partial: exact on searches that cut no branch."
  },
  {
   "property": "C40",
   "status": "proved",
   "theorems": [
    "Zanzi.C40_search_returns"
   ],
   "note": "For every store, policy id and request (well formed or not) Check, ExplainCheck in every format and Expand return, with an answer that does not depend on the recursion bound."
  },
  {
   "property": "C41",
   "status": "partial",
   "theorems": [
    "Zanzi.C41_wildcard_grants_partial",
    "Zanzi.C41_wildcard_exact_partial",
    "Zanzi.C41_wildcard_violated",
    "Zanzi.C41_wildcard_unconcerned_partial"
   ],
   "note": "Violated with intersections, without any collision: an alternative tried earlier uses up the visit of the wildcard. Proved: grants to every entity of the resource on union-only requests; exact for a relation defined as _this with entity and wildcard subjects. That a wildcard changes nothing for entities of another resource is in C80 for all operators. Also proved, with any operators in the policy, for users whom no intersection or subtraction met by the request concerns."
  },
  {
   "property": "C42",
   "status": "partial",
   "theorems": [
    "Zanzi.C42_monotone_partial",
    "Zanzi.C42_monotone_violated",
    "Zanzi.C42_needs_union",
    "Zanzi.C75_monotone_unconcerned_partial"
   ],
   "note": "Violated by usersets sharing a visit identifier. Proved for union-only requests without key or id collisions in the larger store. Also proved, with any operators in the policy, for users whom no intersection or subtraction met by the request concerns."
  },
  {
   "property": "C43",
   "status": "partial",
   "theorems": [
    "Zanzi.C43_order_violated",
    "Zanzi.C43_order_partial",
    "Zanzi.C43_order_unconcerned_partial"
   ],
   "note": "False for intersections: two injective hashes, same relationships, different answers. Partial: union-only requests. Also proved, with any operators in the policy, for users whom no intersection or subtraction met by the request concerns."
  },
  {
   "property": "C44",
   "status": "partial",
   "theorems": [
    "Zanzi.C44_agreement",
    "Zanzi.C44_results_justified",
    "Zanzi.C44_expansions_partial",
    "Zanzi.C44_expansion_violated"
   ],
   "note": "Agreement with Check and justification of every result by the children are proved for all requests. Expansions are the prescribed ones when storage keys of consulted usersets do not collide and no wildcard is a tupleset subject; a concrete collision breaks them."
  },
  {
   "property": "C45",
   "status": "partial",
   "theorems": [
    "Zanzi.C45_json_violated",
    "Zanzi.C45_json_partial"
   ],
   "note": "No ExplainCheck request and no Expand of a userset ever returns JSON (parent pointers form a cycle encoding/json rejects). Expand from an entity or wildcard does."
  },
  {
   "property": "C46",
   "status": "proved",
   "theorems": [
    "Zanzi.C46_dot_exact",
    "Zanzi.C46_dot_requests"
   ],
   "note": "Calls handed to gographviz; its text rendering is trusted."
  },
  {
   "property": "C47",
   "status": "partial",
   "theorems": [
    "Zanzi.C47_expand_partial",
    "Zanzi.C47_expand_violated",
    "Zanzi.C47_expand_exact"
   ],
   "note": "Exact for rules without intersection, absent storage key and visit id collisions; with an intersection a reachable node is omitted (witness). For every operator the settled nodes are exactly those reachable without passing a right operand of an intersection."
  },
  {
   "property": "C48",
   "status": "partial",
   "theorems": [
    "Zanzi.C48_identity_violated",
    "Zanzi.C48_collision_denies",
    "Zanzi.C48_identity_partial",
    "Zanzi.style_suffices"
   ],
   "note": "False: identifiers collide for every hash. Partial: slash-free names, non-empty ids and relations, no hash collision between the two texts; style_suffices discharges the collision hypotheses of other theorems from a naming discipline and a hash without collisions on the texts in play."
  },
  {
   "property": "C49",
   "status": "partial",
   "theorems": [
    "Zanzi.C49_errors_violated",
    "Zanzi.C49_answers_partial",
    "Zanzi.C49_expand_exact_partial",
    "Zanzi.C49_check_outcome_partial",
    "Zanzi.C49_union_denial_exact_partial"
   ],
   "note": "False: a dangling arrow or an unset expression node gives an error, a wildcard in a tupleset panics. Proved: answers whenever arrow targets are declared, expressions are whole, stored relationships are admissible, tuplesets hold no wildcard and storage keys do not collide. For every operator: Check errs only if a reachable userset is not declared by a whole expression and panics only if a reachable arrow meets a wildcard; Expand answers exactly when no userset shown has such a fault; Check on unions denies exactly when the user is not granted and no userset within reach has such a fault."
  },
  {
   "property": "C50",
   "status": "partial",
   "theorems": [
    "Zanzi.C50_dump_partial",
    "Zanzi.C50_dump_shows",
    "Zanzi.C50_dump_diverges",
    "Zanzi.C50_dump_violated"
   ],
   "note": "Acyclic relationship graphs without identifier collisions: returns and draws exactly the stored relationships. A dump that answers shows exactly what hangs from roots; cycles are omitted or never return (general theorem and witnesses)."
  },
  {
   "property": "C51",
   "status": "proved",
   "theorems": [
    "Zanzi.C51_order_independent",
    "Zanzi.C51_sort_unique",
    "Zanzi.C51_service_order_independent",
    "Zanzi.C51_unnamed_violated"
   ],
   "note": "Every decoded definition maps, in every map iteration order, to one policy described by the definition (sorted, names from keys). Extra finding: the exported MapPolicyDefinition on a definition not produced by UnmarshalPolicyDefinition loses names and depends on the order. YAML decoding (yaml.v3) is a parameter."
  },
  {
   "property": "C52",
   "status": "proved",
   "theorems": [
    "Zanzi.C52_types_exact",
    "Zanzi.C52_admission"
   ],
   "note": "The mapped restriction permits exactly the subjects the list of types admits, and admission under a YAML policy follows the definition."
  },
  {
   "property": "C53",
   "status": "partial",
   "theorems": [
    "Zanzi.C53_placeholder_violated",
    "Zanzi.C53_resource_partial"
   ],
   "note": "False for relations: a relation with no body has the empty expression, which never parses, so every such policy is refused by create and update. True for resources."
  },
  {
   "property": "C54",
   "status": "proved",
   "theorems": [
    "Zanzi.C54_round_trip",
    "Zanzi.C54_graph_view"
   ],
   "note": ""
  },
  {
   "property": "C55",
   "status": "partial",
   "theorems": [
    "Zanzi.C55_selector_validation_violated",
    "Zanzi.C55_selector_validation_partial",
    "Zanzi.C55_service_violated",
    "Zanzi.C55_service_partial"
   ],
   "note": "Violated: panics on any-object with a relation name; rejects declared entity-set subjects. Exact elsewhere."
  },
  {
   "property": "C56",
   "status": "proved",
   "theorems": [
    "Zanzi.C56_map_graph",
    "Zanzi.C56_set_edge",
    "Zanzi.C56_digraph",
    "Zanzi.C56_dot_requests"
   ],
   "note": "Both containers after any history of calls and any iteration order; MapDiGraph accepts edges between missing nodes (the property claims existing ends for MapGraph only). Aliasing of stored pointers is not modelled."
  },
  {
   "property": "C57",
   "status": "proved",
   "theorems": [
    "Zanzi.C57_rules_are_leaves",
    "Zanzi.C57_parsed_rules"
   ],
   "note": ""
  },
  {
   "property": "C58",
   "status": "proved",
   "theorems": [
    "Zanzi.C58_local",
    "Zanzi.C58_check_undisturbed"
   ],
   "note": "Graph answers depend only on the policy and its own relationships; requests to other policies never change them."
  },
  {
   "property": "C59",
   "status": "partial",
   "theorems": [
    "Zanzi.C59_update_keeps",
    "Zanzi.C59_orphans_inert_partial",
    "Zanzi.C59_named_orphan",
    "Zanzi.C59_reached_orphan_partial",
    "Zanzi.C59_orphan_violated"
   ],
   "note": "False with storage key collisions (witness). Otherwise orphans are inert, a request naming one errors, and a union-only request reaching one errors or is granted without it."
  },
  {
   "property": "C60",
   "status": "proved",
   "theorems": [
    "Zanzi.C60_no_thin_air",
    "Zanzi.C60_no_thin_air_concurrent"
   ],
   "note": "served alone and among any concurrent requests"
  },
  {
   "property": "C61",
   "status": "proved",
   "theorems": [
    "Zanzi.C61_unnamed_never_granted",
    "Zanzi.C61_offboarding",
    "Zanzi.C61_offboarding_busy"
   ],
   "note": "the deletion runs alone (C61_offboarding) or among other requests (C61_offboarding_busy); every later schedule"
  },
  {
   "property": "C62",
   "status": "proved",
   "theorems": [
    "Zanzi.C62_foreign_requests_invisible"
   ],
   "note": "or the query reports a storage fault"
  },
  {
   "property": "C63",
   "status": "partial",
   "theorems": [
    "Zanzi.C63_granted_partial",
    "Zanzi.C63_denied_partial",
    "Zanzi.C63_new_enemy_violated",
    "Zanzi.C63_moved_user_violated",
    "Zanzi.C63_only_removed_partial",
    "Zanzi.C63_only_added_partial"
   ],
   "note": "violated: queries read at several moments; what holds: grants are within the union, denials outside the intersection of the moments Exact (answers as at one moment) when the overlapping requests only remove, or only add, relationships and only unions are met."
  },
  {
   "property": "C64",
   "status": "partial",
   "theorems": [
    "Zanzi.C64_delete_in_effect_partial",
    "Zanzi.C64_set_in_effect_partial",
    "Zanzi.C64_bulk_delete_in_effect_partial",
    "Zanzi.C64_delete_policy_in_effect_partial",
    "Zanzi.C64_in_effect_violated"
   ],
   "note": "Violated by later writes of a different relationship with the same storage key. Proved for schedules in which no overlapping request writes the same storage key otherwise."
  },
  {
   "property": "C65",
   "status": "partial",
   "theorems": [
    "Zanzi.C65_overlapping_writes_partial",
    "Zanzi.C65_set_delete_race_violated",
    "Zanzi.C65_double_created_violated"
   ],
   "note": "violated for mixtures of set and delete, and for the reported flags"
  },
  {
   "property": "C66",
   "status": "partial",
   "theorems": [
    "Zanzi.C66_expand_format",
    "Zanzi.C66_explain_partial",
    "Zanzi.C66_explain_violated",
    "Zanzi.C66_unknown_refused"
   ],
   "note": "Violated for ExplainCheck: the response's Format is never set. Proved for Expand."
  },
  {
   "property": "C67",
   "status": "partial",
   "theorems": [
    "Zanzi.C67_wrap_exact",
    "Zanzi.C67_goal_tree_partial",
    "Zanzi.C67_dump_partial",
    "Zanzi.C67_digraph_exact_partial",
    "Zanzi.C67_quoting_violated"
   ],
   "note": "Violated: quotes in names are not escaped. Proved for names without quotes, and exactly for GraphToDOT."
  },
  {
   "property": "C68",
   "status": "partial",
   "theorems": [
    "Zanzi.C68_built_selector",
    "Zanzi.C68_built_delete",
    "Zanzi.C68_unchosen_violated",
    "Zanzi.C68_built_relationship"
   ],
   "note": "Selectors whose three parts were chosen; violated for parts never chosen, which crash the request."
  },
  {
   "property": "C69",
   "status": "partial",
   "theorems": [
    "Zanzi.C69_configured_partial",
    "Zanzi.C69_succeeds_iff",
    "Zanzi.C69_separate_stores",
    "Zanzi.C69_own_home",
    "Zanzi.C69_default_persistent_violated",
    "Zanzi.C69_shared_memory_violated",
    "Zanzi.C69_other_home_violated"
   ],
   "note": "Violated: the default store is not persistent, a reused in-memory option shares its store, and ~name is taken under the own home."
  },
  {
   "property": "C70",
   "status": "partial",
   "theorems": [
    "Zanzi.C70_separate_iff",
    "Zanzi.C70_layers",
    "Zanzi.C70_policies_partial",
    "Zanzi.C70_policies_violated"
   ],
   "note": "Assuming raccoondb puts the prefix before the key. Violated for policy ids of which one begins with the other."
  },
  {
   "property": "C71",
   "status": "partial",
   "theorems": [
    "Zanzi.Props.C71_policy_records_partial",
    "Zanzi.Props.C71_shallow_policies",
    "Zanzi.Props.C71_policy_bytes_injective",
    "Zanzi.Props.C71_deep_violated",
    "Zanzi.Props.C71_relationships",
    "Zanzi.Props.C71_relationship_bytes_injective",
    "Zanzi.Props.C71_relationship_data"
   ],
   "note": "Violated by expression trees nested beyond the decoder limit: stored but unreadable. Proved for every other accepted policy (trees up to 4996 operators deep), for all relationships and for all relationship data."
  },
  {
   "property": "C72",
   "status": "proved",
   "theorems": [
    "Zanzi.Props.C72_histories_on_bytes",
    "Zanzi.Props.C72_schedules_on_bytes",
    "Zanzi.Props.C72_bytes_determine_store",
    "Zanzi.Props.C72_successor_scan",
    "Zanzi.Props.C72_unreadable_policy",
    "Zanzi.Props.C72_unreadable_policy_deleted",
    "Zanzi.Props.C72_deep_policy_locked"
   ],
   "note": "Refinement of the value model by a byte model, in both directions for schedules. Requests must fit: policy nesting within the decoder limit, sizes below 2^56 bytes, clock below 2^63 seconds, 32-byte hashes. Deep policies show the bound on nesting is needed."
  },
  {
   "property": "C73",
   "status": "partial",
   "theorems": [
    "Zanzi.Props.C73_requests_arrive",
    "Zanzi.Props.C73_request_bytes_injective",
    "Zanzi.Props.C73_remote_histories",
    "Zanzi.Props.C73_any_bytes",
    "Zanzi.Props.C73_after_any_bytes",
    "Zanzi.Props.C73_policies_fetched",
    "Zanzi.Props.C73_refused",
    "Zanzi.Props.C73_empty_message_crashes"
   ],
   "note": "Histories, arbitrary bytes and refusals are proved for all inputs. Violated as to availability: five methods crash the server on the empty message, whatever it holds (C73_empty_message_crashes). Sizes are bounded by 2^60 bytes; unknown fields are dropped."
  },
  {
   "property": "C74",
   "status": "partial",
   "theorems": [
    "Zanzi.C74_union_violated",
    "Zanzi.C74_first_partial",
    "Zanzi.C74_union_partial",
    "Zanzi.C74_union_unconcerned_partial"
   ],
   "note": "False when an intersection or difference is tried before the alternative (witnesses). Proved for the first alternative with any operators, and for every alternative of union-only requests; absent storage key and visit id collisions. Also proved, with any operators in the policy, for users whom no intersection or subtraction met by the request concerns."
  },
  {
   "property": "C75",
   "status": "partial",
   "theorems": [
    "Zanzi.C75_monotone_violated",
    "Zanzi.C75_monotone_partial",
    "Zanzi.C75_monotone_unconcerned_partial"
   ],
   "note": "False: a user holding c loses (a & b) + c when given a. Proved when the search in the larger store cut no branch. Also proved, with any operators in the policy, for users whom no intersection or subtraction met by the request concerns."
  },
  {
   "property": "C76",
   "status": "proved",
   "theorems": [
    "Zanzi.C76_authorized_shown",
    "Zanzi.C76_expand_shows_authorized"
   ],
   "note": "Every operator, whatever names and keys collide."
  },
  {
   "property": "C77",
   "status": "proved",
   "theorems": [
    "Zanzi.C77_history"
   ],
   "note": "All histories from the empty store; answers compared whole, errors included."
  },
  {
   "property": "C78",
   "status": "proved",
   "theorems": [
    "Zanzi.C78_local",
    "Zanzi.C78_write"
   ],
   "note": "Every operator; absent storage key collisions on the consulted usersets."
  },
  {
   "property": "C79",
   "status": "proved",
   "theorems": [
    "Zanzi.Props.C79_method_names",
    "Zanzi.Props.C79_requests_understood",
    "Zanzi.Props.C79_requests_conform",
    "Zanzi.Props.C79_replies_understood",
    "Zanzi.Props.C79_replies_conform",
    "Zanzi.Props.C79_store_conforms",
    "Zanzi.Props.C79_store_understood",
    "Zanzi.Props.C79_unambiguous"
   ],
   "note": "Both directions for every message of the .proto files that is sent or stored, against a table of the schema independent of the encoders; after any history of served bytes."
  },
  {
   "property": "C80",
   "status": "partial",
   "theorems": [
    "Zanzi.C80_bystanders_violated",
    "Zanzi.C80_bystanders_partial",
    "Zanzi.C80_write_partial"
   ],
   "note": "Violated through the visit identifier of a user with empty id, and through tuplesets (error). Proved for all operators when visit ids and storage keys do not collide and the relationship is not one an arrow of the request passes through."
  },
  {
   "property": "C81",
   "status": "partial",
   "theorems": [
    "Zanzi.C81_expand_partial",
    "Zanzi.C81_unions_partial",
    "Zanzi.C81_union_policies_partial",
    "Zanzi.C81_unconcerned_partial",
    "Zanzi.C81_wildcard_violated"
   ],
   "note": "Violated under wildcards with intersections or differences. Proved for all operators for users no wildcard covers whose visit id is their own; for union-only requests; and, wildcards and all operators included, for users whom no intersection and no subtraction met concerns; absent storage key collisions. In policies of unions whatever names and keys collide."
  },
  {
   "property": "C82",
   "status": "proved",
   "theorems": [
    "Zanzi.C82_id_text",
    "Zanzi.C82_base64_determines",
    "Zanzi.C82_id_exact",
    "Zanzi.C82_dump_names"
   ],
   "note": "Identifiers against RFC 4648 on bits; vertex names of a completed dump, whatever the identifiers and the order of the roots. That different nodes can have the same hashed text is C48."
  },
  {
   "property": "C83",
   "status": "partial",
   "theorems": [
    "Zanzi.C83_accepts_exact",
    "Zanzi.C83_meaning",
    "Zanzi.C83_round_trip",
    "Zanzi.C83_order",
    "Zanzi.C83_documented_violated",
    "Zanzi.C83_ids_violated"
   ],
   "note": "Acceptance, meaning, order independence and round trip proved for all document trees. The documentation's claims fail: C83_documented_violated, C83_ids_violated."
  },
  {
   "property": "C84",
   "status": "partial",
   "theorems": [
    "Zanzi.C84_each_once",
    "Zanzi.C84_query_calls",
    "Zanzi.C84_answer_size",
    "Zanzi.C84_other_calls",
    "Zanzi.C84_dump_ways",
    "Zanzi.C84_dump_violated"
   ],
   "note": "Violated for DumpRelationships: its drawing repeats a node for every path, exponentially many lines (for every n a reachable store with at most 4n relationships and 2^n lines); C84_dump_ways gives its exact size, two parts per way from a root (absent identifier collisions). Proved for storage calls: searches look pairwise distinct usersets up once each (no collision assumptions), bounds for all requests, and bounds for the trees ExplainCheck and Expand answer in any format."
  },
  {
   "property": "C85",
   "status": "partial",
   "theorems": [
    "Zanzi.C85_untouched_partial",
    "Zanzi.C85_touched_nothing",
    "Zanzi.C85_by_value_violated"
   ],
   "note": "Violated: reflect.DeepEqual compares the unexported fields too. Selectors whose object and subject messages are untouched run exactly the programs of the other models; all others find and delete nothing."
  },
  {
   "property": "C86",
   "status": "partial",
   "theorems": [
    "Zanzi.C86_regrouped_partial",
    "Zanzi.C86_update_partial",
    "Zanzi.C86_renamed_partial",
    "Zanzi.C86_union_partial",
    "Zanzi.C86_unconcerned_partial",
    "Zanzi.C86_solution_partial",
    "Zanzi.C86_meaning_violated"
   ],
   "note": "Violated in general: c + (a - b) for (a - b) + c, or a for a & a, changes answers. Proved for all operators: regrouped unions and intersections, repeated alternatives, and relations defined as others (also across an UpdatePolicy); for requests that meet only unions, and for users whom no intersection or subtraction concerns: any rewriting with the same meaning. Hypotheses: no hash collisions among the nodes and keys met."
  },
  {
   "property": "C87",
   "status": "partial",
   "theorems": [
    "Zanzi.C87_blame_right",
    "Zanzi.C87_blame_said_partial",
    "Zanzi.C87_blame_violated"
   ],
   "note": "Violated: errors of searches, dumps and the policy service carry neither error, and JSON explanations are blamed on the service. Proved under all storage failures: an error that blames is right; unknown formats, absent policies and failing policy lookups are blamed as they should."
  },
  {
   "property": "C88",
   "status": "partial",
   "theorems": [
    "Zanzi.C88_policy_time",
    "Zanzi.C88_relationship_time_partial",
    "Zanzi.C88_overwritten_violated"
   ],
   "note": "Policies: in full. Relationships: violated, an overwriting request renews CreatedAt; bounds by the policy's CreatedAt and the last request are proved for every history with a clock that does not run backwards."
  },
  {
   "property": "C89",
   "status": "partial",
   "theorems": [
    "Zanzi.C89_union_partial",
    "Zanzi.C89_clean_partial",
    "Zanzi.C89_order_partial",
    "Zanzi.C89_unconcerned_partial",
    "Zanzi.C89_names_violated"
   ],
   "note": "False in general (C89_names_violated: names decide the order of the search). Proved for union-only requests, for users whom no intersection and no subtraction concerns, for explanations without cut branches, and for all requests, explanations and Expand when the consulted relationships are stored in the same order."
  },
  {
   "property": "C90",
   "status": "proved",
   "theorems": [
    "Zanzi.C90_reached_exact",
    "Zanzi.C90_granted_exact",
    "Zanzi.C90_solution_exact"
   ],
   "note": "Absent collisions of storage keys and visit identifiers, as the statement says."
  },
  {
   "property": "C91",
   "status": "partial",
   "theorems": [
    "Zanzi.C91_policies",
    "Zanzi.C91_relationships",
    "Zanzi.C91_get_policy",
    "Zanzi.C91_list_ids",
    "Zanzi.C91_find",
    "Zanzi.C91_grants",
    "Zanzi.C91_records_partial",
    "Zanzi.C91_find_records_partial",
    "Zanzi.C91_records_violated"
   ],
   "note": "Full for stored policies and relationships, policies answered by GetPolicy, ids listed, relationships found and granting checks, under every schedule with faults and crashes. Time and data of records: violated by the shared data store (C91_records_violated); proved, while other requests run, if no request sets another relationship, or this one in another policy, under the same storage key."
  },
  {
   "property": "C92",
   "status": "proved",
   "theorems": [
    "Zanzi.C92_valid_alike",
    "Zanzi.C92_rewording",
    "Zanzi.C92_rewording_busy",
    "Zanzi.C92_creation"
   ],
   "note": "Every later request except GetPolicy of the policy itself; sequences, and schedules with faults and crashes."
  },
  {
   "property": "C93",
   "status": "proved",
   "theorems": [
    "Zanzi.C93_sent_again"
   ],
   "note": "Every request and reachable store."
  },
  {
   "property": "C94",
   "status": "proved",
   "theorems": [
    "Zanzi.C94_policy_write_atomic",
    "Zanzi.C94_refused_leaves_nothing",
    "Zanzi.C94_retry"
   ],
   "note": "DeletePolicy and DeleteRelationships are not claimed here: see C29 (violated) and C30."
  },
  {
   "property": "C95",
   "status": "proved",
   "theorems": [
    "Zanzi.C95_noninterference",
    "Zanzi.C95_purge",
    "Zanzi.C95_afresh"
   ],
   "note": "Any interleaving, failure and crash for the first; one-by-one sequences for the other two. Record reads excluded (C20)."
  },
  {
   "property": "C96",
   "status": "partial",
   "theorems": [
    "Zanzi.C96_order_partial",
    "Zanzi.C96_order_id_style",
    "Zanzi.C96_order_violated"
   ],
   "note": "Holds for relationships with different storage keys; violated when names run together or the same relationship is written in two policies (shared record data)."
  },
  {
   "property": "C97",
   "status": "partial",
   "theorems": [
    "Zanzi.C97_parallel_partial",
    "Zanzi.C97_parallel_violated"
   ],
   "note": "Holds for relationships with different storage keys, any number of requests and any interleaving; violated when names run together."
  },
  {
   "property": "C98",
   "status": "partial",
   "theorems": [
    "Zanzi.C98_policy_writes_partial",
    "Zanzi.C98_delete_violated"
   ],
   "note": "Proved for creations of different policies, updates and all reading requests. Violated when a policy is deleted while it is updated (both succeed, the policy stays) and when one id is created twice at once (C31)."
  },
  {
   "property": "C99",
   "status": "proved",
   "theorems": [
    "Zanzi.C99_linearizable"
   ],
   "note": "Requests made and answered over time; the order respects real time. Storage failures and crashes are covered for requests allowed to overlap."
  },
  {
   "property": "C100",
   "status": "proved",
   "theorems": [
    "Zanzi.C100_clock",
    "Zanzi.C100_clock_busy"
   ],
   "note": ""
  },
  {
   "property": "C101",
   "status": "proved",
   "theorems": [
    "Zanzi.C101_copy",
    "Zanzi.C101_copy_exact",
    "Zanzi.C101_copy_possible",
    "Zanzi.C101_orphan_not_copied"
   ],
   "note": "Relationships left behind by a policy update make a copy impossible (C101_orphan_not_copied); records fetched as nil because another policy deleted the shared data (C20) are excluded by what counts as fetched."
  },
  {
   "property": "C102",
   "status": "proved",
   "theorems": [
    "Zanzi.C102_adding",
    "Zanzi.C102_taking_away",
    "Zanzi.C102_adding_busy",
    "Zanzi.C102_taking_away_busy"
   ],
   "note": "Sequences are compared up to the first write the smaller policy refuses; GetPolicy of the policy itself of course differs."
  },
  {
   "property": "C103",
   "status": "partial",
   "theorems": [
    "Zanzi.C103_widening_violated",
    "Zanzi.C103_appended_violated",
    "Zanzi.C103_union_partial",
    "Zanzi.C103_clean_partial",
    "Zanzi.C103_unconcerned_partial",
    "Zanzi.C103_appended_partial"
   ],
   "note": "false in general, with two witnesses; holds when the request meets only unions, when nothing is cut off as visited, when no intersection involves the user, and for an alternative appended to the relation asked for"
  },
  {
   "property": "C104",
   "status": "partial",
   "theorems": [
    "Zanzi.C104_queries_partial",
    "Zanzi.C104_bound_irrelevant",
    "Zanzi.C104_others",
    "Zanzi.C104_starved_violated"
   ],
   "note": "Queries are starved by writers that keep extending the searched graph (C104_starved_violated). Proved: bounded by what is stored meanwhile for queries, independent of the recursion bound of the model, and wait-free for all other requests."
  },
  {
   "property": "C105",
   "status": "partial",
   "theorems": [
    "Zanzi.C105_union_partial",
    "Zanzi.C105_unconcerned_partial",
    "Zanzi.C105_clean_partial",
    "Zanzi.C105_difference_clean_partial",
    "Zanzi.C105_first_partial",
    "Zanzi.C105_passing_violated"
   ],
   "note": "Violated by a concrete policy and store (C105_passing_violated). Proved for unions, for users no intersection or subtraction concerns, for explanations without cut branches, and for the first alternative with a sole subject."
  },
  {
   "property": "C106",
   "status": "proved",
   "theorems": [
    "Zanzi.Props.C106_server_calls",
    "Zanzi.Props.C106_client_calls",
    "Zanzi.Props.C106_refused",
    "Zanzi.Props.C106_empty_body",
    "Zanzi.Props.C106_histories"
   ],
   "note": "For any marshaler; JSON itself is a dependency. Headers, deadlines and metadata are not modelled."
  },
  {
   "property": "C107",
   "status": "partial",
   "theorems": [
    "Zanzi.Props.C107_http_codes_partial",
    "Zanzi.Props.C107_grpc_codes_partial",
    "Zanzi.Props.C107_codes_violated"
   ],
   "note": "All errors of the services arrive as code Unknown (C107_codes_violated). The other codes are exact."
  },
  {
   "property": "C108",
   "status": "partial",
   "theorems": [
    "Zanzi.C108_union_partial",
    "Zanzi.C108_clean_partial",
    "Zanzi.C108_unconcerned_partial",
    "Zanzi.C108_order_partial",
    "Zanzi.C108_names_violated"
   ],
   "note": "Violated: the relation of a group called member or m decides whether Check grants both = a & b (C108_names_violated). Proved for requests meeting only unions; for all operators when no branch is cut off; for users whom no intersection and no subtraction concerns; and for all operators, errors, explanations and trees included, when the consulted relationships are stored in the same order."
  },
  {
   "property": "C109",
   "status": "partial",
   "theorems": [
    "Zanzi.C109_bounded_partial",
    "Zanzi.C109_store_partial",
    "Zanzi.C109_keys_violated",
    "Zanzi.C109_update_violated"
   ],
   "note": "A check grants only kinds of users that the policy's subject restrictions leave room for, in any interleaving from the empty store, if one policy was given under the id and storage keys do not collide, or in any store holding only relationships its policy allows. Violated after an update that narrows a restriction, and by colliding storage keys."
  },
  {
   "property": "C110",
   "status": "partial",
   "theorems": [
    "Zanzi.C110_attainable_partial",
    "Zanzi.C110_arrow_violated",
    "Zanzi.C110_intersection_violated"
   ],
   "note": "Completeness of the bound of C109: on union policies with arrows to declared relations and names that can be told apart, whatever the restrictions leave room for can be attained with accepted relationships; refuted for all stores of two policies, one with an arrow to an undeclared relation, one with a three-way intersection."
  },
  {
   "property": "C111",
   "status": "partial",
   "theorems": [
    "Zanzi.C111_replaced_partial",
    "Zanzi.C111_expand_lists",
    "Zanzi.C111_arrow_violated",
    "Zanzi.C111_intersection_violated"
   ],
   "note": "Proved for unions without arrows over the relation; violated for arrows over it and for intersections."
  },
  {
   "property": "C112",
   "status": "proved",
   "theorems": [
    "Zanzi.C112_grant_cites",
    "Zanzi.C112_cited_found",
    "Zanzi.C112_rounds_bounded",
    "Zanzi.C112_revocable"
   ],
   "note": "For all stores the service can reach and all operators, without assumptions on keys."
  },
  {
   "property": "C113",
   "status": "proved",
   "theorems": [
    "Zanzi.C113_elsewhere",
    "Zanzi.C113_update"
   ],
   "note": "No assumption on keys, operators or cycles."
  },
  {
   "property": "C114",
   "status": "partial",
   "theorems": [
    "Zanzi.C114_idle_partial",
    "Zanzi.C114_clean_partial",
    "Zanzi.C114_unconcerned_partial",
    "Zanzi.C114_granted_idle",
    "Zanzi.C114_denied_idle",
    "Zanzi.C114_intersection_violated",
    "Zanzi.C114_arrow_violated"
   ],
   "note": "Violated for intersections and for relations arrows look at. Proved for unions, clean explanations and users whom no intersection concerns."
  },
  {
   "property": "C115",
   "status": "proved",
   "theorems": [
    "Zanzi.C115_undisturbed",
    "Zanzi.C115_unchanged"
   ],
   "note": "In flight among requests that leave alone what it comes across, and after them; no assumption on keys or operators"
  },
  {
   "property": "C116",
   "status": "partial",
   "theorems": [
    "Zanzi.C116_enough",
    "Zanzi.C116_granted",
    "Zanzi.C116_union_partial",
    "Zanzi.C116_clean_partial",
    "Zanzi.C116_unconcerned_partial",
    "Zanzi.C116_removal_violated"
   ],
   "note": "What an explanation rests on is enough for the rules to give the relation (C116_enough: every operator, exclusions apart). Check then grants in any store holding it: union-only requests, clean trees, unconcerned users. Violated with intersections even by deleting other relationships (C116_removal_violated)."
  },
  {
   "property": "C117",
   "status": "partial",
   "theorems": [
    "Zanzi.C117_rules",
    "Zanzi.C117_union_partial",
    "Zanzi.C117_clean_partial",
    "Zanzi.C117_unconcerned_partial",
    "Zanzi.C117_order_violated"
   ],
   "note": "The rules treat such users alike (all operators). Check does for union-only requests, clean explanations (all operators), and users no intersection or subtraction concerns. Violated otherwise: names decide the order of the search."
  },
  {
   "property": "C118",
   "status": "partial",
   "theorems": [
    "Zanzi.C118_apart_partial",
    "Zanzi.C118_union_partial",
    "Zanzi.C118_clean_partial",
    "Zanzi.C118_unconcerned_partial",
    "Zanzi.C118_back_violated"
   ],
   "note": "All operators, errors, explanations and trees included, when the request does not lead back to the two objects. Leading back: union-only requests, clean explanations without differences, unconcerned users. Violated otherwise."
  },
  {
   "property": "C119",
   "status": "proved",
   "theorems": [
    "Zanzi.C119_unread",
    "Zanzi.C119_unread_busy",
    "Zanzi.C119_nothing_made_up"
   ],
   "note": "For an arbitrary relation between application data, sequences of requests and interleavings with failures and crashes."
  },
  {
   "property": "C120",
   "status": "partial",
   "theorems": [
    "Zanzi.C120_undo_partial",
    "Zanzi.C120_redo_partial",
    "Zanzi.C120_undo_violated"
   ],
   "note": "Violated when the relationship is there in another policy, whose data is shared, and when names run together. Proved when Get and Set themselves say that nothing is there; for putting back, when the relationship is there."
  },
  {
   "property": "C121",
   "status": "proved",
   "theorems": [
    "Zanzi.C121_put_back"
   ],
   "note": "Any requests in between that leave the policy alone and set in it only what both versions admit."
  },
  {
   "property": "C122",
   "status": "proved",
   "theorems": [
    "Zanzi.C122_restarts",
    "Zanzi.C122_starts_iff",
    "Zanzi.C122_answered_iff",
    "Zanzi.C122_default_directory",
    "Zanzi.C122_states",
    "Zanzi.C122_relative_elsewhere"
   ],
   "note": "Assumed of the outside: LevelDB locks its directory and keeps written data when the process ends; sockets are exclusive. C122_relative_elsewhere: a relative data_dir depends on the working directory."
  },
  {
   "property": "C123",
   "status": "partial",
   "theorems": [
    "Zanzi.C123_sayable_iff",
    "Zanzi.C123_said_and_answered",
    "Zanzi.C123_input_alone",
    "Zanzi.C123_sent_filled",
    "Zanzi.C123_any_order",
    "Zanzi.C123_later_wins",
    "Zanzi.C123_last_chooses",
    "Zanzi.C123_part_by_part",
    "Zanzi.C123_choices_over_input",
    "Zanzi.C123_policy_over_input",
    "Zanzi.C123_flags_over_input_partial",
    "Zanzi.C123_empty_flag_violated",
    "Zanzi.C123_default_enum_violated",
    "Zanzi.C123_resources_added_violated",
    "Zanzi.C123_wildcard_violated"
   ],
   "note": "Flags over the input holds for requests without empty parts; with witnesses where it fails: empty values and enum defaults do not replace the input, resources of policies add up, wildcard selectors cannot be said with flags."
  },
  {
   "property": "C124",
   "status": "partial",
   "theorems": [
    "Zanzi.C124_step_exact",
    "Zanzi.C124_expand_step_exact",
    "Zanzi.C124_step_partial",
    "Zanzi.C124_success_granted",
    "Zanzi.C124_success_partial",
    "Zanzi.C124_denied_partial",
    "Zanzi.C124_cut_violated"
   ],
   "note": "violated for steps below which the search stopped at a node visited outside the step; the steps for which it holds are characterised exactly, for every operator and hash. Also: success without difference means granted; for unions every success, and every step of a denial, is what Check says"
  },
  {
   "property": "C125",
   "status": "proved",
   "theorems": [
    "Zanzi.C125_expansion_explains",
    "Zanzi.C125_explanation_expands",
    "Zanzi.C125_same_explanation",
    "Zanzi.C125_denial_of_unions",
    "Zanzi.C125_shown_denied"
   ],
   "note": "no hypotheses on operators (but for the last sentence), names or hashes; C125_shown_denied: being shown is not enough under an intersection"
  },
  {
   "property": "C126",
   "status": "partial",
   "theorems": [
    "Zanzi.C126_first_decides",
    "Zanzi.C126_expand_first_decides",
    "Zanzi.C126_first_mention_partial",
    "Zanzi.C126_cut_decided",
    "Zanzi.C126_plain_names_partial",
    "Zanzi.C126_once",
    "Zanzi.C126_collision_violated"
   ],
   "note": "In terms of visit identifiers for every tree; in terms of nodes where identifiers tell the visited nodes apart, for instance names without slashes. Missing: nodes sharing an identifier, which are cut off unmentioned (C126_collision_violated)."
  },
  {
   "property": "C127",
   "status": "partial",
   "theorems": [
    "Zanzi.C127_coherent",
    "Zanzi.C127_expand_coherent",
    "Zanzi.C127_moments_partial",
    "Zanzi.C127_expand_moments_partial",
    "Zanzi.C44_expansion_violated"
   ],
   "note": "Coherence for every schedule, without hypotheses. That each rule shows what it prescribed at some moment: absent storage key collisions on consulted usersets and wildcards in tuplesets. Missing: collisions (C44_expansion_violated, already on a quiet server)."
  },
  {
   "property": "C128",
   "status": "partial",
   "theorems": [
    "Zanzi.C128_grant_cites",
    "Zanzi.C128_cited_found",
    "Zanzi.C128_enough_partial",
    "Zanzi.C128_granted_then_partial",
    "Zanzi.C44_expansion_violated"
   ],
   "note": "A cited relationship, naming the user and found by a deletion at some moment meanwhile, for every schedule, without hypotheses. That what the grant rests on was stored meanwhile and is enough: absent storage key collisions on consulted usersets and wildcards in tuplesets. Missing: collisions (C44_expansion_violated, already on a quiet server) and differences."
  }
 ]
}
