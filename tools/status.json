{
"C05": {
"status": "proved",
"note": "distinct ids; C05_duplicate_id_loses_subscription shows the condition is needed"
},
"C06": {
"status": "proved",
"note": "on events a search accepts; C06_exists_ignores_mandatory shows betree_exists itself does not refuse events"
},
"C07": {
"status": "proved",
"note": "declared names distinct (a second declaration of a name is never referenced); for every event that can be filled"
},
"C11": {
"status": "proved",
"note": "every predicate kind; special predicates by their first variable"
},
"C12": {
"status": "proved",
"note": "strings and enums by id; ids are injective by C25/C26"
},
"C13": {
"status": "proved",
"note": "for lists in ascending order, which sort_lists and sort_event_lists establish"
},
"C14": {
"status": "partial",
"note": "one of / none of in full; all of only for constant lists without repetition: with a repeated constant the code never matches (C14_all_of_repeated_constant)"
},
"C15": {
"status": "proved",
"note": "on events where no operand faults; and for the specification on all events"
},
"C16": {
"status": "proved",
"note": ""
},
"C17": {
"status": "proved",
"note": "value in uint32 range and length below 2^63, beyond which the C conversions change them"
},
"C18": {
"status": "proved",
"note": "ascending segment ids as the property says; C18_unsorted_segments_missed shows the condition is needed"
},
"C19": {
"status": "proved",
"note": ""
},
"C22": {
"status": "partial",
"note": "boolean, integer, string, enum ranges in full; float ranges at least 3 wide between numbers up to 2^48 (C22_split_wide_float_partial) and ranges wider than 2 between binary fractions; C22_float_gap, C22_float_abort and C22_float_stuck show the code is wrong for narrow ones"
},
"C33": {
"status": "proved",
"note": "whole report and existence test, for every tree"
},
"C35": {
"status": "proved",
"note": ""
},
"C36": {
"status": "proved",
"note": ""
},
"C37": {
"status": "proved",
"note": ""
},
"C38": {
"status": "proved",
"note": ""
},
"C40": {
"status": "proved",
"note": "for every hash function"
},
"C41": {
"status": "partial",
"note": "the code violates the property (counter-example theorems); soundness proved on the fragment where it compares everything"
},
"C42": {
"status": "proved",
"note": "distinct ids for the history form"
},
"C25": {
"status": "proved",
"note": "over every history of calls from an empty tree; ids as event values see them"
},
"C26": {
"status": "proved",
"note": "as C25"
},
"C08": {
"status": "proved",
"note": "distinct subscription ids; requests whose special functions use the attribute now for the clock, as the parser builds them"
},
"C10": {
"status": "proved",
"note": "identity is up to the stored ids of variables, strings and enum values; C25/C26 say when ids stand for distinct texts"
},
"C39": {
"status": "proved",
"note": ""
},
"C09": {
"status": "partial",
"note": "ShortSafe excludes and/or below an odd number of nots over optional attributes, and an optional clock; the three counter-example theorems show the code is wrong without it"
},
"C02": {
"status": "partial",
"note": "for supported requests (C09 conditions, parameters in range) whose constants all got ids; on every event and history with distinct ids"
},
"C01": {
"status": "partial",
"note": "for orderly histories (distinct ids, moderate bounds, no attribute asked for more distinct values than declared - frequency caps and limited strings included) and prunable subscriptions; counterexamples C03_* and C02_full_attribute_false_positive show which conditions are needed. C47 gives the same from conditions on the declarations and requests alone"
},
"C03": {
"status": "partial",
"note": "no false negative for Prunable subscriptions over every orderly history; C03_not_and_missed, C03_float_missed, C03_improper_declaration_missed, C03_extreme_boundary_missed, C03_second_namespace_missed show the code violates the unrestricted claim; float limits are taken from numbers whose ranges can be halved (class Floats; C22_float_stuck shows that others make the recursion endless), coarseFloats is an instance"
},
"C04": {
"status": "partial",
"note": "any two orderly histories with the same live subscriptions report the same ids, for Prunable subscriptions; for ordinary use (conditions of C47 on declarations and requests alone) any two orders, into trees of any capacities, are accepted in full and report the same (C04_ordinary_order_partial); C04_not_and_order shows that the order matters without these conditions"
},
"C20": {
"status": "partial",
"note": "over every orderly history, subscription, attribute and event; C20_not_and_unsound and C20_float_unsound show that the unrestricted claim is false of the code"
},
"C21": {
"status": "partial",
"note": "covering proved without restriction (declared names distinct) for betree_change_boundaries and betree_make_sub; never-shrinks for numbers not at the ends of their type (C21_extreme_boundary_shrinks shows the code shrinks otherwise); float constants of calls that widen are numbers whose ranges can be halved (class Floats)"
},
"C24": {
"status": "proved",
"note": "every history; the parameter is reduced to 8 bits (C24_parameter_truncated); capacity 0 makes every insertion undefined (C24_zero_capacity_undefined)"
},
"C31": {
"status": "partial",
"note": "needs the constant: proved for both entry points; evaluated with the supplied id when it fits uint32_t, else reduced (C31_large_id_truncated)"
},
"C32": {
"status": "proved",
"note": "every tree, expression and call: insert, make_sub and change_boundaries give identical results"
},
"C28": {
"status": "proved",
"note": "acceptance characterised exactly (C28_make_sub_iff, any tree) and totality after any history (C28_make_sub_returns) under stated conditions on the request; each excluded input has a counterexample theorem"
},
"C29": {
"status": "partial",
"note": "Search and exists answer on every well-typed event after every history of accepted requests. Missing: the types of the attributes of special functions, which the code does not check (C29_string_function_on_integer), have to be assumed; for betree_insert the typing of the whole expression (C29_insert_checks_no_types)."
},
"C23": {
"status": "partial",
"note": "Every history of calls returns, under static conditions on declarations and calls (C23_history_returns_partial), including requests on float attributes without limits or with limits the tree can cut up (Spec.Copes; all limits with few binary digits that are a whole number apart, copes_of_whole), if no call changes these limits; one-call versions for both ways of inserting, without float limits. Missing: integer limits more than INT64_MAX apart, upper-case declarations for betree_insert, expressions betree_insert does not type-check, calls that change the limits of float attributes in use; the excluded cases have counter-examples or are those of C24/C28/C29. Float limits that cannot be cut up: C23_float_domain_aborts (0 to 1.5), C23_float_endless (2.4 to 4.4 splits into itself, for every recursion budget)."
},
"C27": {
"status": "partial",
"note": "Events: any letter case gives the same result (C27_event_names). Expressions: betree_make_sub accepts alike (C27_make_sub_accepts), stored expressions that differ in case share their predicate id and evaluate alike, and histories that differ in case report the same (partial: orderly histories). betree_insert: partial, attributes with string constants unbounded; C27_bound_bypassed shows the bound check of betree_insert compares names with case, so upper case bypasses it."
},
"C34": {
"status": "partial",
"note": "Integer lists: exact equality of every call's result for any permutation, no hypotheses (C34_integer_lists). String lists: permuted lists share the predicate id and evaluate alike, accepted alike by betree_make_sub, and histories report the same (partial: orderly histories). C34_later_refusal: with a bounded string attribute that is too small the order of a list decides which later expressions are refused."
},
"C30": {
"status": "partial",
"note": "Count never exceeds the bound in any history of betree_insert calls, proved with no further hypotheses (C30_count_never_exceeds_bound). Acceptance by betree_insert characterised exactly (C30_insert_accepts_exactly; names in lower case). The full claim is false of the code: predicates are counted one at a time, upper case names bypass the check, a rejected betree_make_sub leaves strings beyond the bound, a limit of 0 is not a limit - each with a counterexample theorem. Refusal proved per predicate; mixed histories proved when make_sub/change_boundaries calls are well typed."
},
"C43": {
"status": "proved",
"note": "Every table, action and the stack limit modelled; the grammar is a separate inductive relation."
},
"C44": {
"status": "partial",
"note": "Every text is divided and read as specified up to the first character that begins no token; texts written in the ordinary way mean what they say.  Counterexamples to the full property: C44_ignores_the_rest, C44_space_inside_matters, C44_word_split, C44_numbers_saturate."
},
"C45": {
"status": "partial",
"note": "Everything is proved except that an accepted text is an event as a whole: from the first character that begins no token the rest of the text is silently ignored (C45_ignores_the_rest, a defect of the code). Numbers saturate, the id and value of a cap are taken modulo 2^32, backslashes stay in strings (witnesses)."
},
"C46": {
"status": "partial",
"note": "proved: one meaning, refusal of unreadable expression texts, readable texts (all shorter than 1990 characters) are inserted as what they say, exact search end to end under the conditions of C01; witness: unreadable event texts abort the process"
},
"C47": {
"status": "proved",
"note": "Proved under the static conditions in the statement (Spec/Ordinary.lean: OrdinaryDecl, Ordinary, Clear, Enough; Spec/WellTyped.lean for events). Covers plain betree_insert and betree_search; departures outside the conditions are the witnesses of C03, C09, C22, C23, C28, C30. Requests whose float attributes have no limits: events may have any float values, also ones too close to constants (clear_of_floatFree)."
},
"C48": {
"status": "partial",
"note": "Everything proved except reuse after two strings of one list, unknown at first, became known: there the code loses one (C48_lost_string). On an unchanged tree reuse is proved without condition (C48_reused_unchanged). Aliasing of lists between objects is not modelled; qsort's choice among unknown strings is taken to be the first."
},
"C49": {
"status": "partial",
"note": "Missing: null tests, strings not quotable with double quotes, unsigned fields of 2^63 or more, unknown cap types (all with witnesses), nesting of 1990 or more."
},
"C50": {
"status": "partial",
"note": "as long as the number of variables does not reach the next multiple of 64 and each call either has all its names declared or is refused; C50_crossing (out-of-bounds read in the next search) and C50_position (geo function before its position) show that the code fails otherwise."
},
"C51": {
"status": "proved",
"note": "for both scanners; C51_parsers carries C43-C46 over to the parsers with the generated scanners."
},
"C52": {
"status": "proved",
"note": ""
},
"C53": {
"status": "partial",
"note": "the exact search needs the conditions of C01; the last sentence of the statement is false: a subscription built before and inserted after the emptying carries stale numbers of shared verdicts and can be reported wrongly (C53_stale_subscription)"
},
"C54": {
"status": "partial",
"note": "the last sentence is false of the code: an unknown type aborts (C54_unknown_type_aborts), a missing flag passes a null pointer to strcmp (C54_two_fields_fault), an empty part is skipped so that the parts after it move (C54_empty_part_shifts), a lone minimum of an integer list is ignored (C54_list_minimum_ignored). strtod is an arbitrary function."
},
"C55": {
"status": "partial",
"note": "false of the code for the special tests: `now` and the id of a frequency cap, `now` of a segment test and the two position variables of a geo test are not copied but left at zero (C55_cap_copy_differs, C55_segment_copy_differs, C55_geo_copy_faults). Proved for expressions without them (the copy is equal) and for those where zero is what was there."
},
"C56": {
"status": "proved",
"note": "Conditions as in C47 (no and below an odd number of nots bounding an attribute, lower-case string attributes, mandatory now for caps and segments), but no condition on the room of string and enum attributes. Float attributes are left out because change_boundaries may give them limits that cannot be halved (C22_float_stuck, C23_float_endless)."
},
"C57": {
"status": "proved",
"note": "Arithmetic on doubles and libm are exact real functions here; rounding of doubles is not modelled. C57_antimeridian: with radius 0 the test does not identify 180 E with 180 W, hence the 0.3 mm."
},
"C58": {
"status": "partial",
"note": "Not modelled here: the blocks of tree nodes (C61), of the configuration and its tables (C62), and what a call allocates and frees before it returns. The conditions are needed: C58_parse_error_leaks (no %destructor), C58_missing_constant_leaks (betree.c:492-495), C58_not_inserted_leaks (no public way to free a subscription), C58_inserted_twice (double free), C58_inserted_after_empty (use after free)."
},
"C59": {
"status": "partial",
"note": "Not modelled here: the blocks of tree nodes (C61) and of the configuration (C62) and event objects built through the API (C64). The condition on mandatory variables is needed: C59_missing_variable_leaks (betree.c:559-568: the environment is not freed when validation fails)."
},
"C60": {
"status": "proved",
"note": "Infinities and NaN are not modelled. Non-zero constants below 2^-51 in magnitude: only `true implies nearer than 2^-52` (C60_equality)."
},
"C61": {
"status": "proved",
"note": "The subscriptions in the arrays are C58's; the two kinds of blocks are in separate models. Which entries move is decided before the first moves (the same ones). The configuration's tables are C62's."
},
"C62": {
"status": "proved",
"note": "The limit that is not zero is needed: C62_zero_limit (the map of a later table is never initialised, and free_config reads it). The hash map's reads are simplified: all nodes are read. Predicates in the predicate map belong to subscriptions (C58). Declarations come before the calls."
},
"C63": {
"status": "proved",
"note": "Within a call what it does to the subscriptions, the nodes and the configuration comes one after the other instead of alternating. The conditions are needed: witnesses C58_*_leaks, C58_inserted_twice, C59_missing_variable_leaks, C62_zero_limit, C64_overwritten_leaks."
},
"C64": {
"status": "partial",
"note": "The unrestricted claim is false of the code: setting an entry of an event or writing an entry of a list again loses what was there, and a search that is turned down loses a block (C64_overwritten_leaks). The calls that make one value are not interleaved with others; a list with an entry never written is taken as undefined when it is put in a variable; events do not share variables or lists."
},
"C65": {
"status": "partial",
"note": "The unrestricted claim is false of the code: the event parser hands over its result in a global variable (event_parser.y:12), so two threads that search with texts can take each other's events (C65_texts_race: a wrong answer, then memory used after it was freed). C65_one_with_texts (at most one thread with texts) and C65_own_events (none) have no condition on the schedule; C65_threads_partial, with texts, asks that no other thread stores its event between a thread's storing and taking its own. Steps are sequentially consistent, malloc and free are atomic; within a call the nodes and the configuration are read after the subscriptions. Threads share no events, and none changes the tree."
},
"C66": {
"status": "proved",
"note": "Serves collects what is expected of the threads; C66_ordinary_threads (insertions, as C47) and C66_taught_threads (all calls that change the tree, as C56). The condition on texts is needed: C65_texts_race."
},
"C67": {
"status": "proved",
"note": "C67_phases in general; C67_exact_phases (all calls that change the tree, as C56) and C67_insert_phases (insertions, as C47) with exact answers and no assumption on the tree. The condition on texts is needed: C65_texts_race. No thread changes the tree while others search (the code has no locks)."
},
"C68": {
"status": "proved",
"note": "C68_constants; C68_misuse: without the condition on the caller the calls do not go well. Simplification, on the safe side: all constants given to a call are read at its beginning, where the code reads them one by one as caps need them. The library has constants of integers only."
},
"C69": {
"status": "partial",
"note": "C69_enum_count_partial: the first half in full. The second half is false of the code: betree_insert checks only strings (ast.c: all_bounded_strings_valid), the value gets the invalid id, and the request is reported on every event with an unknown value (C69_full_enum_accepts)."
},
"C70": {
"status": "partial",
"note": "C70_set: all of the claim except jsw_rbsize. jsw_rbsize is wrong after an insertion of an item that is there and after an erasure of one that is not, down to SIZE_MAX for an empty set (C70_size_wrong); C70_size_partial: right for histories without these. be-tree itself only inserts and finds."
},
"C71": {
"status": "proved",
"note": "brealloc of the C library: on failure the old block stays."
},
"C72": {
"status": "partial",
"note": "C72_failed_insert_partial: no fault, 1 is returned exactly if an equal item is there and then nothing changes; otherwise what is found afterwards was there before. C72_small_sets_partial: while the set has fewer than seven items nothing is lost. The rest is false of the code (C72_failed_insert_breaks): jsw_rbtree.c:156-158 returns without setting tree->root and without making the root black, so items are lost when the root was rotated, and the next insertion may dereference NULL. be-tree itself aborts when jsw_rbinsert returns 0 (hashmap.c:31-34), so only other users of the set see this."
}
}