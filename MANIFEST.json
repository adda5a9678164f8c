{
 "claims": [
  {
   "property": "C01",
   "status": "partial",
   "theorems": [
    "BeTree.C01_search_exact_partial"
   ],
   "note": "for orderly histories (distinct ids, moderate bounds, no attribute asked for more distinct values than declared - frequency caps and limited strings included) and prunable subscriptions; counterexamples C03_* and C02_full_attribute_false_positive show which conditions are needed. C47 gives the same from conditions on the declarations and requests alone"
  },
  {
   "property": "C02",
   "status": "partial",
   "theorems": [
    "BeTree.C02_full_attribute_false_positive",
    "BeTree.C02_no_false_positive_partial"
   ],
   "note": "for supported requests (C09 conditions, parameters in range) whose constants all got ids; on every event and history with distinct ids"
  },
  {
   "property": "C03",
   "status": "partial",
   "theorems": [
    "BeTree.C03_second_namespace_missed",
    "BeTree.C03_visited_partial",
    "BeTree.C03_no_false_negative_partial",
    "BeTree.C03_not_and_missed",
    "BeTree.C03_float_missed",
    "BeTree.C03_improper_declaration_missed",
    "BeTree.C03_extreme_boundary_missed"
   ],
   "note": "no false negative for Prunable subscriptions over every orderly history; C03_not_and_missed, C03_float_missed, C03_improper_declaration_missed, C03_extreme_boundary_missed, C03_second_namespace_missed show the code violates the unrestricted claim; float limits are taken from numbers whose ranges can be halved (class Floats; C22_float_stuck shows that others make the recursion endless), coarseFloats is an instance"
  },
  {
   "property": "C04",
   "status": "partial",
   "theorems": [
    "BeTree.C04_ordinary_order_partial",
    "BeTree.C04_insertion_order_partial",
    "BeTree.C04_not_and_order"
   ],
   "note": "any two orderly histories with the same live subscriptions report the same ids, for Prunable subscriptions; for ordinary use (conditions of C47 on declarations and requests alone) any two orders, into trees of any capacities, are accepted in full and report the same (C04_ordinary_order_partial); C04_not_and_order shows that the order matters without these conditions"
  },
  {
   "property": "C05",
   "status": "proved",
   "theorems": [
    "BeTree.C05_insert_conserves",
    "BeTree.C05_history_conserves",
    "BeTree.C05_duplicate_id_loses_subscription"
   ],
   "note": "distinct ids; C05_duplicate_id_loses_subscription shows the condition is needed"
  },
  {
   "property": "C06",
   "status": "proved",
   "theorems": [
    "BeTree.C06_exists_iff_search",
    "BeTree.C06_exists_ignores_mandatory"
   ],
   "note": "on events a search accepts; C06_exists_ignores_mandatory shows betree_exists itself does not refuse events"
  },
  {
   "property": "C07",
   "status": "proved",
   "theorems": [
    "BeTree.C07_mandatory_variables"
   ],
   "note": "declared names distinct (a second declaration of a name is never referenced); for every event that can be filled"
  },
  {
   "property": "C08",
   "status": "proved",
   "theorems": [
    "BeTree.C08_memo_transparent",
    "BeTree.C08_search"
   ],
   "note": "distinct subscription ids; requests whose special functions use the attribute now for the clock, as the parser builds them"
  },
  {
   "property": "C09",
   "status": "partial",
   "theorems": [
    "BeTree.C09_short_circuit_partial",
    "BeTree.C09_short_circuit_sat_partial",
    "BeTree.C09_not_or_false_positive",
    "BeTree.C09_not_and_missed",
    "BeTree.C09_frequency_cap_missed"
   ],
   "note": "ShortSafe excludes and/or below an odd number of nots over optional attributes, and an optional clock; the three counter-example theorems show the code is wrong without it"
  },
  {
   "property": "C10",
   "status": "proved",
   "theorems": [
    "BeTree.C10_same_id_iff_same",
    "BeTree.C10_same_id_evaluates_alike"
   ],
   "note": "identity is up to the stored ids of variables, strings and enum values; C25/C26 say when ids stand for distinct texts"
  },
  {
   "property": "C11",
   "status": "proved",
   "theorems": [
    "BeTree.C11_undefined_is_false",
    "BeTree.C11_not_undefined_is_true",
    "BeTree.C11_null_tests",
    "BeTree.C11_is_empty"
   ],
   "note": "every predicate kind; special predicates by their first variable"
  },
  {
   "property": "C12",
   "status": "proved",
   "theorems": [
    "BeTree.C12_compare_int",
    "BeTree.C12_compare_float",
    "BeTree.C12_equality_int",
    "BeTree.C12_equality_float",
    "BeTree.C12_equality_string",
    "BeTree.C12_equality_ienum"
   ],
   "note": "strings and enums by id; ids are injective by C25/C26"
  },
  {
   "property": "C13",
   "status": "proved",
   "theorems": [
    "BeTree.C13_in_int",
    "BeTree.C13_in_string",
    "BeTree.C13_in_list_var",
    "BeTree.C13_in_strlist_var"
   ],
   "note": "for lists in ascending order, which sort_lists and sort_event_lists establish"
  },
  {
   "property": "C14",
   "status": "partial",
   "theorems": [
    "BeTree.C14_one_of_none_of",
    "BeTree.C14_all_of_partial",
    "BeTree.C14_strings_partial",
    "BeTree.C14_all_of_repeated_constant",
    "BeTree.C14_all_of_sound"
   ],
   "note": "one of / none of in full; all of only for constant lists without repetition: with a repeated constant the code never matches (C14_all_of_repeated_constant)"
  },
  {
   "property": "C15",
   "status": "proved",
   "theorems": [
    "BeTree.C15_reorder_preserves_meaning",
    "BeTree.C15_reorder_preserves_sat"
   ],
   "note": "on events where no operand faults; and for the specification on all events"
  },
  {
   "property": "C16",
   "status": "proved",
   "theorems": [
    "BeTree.C16_connectives"
   ],
   "note": ""
  },
  {
   "property": "C17",
   "status": "proved",
   "theorems": [
    "BeTree.C17_within_frequency_caps",
    "BeTree.C17_frequency"
   ],
   "note": "value in uint32 range and length below 2^63, beyond which the C conversions change them"
  },
  {
   "property": "C18",
   "status": "proved",
   "theorems": [
    "BeTree.C18_segments",
    "BeTree.C18_unsorted_segments_missed"
   ],
   "note": "ascending segment ids as the property says; C18_unsorted_segments_missed shows the condition is needed"
  },
  {
   "property": "C19",
   "status": "proved",
   "theorems": [
    "BeTree.C19_string_functions"
   ],
   "note": ""
  },
  {
   "property": "C20",
   "status": "partial",
   "theorems": [
    "BeTree.C20_bounds_sound_partial",
    "BeTree.C20_int_bounds_sound_partial",
    "BeTree.C20_not_and_unsound",
    "BeTree.C20_float_unsound"
   ],
   "note": "over every orderly history, subscription, attribute and event; C20_not_and_unsound and C20_float_unsound show that the unrestricted claim is false of the code"
  },
  {
   "property": "C21",
   "status": "partial",
   "theorems": [
    "BeTree.C21_change_boundaries_covers",
    "BeTree.C21_make_sub_covers",
    "BeTree.C21_never_shrinks_partial",
    "BeTree.C21_extreme_boundary_shrinks",
    "BeTree.C21_constant_outside"
   ],
   "note": "covering proved without restriction (declared names distinct) for betree_change_boundaries and betree_make_sub; never-shrinks for numbers not at the ends of their type (C21_extreme_boundary_shrinks shows the code shrinks otherwise); float constants of calls that widen are numbers whose ranges can be halved (class Floats)"
  },
  {
   "property": "C22",
   "status": "partial",
   "theorems": [
    "BeTree.C22_split_covers",
    "BeTree.C22_split_wide_float_partial",
    "BeTree.C22_split_float_partial",
    "BeTree.C22_float_gap",
    "BeTree.C22_float_abort",
    "BeTree.C22_float_stuck"
   ],
   "note": "boolean, integer, string, enum ranges in full; float ranges at least 3 wide between numbers up to 2^48 (C22_split_wide_float_partial) and ranges wider than 2 between binary fractions; C22_float_gap, C22_float_abort and C22_float_stuck show the code is wrong for narrow ones"
  },
  {
   "property": "C23",
   "status": "partial",
   "theorems": [
    "BeTree.C23_insert_sub_returns_partial",
    "BeTree.C23_insert_returns_partial",
    "BeTree.C23_history_returns_partial",
    "BeTree.C23_wide_domain_overflows",
    "BeTree.C23_float_domain_aborts",
    "BeTree.C23_float_endless",
    "BeTree.C23_upper_case_confuses"
   ],
   "note": "Every history of calls returns, under static conditions on declarations and calls (C23_history_returns_partial), including requests on float attributes without limits or with limits the tree can cut up (Spec.Copes; all limits with few binary digits that are a whole number apart, copes_of_whole), if no call changes these limits; one-call versions for both ways of inserting, without float limits. Missing: integer limits more than INT64_MAX apart, upper-case declarations for betree_insert, expressions betree_insert does not type-check, calls that change the limits of float attributes in use; the excluded cases have counter-examples or are those of C24/C28/C29. Float limits that cannot be cut up: C23_float_domain_aborts (0 to 1.5), C23_float_endless (2.4 to 4.4 splits into itself, for every recursion budget)."
  },
  {
   "property": "C24",
   "status": "proved",
   "theorems": [
    "BeTree.C24_leaf_capacity",
    "BeTree.C24_leaf_capacity_small",
    "BeTree.C24_parameter_truncated",
    "BeTree.C24_zero_capacity_undefined"
   ],
   "note": "every history; the parameter is reduced to 8 bits (C24_parameter_truncated); capacity 0 makes every insertion undefined (C24_zero_capacity_undefined)"
  },
  {
   "property": "C25",
   "status": "proved",
   "theorems": [
    "BeTree.C25_string_ids_injective",
    "BeTree.C25_string_ids_stable",
    "BeTree.C25_string_ids_consecutive"
   ],
   "note": "over every history of calls from an empty tree; ids as event values see them"
  },
  {
   "property": "C26",
   "status": "proved",
   "theorems": [
    "BeTree.C26_enum_ids_injective",
    "BeTree.C26_enum_ids_stable",
    "BeTree.C26_enum_ids_consecutive"
   ],
   "note": "as C25"
  },
  {
   "property": "C27",
   "status": "partial",
   "theorems": [
    "BeTree.C27_same_meaning_partial",
    "BeTree.C27_search_partial",
    "BeTree.C27_make_sub_accepts",
    "BeTree.C27_insert_accepts_partial",
    "BeTree.C27_bound_bypassed",
    "BeTree.C27_event_names"
   ],
   "note": "Events: any letter case gives the same result (C27_event_names). Expressions: betree_make_sub accepts alike (C27_make_sub_accepts), stored expressions that differ in case share their predicate id and evaluate alike, and histories that differ in case report the same (partial: orderly histories). betree_insert: partial, attributes with string constants unbounded; C27_bound_bypassed shows the bound check of betree_insert compares names with case, so upper case bypasses it."
  },
  {
   "property": "C28",
   "status": "proved",
   "theorems": [
    "BeTree.C28_make_sub_iff",
    "BeTree.C28_make_sub_returns",
    "BeTree.C28_in_without_attribute_aborts",
    "BeTree.C28_undeclared_position_faults",
    "BeTree.C28_extreme_constant_overflows"
   ],
   "note": "acceptance characterised exactly (C28_make_sub_iff, any tree) and totality after any history (C28_make_sub_returns) under stated conditions on the request; each excluded input has a counterexample theorem"
  },
  {
   "property": "C29",
   "status": "partial",
   "theorems": [
    "BeTree.C29_accepted_expression_evaluates_partial",
    "BeTree.C29_search_returns_partial",
    "BeTree.C29_exists_returns_partial",
    "BeTree.C29_checked_requests_partial",
    "BeTree.C29_string_function_on_integer",
    "BeTree.C29_insert_checks_no_types",
    "BeTree.C29_in_without_attribute"
   ],
   "note": "Search and exists answer on every well-typed event after every history of accepted requests. Missing: the types of the attributes of special functions, which the code does not check (C29_string_function_on_integer), have to be assumed; for betree_insert the typing of the whole expression (C29_insert_checks_no_types)."
  },
  {
   "property": "C30",
   "status": "partial",
   "theorems": [
    "BeTree.C30_count_never_exceeds_bound",
    "BeTree.C30_insert_accepts_exactly",
    "BeTree.C30_refuses_partial",
    "BeTree.C30_count_within_current_bound_partial",
    "BeTree.C30_predicates_counted_apart",
    "BeTree.C30_upper_case_bypasses",
    "BeTree.C30_repeated_constant_refused",
    "BeTree.C30_rejected_make_sub_exceeds",
    "BeTree.C30_limit_zero"
   ],
   "note": "Count never exceeds the bound in any history of betree_insert calls, proved with no further hypotheses (C30_count_never_exceeds_bound). Acceptance by betree_insert characterised exactly (C30_insert_accepts_exactly; names in lower case). The full claim is false of the code: predicates are counted one at a time, upper case names bypass the check, a rejected betree_make_sub leaves strings beyond the bound, a limit of 0 is not a limit - each with a counterexample theorem. Refusal proved per predicate; mixed histories proved when make_sub/change_boundaries calls are well typed."
  },
  {
   "property": "C31",
   "status": "partial",
   "theorems": [
    "BeTree.C31_insert_requires_constants",
    "BeTree.C31_make_sub_requires_constants",
    "BeTree.C31_stored_ids",
    "BeTree.C31_evaluated_with_supplied_id_partial",
    "BeTree.C31_large_id_truncated"
   ],
   "note": "needs the constant: proved for both entry points; evaluated with the supplied id when it fits uint32_t, else reduced (C31_large_id_truncated)"
  },
  {
   "property": "C32",
   "status": "proved",
   "theorems": [
    "BeTree.C32_insert_same",
    "BeTree.C32_make_sub_same",
    "BeTree.C32_change_boundaries_same"
   ],
   "note": "every tree, expression and call: insert, make_sub and change_boundaries give identical results"
  },
  {
   "property": "C33",
   "status": "proved",
   "theorems": [
    "BeTree.C33_event_list_order"
   ],
   "note": "whole report and existence test, for every tree"
  },
  {
   "property": "C34",
   "status": "partial",
   "theorems": [
    "BeTree.C34_integer_lists",
    "BeTree.C34_same_meaning_partial",
    "BeTree.C34_search_partial",
    "BeTree.C34_make_sub_accepts",
    "BeTree.C34_later_refusal"
   ],
   "note": "Integer lists: exact equality of every call's result for any permutation, no hypotheses (C34_integer_lists). String lists: permuted lists share the predicate id and evaluate alike, accepted alike by betree_make_sub, and histories report the same (partial: orderly histories). C34_later_refusal: with a bounded string attribute that is too small the order of a list decides which later expressions are refused."
  },
  {
   "property": "C35",
   "status": "proved",
   "theorems": [
    "BeTree.C35_counters",
    "BeTree.C35_fresh_report"
   ],
   "note": ""
  },
  {
   "property": "C36",
   "status": "proved",
   "theorems": [
    "BeTree.C36_searches_independent",
    "BeTree.C36_report_accumulates"
   ],
   "note": ""
  },
  {
   "property": "C37",
   "status": "proved",
   "theorems": [
    "BeTree.C37_last_setting_wins",
    "BeTree.C37_search"
   ],
   "note": ""
  },
  {
   "property": "C38",
   "status": "proved",
   "theorems": [
    "BeTree.C38_set_bit",
    "BeTree.C38_clear_bit",
    "BeTree.C38_fresh"
   ],
   "note": ""
  },
  {
   "property": "C39",
   "status": "proved",
   "theorems": [
    "BeTree.C39_map_refines_set",
    "BeTree.C39_expr_cmp_total_preorder",
    "BeTree.C39_predicates"
   ],
   "note": ""
  },
  {
   "property": "C40",
   "status": "proved",
   "theorems": [
    "BeTree.C40_iteration",
    "BeTree.C40_map_refines_dictionary",
    "BeTree.C40_map_count"
   ],
   "note": "for every hash function"
  },
  {
   "property": "C41",
   "status": "partial",
   "theorems": [
    "BeTree.C41_reflexive",
    "BeTree.C41_symmetric",
    "BeTree.C41_equal_means_same_partial",
    "BeTree.C41_null_tests_confused",
    "BeTree.C41_frequency_ids_ignored",
    "BeTree.C41_close_floats_confused",
    "BeTree.C41_not_complete"
   ],
   "note": "the code violates the property (counter-example theorems); soundness proved on the fragment where it compares everything"
  },
  {
   "property": "C42",
   "status": "proved",
   "theorems": [
    "BeTree.C42_find_stored",
    "BeTree.C42_find_history"
   ],
   "note": "distinct ids for the history form"
  },
  {
   "property": "C43",
   "status": "proved",
   "theorems": [
    "BeTree.C43_parse_total",
    "BeTree.C43_accepted_is_written",
    "BeTree.C43_written_is_accepted",
    "BeTree.C43_unambiguous",
    "BeTree.C43_too_deep_refused"
   ],
   "note": "Every table, action and the stack limit modelled; the grammar is a separate inductive relation."
  },
  {
   "property": "C44",
   "status": "partial",
   "theorems": [
    "BeTree.C44_short_partial",
    "BeTree.C44_divided",
    "BeTree.C44_accepted_partial",
    "BeTree.C44_refused",
    "BeTree.C44_scanned_partial",
    "BeTree.C44_written_partial",
    "BeTree.C44_layout_partial",
    "BeTree.C44_ignores_the_rest",
    "BeTree.C44_space_inside_matters",
    "BeTree.C44_word_split",
    "BeTree.C44_numbers_saturate"
   ],
   "note": "Every text is divided and read as specified up to the first character that begins no token; texts written in the ordinary way mean what they say.  Counterexamples to the full property: C44_ignores_the_rest, C44_space_inside_matters, C44_word_split, C44_numbers_saturate."
  },
  {
   "property": "C45",
   "status": "partial",
   "theorems": [
    "BeTree.C45_parse_total",
    "BeTree.C45_divided",
    "BeTree.C45_accepted_partial",
    "BeTree.C45_refused",
    "BeTree.C45_scanned",
    "BeTree.C45_written",
    "BeTree.C45_unambiguous",
    "BeTree.C45_layout",
    "BeTree.C45_null_is_absent",
    "BeTree.C45_ignores_the_rest",
    "BeTree.C45_numbers_saturate",
    "BeTree.C45_caps_truncated",
    "BeTree.C45_backslash_stays"
   ],
   "note": "Everything is proved except that an accepted text is an event as a whole: from the first character that begins no token the rest of the text is silently ignored (C45_ignores_the_rest, a defect of the code). Numbers saturate, the id and value of a cap are taken modulo 2^32, backslashes stay in strings (witnesses)."
  },
  {
   "property": "C46",
   "status": "partial",
   "theorems": [
    "BeTree.C46_text_search_exact_partial",
    "BeTree.C46_one_meaning",
    "BeTree.C46_unreadable_refused",
    "BeTree.C46_readable_inserted_partial",
    "BeTree.C46_short_inserted_partial",
    "BeTree.C46_readable_event",
    "BeTree.C46_unreadable_event_aborts"
   ],
   "note": "proved: one meaning, refusal of unreadable expression texts, readable texts (all shorter than 1990 characters) are inserted as what they say, exact search end to end under the conditions of C01; witness: unreadable event texts abort the process"
  },
  {
   "property": "C47",
   "status": "proved",
   "theorems": [
    "BeTree.C47_ordinary_use_correct",
    "BeTree.C47_ordinary_texts_correct",
    "BeTree.C47_ordinary_exists"
   ],
   "note": "Proved under the static conditions in the statement (Spec/Ordinary.lean: OrdinaryDecl, Ordinary, Clear, Enough; Spec/WellTyped.lean for events). Covers plain betree_insert and betree_search; departures outside the conditions are the witnesses of C03, C09, C22, C23, C28, C30. Requests whose float attributes have no limits: events may have any float values, also ones too close to constants (clear_of_floatFree)."
  },
  {
   "property": "C48",
   "status": "partial",
   "theorems": [
    "BeTree.C48_built",
    "BeTree.C48_new_event",
    "BeTree.C48_cap_types",
    "BeTree.C48_object_means_variables",
    "BeTree.C48_reused_partial",
    "BeTree.C48_reused_unchanged",
    "BeTree.C48_lost_string"
   ],
   "note": "Everything proved except reuse after two strings of one list, unknown at first, became known: there the code loses one (C48_lost_string). On an unchanged tree reuse is proved without condition (C48_reused_unchanged). Aliasing of lists between objects is not modelled; qsort's choice among unknown strings is taken to be the first."
  },
  {
   "property": "C49",
   "status": "partial",
   "theorems": [
    "BeTree.C49_prints",
    "BeTree.C49_reads_back_partial",
    "BeTree.C49_same_meaning_partial",
    "BeTree.C49_null_test_refused",
    "BeTree.C49_digits_lost",
    "BeTree.C49_quote_changes_meaning",
    "BeTree.C49_negative_length",
    "BeTree.C49_unknown_type_aborts"
   ],
   "note": "Missing: null tests, strings not quotable with double quotes, unsigned fields of 2^63 or more, unknown cap types (all with witnesses), nesting of 1990 or more."
  },
  {
   "property": "C50",
   "status": "partial",
   "theorems": [
    "BeTree.C50_same_tree_partial",
    "BeTree.C50_no_overrun_partial",
    "BeTree.C50_same_answers_partial",
    "BeTree.C50_crossing",
    "BeTree.C50_position"
   ],
   "note": "as long as the number of variables does not reach the next multiple of 64 and each call either has all its names declared or is refused; C50_crossing (out-of-bounds read in the next search) and C50_position (geo function before its position) show that the code fails otherwise."
  },
  {
   "property": "C51",
   "status": "proved",
   "theorems": [
    "BeTree.C51_expression_scanner",
    "BeTree.C51_event_scanner",
    "BeTree.C51_parsers"
   ],
   "note": "for both scanners; C51_parsers carries C43-C46 over to the parsers with the generated scanners."
  },
  {
   "property": "C52",
   "status": "proved",
   "theorems": [
    "BeTree.C52_definitions"
   ],
   "note": ""
  },
  {
   "property": "C53",
   "status": "partial",
   "theorems": [
    "BeTree.C53_emptied_search_exact_partial",
    "BeTree.C53_emptied_finds_nothing",
    "BeTree.C53_knowledge_stays",
    "BeTree.C53_stale_subscription"
   ],
   "note": "the exact search needs the conditions of C01; the last sentence of the statement is false: a subscription built before and inserted after the emptying carries stale numbers of shared verdicts and can be reported wrongly (C53_stale_subscription)"
  },
  {
   "property": "C54",
   "status": "partial",
   "theorems": [
    "BeTree.C54_line",
    "BeTree.C54_lines",
    "BeTree.C54_unknown_type_aborts",
    "BeTree.C54_two_fields_fault",
    "BeTree.C54_empty_part_shifts",
    "BeTree.C54_list_minimum_ignored"
   ],
   "note": "the last sentence is false of the code: an unknown type aborts (C54_unknown_type_aborts), a missing flag passes a null pointer to strcmp (C54_two_fields_fault), an empty part is skipped so that the parts after it move (C54_empty_part_shifts), a lone minimum of an integer list is ignored (C54_list_minimum_ignored). strtod is an arbitrary function."
  },
  {
   "property": "C55",
   "status": "partial",
   "theorems": [
    "BeTree.C55_copy_equal",
    "BeTree.C55_copy_evaluates_partial",
    "BeTree.C55_copy_again",
    "BeTree.C55_cap_copy_differs",
    "BeTree.C55_segment_copy_differs",
    "BeTree.C55_geo_copy_faults"
   ],
   "note": "false of the code for the special tests: `now` and the id of a frequency cap, `now` of a segment test and the two position variables of a geo test are not copied but left at zero (C55_cap_copy_differs, C55_segment_copy_differs, C55_geo_copy_faults). Proved for expressions without them (the copy is equal) and for those where zero is what was there."
  },
  {
   "property": "C56",
   "status": "proved",
   "theorems": [
    "BeTree.C56_taught_exists",
    "BeTree.C56_taught_tree_correct",
    "BeTree.C56_taught_texts_correct",
    "BeTree.C56_untaught_refused"
   ],
   "note": "Conditions as in C47 (no and below an odd number of nots bounding an attribute, lower-case string attributes, mandatory now for caps and segments), but no condition on the room of string and enum attributes. Float attributes are left out because change_boundaries may give them limits that cannot be halved (C22_float_stuck, C23_float_endless)."
  },
  {
   "property": "C57",
   "status": "proved",
   "theorems": [
    "BeTree.C57_asin_defined",
    "BeTree.C57_distance",
    "BeTree.C57_geo_meaning",
    "BeTree.C57_search",
    "BeTree.C57_metric",
    "BeTree.C57_meridian",
    "BeTree.C57_antimeridian"
   ],
   "note": "Arithmetic on doubles and libm are exact real functions here; rounding of doubles is not modelled. C57_antimeridian: with radius 0 the test does not identify 180 E with 180 W, hence the 0.3 mm."
  },
  {
   "property": "C58",
   "status": "partial",
   "theorems": [
    "BeTree.C58_parse_owned",
    "BeTree.C58_parse_refused",
    "BeTree.C58_parse_free",
    "BeTree.C58_calls_partial",
    "BeTree.C58_parse_error_leaks",
    "BeTree.C58_missing_constant_leaks",
    "BeTree.C58_not_inserted_leaks",
    "BeTree.C58_inserted_twice",
    "BeTree.C58_inserted_after_empty"
   ],
   "note": "Not modelled here: the blocks of tree nodes (C61), of the configuration and its tables (C62), and what a call allocates and frees before it returns. The conditions are needed: C58_parse_error_leaks (no %destructor), C58_missing_constant_leaks (betree.c:492-495), C58_not_inserted_leaks (no public way to free a subscription), C58_inserted_twice (double free), C58_inserted_after_empty (use after free)."
  },
  {
   "property": "C59",
   "status": "partial",
   "theorems": [
    "BeTree.C59_parse",
    "BeTree.C59_parse_refused",
    "BeTree.C59_prepare_free",
    "BeTree.C59_calls_partial",
    "BeTree.C59_missing_variable_leaks"
   ],
   "note": "Not modelled here: the blocks of tree nodes (C61) and of the configuration (C62) and event objects built through the API (C64). The condition on mandatory variables is needed: C59_missing_variable_leaks (betree.c:559-568: the environment is not freed when validation fails)."
  },
  {
   "property": "C60",
   "status": "proved",
   "theorems": [
    "BeTree.C60_rounding",
    "BeTree.C60_ties_to_even",
    "BeTree.C60_equality",
    "BeTree.C60_integers",
    "BeTree.C60_search",
    "BeTree.C60_below_and_equal",
    "BeTree.C60_not_transitive",
    "BeTree.C60_large_integer"
   ],
   "note": "Infinities and NaN are not modelled. Non-zero constants below 2^-51 in magnitude: only `true implies nearer than 2^-52` (C60_equality)."
  },
  {
   "property": "C61",
   "status": "proved",
   "theorems": [
    "BeTree.C61_nodes",
    "BeTree.C61_emptied"
   ],
   "note": "The subscriptions in the arrays are C58's; the two kinds of blocks are in separate models. Which entries move is decided before the first moves (the same ones). The configuration's tables are C62's."
  },
  {
   "property": "C62",
   "status": "proved",
   "theorems": [
    "BeTree.C62_tables",
    "BeTree.C62_lookup",
    "BeTree.C62_freed",
    "BeTree.C62_zero_limit"
   ],
   "note": "The limit that is not zero is needed: C62_zero_limit (the map of a later table is never initialised, and free_config reads it). The hash map's reads are simplified: all nodes are read. Predicates in the predicate map belong to subscriptions (C58). Declarations come before the calls."
  },
  {
   "property": "C63",
   "status": "proved",
   "theorems": [
    "BeTree.C63_session"
   ],
   "note": "Within a call what it does to the subscriptions, the nodes and the configuration comes one after the other instead of alternating. The conditions are needed: witnesses C58_*_leaks, C58_inserted_twice, C59_missing_variable_leaks, C62_zero_limit, C64_overwritten_leaks."
  },
  {
   "property": "C64",
   "status": "partial",
   "theorems": [
    "BeTree.C64_variable",
    "BeTree.C64_events_partial",
    "BeTree.C64_overwritten_leaks"
   ],
   "note": "The unrestricted claim is false of the code: setting an entry of an event or writing an entry of a list again loses what was there, and a search that is turned down loses a block (C64_overwritten_leaks). The calls that make one value are not interleaved with others; a list with an entry never written is taken as undefined when it is put in a variable; events do not share variables or lists."
  },
  {
   "property": "C65",
   "status": "partial",
   "theorems": [
    "BeTree.C65_threads_partial",
    "BeTree.C65_one_with_texts",
    "BeTree.C65_own_events",
    "BeTree.C65_texts_race"
   ],
   "note": "The unrestricted claim is false of the code: the event parser hands over its result in a global variable (event_parser.y:12), so two threads that search with texts can take each other's events (C65_texts_race: a wrong answer, then memory used after it was freed). C65_one_with_texts (at most one thread with texts) and C65_own_events (none) have no condition on the schedule; C65_threads_partial, with texts, asks that no other thread stores its event between a thread's storing and taking its own. Steps are sequentially consistent, malloc and free are atomic; within a call the nodes and the configuration are read after the subscriptions. Threads share no events, and none changes the tree."
  },
  {
   "property": "C66",
   "status": "proved",
   "theorems": [
    "BeTree.C66_ordinary_threads",
    "BeTree.C66_taught_threads"
   ],
   "note": "Serves collects what is expected of the threads; C66_ordinary_threads (insertions, as C47) and C66_taught_threads (all calls that change the tree, as C56). The condition on texts is needed: C65_texts_race."
  },
  {
   "property": "C67",
   "status": "proved",
   "theorems": [
    "BeTree.C67_phases",
    "BeTree.C67_exact_phases",
    "BeTree.C67_insert_phases"
   ],
   "note": "C67_phases in general; C67_exact_phases (all calls that change the tree, as C56) and C67_insert_phases (insertions, as C47) with exact answers and no assumption on the tree. The condition on texts is needed: C65_texts_race. No thread changes the tree while others search (the code has no locks)."
  },
  {
   "property": "C68",
   "status": "proved",
   "theorems": [
    "BeTree.C68_constants",
    "BeTree.C68_misuse"
   ],
   "note": "C68_constants; C68_misuse: without the condition on the caller the calls do not go well. Simplification, on the safe side: all constants given to a call are read at its beginning, where the code reads them one by one as caps need them. The library has constants of integers only."
  },
  {
   "property": "C69",
   "status": "partial",
   "theorems": [
    "BeTree.C69_enum_count_partial",
    "BeTree.C69_full_enum_accepts"
   ],
   "note": "C69_enum_count_partial: the first half in full. The second half is false of the code: betree_insert checks only strings (ast.c: all_bounded_strings_valid), the value gets the invalid id, and the request is reported on every event with an unknown value (C69_full_enum_accepts)."
  },
  {
   "property": "C70",
   "status": "partial",
   "theorems": [
    "BeTree.C70_set",
    "BeTree.C70_predicates",
    "BeTree.C70_size_partial",
    "BeTree.C70_size_wrong"
   ],
   "note": "C70_set: all of the claim except jsw_rbsize. jsw_rbsize is wrong after an insertion of an item that is there and after an erasure of one that is not, down to SIZE_MAX for an empty set (C70_size_wrong); C70_size_partial: right for histories without these. be-tree itself only inserts and finds."
  },
  {
   "property": "C71",
   "status": "proved",
   "theorems": [
    "BeTree.C71_failing_allocations",
    "BeTree.C71_iteration"
   ],
   "note": "brealloc of the C library: on failure the old block stays."
  },
  {
   "property": "C72",
   "status": "partial",
   "theorems": [
    "BeTree.C72_failed_insert_partial",
    "BeTree.C72_failed_insert_breaks",
    "BeTree.C72_small_sets_partial"
   ],
   "note": "C72_failed_insert_partial: no fault, 1 is returned exactly if an equal item is there and then nothing changes; otherwise what is found afterwards was there before. C72_small_sets_partial: while the set has fewer than seven items nothing is lost. The rest is false of the code (C72_failed_insert_breaks): jsw_rbtree.c:156-158 returns without setting tree->root and without making the root black, so items are lost when the root was rotated, and the next insertion may dereference NULL. be-tree itself aborts when jsw_rbinsert returns 0 (hashmap.c:31-34), so only other users of the set see this."
  }
 ]
}