# Formal model of FrankBro/be-tree in Lean 4 — design

## 1. What this is

`/verif/lean` contains a model of the C code at the pinned commit, written function by function (each definition cites
file and lines), a separate specification, and theorems that relate the two.  The English properties are in
`properties.jsonl`; `MANIFEST.json` maps each to exact theorem names.

| directory | contents |
|-----------|----------|
| `Verif/Model` | the code: one Lean definition per C function, in the order of the C files |
| `Verif/Spec` | what the properties mean, and the conditions used in theorems.  No ids, bit sets, binary searches, memo tables, bounds or trees: expressions over texts, integers and sets |
| `Verif/Lemmas` | proofs of auxiliary facts |
| `Verif/Props` | the property theorems (`Cnn_...`), each next to an `example` that a concrete, non-trivial case meets its hypotheses, and the counterexample theorems where the code violates the English claim |

### Outcomes
Every function that can misbehave returns `Except Fault α` with `Fault = abort | ub | fuel`.
`abort` is a call of `abort()`/a failing `assert`-like branch, `ub` is undefined behaviour (access outside a table, reading a
union member that was not written, signed overflow, dereferencing NULL), `fuel` is the exhaustion of the counter of the mutually
recursive restructuring loops.  They are never turned into a default value.  That `fuel` does not happen is part of C23
(`C23_history_returns_partial` gives `.ok`), so the fuel is not a bound on the theorem: `insertFuel = (n+1)*1100 + tree size` is
computed from the input and proved sufficient.

### Histories
A *history* is a list of calls (`Op`: `betree_insert_with_constants`, `betree_make_sub`, `betree_insert_sub`,
`betree_change_boundaries`) made on a tree declared by any list of `betree_add_*_variable` calls with any `lnode_max_cap` and
`partition_min_size`.  `World.run` executes it and remembers the subscriptions live so far.  Theorems about "any state" quantify over
every history that returns, by induction over it; the world invariant is in `Lemmas/World.lean`.

## 2. Trusted base

* Lean 4.33.0's kernel.
* Axioms: each theorem depends on at most `propext`, `Classical.choice`, `Quot.sound` (vcheck prints them).  No axiom is declared,
  there is no `native_decide`, `bv_decide`, `implemented_by` or `unsafe`.  Counterexample theorems are checked by `decide`/`decide
  +kernel` (kernel evaluation).
* Mathlib (single modules), whose theorems are checked by the same kernel.
* That the Lean definitions say what the C text says.  This is by reading; the citations are there to be checked.  Mutation testing
  (`seeded/LOG.jsonl`) shows that the theorems notice when a definition is changed.

### Simplifications of C in the model
* A `double` is a rational number, and every operation on doubles that the modelled code performs is the exact operation followed by
  `rnd` (`Model/Double`): round to nearest, ties to even, 53 binary digits, subnormals down to 2^-1074.  `Lemmas/Double` proves that `rnd`
  is this (`rnd_near`, `rnd_isDouble`, `rnd_mono`).  Infinities, NaN, -0 and overflow beyond 2^1024 are not modelled.  That the numbers a
  text or an event gives are doubles is a hypothesis where it matters (`IsDouble`).  The scores used to
  choose a partition (`score`, `get_score`, `betree.c`/`tree.c`) pass through an arbitrary function `R : Rounding` after every
  operation; theorems hold for every `R` (C23 needs that it is monotone and exact at 2^-10, which IEEE rounding is).
* `int64_t` is `Int`.  Where API input can make a signed operation overflow (`k-1`, `k+1` in the bounds of a comparison, `max-min` of a
  domain, ...) the model yields `Fault.ub`.  Conversions to `uint32_t`/`size_t`/`uint8_t` are `% 2^n`.
* Memory: allocation never fails; freeing is modelled for expressions, subscriptions (C58: `Model/Memory`, `Model/MemWorld`), events and
  reports (C59: `Model/EventMemory`), tree nodes (C61: `Model/NodeMemory`), and the configuration and its tables
  (C62: `Model/ConfigMemory`, there with the hash maps, arrays and the red-black tree of the code), events built by the
  caller (C64: `Model/ObjMemory`), all of them together in one heap (C63: `Model/Session`), and constants beside them (C68: `Model/ConstMemory`).  A program with memory is a program of single
  steps (`Mem`: allocate, free, use a block), which C65 interleaves (`Model/Concurrent`); elsewhere aliasing does not occur in the parts modelled, so pure values are used and
  mutation becomes returning the new value.
* `struct config`'s arrays are lists; ids (`betree_var_t`, `betree_str_t`, ...) are positions in them.
* The tests of geographical distance (`geo_within_radius`, libm) are an arbitrary function `geo : GeoTest` in the model of the evaluation;
  C57 takes for it the formula of `special.c` over the real numbers (exact arithmetic, exact libm).
* Threads (C65, C66, C67): sequentially consistent steps, `malloc` and `free` atomic; everything else is sequential.
* A search is a function of the tree and the event: the C search does write to nothing but its own memo and report (the `const` of
  `betree_search` and the code of `match_be_tree`); C36 is therefore about the report a search is given and about
  histories containing searches, see below.
* Strings of characters are `List Char`; `tolower` is `Char.toLower` (ASCII).

### Modelled code
| file | modelled | not modelled |
|------|----------|--------------|
| `ast.h`, `ast.c` | types; `match_*` (evaluation, memo and counters), `sort_lists`, `fix_float_with_no_fractions`, `assign_variable_id`, `assign_str_id`, `assign_ienum_id`, `assign_pred_id`, `assign_constants`, `all_variables_in_config`, `all_bounded_strings_valid`, `all_exprs_valid`-style checks, `get_variable_bound*`, `eq_expr`, node scores and operand reordering of `ast_bool_expr_binary_create`, `free_ast_node` (C58) | the unit-test helpers |
| `ast_compare.c` | `expr_cmp` and everything below it | — |
| `betree.c` | `betree_make*`, `betree_add_*_variable`, `betree_insert*`, `betree_make_sub`, `betree_insert_sub`, `betree_change_boundaries`, `betree_search*`, `betree_exists*`, report building | statistics printing |
| `tree.c` | enclosure, insertion, overflow, space partitioning and clustering, splitting, leaf capacity, scores, `match_be_tree`, `search_cdir`, `is_event_enclosed`, short circuiting, `find_sub_id` | `betree_delete` (commented out of the API in betree.h) |
| `config.c`, `var.c`, `value.c` | domains, interning of strings and enum values, id lookups, environments, event values, sorting | string conversion helpers used only for printing |
| `special.c`, `utils.c`, `memoize.c` | all; the distance test over the real numbers (`Model/Geo`) | rounding in the distance test |
| `jsw_rbtree.c`, `map.c`, `hashmap.c` | all operations the program uses, and erasing from the tree and its count (`Model/RBErase`), removing from a map and going through it (`Model/MapIter`), failing allocations in maps and in insertions into the tree (`Model/MapFail`, `Model/RBFail`); hash function arbitrary | going through a map that changes meanwhile |
| `parser.y`, `parser.c` | the LALR(1) tables (`yypact` … `yystos`, copied), the loop of `xxparse` with its stack limit, all semantic actions, `parse` | the growth of the parser stack in memory, `%destructor`s |
| `event_parser.y`, `event_parser.c` | the same for events: tables, loop, actions, `event_parse` | the same |
| `lexer.l`, `event_lexer.l` | the rules and their actions, with flex's longest match / first rule semantics, `strtoll`/`atof` of the matched digits, the default rule | — |
| `lexer.c`, `event_lexer.c` | the generated scanners: tables (`yy_accept` … `yy_chk`, copied), the matching loop with the compressed transitions, backing up, the end of the buffer (`Model/Flex*`); `C51` proves them equal to the rules | buffers other than one C string (`yy_fill_buffer` is 0), writing the terminator into the buffer and back (`yy_hold_char`), texts of 2^31 bytes or more |
| `betree.h` API with texts | `betree_insert*`, `betree_make_sub`, `betree_change_boundaries`, `betree_search`, `betree_exists` from the texts on (`Model/TextApi`) | — |
| `betree.h` API with event objects | `betree_make_event`, `betree_set_variable`, the list builders, `betree_search_with_event`, `betree_exists_with_event` with their writes to the event (`Model/EventObj`) | sharing of lists between variables |
| declarations on a tree in use | `betree_add_*_variable` between other calls, with the accesses to the bit sets of older expressions checked (`Model/Late`) | — |
| `printer.c` | `ast_to_string` (`Model/Printer`), the list printers of `value.c`, `frequency_type_to_string` | the functions that print to the terminal |
| `helper.c` | `empty_tree` between other calls, `add_variable_from_string` (`strtok_r`, `strtoll`, `strtol`; `strtod` an arbitrary function) (`Model/Helper`) | freeing |
| `clone.c` | `clone_node` and everything below it (`Model/Clone`) | a null name is the empty string |
| `debug.c`, `alloc.c` | — | not modelled |

## 3. Conditions used by partial theorems, and why they are needed

Each is a predicate on what the caller writes (`Verif/Spec`), and each excludes inputs on which the code is wrong; the counterexample is a
theorem about the model.

| condition | excludes | counterexample |
|-----------|----------|----------------|
| distinct subscription ids | duplicate id: the first subscription is lost when leaves are split | `C05_duplicate_id_loses_subscription` |
| `ShortSafe` | `and`/`or` on optional attributes under an odd number of `not` (short circuit lacks De Morgan); optional clock of a frequency cap | `C09_not_or_false_positive`, `C09_not_and_missed`, `C09_frequency_cap_missed` |
| `BoundSafe` | `and` under an odd number of `not` on the attribute (bounds are intersected instead of united) | `C20_not_and_unsound`, `C03_not_and_missed` |
| `Separated`, `Clear` | a value of a float attribute with limits, within DBL_EPSILON of a constant but different from it | `C20_float_unsound`, `C03_float_missed` |
| `InRange`, `ConstantsInRange` | `all of` with a repeated constant; numbers of special functions beyond their C type | `C14_all_of_repeated_constant`, `C31_large_id_truncated` |
| `EventInRange` | segments not in ascending order | `C18_unsorted_segments_missed` |
| `Roomy`/`NamedOp` | an attribute with a limit on its values that is full: a further constant gets the invalid id and equals every unknown value.  Frequency-cap attributes have room for one namespace (their string limit is 0, meaning one) | `C02_full_attribute_false_positive`, `C69_full_enum_accepts`, `C03_second_namespace_missed` |
| `Enough` | the same for C47, on the requests alone: no more distinct values per attribute than declared | the same |
| `ProperDecl` | declared minimum above maximum | `C03_improper_declaration_missed` |
| `Moderate`, `ModerateOp` | constants at INT64_MIN/INT64_MAX: taken for "no bound" and later shrunk, or overflow | `C21_extreme_boundary_shrinks`, `C03_extreme_boundary_missed`, `C28_extreme_constant_overflows` |
| `NarrowCfg`, `Mid` | integer limits more than INT64_MAX apart | `C23_wide_domain_overflows` |
| `FloatFit` / `Copes`, `FloatFree`, `NoFloat` | splitting of narrow float ranges.  `copes_of_whole`: no problem with limits of few binary digits a whole number apart; of decimal limits, 0.1 to 3.1 is one the tree can cut up and 0.1 to 4.1 is not (example in Lemmas/Cuts) | `C22_float_gap`, `C22_float_abort`, `C22_float_stuck`, `C23_float_domain_aborts`, `C23_float_endless` |
| `Floats` (limits of float attributes) | limits whose ranges do not shrink when split: some decimal fractions (2.4 to 4.4), limits of 2^54 and more.  `coarseFloats` shows that all binary fractions with 20 digits after the point and magnitude up to 2^30 are fine | `C22_float_stuck`, `C23_float_endless` |
| `LowerNames`, `LowerStrs` | upper-case declarations are never found, upper-case uses bypass the bound check of `betree_insert` | `C23_upper_case_confuses`, `C27_bound_bypassed`, `C30_upper_case_bypasses` |
| `Accepts`, `SpecialTyped`, `Fitting`, `Usable` | ill-typed expressions: `betree_insert` checks no types at all, `betree_make_sub` not those of special functions | `C29_insert_checks_no_types`, `C29_string_function_on_integer`, `C28_in_without_attribute_aborts`, `C28_undeclared_position_faults` |
| `PositiveDecl` | limit 0 on strings (wraps to no limit and an uninitialised map) | `C30_limit_zero`, `C62_zero_limit` (freed) |
| `MakesRoom` | a rejected `betree_make_sub` leaves its strings behind | `C30_rejected_make_sub_exceeds` |
| expression text shorter than 1990 characters, or nested less than 1990 deep | deeper texts, which bison's stack limit refuses (10000 symbols) | — (`C43` gives the exact reading at every limit) |
| `Scan … []` (the whole text is tokens) | a text with a character that begins no token: the rest is ignored, `x != 3` is read as `x` | `C44_ignores_the_rest`, `C45_ignores_the_rest` |
| `Written` | white space inside `not in`, `is not null`, …; a word right after `not` that begins with `in` | `C44_space_inside_matters`, `C44_word_split` |
| numerals within `int64_t` | larger ones saturate (INT64_MIN cannot be written) | `C44_numbers_saturate`, `C45_numbers_saturate` |
| ids and values of caps in event texts below 2^32, no backslash in strings | reduced modulo 2^32; the backslash of an escape stays in the string | `C45_caps_truncated`, `C45_backslash_stays` |
| `StaysUnknown` (reused event objects) | a search drops all but one of the strings of a list that the tree does not know yet; they are missing when it has learned them | `C48_lost_string` |
| `Timely`, no multiple of 64 crossed (late declarations) | a variable that makes the bit sets of older expressions too short; a position declared after a geo function was inserted; a call some of whose names are only declared later and that was taken without them | `C50_crossing`, `C50_position` |
| subscriptions built before `empty_tree` are not inserted after it | the shared-verdict numbers of such a subscription belong to another predicate map | `C53_stale_subscription` |
| `LineSays` (declaring lines) | unknown types, missing or empty parts | `C54_unknown_type_aborts`, `C54_two_fields_fault`, `C54_empty_part_shifts`, `C54_list_minimum_ignored` |
| `FirstPlaced` (copies by `clone_node`) | frequency caps, segment and geo tests: the clock, the id and the position variables are not copied | `C55_cap_copy_differs`, `C55_segment_copy_differs`, `C55_geo_copy_faults` |
| distinct ids, each built subscription inserted once (memory) | a subscription inserted twice is freed twice; one inserted, freed by `empty_tree` and inserted again is read after it was freed | `C58_inserted_twice`, `C58_inserted_after_empty` |
| `Clean`, all built subscriptions inserted, `Answered` (memory) | texts that do not parse, missing constants, subscriptions never inserted, searches turned down: their memory is lost | `C58_parse_error_leaks`, `C58_missing_constant_leaks`, `C58_not_inserted_leaks`, `C59_missing_variable_leaks` |
| `MadeOnce`, `setAt … Nodup`, `Tidy` (memory of events) | an entry of an event or of a list that is written twice: what was there is lost | `C64_overwritten_leaks` |
| `Exclusive` (threads) | a text parsed by one thread between the parsing of another thread's text and the taking of its result: the event parser hands it over in a global variable | `C65_texts_race` |
| `SaysEvent` for searches | an event text that is not an event: the process aborts | `C46_unreadable_event_aborts` |
| `Proper` (the ordered set) | an item inserted that is there, or erased that is not: `jsw_rbsize` counts it all the same | `C70_size_wrong` |
| enough memory (the ordered set) | an insertion that finds no memory loses items, and the next one may dereference NULL | `C72_failed_insert_breaks` |
| `Small` | tables so long that ids reach the invalid-id sentinel 2^64-1 | — (physically unreachable) |
| `Clocked` | special functions whose clock is not the attribute `now` — the parser builds no others | — |
| `Sane R` | a rounding that is not monotone | — (IEEE is) |

## 4. Properties
The following is generated by `tools/design.py`.

<!-- table -->
### C01 Search reports exactly the matching subscriptions — partial
Model: all of insertion and search. Proof: every stored subscription corresponds to exactly one live request (world invariant), the search visits every satisfied one (C03), and a visited one is reported iff `sat` (C08, C09, evaluation = specification).
Scope: for orderly histories (distinct ids, moderate bounds, no attribute asked for more distinct values than declared - frequency caps and limited strings included) and prunable subscriptions; counterexamples C03_* and C02_full_attribute_false_positive show which conditions are needed. C47 gives the same from conditions on the declarations and requests alone.
Theorems: `C01_search_exact_partial`

### C02 No false positive — partial
Proof: visited subscriptions are stored ones (C05), the verdict equals evaluation (C08, C09), evaluation equals `sat` (`Lemmas/EvalSat`).
Scope: for supported requests (C09 conditions, parameters in range) whose constants all got ids; on every event and history with distinct ids.
Theorems: `C02_full_attribute_false_positive`, `C02_no_false_positive_partial`

### C03 No false negative (pruning is sound) — partial
Proof: path invariant of the tree by induction over histories (`Lemmas/Prune*`): each subscription below a cluster directory has its range inside the directory's range, and each directory on the path admits every event with which the subscription is true (C20); domains only widen (`Lemmas/Widen`).
Scope: no false negative for Prunable subscriptions over every orderly history; C03_not_and_missed, C03_float_missed, C03_improper_declaration_missed, C03_extreme_boundary_missed, C03_second_namespace_missed show the code violates the unrestricted claim; float limits are taken from numbers whose ranges can be halved (class Floats; C22_float_stuck shows that others make the recursion endless), coarseFloats is an instance.
Theorems: `C03_second_namespace_missed`, `C03_visited_partial`, `C03_no_false_negative_partial`, `C03_not_and_missed`, `C03_float_missed`, `C03_improper_declaration_missed`, `C03_extreme_boundary_missed`

### C04 Reported set is independent of insertion order — partial
Corollary of the exact characterisation C01.
Scope: any two orderly histories with the same live subscriptions report the same ids, for Prunable subscriptions; for ordinary use (conditions of C47 on declarations and requests alone) any two orders, into trees of any capacities, are accepted in full and report the same (C04_ordinary_order_partial); C04_not_and_order shows that the order matters without these conditions.
Theorems: `C04_ordinary_order_partial`, `C04_insertion_order_partial`, `C04_not_and_order`

### C05 Insertion neither loses nor duplicates subscriptions — proved
Multiset conservation through move/remove/partition/cluster, by induction on the recursion of insertion (`Lemmas/Conserve`).
Scope: distinct ids; C05_duplicate_id_loses_subscription shows the condition is needed.
Theorems: `C05_insert_conserves`, `C05_history_conserves`, `C05_duplicate_id_loses_subscription`

### C06 betree_exists agrees with betree_search — proved
Both are folds over the same candidates; memo soundness for both.
Scope: on events a search accepts; C06_exists_ignores_mandatory shows betree_exists itself does not refuse events.
Theorems: `C06_exists_iff_search`, `C06_exists_ignores_mandatory`

### C07 Events missing a mandatory variable are refused — proved
Case analysis of `validate_variables` and the report of `betree_search`.
Scope: declared names distinct (a second declaration of a name is never referenced); for every event that can be filled.
Theorems: `C07_mandatory_variables`

### C08 Memoisation is transparent — proved
Invariant of the predicate table (equal id implies equal predicate), hence of the memo: a recorded verdict is the evaluation of every predicate with that id.
Scope: distinct subscription ids; requests whose special functions use the attribute now for the clock, as the parser builds them.
Theorems: `C08_memo_transparent`, `C08_search`

### C09 Short-circuiting is transparent — partial
Structural induction over the expression relating the pass/fail attribute sets to evaluation.
Scope: ShortSafe excludes and/or below an odd number of nots over optional attributes, and an optional clock; the three counter-example theorems show the code is wrong without it.
Theorems: `C09_short_circuit_partial`, `C09_short_circuit_sat_partial`, `C09_not_or_false_positive`, `C09_not_and_missed`, `C09_frequency_cap_missed`

### C10 Predicate sharing identifies only identical predicates — proved
`expr_cmp` = 0 iff the stored expressions are the same (up to float closeness), over every history.
Scope: identity is up to the stored ids of variables, strings and enum values; C25/C26 say when ids stand for distinct texts.
Theorems: `C10_same_id_iff_same`, `C10_same_id_evaluates_alike`

### C11 Undefined variables make a predicate false — proved
Case analysis of each `match_*`.
Scope: every predicate kind; special predicates by their first variable.
Theorems: `C11_undefined_is_false`, `C11_not_undefined_is_true`, `C11_null_tests`, `C11_is_empty`

### C12 Comparison and equality semantics — proved
Case analysis of each `match_*`.
Scope: strings and enums by id; ids are injective by C25/C26.
Theorems: `C12_compare_int`, `C12_compare_float`, `C12_equality_int`, `C12_equality_float`, `C12_equality_string`, `C12_equality_ienum`

### C13 `in` / `not in` is membership — proved
Binary search over sorted lists = membership, by induction on the interval.
Scope: for lists in ascending order, which sort_lists and sort_event_lists establish.
Theorems: `C13_in_int`, `C13_in_string`, `C13_in_list_var`, `C13_in_strlist_var`

### C14 `one of` / `none of` / `all of` set semantics — partial
Loops of `match_list_expr` over sorted lists = intersection/containment.
Scope: one of / none of in full; all of only for constant lists without repetition: with a repeated constant the code never matches (C14_all_of_repeated_constant).
Theorems: `C14_one_of_none_of`, `C14_all_of_partial`, `C14_strings_partial`, `C14_all_of_repeated_constant`, `C14_all_of_sound`

### C15 Operand reordering at parse time preserves meaning — proved
Operand swap of the parser actions against commutativity of evaluation and of `sat`.
Scope: on events where no operand faults; and for the specification on all events.
Theorems: `C15_reorder_preserves_meaning`, `C15_reorder_preserves_sat`

### C16 Boolean connectives have classical meaning — proved
By the equations of evaluation.
Theorems: `C16_connectives`

### C17 within_frequency_cap semantics — proved
First matching cap entry, by induction on the list of entries.
Scope: value in uint32 range and length below 2^63, beyond which the C conversions change them.
Theorems: `C17_within_frequency_caps`, `C17_frequency`

### C18 segment_within / segment_before semantics — proved
First segment with at least the id, by induction; sortedness.
Scope: ascending segment ids as the property says; C18_unsorted_segments_missed shows the condition is needed.
Theorems: `C18_segments`, `C18_unsorted_segments_missed`

### C19 contains / starts_with / ends_with semantics — proved
Loops of utils = list infix/prefix/suffix.
Theorems: `C19_string_functions`

### C20 Expression bounds are sound — partial
Structural induction over `get_variable_bound_inner`.
Scope: over every orderly history, subscription, attribute and event; C20_not_and_unsound and C20_float_unsound show that the unrestricted claim is false of the code.
Theorems: `C20_bounds_sound_partial`, `C20_int_bounds_sound_partial`, `C20_not_and_unsound`, `C20_float_unsound`

### C21 Boundary changes only extend bounded domains and cover the expression — partial
Folding over domains; each mention of an attribute widens its domain.
Scope: covering proved without restriction (declared names distinct) for betree_change_boundaries and betree_make_sub; never-shrinks for numbers not at the ends of their type (C21_extreme_boundary_shrinks shows the code shrinks otherwise); float constants of calls that widen are numbers whose ranges can be halved (class Floats).
Theorems: `C21_change_boundaries_covers`, `C21_make_sub_covers`, `C21_never_shrinks_partial`, `C21_extreme_boundary_shrinks`, `C21_constant_outside`

### C22 Range splitting covers the range — partial
Arithmetic of `split_value_bound`.
Scope: boolean, integer, string, enum ranges in full; float ranges at least 3 wide between numbers up to 2^48 (C22_split_wide_float_partial) and ranges wider than 2 between binary fractions; C22_float_gap, C22_float_abort and C22_float_stuck show the code is wrong for narrow ones.
Theorems: `C22_split_covers`, `C22_split_wide_float_partial`, `C22_split_float_partial`, `C22_float_gap`, `C22_float_abort`, `C22_float_stuck`

### C23 Insertion terminates without abort — partial
Termination measure (range width and number of subscriptions) for the restructuring loops; no abort reachable by the typing invariant; histories by induction.
Scope: Every history of calls returns, under static conditions on declarations and calls (C23_history_returns_partial), including requests on float attributes without limits or with limits the tree can cut up (Spec.Copes; all limits with few binary digits that are a whole number apart, copes_of_whole), if no call changes these limits; one-call versions for both ways of inserting, without float limits. Missing: integer limits more than INT64_MAX apart, upper-case declarations for betree_insert, expressions betree_insert does not type-check, calls that change the limits of float attributes in use; the excluded cases have counter-examples or are those of C24/C28/C29. Float limits that cannot be cut up: C23_float_domain_aborts (0 to 1.5), C23_float_endless (2.4 to 4.4 splits into itself, for every recursion budget).
Theorems: `C23_insert_sub_returns_partial`, `C23_insert_returns_partial`, `C23_history_returns_partial`, `C23_wide_domain_overflows`, `C23_float_domain_aborts`, `C23_float_endless`, `C23_upper_case_confuses`

### C24 Leaf capacity — proved
Invariant of all leaves over histories.
Scope: every history; the parameter is reduced to 8 bits (C24_parameter_truncated); capacity 0 makes every insertion undefined (C24_zero_capacity_undefined).
Theorems: `C24_leaf_capacity`, `C24_leaf_capacity_small`, `C24_parameter_truncated`, `C24_zero_capacity_undefined`

### C25 String interning is injective and stable — proved
Invariant of string maps over histories.
Scope: over every history of calls from an empty tree; ids as event values see them.
Theorems: `C25_string_ids_injective`, `C25_string_ids_stable`, `C25_string_ids_consecutive`

### C26 Integer-enum interning is injective and stable — proved
Invariant of enum maps over histories.
Scope: as C25.
Theorems: `C26_enum_ids_injective`, `C26_enum_ids_stable`, `C26_enum_ids_consecutive`

### C27 Attribute names are looked up case-insensitively — partial
A relation (same up to case) preserved by each pass of the pipeline.
Scope: Events: any letter case gives the same result (C27_event_names). Expressions: betree_make_sub accepts alike (C27_make_sub_accepts), stored expressions that differ in case share their predicate id and evaluate alike, and histories that differ in case report the same (partial: orderly histories). betree_insert: partial, attributes with string constants unbounded; C27_bound_bypassed shows the bound check of betree_insert compares names with case, so upper case bypasses it.
Theorems: `C27_same_meaning_partial`, `C27_search_partial`, `C27_make_sub_accepts`, `C27_insert_accepts_partial`, `C27_bound_bypassed`, `C27_event_names`

### C28 betree_make_sub refuses unknown attributes and ill-typed expressions — proved
Each validation pass characterised, composed; totality by the same passes on declared types.
Scope: acceptance characterised exactly (C28_make_sub_iff, any tree) and totality after any history (C28_make_sub_returns) under stated conditions on the request; each excluded input has a counterexample theorem.
Theorems: `C28_make_sub_iff`, `C28_make_sub_returns`, `C28_in_without_attribute_aborts`, `C28_undeclared_position_faults`, `C28_extreme_constant_overflows`

### C29 Accepted expressions evaluate without abort or type confusion — partial
Typing invariant of environments and stored subscriptions.
Scope: Search and exists answer on every well-typed event after every history of accepted requests. Missing: the types of the attributes of special functions, which the code does not check (C29_string_function_on_integer), have to be assumed; for betree_insert the typing of the whole expression (C29_insert_checks_no_types).
Theorems: `C29_accepted_expression_evaluates_partial`, `C29_search_returns_partial`, `C29_exists_returns_partial`, `C29_checked_requests_partial`, `C29_string_function_on_integer`, `C29_insert_checks_no_types`, `C29_in_without_attribute`

### C30 Bounded string attributes accept only so many values — partial
Invariant: the number of interned strings; the check of `all_bounded_strings_valid` characterised.
Scope: Count never exceeds the bound in any history of betree_insert calls, proved with no further hypotheses (C30_count_never_exceeds_bound). Acceptance by betree_insert characterised exactly (C30_insert_accepts_exactly; names in lower case). The full claim is false of the code: predicates are counted one at a time, upper case names bypass the check, a rejected betree_make_sub leaves strings beyond the bound, a limit of 0 is not a limit - each with a counterexample theorem. Refusal proved per predicate; mixed histories proved when make_sub/change_boundaries calls are well typed.
Theorems: `C30_count_never_exceeds_bound`, `C30_insert_accepts_exactly`, `C30_refuses_partial`, `C30_count_within_current_bound_partial`, `C30_predicates_counted_apart`, `C30_upper_case_bypasses`, `C30_repeated_constant_refused`, `C30_rejected_make_sub_exceeds`, `C30_limit_zero`

### C31 Constants — partial
`assign_constants` characterised; stored caps as multiset over histories.
Scope: needs the constant: proved for both entry points; evaluated with the supplied id when it fits uint32_t, else reduced (C31_large_id_truncated).
Theorems: `C31_insert_requires_constants`, `C31_make_sub_requires_constants`, `C31_stored_ids`, `C31_evaluated_with_supplied_id_partial`, `C31_large_id_truncated`

### C32 Integer literals on float attributes — proved
The passes after `fix_float_with_no_fractions` see identical input.
Scope: every tree, expression and call: insert, make_sub and change_boundaries give identical results.
Theorems: `C32_insert_same`, `C32_make_sub_same`, `C32_change_boundaries_same`

### C33 Order and duplicates in event lists are irrelevant — proved
Sorting and deduplication are canonical forms.
Scope: whole report and existence test, for every tree.
Theorems: `C33_event_list_order`

### C34 Order in constant lists is irrelevant — partial
As C27, with permutations of lists.
Scope: Integer lists: exact equality of every call's result for any permutation, no hypotheses (C34_integer_lists). String lists: permuted lists share the predicate id and evaluate alike, accepted alike by betree_make_sub, and histories report the same (partial: orderly histories). C34_later_refusal: with a bounded string attribute that is too small the order of a list decides which later expressions are refused.
Theorems: `C34_integer_lists`, `C34_same_meaning_partial`, `C34_search_partial`, `C34_make_sub_accepts`, `C34_later_refusal`

### C35 Report counters — proved
Fold invariants.
Theorems: `C35_counters`, `C35_fresh_report`

### C36 Searches do not influence each other — proved
The search is a function of tree and event that returns no tree (the C search takes a const tree); theorem: reports accumulate and histories with searches removed agree.
Theorems: `C36_searches_independent`, `C36_report_accumulates`

### C37 Last assignment to an event variable wins — proved
The environment after filling depends on the last setting.
Theorems: `C37_last_setting_wins`, `C37_search`

### C38 Bit-set operations — proved
Bit-vector lemmas.
Theorems: `C38_set_bit`, `C38_clear_bit`, `C38_fresh`

### C39 Ordered predicate map refines a set — proved
Refinement of a sorted set with red-black invariants.
Theorems: `C39_map_refines_set`, `C39_expr_cmp_total_preorder`, `C39_predicates`

### C40 String hash map refines a dictionary — proved
Refinement of a dictionary for every hash function, across resizes.
Scope: for every hash function.
Theorems: `C40_iteration`, `C40_map_refines_dictionary`, `C40_map_count`

### C41 Structural comparison of expressions (eq_expr) — partial
Structural induction; counterexamples.
Scope: the code violates the property (counter-example theorems); soundness proved on the fragment where it compares everything.
Theorems: `C41_reflexive`, `C41_symmetric`, `C41_equal_means_same_partial`, `C41_null_tests_confused`, `C41_frequency_ids_ignored`, `C41_close_floats_confused`, `C41_not_complete`

### C42 Lookup by subscription id — proved
Induction over the tree.
Scope: distinct ids for the history form.
Theorems: `C42_find_stored`, `C42_find_history`

### C43 The expression parser reads exactly the documented grammar — proved
Bison's driver and tables as data; a certificate (accessing symbols, predecessors, weights) checked by the kernel gives an invariant for every run, so soundness and termination; completeness by running the automaton symbolically on every atom and induction over the grammar.
Scope: Every table, action and the stack limit modelled; the grammar is a separate inductive relation.
Theorems: `C43_parse_total`, `C43_accepted_is_written`, `C43_written_is_accepted`, `C43_unambiguous`, `C43_too_deep_refused`

### C44 What an expression text means — partial
The rules of lexer.l with flex's longest-match, first-rule choice; a specification of spellings and of the left-to-right longest division (Spec/Text.lean), proved to be what the lexer computes on every text and to be unique; then C43 on the tokens.  `Written` describes ordinary texts and is proved to scan to its tokens.
Scope: Every text is divided and read as specified up to the first character that begins no token; texts written in the ordinary way mean what they say.  Counterexamples to the full property: C44_ignores_the_rest, C44_space_inside_matters, C44_word_split, C44_numbers_saturate.
Theorems: `C44_short_partial`, `C44_divided`, `C44_accepted_partial`, `C44_refused`, `C44_scanned_partial`, `C44_written_partial`, `C44_layout_partial`, `C44_ignores_the_rest`, `C44_space_inside_matters`, `C44_word_split`, `C44_numbers_saturate`

### C45 An event text means what it says — partial
Model the flex rules (longest match, first rule among equals), the bison tables and driver, and the semantic actions (Model/Lexer, Model/LR, Model/ParserTables, Model/EventParser). The grammar and the way tokens are written are inductive relations of their own (Spec/EventSyntax, Spec/EventText). Soundness by a certificate over the parser's states (Lemmas/ZzSound), completeness by composing runs of the automaton along the grammar (Lemmas/ZzComplete), the lexer by induction on the text (Lemmas/EvLex).
Scope: Everything is proved except that an accepted text is an event as a whole: from the first character that begins no token the rest of the text is silently ignored (C45_ignores_the_rest, a defect of the code). Numbers saturate, the id and value of a cap are taken modulo 2^32, backslashes stay in strings (witnesses).
Theorems: `C45_parse_total`, `C45_divided`, `C45_accepted_partial`, `C45_refused`, `C45_scanned`, `C45_written`, `C45_unambiguous`, `C45_layout`, `C45_null_is_absent`, `C45_ignores_the_rest`, `C45_numbers_saturate`, `C45_caps_truncated`, `C45_backslash_stays`

### C46 From texts to the report — partial
The API calls with texts are modelled by the text parsers followed by the calls on syntax trees (Model/TextApi). What a text says is the specification of C43-C45 (Spec/Says). A simulation shows that a history of calls with texts is a history of calls with what the texts say, skipping the refused ones, so that C01 applies.
Scope: proved: one meaning, refusal of unreadable expression texts, readable texts (all shorter than 1990 characters) are inserted as what they say, exact search end to end under the conditions of C01; witness: unreadable event texts abort the process.
Theorems: `C46_text_search_exact_partial`, `C46_one_meaning`, `C46_unreadable_refused`, `C46_readable_inserted_partial`, `C46_short_inserted_partial`, `C46_readable_event`, `C46_unreadable_event_aborts`

### C47 Ordinary use is totally correct — proved
Composition: Lemmas/Used.lean shows by induction over the insertions that the interning tables hold only constants of the requests; with Enough, no insertion finds a table full; Fitting and Static conditions give success of every stage (C28, C29), and the search result is C01's theorem with its history hypotheses discharged from the static ones. The text form adds C46's reading theorems. plainDecls/plainReqs show a concrete use with limited strings, enums and a frequency cap.
Scope: Proved under the static conditions in the statement (Spec/Ordinary.lean: OrdinaryDecl, Ordinary, Clear, Enough; Spec/WellTyped.lean for events). Covers plain betree_insert and betree_search; departures outside the conditions are the witnesses of C03, C09, C22, C23, C28, C30. Requests whose float attributes have no limits: events may have any float values, also ones too close to constants (clear_of_floatFree).
Theorems: `C47_ordinary_use_correct`, `C47_ordinary_texts_correct`, `C47_ordinary_exists`

### C48 Event objects — partial
Model/EventObj.lean: the slots of the object, fill_event and sort_event_lists returning the rewritten object. Lemmas/EventObj.lean: a search reads only ids of string lists (forgetEnv, through evaluation and tree walk); a relation between a value as built and as left by searches (Cov) is preserved by every search and implies equal ids at the end. Witness C48_lost_string by kernel evaluation.
Scope: Everything proved except reuse after two strings of one list, unknown at first, became known: there the code loses one (C48_lost_string). On an unchanged tree reuse is proved without condition (C48_reused_unchanged). Aliasing of lists between objects is not modelled; qsort's choice among unknown strings is taken to be the first.
Theorems: `C48_built`, `C48_new_event`, `C48_cap_types`, `C48_object_means_variables`, `C48_reused_partial`, `C48_reused_unchanged`, `C48_lost_string`

### C49 The text of an expression is read back as the expression — partial
Model ast_to_string with its printf formats (decimal digits, %.2f rounding to even on rationals); show that what it prints is written tokens in the sense of Spec/Text.lean, that those tokens read as the expression with rounded constants (Spec/Printed.lean), that the parser's cost ordering leaves it alone, and compose with C43/C44; count parentheses for the null-test case.
Scope: Missing: null tests, strings not quotable with double quotes, unsigned fields of 2^63 or more, unknown cap types (all with witnesses), nesting of 1990 or more.
Theorems: `C49_prints`, `C49_reads_back_partial`, `C49_same_meaning_partial`, `C49_null_test_refused`, `C49_digits_lost`, `C49_quote_changes_meaning`, `C49_negative_length`, `C49_unknown_type_aborts`

### C50 Variables may be declared late — partial
Model/Late.lean: declarations as operations; searches and insertions with the bit-set accesses checked. Lemmas/Late.lean: one more declared variable commutes with every step of every operation (pipeline, insertion, splitting) as long as the number of words stays; Lemmas/LateRun.lean: induction over the history, invariant: bit sets have the length of the tree's variable count. Witnesses C50_crossing, C50_position by kernel evaluation.
Scope: as long as the number of variables does not reach the next multiple of 64 and each call either has all its names declared or is refused; C50_crossing (out-of-bounds read in the next search) and C50_position (geo function before its position) show that the code fails otherwise.
Theorems: `C50_same_tree_partial`, `C50_no_overrun_partial`, `C50_same_answers_partial`, `C50_crossing`, `C50_position`

### C51 The generated scanners implement the lexical rules — proved
Model/Flex.lean: the loop of yylex with bounds-checked table accesses; Model/FlexTables.lean: the tables. Lemmas/Flex.lean: the rules' patterns by derivatives, equal to the length functions of Model/Lexer; the longest match by left-to-right scanning; the loop of yylex against it by induction over the text, for any tables that satisfy a local condition (FlexSpec). Lemmas/FlexReps.lean lists the patterns left in every state, Lemmas/FlexCheck.lean has the kernel check the local condition for every state and byte.
Scope: for both scanners; C51_parsers carries C43-C46 over to the parsers with the generated scanners.
Theorems: `C51_expression_scanner`, `C51_event_scanner`, `C51_parsers`

### C52 Variable definitions are the declarations — proved
Model: `Tree.variableDefinition` in `Model/Helper`. Proof: every call preserves names and types of the domains (`CfgExt`), a declaration appends one.
Theorems: `C52_definitions`

### C53 An emptied tree is as good as new — partial
Model: `Tree.emptied`, `World.emptyRun` in `Model/Helper`. Proof: the world invariants of C01 hold after emptying (empty root, empty predicate map, unchanged tables), so the proof of C01 goes through from any such world.
Scope: the exact search needs the conditions of C01; the last sentence of the statement is false: a subscription built before and inserted after the emptying carries stale numbers of shared verdicts and can be reported wrongly (C53_stale_subscription).
Theorems: `C53_emptied_search_exact_partial`, `C53_emptied_finds_nothing`, `C53_knowledge_stays`, `C53_stale_subscription`

### C54 Variables declared by lines of text — partial
Model: `strtok`, `strtollAny`, `lineFields`, `lineDecl`, `Tree.addVariableFromString` in `Model/Helper`. Spec: `LineSays` in `Spec/Helper`. Proof: `strtok_r` on parts without separators gives the parts; `strtoll` on a numeral gives its number.
Scope: the last sentence is false of the code: an unknown type aborts (C54_unknown_type_aborts), a missing flag passes a null pointer to strcmp (C54_two_fields_fault), an empty part is skipped so that the parts after it move (C54_empty_part_shifts), a lone minimum of an integer list is ignored (C54_list_minimum_ignored). strtod is an arbitrary function.
Theorems: `C54_line`, `C54_lines`, `C54_unknown_type_aborts`, `C54_two_fields_fault`, `C54_empty_part_shifts`, `C54_list_minimum_ignored`

### C55 A copy of an expression behaves like the expression — partial
Model: `cloneNode` in `Model/Clone`, function by function. Spec: `Placeless`, `FirstPlaced` in `Spec/Clone`. Proof: induction over the expression. clone_node is called by nothing in the library.
Scope: false of the code for the special tests: `now` and the id of a frequency cap, `now` of a segment test and the two position variables of a geo test are not copied but left at zero (C55_cap_copy_differs, C55_segment_copy_differs, C55_geo_copy_faults). Proved for expressions without them (the copy is equal) and for those where zero is what was there.
Theorems: `C55_copy_equal`, `C55_copy_evaluates_partial`, `C55_copy_again`, `C55_cap_copy_differs`, `C55_segment_copy_differs`, `C55_geo_copy_faults`

### C56 A tree that is taught the constants first is totally correct — proved
Model: World.run over the four calls. Spec/Trained.lean says which constants were taught, which requests are placed, and what is asked of a call. Proof: an invariant over histories (every taught constant is known to the tables and stays known, the pool is what was built, the limits only grow), after which insertion is accepted by insert_iff and the search is exact by C47's argument.
Scope: Conditions as in C47 (no and below an odd number of nots bounding an attribute, lower-case string attributes, mandatory now for caps and segments), but no condition on the room of string and enum attributes. Float attributes are left out because change_boundaries may give them limits that cannot be halved (C22_float_stuck, C23_float_endless).
Theorems: `C56_taught_exists`, `C56_taught_tree_correct`, `C56_taught_texts_correct`, `C56_untaught_refused`

### C57 geo_within_radius tests the great-circle distance — proved
Model: the formula of special.c over the real numbers (Model/Geo); specification: 6372.8 times the angle between two unit vectors (Spec/Geo, Mathlib's InnerProductGeometry.angle). Proof: the chord formula is 2 sin(angle/2); the ten decimals of pi in TO_RAD move each place by an arc of at most (|lat|+|lon|) times 6e-14; triangle inequality of angles. C57_search composes with C47.
Scope: Arithmetic on doubles and libm are exact real functions here; rounding of doubles is not modelled. C57_antimeridian: with radius 0 the test does not identify 180 E with 180 W, hence the 0.3 mm.
Theorems: `C57_asin_defined`, `C57_distance`, `C57_geo_meaning`, `C57_search`, `C57_metric`, `C57_meridian`, `C57_antimeridian`

### C58 Memory of expressions and subscriptions is freed once and not lost — partial
Model: a heap of numbered blocks, bmalloc/bfree/brealloc with undefined behaviour on a block that is not allocated (Model/Memory); the tokens and the 76 actions of the parser as programs on it, run by the same LALR tables; free_ast_node; the public calls with make_sub, free_sub, the walk of free_cnode and the pointers of the predicate map (Model/MemWorld). Proof: frame rules (a program run on its own blocks and any others leaves the others), one lemma for each grammar rule, the invariant of the LR loop, an invariant of the calls that partitions the subscriptions into stored, waiting and freed.
Scope: Not modelled here: the blocks of tree nodes (C61), of the configuration and its tables (C62), and what a call allocates and frees before it returns. The conditions are needed: C58_parse_error_leaks (no %destructor), C58_missing_constant_leaks (betree.c:492-495), C58_not_inserted_leaks (no public way to free a subscription), C58_inserted_twice (double free), C58_inserted_after_empty (use after free).
Theorems: `C58_parse_owned`, `C58_parse_refused`, `C58_parse_free`, `C58_calls_partial`, `C58_parse_error_leaks`, `C58_missing_constant_leaks`, `C58_not_inserted_leaks`, `C58_inserted_twice`, `C58_inserted_after_empty`

### C59 Memory of events, searches and reports is freed once and not lost — partial
Model: events as trees of blocks, the 38 actions of the event parser as programs on the heap of C58 run by the same LALR tables, sort_event_lists with the freeing of dropped strings, the two search functions with everything they allocate, reports (Model/EventMemory). Proof: the frame rules of C58, a relation between values and their blocks kept by each grammar rule and by sorting, and the invariant of C58 over the calls.
Scope: Not modelled here: the blocks of tree nodes (C61) and of the configuration (C62) and event objects built through the API (C64). The condition on mandatory variables is needed: C59_missing_variable_leaks (betree.c:559-568: the environment is not freed when validation fails).
Theorems: `C59_parse`, `C59_parse_refused`, `C59_prepare_free`, `C59_calls_partial`, `C59_missing_variable_leaks`

### C60 What testing a decimal attribute means — proved
Model: `rnd` (Model/Double) after each operation on doubles, so `feq` is |rnd(a-b)| < 2^-52. Spec: NumberTest.Holds / HoldsExactly. Proof: `rnd` is characterised as rounding to nearest, ties to even; doubles above 1 are at least 2^-52 apart; the difference of two near doubles is a double (Sterbenz), so it is not rounded; C47 carries this to the report.
Scope: Infinities and NaN are not modelled. Non-zero constants below 2^-51 in magnitude: only `true implies nearer than 2^-52` (C60_equality).
Theorems: `C60_rounding`, `C60_ties_to_even`, `C60_equality`, `C60_integers`, `C60_search`, `C60_below_and_equal`, `C60_not_transitive`, `C60_large_integer`

### C61 The tree's own memory is freed once and not lost — proved
Model: the functions of Model/Tree once more as programs on the heap of C58, with an image of every node, directory, name and array (Model/NodeMemory). Spec: the blocks of an image and the number of blocks that a shape needs (Spec/NodeMemory). Proof: the frame rules of C58; by induction on the fuel of partitioning and clustering and on the shape of the tree, each function computes the same tree as without memory and leaves exactly the blocks of its image; the freeing functions by induction on the image.
Scope: The subscriptions in the arrays are C58's; the two kinds of blocks are in separate models. Which entries move is decided before the first moves (the same ones). The configuration's tables are C62's.
Theorems: `C61_nodes`, `C61_emptied`

### C62 The configuration's memory is freed once, and its tables behave as lists — proved
Model: the functions of Model/Config, Model/Pipeline and Model/PredMap once more as programs on the heap of C58, with an image of every block; texts are looked up in the hash map of Model/StrMap, predicates in a red-black tree whose nodes carry their blocks (Model/ConfigMemory). Spec: the blocks of an image and the number of blocks that a configuration needs (Spec/ConfigMemory). Proof: a relation between the lists and the images; by induction on the expression and the calls, each function computes the same as with lists and leaves exactly the blocks of its image. For the freeing: no table stays empty, because a table is made only to put a text into it and no limit is zero, which widening preserves.
Scope: The limit that is not zero is needed: C62_zero_limit (the map of a later table is never initialised, and free_config reads it). The hash map's reads are simplified: all nodes are read. Predicates in the predicate map belong to subscriptions (C58). Declarations come before the calls.
Theorems: `C62_tables`, `C62_lookup`, `C62_freed`, `C62_zero_limit`

### C63 A whole session loses no memory — proved
Model: the five models of memory (C58, C59, C61, C62, C64) step by step on one heap (Model/Session). Proof: the frame rules put the invariants side by side; the worlds of the parts stay equal because each part computes the world without memory.
Scope: Within a call what it does to the subscriptions, the nodes and the configuration comes one after the other instead of alternating. The conditions are needed: witnesses C58_*_leaks, C58_inserted_twice, C59_missing_variable_leaks, C62_zero_limit, C64_overwritten_leaks.
Theorems: `C63_session`

### C64 Events built by the caller lose no memory — partial
Model: the calls on the heap (Model/ObjMemory), each event a structure of block numbers beside its values, and the same calls without memory. Proof: each call takes the blocks of what it is given and leaves those of its result (C64_variable, and step by step for histories: C64_events_partial); the entries still to be set stay empty until they are set.
Scope: The unrestricted claim is false of the code: setting an entry of an event or writing an entry of a list again loses what was there, and a search that is turned down loses a block (C64_overwritten_leaks). The calls that make one value are not interleaved with others; a list with an entry never written is taken as undefined when it is put in a variable; events do not share variables or lists.
Theorems: `C64_variable`, `C64_events_partial`, `C64_overwritten_leaks`

### C65 Threads searching the same tree do not disturb each other — partial
Model: programs of single steps (allocate, free, use a block, write or read the parser's global variable; Model/Concurrent), a machine that lets a chosen thread take its next step. Specification: Exclusive (each thread reads back from the global variable what it wrote last), Undisturbed (Spec/Concurrent). Proof: each program is shown to need only its own blocks and read access to the shared ones (DoesT, by recursion on the program), an invariant of the machine kept by every step (Inv.step), and termination under fair schedules by well-founded recursion on the programs (all_finish). C65_own_events needs no condition on the schedule, C65_threads_partial needs Exclusive, C65_texts_race shows why.
Scope: The unrestricted claim is false of the code: the event parser hands over its result in a global variable (event_parser.y:12), so two threads that search with texts can take each other's events (C65_texts_race: a wrong answer, then memory used after it was freed). C65_one_with_texts (at most one thread with texts) and C65_own_events (none) have no condition on the schedule; C65_threads_partial, with texts, asks that no other thread stores its event between a thread's storing and taking its own. Steps are sequentially consistent, malloc and free are atomic; within a call the nodes and the configuration are read after the subscriptions. Threads share no events, and none changes the tree.
Theorems: `C65_threads_partial`, `C65_one_with_texts`, `C65_own_events`, `C65_texts_race`

### C66 Ordinary use, from declarations to freed memory, with threads — proved
Spec/Use states what the calls of a program that only asks should answer, from the meaning of texts, expressions and events alone (TrueOn, Found, AllFound, shelfAfter, InOrder, Right, AllRight). Lemmas/Use shows that on a tree whose searches are exact, a thread that runs alone is answered so (events that were used before are covered by C48's lemmas); C47 and C56 give exact searches, C65 carries the answers of a thread alone over to every interleaving, and Lemmas/OneText shows that one thread with texts cannot be disturbed.
Scope: Serves collects what is expected of the threads; C66_ordinary_threads (insertions, as C47) and C66_taught_threads (all calls that change the tree, as C56). The condition on texts is needed: C65_texts_race.
Theorems: `C66_ordinary_threads`, `C66_taught_threads`

### C67 Changing the tree and searching it with threads, by turns — proved
Model/Phases: a part, and the program without memory and interleaving (EventPlain.phases). Specification: Goes, by recursion over the parts, quantifies over the schedules of each part in turn; PartsRight says what the threads of a part should answer from the calls made so far (InTree). Proof: the invariants of C63 (Agree, Owned, Ahead for all calls to come) hold between the parts: sessionRun_more carries them through the calls of the single thread, machine_undisturbed (C65) through the threads; exactness from C47 and C56 for every prefix of the calls (taught_ready, ordinary_ready).
Scope: C67_phases in general; C67_exact_phases (all calls that change the tree, as C56) and C67_insert_phases (insertions, as C47) with exact answers and no assumption on the tree. The condition on texts is needed: C65_texts_race. No thread changes the tree while others search (the code has no locks).
Theorems: `C67_phases`, `C67_exact_phases`, `C67_insert_phases`

### C68 Constants belong to the caller — proved
Model/ConstMemory: constants with their two blocks in the heap of Model/Session; calls name them by the order in which they were made. Specification: asValues replaces constants by their names and values, and is none if a constant is used that is not held. Proof: induction over the calls with the invariants of C63 and the blocks of the constants as a separate part of the heap (constRun_does).
Scope: C68_constants; C68_misuse: without the condition on the caller the calls do not go well. Simplification, on the safe side: all constants given to a call are read at its beginning, where the code reads them one by one as caps need them. The library has constants of integers only.
Theorems: `C68_constants`, `C68_misuse`

### C69 The limit of an enum attribute is kept — partial
Invariant over the history: the table of an attribute whose domain ends at id n-1 has at most n entries (inserts_enums); one call: assign_ienum_id stops at the bound, the rest of the call does not touch the tables. The second half is false of the code: witness.
Scope: C69_enum_count_partial: the first half in full. The second half is false of the code: betree_insert checks only strings (ast.c: all_bounded_strings_valid), the value gets the invalid id, and the request is reported on every event with an unknown value (C69_full_enum_accepts).
Theorems: `C69_enum_count_partial`, `C69_full_enum_accepts`

### C70 The ordered set with insertion and erasure — partial
`Model/RBErase`: one iteration of jsw_rberase on a zipper (path above, subtree below, where the found item is). Invariants: the items left and right of the hole (step_lists), the found item is where the descent last went left (HitAt), colours and black heights (step_ctx: above a node that is not red is a red one, or only the root). Then induction over the history against a list as the set.
Scope: C70_set: all of the claim except jsw_rbsize. jsw_rbsize is wrong after an insertion of an item that is there and after an erasure of one that is not, down to SIZE_MAX for an empty set (C70_size_wrong); C70_size_partial: right for histories without these. be-tree itself only inserts and finds.
Theorems: `C70_set`, `C70_predicates`, `C70_size_partial`, `C70_size_wrong`

### C71 String maps when memory runs out — proved
`Model/MapFail`: map_set_ with the outcomes of bmalloc and brealloc as arguments. Invariant of C40 (every node in the bucket of its hash, keys distinct, count right) kept by putting the nodes back into as many buckets (rebucket_ok). Induction over the calls.
Scope: brealloc of the C library: on failure the old block stays.
Theorems: `C71_failing_allocations`, `C71_iteration`

### C72 The ordered set when memory runs out — partial
`Model/RBFail`: the loop of jsw_rbinsert with new_node failing, following the node tree->root points to through the rotations (it is set only after the loop). Compared step by step with the loop that has memory (failLoop_spec), which C39 and C70 are about. Below seven nodes no rotation is made at the top, by counting nodes with the black heights (`Lemmas/RBFail`).
Scope: C72_failed_insert_partial: no fault, 1 is returned exactly if an equal item is there and then nothing changes; otherwise what is found afterwards was there before. C72_small_sets_partial: while the set has fewer than seven items nothing is lost. The rest is false of the code (C72_failed_insert_breaks): jsw_rbtree.c:156-158 returns without setting tree->root and without making the root black, so items are lost when the root was rotated, and the next insertion may dereference NULL. be-tree itself aborts when jsw_rbinsert returns 0 (hashmap.c:31-34), so only other users of the set see this.
Theorems: `C72_failed_insert_partial`, `C72_failed_insert_breaks`, `C72_small_sets_partial`

<!-- end table -->

## 5. Texts: lexers and parsers

Expressions and events reach the API as NUL-terminated texts.

* **Lexers** (`Model/Lexer`, `Model/EventParser`).  Each flex rule of `lexer.l`/`event_lexer.l` is a function that says how many
  characters it matches at the front of a text; the scanner takes the longest match, the first rule among equals, and runs the action.  The
  default rule for a character no rule matches returns to the parser as an end of input in the way the `.` rule of the `.l` file does.
  Characters are `Char`; bytes above 127 reach the lexer one at a time in C, in the model as one character, with the same effect (no
  rule matches them outside a string, every rule that matches them inside a string matches any).  NUL ends the text in C.  flex's
  generated automata (`Model/Flex*`) are proved to implement the rules (C51).
* **Parsers** (`Model/LR`, `Model/ParserTables`, `Model/Parser`).  The loop of `yyparse` is one generic definition over a record of tables;
  bison's tables are copied literally from `parser.c`/`event_parser.c`, the semantic actions from the `.y` files.  `YYMAXDEPTH` is a
  field of the record.  Error recovery is as generated (no `error` productions: the first error ends the parse).
* **Specification** (`Spec/Syntax`, `Spec/Text`, `Spec/EventText`, `Spec/Says`).  Which texts are tokens (`Spells`), how a text divides
  into them (`Scan`: the longest first), which token sequences are expressions and of what (`Reads`, by precedence level and nesting
  depth), which are events (`EvEvent`).  No tables, states or stacks.
* **Proofs.**  For soundness each table state is given the set of symbol sequences that may lie below it on the stack (checked by
  kernel evaluation over the finite table), and every reduction preserves that the stack reads as `Reads`.  For completeness a
  derivation in `Reads` drives the loop through explicit runs, for all lengths and depths.  `Scan` is shown deterministic and equal to
  the lexer.  C46 composes the two with C01 by a simulation between histories of texts and histories of what they say.

## 6. Testing the theorems

`seeded/LOG.jsonl` records, for edits of the model that a realistic bug would make, which property theorems then fail to
check.  The harness rebuilds the edited model and all modules above it with errors tolerated, and reports the property theorems that fail, use a failed
declaration, or change their statement.
