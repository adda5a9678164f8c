{"id": "C01", "title": "Search reports exactly the matching subscriptions", "statement": "After any history of accepted insertions with distinct ids, betree_search on a valid event reports exactly the ids of the inserted subscriptions whose boolean expression is true on that event: nothing else and nothing missing.", "quantifier": "every configuration, every finite history of insertions and boundary changes, every valid event", "why_tests_cant": "The index shape depends on the whole history (splits, scores, bounds); tests sample a handful of shapes and events.", "anchors": ["src/betree.c:betree_search", "src/tree.c:betree_search_with_preds", "src/tree.c:match_be_tree", "src/tree.c:insert_be_tree"]}
{"id": "C02", "title": "No false positive", "statement": "Every id placed in the report by betree_search belongs to an inserted subscription, and that subscription's expression evaluates to true on the event.", "quantifier": "every tree reachable by insertions, every event", "why_tests_cant": "A false positive only shows on the combination of one tree shape, one expression and one event.", "anchors": ["src/tree.c:match_sub", "src/tree.c:add_sub", "src/tree.c:try_short_circuit"]}
{"id": "C03", "title": "No false negative (pruning is sound)", "statement": "A subscription whose expression is true on a valid event is always visited by the search: neither the attribute partition nor the value-range clusters can prune it.", "quantifier": "every tree reachable by insertions, every subscription in it, every valid event, including values outside the declared domain", "why_tests_cant": "The pruning decision depends on the bound computed per expression and on the split history.", "anchors": ["src/tree.c:is_event_enclosed", "src/tree.c:search_cdir", "src/ast.c:get_variable_bound"]}
{"id": "C04", "title": "Reported set is independent of insertion order", "statement": "Inserting the same subscriptions in any order, interleaved with any boundary-extending calls, gives the same multiset of reported ids for every event.", "quantifier": "every permutation of every finite list of subscriptions, every event", "why_tests_cant": "n! orders; the tree shape differs between them.", "anchors": ["src/tree.c:insert_be_tree", "src/tree.c:space_partitioning", "src/tree.c:space_clustering"]}
{"id": "C05", "title": "Insertion neither loses nor duplicates subscriptions", "statement": "After inserting a subscription the tree contains precisely the previously stored subscriptions plus the new one, each once, whatever partitioning and clustering moves were triggered (distinct ids).", "quantifier": "every reachable tree, every subscription with a fresh id", "why_tests_cant": "Restructuring loops with in-place index decrement are only exercised on a few layouts by tests.", "anchors": ["src/tree.c:move", "src/tree.c:remove_sub", "src/tree.c:space_partitioning", "src/tree.c:space_clustering"]}
{"id": "C06", "title": "betree_exists agrees with betree_search", "statement": "On a valid event betree_exists returns true if and only if betree_search would report at least one id.", "quantifier": "every reachable tree, every valid event", "why_tests_cant": "The two paths stop at different points and share memo state differently.", "anchors": ["src/tree.c:betree_exists_with_preds", "src/tree.c:betree_search_with_preds"]}
{"id": "C07", "title": "Events missing a mandatory variable are refused", "statement": "If the event leaves out a variable declared with allow_undefined=false, betree_search returns false and does not touch the report; otherwise it returns true.", "quantifier": "every configuration, every tree, every event, every prior report", "why_tests_cant": "All subsets of missing variables of all configurations.", "anchors": ["src/tree.c:validate_variables", "src/betree.c:betree_search_with_event_filled"]}
{"id": "C08", "title": "Memoisation is transparent", "statement": "The result of matching a subscription, and the set of reported ids, is the same as if no result were ever cached: a cached verdict used in a search always equals what evaluating the sub-expression afresh would give.", "quantifier": "every history of expressions sharing sub-expressions, every event, every order of evaluation within one search", "why_tests_cant": "Depends on which expressions were inserted before and on the order in which they are evaluated.", "anchors": ["src/ast.c:match_node_inner", "src/hashmap.c:assign_pred", "src/memoize.c"]}
{"id": "C09", "title": "Short-circuiting is transparent", "statement": "When the undefined-variable shortcut decides a subscription, its verdict equals the verdict of full evaluation on that event.", "quantifier": "every expression, every set of undefined variables, every event", "why_tests_cant": "Quantifies over expression shapes (nesting of not/and/or) and subsets of undefined variables.", "anchors": ["src/tree.c:try_short_circuit", "src/tree.c:short_circuit_for_node", "src/tree.c:fill_short_circuit"]}
{"id": "C10", "title": "Predicate sharing identifies only identical predicates", "statement": "Two (sub-)expressions receive the same predicate id exactly when they are structurally the same predicate over the same attributes and constants; in particular they evaluate alike on every event.", "quantifier": "every sequence of inserted expressions", "why_tests_cant": "Depends on a comparison function over all pairs of expressions and on the contents of an ordered map.", "anchors": ["src/ast_compare.c:expr_cmp", "src/hashmap.c:assign_pred", "src/jsw_rbtree.c"]}
{"id": "C11", "title": "Undefined variables make a predicate false", "statement": "A comparison, equality, set, list, boolean-variable or string predicate on a variable the event leaves undefined is false (also for <>, not in, none of), `not` of it is true, `is null` is true and `is not null` is false.", "quantifier": "every predicate, every event leaving its variable undefined", "why_tests_cant": "Every predicate kind times every event.", "anchors": ["src/ast.c:match_node_inner", "src/ast.c:match_is_null_expr", "src/var.c"]}
{"id": "C12", "title": "Comparison and equality semantics", "statement": "On defined variables, <, <=, >, >=, = and <> over integers (and the order comparisons over floats) have their arithmetic meaning; = and <> over strings and integer enums hold exactly when the texts/integers are the same/different; float = means a distance below DBL_EPSILON.", "quantifier": "all constants and all event values", "why_tests_cant": "Infinite value domains.", "anchors": ["src/ast.c:match_compare_expr", "src/ast.c:match_equality_expr", "src/utils.c"]}
{"id": "C13", "title": "`in` / `not in` is membership", "statement": "For `x in (..)` the predicate is true exactly when the event's value occurs in the list, `not in` exactly when it does not, and likewise for `v in list_variable`, although the code uses binary search on sorted lists.", "quantifier": "all lists of any length, all event values", "why_tests_cant": "Binary search boundary conditions over all lengths.", "anchors": ["src/ast.c:match_set_expr", "src/ast.c:d64binary_search", "src/ast.c:sbinary_search"]}
{"id": "C14", "title": "`one of` / `none of` / `all of` set semantics", "statement": "one of is true exactly when the event list and the constant list intersect, none of exactly when they do not, all of exactly when every constant occurs in the event list.", "quantifier": "all constant lists and event lists of any length", "why_tests_cant": "Merge scans over all pairs of sorted lists.", "anchors": ["src/ast.c:match_list_expr", "src/ast.c:match_not_all_of_int", "src/ast.c:match_all_of_int"]}
{"id": "C15", "title": "Operand reordering at parse time preserves meaning", "statement": "The parser may swap the operands of and/or so that the cheaper one is first; the expression evaluates to the same boolean as the one written.", "quantifier": "every expression, every event on which neither operand faults", "why_tests_cant": "Every expression shape.", "anchors": ["src/ast.c:ast_bool_expr_binary_create", "src/ast.c:score_node"]}
{"id": "C16", "title": "Boolean connectives have classical meaning", "statement": "Evaluation of and/or/not equals classical conjunction/disjunction/negation of the evaluated operands and is deterministic.", "quantifier": "every expression and event", "why_tests_cant": "Unbounded nesting.", "anchors": ["src/ast.c:match_bool_expr"]}
{"id": "C17", "title": "within_frequency_cap semantics", "statement": "within_frequency_cap(type, ns, value, length) is true exactly when no cap entry of the event has that type, campaign id and namespace, or the first such entry is expired for a positive length, or lacks a timestamp, or has a count below value.", "quantifier": "every cap list, every parameter, every now", "why_tests_cant": "Unbounded lists and value ranges.", "anchors": ["src/special.c:within_frequency_caps", "src/ast.c:match_special_expr"]}
{"id": "C18", "title": "segment_within / segment_before semantics", "statement": "With the event's segments in ascending id order, segment_within(id, s) is true exactly when the event has the segment with a timestamp at most s seconds old, segment_before exactly when it is older.", "quantifier": "every sorted segment list, every now", "why_tests_cant": "Unbounded lists and value ranges.", "anchors": ["src/special.c:segment_within", "src/special.c:segment_before"]}
{"id": "C19", "title": "contains / starts_with / ends_with semantics", "statement": "The three string functions hold exactly when the pattern is an infix / prefix / suffix of the value.", "quantifier": "all byte strings", "why_tests_cant": "All pairs of strings.", "anchors": ["src/special.c:contains", "src/special.c:starts_with", "src/special.c:ends_with"]}
{"id": "C20", "title": "Expression bounds are sound", "statement": "The value range the index derives for an expression and an attribute has room for every value of that attribute with which the expression can be true: an end of the range that is not the end of the attribute's domain (which stands for everything beyond it) is a true limit of the value.", "quantifier": "every expression, every domain, every event value", "why_tests_cant": "Every expression shape times every value.", "anchors": ["src/ast.c:get_variable_bound"]}
{"id": "C21", "title": "Boundary changes only extend bounded domains and cover the expression", "statement": "betree_change_boundaries / betree_make_sub never shrink a domain that already has finite bounds, and after the call every domain has room for the constants of the expression: k for =, <>, <=, >=, in and list constants, the nearest value with which the comparison is true for < and > (k-1, k+1), the ids of strings and enum values.", "quantifier": "every configuration and expression, every sequence of calls", "why_tests_cant": "Histories of calls.", "anchors": ["src/betree.c:change_boundaries", "src/betree.c:get_simple_variable_bound"]}
{"id": "C22", "title": "Range splitting covers the range", "statement": "When a cluster is split, its two children ranges together cover exactly the parent's range, each is strictly smaller, and non-atomic integer, string and boolean ranges are always splittable.", "quantifier": "all ranges", "why_tests_cant": "All integer ranges.", "anchors": ["src/tree.c:split_value_bound", "src/tree.c:is_atomic"]}
{"id": "C23", "title": "Insertion terminates without abort", "statement": "Inserting an accepted subscription always returns: restructuring terminates and does not reach any abort() for boolean, integer, string, enum and list attributes, and for float attributes without limits or with limits the tree can cut down to single numbers.", "quantifier": "every reachable tree, every subscription", "why_tests_cant": "Termination over all histories.", "anchors": ["src/tree.c:insert_be_tree", "src/tree.c:space_partitioning", "src/tree.c:space_clustering"]}
{"id": "C24", "title": "Leaf capacity", "statement": "After every insertion each leaf list holds at most its advertised capacity, and that capacity is a positive multiple of lnode_max_cap.", "quantifier": "every reachable tree", "why_tests_cant": "All histories.", "anchors": ["src/tree.c:update_cluster_capacity", "src/tree.c:is_overflowed"]}
{"id": "C25", "title": "String interning is injective and stable", "statement": "Within one attribute two strings get the same id exactly when they are the same text; an id once given never changes; ids are consecutive from 0.", "quantifier": "every sequence of expressions", "why_tests_cant": "Histories of insertions.", "anchors": ["src/config.c:get_id_for_string", "src/config.c:try_get_id_for_string"]}
{"id": "C26", "title": "Integer-enum interning is injective and stable", "statement": "Within one attribute two integers get the same enum id exactly when they are equal; an id once given never changes.", "quantifier": "every sequence of expressions", "why_tests_cant": "Histories of insertions.", "anchors": ["src/config.c:get_id_for_ienum", "src/config.c:try_get_id_for_ienum"]}
{"id": "C27", "title": "Attribute names are looked up case-insensitively", "statement": "Attribute names in expressions and events that differ only in letter case denote the same declared (lower-case) attribute.", "quantifier": "all names, all configurations", "why_tests_cant": "All strings.", "anchors": ["src/tree.c:try_get_id_for_attr", "src/ast.c:assign_variable_id"]}
{"id": "C28", "title": "betree_make_sub refuses unknown attributes and ill-typed expressions", "statement": "betree_make_sub returns NULL whenever the expression mentions an undeclared attribute (outside geo) or uses a declared one at the wrong type (outside the special functions), and accepts otherwise when constants are supplied.", "quantifier": "every configuration and expression", "why_tests_cant": "Every expression shape.", "anchors": ["src/betree.c:betree_make_sub", "src/ast.c:all_variables_in_config", "src/ast.c:all_exprs_valid"]}
{"id": "C29", "title": "Accepted expressions evaluate without abort or type confusion", "statement": "Evaluating an accepted expression on an event whose values have the declared types reads every value at its own type, stays within the variable table and never aborts.", "quantifier": "every accepted expression, every well-typed event", "why_tests_cant": "Every expression times every event; type confusion is silent in C.", "anchors": ["src/ast.c:match_node", "src/var.c"]}
{"id": "C30", "title": "Bounded string attributes accept only so many values", "statement": "betree_insert refuses an expression that would need more distinct strings than a bounded string attribute allows, and the number of interned strings never exceeds the bound.", "quantifier": "every history of insertions on a bounded string attribute", "why_tests_cant": "Histories.", "anchors": ["src/ast.c:all_bounded_strings_valid", "src/config.c:get_id_for_string"]}
{"id": "C31", "title": "Constants", "statement": "An expression using within_frequency_cap is accepted only if the constant required for its type is supplied, and it is then evaluated with the supplied id.", "quantifier": "every expression, every list of constants", "why_tests_cant": "Every expression shape and constant list.", "anchors": ["src/ast.c:assign_constants"]}
{"id": "C32", "title": "Integer literals on float attributes", "statement": "Writing `f < 3` instead of `f < 3.0` on a float attribute gives the same subscription.", "quantifier": "every expression", "why_tests_cant": "Every expression shape.", "anchors": ["src/betree.c:fix_float_with_no_fractions"]}
{"id": "C33", "title": "Order and duplicates in event lists are irrelevant", "statement": "Two events that differ only in the order or multiplicity of elements of list values get the same results.", "quantifier": "all lists", "why_tests_cant": "All permutations.", "anchors": ["src/tree.c:sort_event_lists", "src/value.c:sort_and_remove_duplicate_integer_list"]}
{"id": "C34", "title": "Order in constant lists is irrelevant", "statement": "Permuting the constants of an in/one of/none of/all of list does not change the meaning of the expression.", "quantifier": "all lists, all events", "why_tests_cant": "All permutations.", "anchors": ["src/ast.c:sort_lists"]}
{"id": "C35", "title": "Report counters", "statement": "After betree_search, evaluated counts the visited subscriptions, matched equals the number of ids listed, matched <= evaluated and shorted <= evaluated.", "quantifier": "every tree and event", "why_tests_cant": "All executions.", "anchors": ["src/tree.c:betree_search_with_preds"]}
{"id": "C36", "title": "Searches do not influence each other", "statement": "A search leaves no trace: the report of a search depends only on the inserted subscriptions and the event, not on earlier searches.", "quantifier": "every interleaving of searches and insertions", "why_tests_cant": "All histories.", "anchors": ["src/tree.c:betree_search_with_preds", "src/tree.c:make_memoize"]}
{"id": "C37", "title": "Last assignment to an event variable wins", "statement": "If an event sets a variable several times, the search behaves as if only the last setting were present.", "quantifier": "every event", "why_tests_cant": "All events.", "anchors": ["src/betree.c:make_environment"]}
{"id": "C38", "title": "Bit-set operations", "statement": "After set_bit(A,k) test_bit(A,j) is true exactly for j=k or the bits already set; clear_bit removes exactly bit k.", "quantifier": "all bit arrays and indices in range", "why_tests_cant": "All arrays.", "anchors": ["src/memoize.c"]}
{"id": "C39", "title": "Ordered predicate map refines a set", "statement": "In the red-black tree of predicates, find returns an element equal under the comparison iff one was inserted, and insertion keeps order and red-black balance.", "quantifier": "every sequence of insertions", "why_tests_cant": "All histories and tree shapes.", "anchors": ["src/jsw_rbtree.c:jsw_rbinsert", "src/jsw_rbtree.c:jsw_rbfind"]}
{"id": "C40", "title": "String hash map refines a dictionary", "statement": "After any sequence of map_set and map_remove calls on a fresh map, map_get returns the last value set for that key, and nothing for a key that was never set or removed since; other keys are unaffected, across collisions and resizes. The count is the number of keys; and going through the map with map_next returns each key that is there exactly once, and then NULL.", "quantifier": "every sequence of operations", "why_tests_cant": "All histories, collisions and resizes.", "anchors": ["src/map.c:map_set_", "src/map.c:map_get_", "src/map.c:map_resize", "src/map.c:map_remove_", "src/map.c:map_iter_", "src/map.c:map_next_"]}
{"id": "C41", "title": "Structural comparison of expressions (eq_expr)", "statement": "eq_expr returns true exactly for expressions that mean the same predicate.", "quantifier": "all pairs of expressions", "why_tests_cant": "All pairs.", "anchors": ["src/ast.c:eq_expr"]}
{"id": "C42", "title": "Lookup by subscription id", "statement": "find_sub_id returns a stored subscription with the given id if and only if one was inserted.", "quantifier": "every reachable tree, every id", "why_tests_cant": "All histories.", "anchors": ["src/tree.c:find_sub_id"]}
{"id": "C43", "title": "The expression parser reads exactly the documented grammar", "statement": "For every sequence of tokens the parser returns (it never crashes or loops): it accepts exactly the sequences of the expression grammar, with not binding tighter than and, and tighter than or, both grouping to the left, and the expression it builds is the one written; a sequence has one reading only. Expressions whose parentheses and nots are nested less than 1990 deep are always accepted (lists and chains of any length); 9999 open parentheses are refused.", "quantifier": "all token sequences", "why_tests_cant": "All inputs of every length and nesting depth, through the generated LALR tables.", "anchors": ["src/parser.y", "src/parser.c:yyparse", "src/ast.c:ast_bool_expr_binary_create"]}
{"id": "C44", "title": "What an expression text means", "statement": "An expression text given to betree_insert or betree_make_sub is accepted exactly when the whole text is an expression of the language, and then it means what it says: tokens are taken from the left, each time the longest one, white space between tokens does not matter, and a number is the number its digits denote. (The code departs from this: everything from the first character that begins no token is silently ignored, so x != 3 is accepted as x; two blanks inside not in are refused; not inside is refused; numbers too large become 2^63-1.)", "quantifier": "all texts", "why_tests_cant": "All strings of every length; the longest-match rule makes the division of a text depend on everything that could follow.", "anchors": ["src/lexer.l", "src/parser.y:parse", "src/tree.c:betree_make_sub", "src/betree.c:betree_insert"]}
{"id": "C45", "title": "An event text means what it says", "statement": "Reading an event from its text never crashes and never runs out of stack. A text that is an event \u2014 `{}` or comma-separated `\"name\": value` pairs, where a value is true/false, an integer, a decimal number, a quoted string, a list of integers, of strings, of [id, timestamp] segments or of frequency caps, or null \u2014 is accepted, with any white space between its tokens and any number of variables, and gives exactly the variables written, in their order, those with the value null left out; no text says two different events; and a text that is not an event is refused.", "quantifier": "all texts (all character sequences of any length), all token sequences, all placements of white space", "why_tests_cant": "the set of texts is infinite and the generated table-driven parser has reductions that only show up for particular combinations of tokens; tests try a handful of events", "anchors": ["src/event_lexer.l: rules", "src/event_parser.y: grammar and actions, event_parse", "src/event_parser.c: yypact, yydefact, yytable, yycheck, zzparse", "src/value.c: make_frequency_cap", "src/tree.c: add_variable, make_event_from_string"]}
{"id": "C46", "title": "From texts to the report", "statement": "Expressions and events are given to the API as texts. A text has at most one meaning. A text that is not an expression is refused by betree_insert, betree_make_sub and betree_change_boundaries and changes nothing. After any history of calls, betree_search with an event text appends to the report exactly the ids of the accepted insertions whose text says something true on the event the text says, each once; an event text that is not an event is refused. (The code departs from this: an unreadable event text aborts the process, and the departures of C01, C44 and C45 apply.)", "quantifier": "all histories of calls with texts, all declarations, all event texts", "why_tests_cant": "The composition of two lexers, two parsers, the insertion pipeline and the search over all texts and all histories.", "anchors": ["src/betree.c:betree_insert_with_constants", "src/betree.c:betree_make_sub", "src/betree.c:betree_change_boundaries", "src/betree.c:betree_search", "src/betree.c:betree_exists", "src/tree.c:make_event_from_string", "src/parser.y:parse", "src/event_parser.y:event_parse"]}
{"id": "C47", "title": "Ordinary use is totally correct", "statement": "With ordinary declarations (limits in order and well inside 64 bits, lower-case names) and ordinary requests (attributes declared with the types their operators need, values inside their types, no numbers at the very ends, float attributes without limits or with limits the tree can cut down to single numbers, for instance whole numbers, `not` not put over conjunctions of attributes with limits, no more distinct values per attribute than declared), every betree_insert succeeds, none runs into undefined behaviour, and every later betree_search with an event of the declared types (whose values of float attributes with limits are equal to the constants they are compared with or 2^-52 apart from them) reports exactly the inserted requests that are true on it, each once, and refuses exactly the events that lack a mandatory attribute. The conditions are on declarations, requests and event alone, not on the state of the tree. betree_exists with such an event that lacks no mandatory attribute answers yes exactly if some inserted request is true on it.", "quantifier": "all lists of declarations, all lists of requests (as expressions or as texts) in all orders, all events", "why_tests_cant": "The claim is over all declarations, all sequences of insertions of any length and all events; tree shapes, splits and interning tables grow with them.", "anchors": ["src/betree.c:betree_insert", "src/betree.c:betree_search", "src/tree.c:insert_be_tree", "src/tree.c:match_be_tree", "src/config.c:add_domain"]}
{"id": "C48", "title": "Event objects", "statement": "An event built with betree_make_event, betree_set_variable and the betree_make_*/betree_add_* functions, in any order and with slots left NULL, is searched exactly like the list of its variables; a list or event under construction holds in each position what was last put there. The same event object can be used for any number of betree_search_with_event and betree_exists_with_event calls, with changes of the tree in between: every result is the one a fresh event with the same variables would give. (The code departs from this: a search removes from the object's string lists all but one of the strings the tree does not know, and they are missing when the tree has learned them.)", "quantifier": "all events, all orders of construction, all sequences of searches with the object and changes of the tree", "why_tests_cant": "The object is rewritten by every search, depending on the state of the tree; the claim ranges over all histories of both.", "anchors": ["src/betree.c:betree_search_with_event", "src/betree.c:betree_exists_with_event", "src/betree.c:betree_make_event", "src/betree.c:betree_set_variable", "src/betree.c:betree_make_frequency_cap", "src/tree.c:fill_event", "src/tree.c:sort_event_lists", "src/value.c:sort_and_remove_duplicate_string_list"]}
{"id": "C49", "title": "The text of an expression is read back as the expression", "statement": "For every text the expression parser accepts, printing the expression it built gives a text that the parser accepts, and that means the same: it holds on the same events, and prints as the same text again. Decimal constants (below 2^45 in magnitude) come back rounded to two decimals. The code departs from this for null tests (printed in a form the language does not have), strings with double quotes (which can turn into another expression), negative lengths and segment ids, and unknown frequency-cap types (printing aborts).", "quantifier": "every accepted expression text of any size, its expression, and every event it is evaluated on", "why_tests_cant": "The tests print a few dozen canonical texts; the claim is about every accepted text: any nesting, any names, any list lengths, any constants.", "anchors": ["src/printer.c: ast_to_string", "src/value.c: integer_list_value_to_string, string_list_value_to_string", "src/ast.c: frequency_type_to_string", "src/lexer.l", "src/parser.y"]}
{"id": "C50", "title": "Variables may be declared late", "statement": "Declaring variables with betree_add_*_variable between insertions and searches is as good as declaring all of them first: the tree that results, and every answer of betree_search and betree_exists, is that of the history with all declarations first, with the insertions left out that were refused because a variable was not declared yet; and no call reads outside the memory of an expression inserted before the declaration.", "quantifier": "all tree parameters, all first declarations, all sequences of declarations, insertions, make_sub/insert_sub and boundary changes, all later events", "why_tests_cant": "the bit sets of an expression have the size of the number of variables at its insertion; whether a later loop stays inside them depends on every declaration in between", "anchors": ["src/betree.c:betree_add_boolean_variable", "src/tree.c:try_short_circuit", "src/tree.c:make_sub", "src/tree.c:make_undefined_with_count", "src/config.c:add_attr_domain_i"]}
{"id": "C51", "title": "The generated scanners implement the lexical rules", "statement": "The table-driven scanners shipped in lexer.c and event_lexer.c divide every text exactly as the language is defined: from the left, each time into the longest token that can begin there, keywords before names; they stop only at the end of the text or at a character that begins no token, never index outside their tables, never read beyond the text and its end marks, never back up to an undefined state and always end.", "quantifier": "all C strings (any bytes 1..255), for expressions and for events", "why_tests_cant": "the automata are compressed tables (172 and 37 live states, 7 tables each); a wrong entry shows only on the texts that reach it, and the texts are unbounded", "anchors": ["src/lexer.c:yylex", "src/lexer.c:yy_get_previous_state", "src/lexer.c:yy_accept", "src/event_lexer.c:yylex", "src/lexer.l", "src/event_lexer.l"]}
{"id": "C52", "title": "Variable definitions are the declarations", "statement": "After any history of calls, with variables declared at any point of it, betree_get_variable_definition(tree, i) gives the name and the type of the i-th declaration ever made on the tree (counting from 0), exactly as declared; insertions, boundary changes and later declarations never move or retype a variable. An index that no declaration has reads out of bounds.", "quantifier": "all declarations, all histories of calls and late declarations, all indices", "why_tests_cant": "the index is the contract between betree_make_event/betree_set_variable and the declarations; it must survive every later call", "anchors": ["src/betree.c: betree_get_variable_definition, betree_add_*_variable", "src/config.c: add_attr_domain"]}
{"id": "C53", "title": "An emptied tree is as good as new", "statement": "After empty_tree (any number of times, anywhere in a history) a search reports exactly the ids of the requests accepted since the last emptying whose expression is true on the event, each once; ids used before the emptying may be used again; right after the emptying nothing is evaluated and nothing found; the strings and enum values already known keep their ids. A subscription built before the emptying may be inserted afterwards.", "quantifier": "all declarations, all histories of insertions, boundary changes and emptyings, all events", "why_tests_cant": "the tests empty trees but look at one event each; what must not survive (predicates and their shared verdicts) and what must (ids of strings) shows only for some later history", "anchors": ["src/helper.c: empty_tree", "src/hashmap.c: make_pred_map, free_pred_map", "src/tree.c: make_cnode, free_cnode"]}
{"id": "C54", "title": "Variables declared by lines of text", "statement": "add_variable_from_string(tree, \"name|type|flag[|limit[|limit]]\") does exactly what declaring that variable with that type and those limits does (missing limits are the widest ones), with or without a newline at the end; a file of such lines builds the same tree as the calls. A line with an unknown type, with missing parts or with empty parts is refused.", "quantifier": "all names, types, flags and limits; all trees; all sequences of lines", "why_tests_cant": "all names, all numbers and every combination of optional parts", "anchors": ["src/helper.c: add_variable_from_string", "tests/real_tests.c: read_betree_defs"]}
{"id": "C55", "title": "A copy of an expression behaves like the expression", "statement": "clone_node(e) returns an expression with the same ids that gives, for every event, the result e gives.", "quantifier": "all expressions (of any depth, with any predicates), all events and all states of the memoization", "why_tests_cant": "all expressions and events", "anchors": ["src/clone.c: clone_node", "src/ast.c: ast_node_create"]}
{"id": "C56", "title": "A tree that is taught the constants first is totally correct", "statement": "Declare attributes, then make, in any order and number, the calls betree_make_sub, betree_insert_sub, betree_change_boundaries and betree_insert, where each plain insertion comes after calls that taught the tree its strings and enum values (an expression with the same constant for the same attribute was given to betree_make_sub or betree_change_boundaries). For well-typed expressions without float attributes, whose integers fit and which avoid the documented defects, every call returns, every subscription is built, every insertion is accepted however full the declared limits are, and any search with a well-typed event returns: it fails exactly when the event lacks a mandatory attribute, and otherwise adds to the report exactly the ids of the requests in the tree that are true on the event, each once. The same holds from texts. betree_exists answers accordingly.", "quantifier": "all declarations, all sequences of such calls, all leaf capacities, all well-typed events (and all texts that say them)", "why_tests_cant": "the limits grow with each call and the two ways of inserting treat unknown strings differently; any interleaving of them over any tree shape must agree with the meaning of the expressions", "anchors": ["src/betree.c: betree_change_boundaries, betree_make_sub, betree_insert_sub, betree_insert_with_constants, betree_search", "src/tree.c: change_boundaries, all_bounded_strings_valid"]}
{"id": "C57", "title": "geo_within_radius tests the great-circle distance", "statement": "For positions on earth (latitude within 90 degrees, longitude within 180), geo_within_radius(lat, lon, radius) is true of an event when the great-circle distance between the two positions, on a sphere of radius 6372.8 km, is at most the radius minus 0.3 mm, and false when it is more than the radius plus 0.3 mm; a search reports the request accordingly. The test behaves as one of distance: it is symmetric, monotone in the radius, reflexive, obeys the triangle inequality, never holds for a negative radius and always holds for half the circumference; asin is never applied outside [0, 1].", "quantifier": "all positions and radii (real numbers), all trees of ordinary use containing such a request, all events", "why_tests_cant": "positions are a continuum; tests sample a few pairs and compare with tolerance", "anchors": ["src/special.c: geo_within_radius, EARTH_RADIUS, TO_RAD", "src/ast.c: match_special_expr"]}
{"id": "C58", "title": "Memory of expressions and subscriptions is freed once and not lost", "statement": "Parsing an expression and freeing it gives back every block the parser allocated (tokens, names, strings, list headers and arrays, nodes), none of them twice; what is allocated in between are exactly the blocks reached from the expression. Over any sequence of insertions, subscriptions built and inserted, boundary changes, searches and emptyings of the tree, followed by the freeing of the tree, no call reads or frees a block that is not allocated (in particular through the predicate map, which points into the expressions of subscriptions), no block allocated before is touched, and everything allocated on the way is given back.", "quantifier": "all texts, all heaps, all sequences of calls of any length with subscriptions made under different ids and each built subscription inserted at most once; for the last part: all texts parse, insertions in one step have their constants, built subscriptions are inserted", "why_tests_cant": "leaks and double frees depend on the history and on which of many error paths is taken; a leak checker sees only the runs it is given", "anchors": ["src/ast.c: free_ast_node, ast_*_create", "src/value.c: free_integer_list, free_string_list, add_*_list_value", "src/parser.y: actions", "src/lexer.l: SAVE_STRING, SAVE_IDENTIFIER", "src/tree.c: make_sub, free_sub, free_lnode, free_cnode, free_pdir, free_pnode, free_cdir", "src/hashmap.c: assign_pred", "src/betree.c: betree_insert_with_constants, betree_make_sub, betree_insert_sub, betree_change_boundaries, betree_deinit", "src/helper.c: empty_tree"]}
{"id": "C59", "title": "Memory of events, searches and reports is freed once and not lost", "statement": "Reading the text of an event leaves allocated exactly the blocks reached from the event (its structure and variables, names, strings, list headers and arrays, segments, caps and their namespaces), as many as the event has; free_event gives them all back, none twice, also after the event was prepared for a tree (lists sorted, repeated strings dropped). Over any sequence of the calls of C58 with searches and existence tests between them, each report filled by any number of searches before it is freed, no call reads or frees a block that is not allocated, the answers are those of the code without memory, and everything allocated on the way (environments, bit sets of the memo, candidate lists, report arrays, events) is given back.", "quantifier": "all event texts, all heaps, all sequences of calls and searches of any length, all geometries and roundings; subscriptions made under different ids and each built subscription inserted at most once; for the last part: all texts parse, insertions in one step have their constants, built subscriptions are inserted, and no search misses a mandatory variable", "why_tests_cant": "what a search allocates depends on the number of candidates and results and on which path it leaves by; a leak checker sees only the runs it is given", "anchors": ["src/value.c: free_value, free_string_list, free_segments_list, free_frequency_caps, add_*_list_value", "src/tree.c: free_event, free_pred, add_variable, make_event_from_string, sort_event_lists, add_sub, make_subs_to_eval", "src/event_parser.y: actions", "src/event_lexer.l: SAVE_STRING", "src/betree.c: betree_search, betree_exists, make_environment, betree_search_with_event_filled, make_report, free_report", "src/memoize.c: make_memoize, free_memoize"]}
{"id": "C60", "title": "What testing a decimal attribute means", "statement": "A request that tests a float attribute against a number is reported exactly when the test holds of the event's value. Comparisons with <, <=, >, >= are those of the numbers. Equality with a number above 1 in magnitude is equality; with other numbers (0, or not below 2^-51 in magnitude) it is a difference of less than 2^-52, about 2.2e-16. Whole numbers up to 2^53 are taken as they are, larger ones and decimals as the nearest double (ties to even). Consequences one might not expect: x < k and x = k can both be true, equality is not transitive, and whole numbers above 2^53 are taken for their neighbours.", "quantifier": "all doubles as constants and as event values, all ordinary declarations, request lists and events", "why_tests_cant": "The claim is over all pairs of doubles; the cases that matter are neighbouring doubles, and rounding of the difference.", "anchors": ["src/utils.c:feq", "src/utils.c:fne", "src/ast.c:match_compare_expr", "src/ast.c:match_equality_expr", "src/betree.c:fix_float_with_no_fractions"]}
{"id": "C61", "title": "The tree's own memory is freed once and not lost", "statement": "Create a tree and call insert, make_sub, insert_sub, change_boundaries, searches and empty_tree in any order; if no call stops the program for another reason, then none reads, reallocates or frees a block of a node, directory, name or array that is not allocated. At every point the heap holds, for the tree's nodes, exactly the blocks that the shape of the tree needs, however subscriptions were moved between nodes when the tree was partitioned and cut; empty_tree leaves two blocks; freeing the tree at the end gives all of them back.", "quantifier": "all sequences of calls, all declarations, capacities and minimum partition sizes, all heaps before", "why_tests_cant": "Arrays grow and shrink entry by entry while nodes are created; which moves happen depends on the whole history of insertions. A leak or a stale array pointer shows only for some shapes.", "anchors": ["src/tree.c:make_cnode", "src/tree.c:insert_sub", "src/tree.c:move", "src/tree.c:remove_sub", "src/tree.c:create_pdir", "src/tree.c:create_cdir", "src/tree.c:space_partitioning", "src/tree.c:space_clustering", "src/tree.c:free_cnode", "src/tree.c:free_pdir", "src/tree.c:free_cdir", "src/helper.c:empty_tree"]}
{"id": "C62", "title": "The configuration's memory is freed once, and its tables behave as lists", "statement": "Create a tree, declare variables and call insert, make_sub, insert_sub, change_boundaries, searches and empty_tree in any order; if no call stops the program for another reason, then none reads, reallocates or frees a block of the configuration that is not allocated: attributes and their names, the tables of texts and integers, the nodes and buckets of the hash maps, the nodes of the predicate tree. The numbers given to texts, integers and predicates are those of first use, whatever the hash function does. At every point the heap holds, for the configuration, exactly the blocks that its declarations, texts, integers and predicates need; if no declared limit is zero, freeing the tree at the end gives all of them back.", "quantifier": "all sequences of calls, all declarations, all hash functions, all heaps before", "why_tests_cant": "Hash maps grow and chain depending on which texts arrive in which order, and collisions depend on the hash function; a stale bucket array, a lost node or a map that was never initialised shows only for some histories.", "anchors": ["src/config.c:make_config", "src/config.c:free_config", "src/config.c:add_attr_domain", "src/config.c:add_string_map", "src/config.c:add_integer_map", "src/config.c:get_id_for_string", "src/config.c:get_id_for_ienum", "src/map.c:map_set_", "src/map.c:map_get_", "src/map.c:map_deinit_", "src/hashmap.c:make_pred_map", "src/hashmap.c:assign_pred", "src/hashmap.c:free_pred_map", "src/jsw_rbtree.c:jsw_rbinsert", "src/jsw_rbtree.c:jsw_rbdelete", "src/helper.c:empty_tree"]}
{"id": "C63", "title": "A whole session loses no memory", "statement": "Create a tree, declare variables with limits that are not zero, and call insert, make_sub, insert_sub, change_boundaries, search, exists and empty_tree in any order, with texts of expressions and events, and with events that the caller makes, fills with variables, uses any number of times and frees; then free the remaining events and the tree. If no call stops the program for another reason, subscription ids differ and each built subscription is inserted at most once, then no call and not the freeing reads, reallocates or frees a block that is not allocated, the answers are those without memory, and every block allocated before the tree was created is still allocated. If moreover no entry of an event or list is written twice, all texts of expressions parse, one-step insertions have their constants, all built subscriptions were inserted and no search was turned down for a missing variable, then after betree_free the heap holds exactly what it held before: nothing is lost.", "quantifier": "all sequences of calls, all declarations, all heaps before, all hash functions", "why_tests_cant": "A leak checker sees one history; that subscriptions, events, reports, nodes and tables never share or lose a block has to hold for all of them together.", "anchors": ["src/betree.c:betree_make_with_parameters", "src/betree.c:betree_free", "src/betree.c:betree_deinit", "src/betree.c:betree_insert_with_constants", "src/betree.c:betree_make_sub", "src/betree.c:betree_insert_sub", "src/betree.c:betree_change_boundaries", "src/betree.c:betree_search", "src/betree.c:betree_exists", "src/helper.c:empty_tree", "src/betree.c:betree_make_event", "src/betree.c:betree_set_variable", "src/betree.c:betree_search_with_event", "src/betree.c:betree_free_event"]}
{"id": "C64", "title": "Events built by the caller lose no memory", "statement": "A caller makes lists, segments, caps, variables and events with the betree_make_* and betree_add_* functions, sets variables in events, searches and asks with the same events any number of times (each call looks up names, sorts the lists of the event and drops their repetitions) with other calls between, and frees variables and events. If this goes well without memory (in particular no freed event is used and no position lies outside), subscription ids differ and each built subscription is inserted at most once, then no call reads or frees a block that is not allocated, the answers and the contents of the events are those without memory, and freeing the remaining events and then the tree succeeds and leaves every block allocated that was allocated before. If moreover no entry of an event or list is written twice, all texts parse, insertions have their constants, all built subscriptions were inserted and no search was turned down, nothing else is left: everything was freed exactly once.", "quantifier": "all sequences of calls with any number of events and searches, all values and lists, all declarations, all heaps before", "why_tests_cant": "Searches change the events they are given and free parts of them; that nothing is freed twice or lost must hold for all numbers of searches, all lists with repetitions and all orders of calls.", "anchors": ["src/betree.c:betree_make_event", "src/betree.c:betree_set_variable", "src/betree.c:betree_make_string_list", "src/betree.c:betree_add_string", "src/betree.c:betree_make_segments", "src/betree.c:betree_make_frequency_caps", "src/betree.c:betree_make_frequency_cap", "src/betree.c:betree_free_variable", "src/betree.c:betree_free_event", "src/betree.c:betree_search_with_event", "src/betree.c:betree_exists_with_event", "src/value.c:free_value", "src/value.c:sort_and_remove_duplicate_string_list", "src/tree.c:free_event"]}
{"id": "C65", "title": "Threads searching the same tree do not disturb each other", "statement": "After any calls that went well, any number of threads search the same tree at the same time, each with its own sequence of calls that do not change the tree: betree_search and betree_exists with texts, and searches with events that the thread itself has made. Suppose each sequence goes well when its thread runs alone. Then in every interleaving of the threads' steps no thread reads or frees a block that is not allocated, every thread that finishes has given exactly the answers, and has the events, that it gives alone; two threads never work on a common block except for both reading the tree (its subscriptions, nodes and configuration); blocks that were there before stay; when all have finished nothing is left of their calls but the events they have not freed (if no entry was written twice and no search turned down); everything that is left can then be freed, and nothing else is left if nothing was lost before; and if every thread gets its turn again and again, all finish.", "quantifier": "all trees (all earlier calls), all numbers of threads, all sequences of calls per thread, all events and texts, all interleavings of steps (finite schedules, and endless fair ones for termination), all heaps before", "why_tests_cant": "The number of interleavings of even two short searches is astronomic; a data race shows in few of them and no test chooses the schedule.", "anchors": ["src/betree.c:betree_search", "src/betree.c:betree_exists", "src/betree.c:betree_search_with_event", "src/betree.c:betree_exists_with_event", "src/betree.c:betree_search_with_event_filled", "src/tree.c:make_event_from_string", "src/tree.c:betree_search_with_event_filled", "src/event_parser.y:root", "src/event_parser.y:event_parse", "src/memoize.c:make_memoize"]}
{"id": "C66", "title": "Ordinary use, from declarations to freed memory, with threads", "statement": "Create a tree with ordinary declarations and insert any number of texts that say ordinary requests (as in C47; or, as in C56, make the other calls that change the tree, plain insertions after their constants are taught). Then let any number of threads ask: search and test existence with texts, and make events, fill them, search with them any number of times, change them and free them; every event in order (declared attributes of the declared types, made and not freed, positions inside). At most one thread uses texts, or no text is parsed by another thread between the end of a parse and the taking of its result. Then in every interleaving of the steps nothing goes wrong: no block is used or freed that is not allocated; every call that a thread finishes answers exactly what it should: a search is refused exactly if a mandatory attribute is missing and otherwise reports exactly the ids of the requests that are true on the event, each once, and existence is answered with yes exactly if some request is true. If every thread gets its turn again and again, all finish. Then the remaining events and the tree can be freed, everything allocated before is still allocated, and nothing else is, if no search was refused, no entry of an event or list was written twice and all built subscriptions were inserted.", "quantifier": "all ordinary declarations, all lists of ordinary request texts (or histories of calls in the sense of C56), all starting heaps, all numbers of threads, all sequences of reading calls per thread, all interleavings of their steps, all hash functions and geographic tests", "why_tests_cant": "It combines every input of declarations, requests and events with every interleaving of the memory steps of every number of threads.", "anchors": ["src/betree.c: betree_insert, betree_make_sub, betree_insert_sub, betree_change_boundaries, betree_search, betree_exists, betree_search_with_event, betree_exists_with_event, betree_make_event, betree_set_variable, betree_free_event, betree_free", "src/tree.c: make_event_from_string, fill_event, sort_event_lists", "src/event_parser.y: root, event_parse", "src/alloc.h: bmalloc, bfree"]}
{"id": "C67", "title": "Changing the tree and searching it with threads, by turns", "statement": "Let a program consist of any number of parts. In each part one thread, alone, makes any calls, among them those that change the tree (insertions, built subscriptions, limits); then any number of threads make any calls that do not change the tree (searches and existence tests with texts and with events that they build, change and free), and the program waits for them and frees what events they left. If every call goes well when all are made one after the other, and texts do not get in each other's way (at most one thread of a part uses texts, or no text is parsed by another thread between the end of a parse and the taking of its result), then, whatever the interleaving of the steps in each part: no block is used or freed that is not allocated, in any part; every thread answers what it answers alone on the tree as it is in its part; if every thread gets its turn again and again each part comes to its end; after it the next part goes well; and at the end everything can be freed, with nothing lost under the conditions of C63. For ordinary declarations and requests (C47, C56) nothing needs to be assumed of how the calls go: they go well, and the threads of each part find exactly the requests that were inserted in the parts so far and are true on their events.", "quantifier": "all numbers of parts, all calls of the single thread, all numbers of threads per part with all sequences of reading calls, all interleavings of the steps of every part, all starting heaps, hash functions and geographic tests", "why_tests_cant": "The interleaving of one part decides in which heap the next one starts; every combination of schedules of all parts must go well.", "anchors": ["src/betree.c: betree_insert, betree_make_sub, betree_insert_sub, betree_change_boundaries, betree_search, betree_exists, betree_search_with_event, betree_exists_with_event, betree_make_event, betree_set_variable, betree_free_event, betree_free", "src/event_parser.y: root, event_parse", "src/alloc.h: bmalloc, bfree"]}
{"id": "C68", "title": "Constants belong to the caller", "statement": "Among calls of all kinds the caller makes constants, gives them to insertions and to subscriptions it builds, any number of times, and frees them when it likes, in any order. If it does not use or free a constant that it did not make or has freed, and the same calls made with the names and values of the constants go well under the conditions of C63, then the calls go well in one heap and answer the same: the tree copies what it needs, and never uses a constant after the call it was given to, however long the tree lives. At the end the caller can free the constants it still has, its events and the tree; nothing that was there before is lost, and nothing remains under the conditions of C63. A constant that is used or freed after it was freed is undefined behaviour.", "quantifier": "all sequences of calls with any number of constants, all orders of making, giving and freeing them, all requests, declarations, starting heaps, hash functions and geographic tests", "why_tests_cant": "A reference to a constant kept by the tree would only show when the tree uses it long after it was freed, in some history of insertions, splits and searches.", "anchors": ["src/betree.c: betree_make_integer_constant, betree_free_constant, betree_free_constants, betree_insert_with_constants, betree_make_sub", "src/ast.c: get_integer_constant, assign_constants", "src/tree.h: struct betree_constant"]}
{"id": "C69", "title": "The limit of an enum attribute is kept", "statement": "For an attribute declared with betree_add_integer_enum_variable with room for n values: whatever requests are inserted with betree_insert, at most n distinct values are kept for it, none twice; and a request that needs a value beyond these is refused, as it is for strings (C30), and never reported on an event that does not satisfy it.", "quantifier": "all declarations, limits, histories of betree_insert calls with any requests, all capacities", "why_tests_cant": "The table of values grows over the whole history, across attributes and predicates; the limit must hold after every history.", "anchors": ["src/config.c: add_attr_domain_bounded_ie, get_id_for_ienum, try_get_id_for_ienum", "src/ast.c: assign_ienum_id", "src/betree.c: betree_insert_with_constants, is_valid"]}
{"id": "C70", "title": "The ordered set with insertion and erasure", "statement": "The ordered set of jsw_rbtree.h behaves, over every sequence of jsw_rbinsert and jsw_rberase calls on a new one, as a set: jsw_rbfind finds an item equal to the key exactly if one was inserted and not erased since; erasing takes out the item equal to the key and no other; the items stay in strictly ascending order and the height at most twice the logarithm of their number; no call dereferences NULL; jsw_rbsize is the number of items.", "quantifier": "all comparison functions that are total preorders, all sequences of insertions and erasures of any items", "why_tests_cant": "The top-down erasure recolours and rotates on the way, and overwrites the found item with its predecessor; the cases depend on the whole shape, so on the whole history.", "anchors": ["src/jsw_rbtree.c: jsw_rberase, jsw_rbinsert, jsw_rbfind, jsw_rbsize, jsw_single, jsw_double", "src/jsw_rbtree.h"]}
{"id": "C71", "title": "String maps when memory runs out", "statement": "If an allocation fails in map_set, the call returns -1 and the map is as before: over every sequence of map_set and map_remove calls on a fresh map, whatever allocations fail, map_get answers like a dictionary in which exactly the calls that returned 0 had their effect, and the count is the number of keys. A key that is there can be set without memory; -1 is returned only if an allocation failed.", "quantifier": "all sequences of calls, keys, values and hash functions, and all choices of the allocations that fail", "why_tests_cant": "An allocation can fail at any point of any history; when the bucket array cannot grow, all nodes have already been taken out of their buckets.", "anchors": ["src/map.c: map_set_, map_resize, map_newnode, map_remove_, map_get_"]}
{"id": "C72", "title": "The ordered set when memory runs out", "statement": "If jsw_rbinsert finds no memory for a node it returns 0 and the set is as before: every item is still found, no other is, and later calls work as they would have. If an equal item is there, it returns 1 and needs no memory.", "quantifier": "all comparison functions that are total preorders, all histories of insertions and erasures, all items", "why_tests_cant": "The allocation is made after the descent has recoloured and rotated; what a failure leaves behind depends on the whole shape of the tree.", "anchors": ["src/jsw_rbtree.c: jsw_rbinsert, new_node, jsw_rbfind"]}
