{
"C01": "Model: all of insertion and search. Proof: every stored subscription corresponds to exactly one live request (world invariant), the search visits every satisfied one (C03), and a visited one is reported iff `sat` (C08, C09, evaluation = specification).",
"C02": "Proof: visited subscriptions are stored ones (C05), the verdict equals evaluation (C08, C09), evaluation equals `sat` (`Lemmas/EvalSat`).",
"C03": "Proof: path invariant of the tree by induction over histories (`Lemmas/Prune*`): each subscription below a cluster directory has its range inside the directory's range, and each directory on the path admits every event with which the subscription is true (C20); domains only widen (`Lemmas/Widen`).",
"C04": "Corollary of the exact characterisation C01.",
"C05": "Multiset conservation through move/remove/partition/cluster, by induction on the recursion of insertion (`Lemmas/Conserve`).",
"C06": "Both are folds over the same candidates; memo soundness for both.",
"C07": "Case analysis of `validate_variables` and the report of `betree_search`.",
"C08": "Invariant of the predicate table (equal id implies equal predicate), hence of the memo: a recorded verdict is the evaluation of every predicate with that id.",
"C09": "Structural induction over the expression relating the pass/fail attribute sets to evaluation.",
"C10": "`expr_cmp` = 0 iff the stored expressions are the same (up to float closeness), over every history.",
"C11": "Case analysis of each `match_*`.",
"C12": "Case analysis of each `match_*`.",
"C13": "Binary search over sorted lists = membership, by induction on the interval.",
"C14": "Loops of `match_list_expr` over sorted lists = intersection/containment.",
"C15": "Operand swap of the parser actions against commutativity of evaluation and of `sat`.",
"C16": "By the equations of evaluation.",
"C17": "First matching cap entry, by induction on the list of entries.",
"C18": "First segment with at least the id, by induction; sortedness.",
"C19": "Loops of utils = list infix/prefix/suffix.",
"C20": "Structural induction over `get_variable_bound_inner`.",
"C21": "Folding over domains; each mention of an attribute widens its domain.",
"C22": "Arithmetic of `split_value_bound`.",
"C23": "Termination measure (range width and number of subscriptions) for the restructuring loops; no abort reachable by the typing invariant; histories by induction.",
"C24": "Invariant of all leaves over histories.",
"C25": "Invariant of string maps over histories.",
"C26": "Invariant of enum maps over histories.",
"C27": "A relation (same up to case) preserved by each pass of the pipeline.",
"C28": "Each validation pass characterised, composed; totality by the same passes on declared types.",
"C29": "Typing invariant of environments and stored subscriptions.",
"C30": "Invariant: the number of interned strings; the check of `all_bounded_strings_valid` characterised.",
"C31": "`assign_constants` characterised; stored caps as multiset over histories.",
"C32": "The passes after `fix_float_with_no_fractions` see identical input.",
"C33": "Sorting and deduplication are canonical forms.",
"C34": "As C27, with permutations of lists.",
"C35": "Fold invariants.",
"C36": "The search is a function of tree and event that returns no tree (the C search takes a const tree); theorem: reports accumulate and histories with searches removed agree.",
"C37": "The environment after filling depends on the last setting.",
"C38": "Bit-vector lemmas.",
"C39": "Refinement of a sorted set with red-black invariants.",
"C40": "Refinement of a dictionary for every hash function, across resizes.",
"C41": "Structural induction; counterexamples.",
"C42": "Induction over the tree.",
"C43": "Bison's driver and tables as data; a certificate (accessing symbols, predecessors, weights) checked by the kernel gives an invariant for every run, so soundness and termination; completeness by running the automaton symbolically on every atom and induction over the grammar.",
"C44": "The rules of lexer.l with flex's longest-match, first-rule choice; a specification of spellings and of the left-to-right longest division (Spec/Text.lean), proved to be what the lexer computes on every text and to be unique; then C43 on the tokens.  `Written` describes ordinary texts and is proved to scan to its tokens.",
"C45": "Model the flex rules (longest match, first rule among equals), the bison tables and driver, and the semantic actions (Model/Lexer, Model/LR, Model/ParserTables, Model/EventParser). The grammar and the way tokens are written are inductive relations of their own (Spec/EventSyntax, Spec/EventText). Soundness by a certificate over the parser's states (Lemmas/ZzSound), completeness by composing runs of the automaton along the grammar (Lemmas/ZzComplete), the lexer by induction on the text (Lemmas/EvLex).",
"C46": "The API calls with texts are modelled by the text parsers followed by the calls on syntax trees (Model/TextApi). What a text says is the specification of C43-C45 (Spec/Says). A simulation shows that a history of calls with texts is a history of calls with what the texts say, skipping the refused ones, so that C01 applies.",
"C47": "Composition: Lemmas/Used.lean shows by induction over the insertions that the interning tables hold only constants of the requests; with Enough, no insertion finds a table full; Fitting and Static conditions give success of every stage (C28, C29), and the search result is C01's theorem with its history hypotheses discharged from the static ones. The text form adds C46's reading theorems. plainDecls/plainReqs show a concrete use with limited strings, enums and a frequency cap.",
"C48": "Model/EventObj.lean: the slots of the object, fill_event and sort_event_lists returning the rewritten object. Lemmas/EventObj.lean: a search reads only ids of string lists (forgetEnv, through evaluation and tree walk); a relation between a value as built and as left by searches (Cov) is preserved by every search and implies equal ids at the end. Witness C48_lost_string by kernel evaluation.",
"C49": "Model ast_to_string with its printf formats (decimal digits, %.2f rounding to even on rationals); show that what it prints is written tokens in the sense of Spec/Text.lean, that those tokens read as the expression with rounded constants (Spec/Printed.lean), that the parser's cost ordering leaves it alone, and compose with C43/C44; count parentheses for the null-test case.",
"C50": "Model/Late.lean: declarations as operations; searches and insertions with the bit-set accesses checked. Lemmas/Late.lean: one more declared variable commutes with every step of every operation (pipeline, insertion, splitting) as long as the number of words stays; Lemmas/LateRun.lean: induction over the history, invariant: bit sets have the length of the tree's variable count. Witnesses C50_crossing, C50_position by kernel evaluation.",
"C51": "Model/Flex.lean: the loop of yylex with bounds-checked table accesses; Model/FlexTables.lean: the tables. Lemmas/Flex.lean: the rules' patterns by derivatives, equal to the length functions of Model/Lexer; the longest match by left-to-right scanning; the loop of yylex against it by induction over the text, for any tables that satisfy a local condition (FlexSpec). Lemmas/FlexReps.lean lists the patterns left in every state, Lemmas/FlexCheck.lean has the kernel check the local condition for every state and byte.",
"C52": "Model: `Tree.variableDefinition` in `Model/Helper`. Proof: every call preserves names and types of the domains (`CfgExt`), a declaration appends one.",
"C53": "Model: `Tree.emptied`, `World.emptyRun` in `Model/Helper`. Proof: the world invariants of C01 hold after emptying (empty root, empty predicate map, unchanged tables), so the proof of C01 goes through from any such world.",
"C54": "Model: `strtok`, `strtollAny`, `lineFields`, `lineDecl`, `Tree.addVariableFromString` in `Model/Helper`. Spec: `LineSays` in `Spec/Helper`. Proof: `strtok_r` on parts without separators gives the parts; `strtoll` on a numeral gives its number.",
"C55": "Model: `cloneNode` in `Model/Clone`, function by function. Spec: `Placeless`, `FirstPlaced` in `Spec/Clone`. Proof: induction over the expression. clone_node is called by nothing in the library.",
"C56": "Model: World.run over the four calls. Spec/Trained.lean says which constants were taught, which requests are placed, and what is asked of a call. Proof: an invariant over histories (every taught constant is known to the tables and stays known, the pool is what was built, the limits only grow), after which insertion is accepted by insert_iff and the search is exact by C47's argument.",
"C57": "Model: the formula of special.c over the real numbers (Model/Geo); specification: 6372.8 times the angle between two unit vectors (Spec/Geo, Mathlib's InnerProductGeometry.angle). Proof: the chord formula is 2 sin(angle/2); the ten decimals of pi in TO_RAD move each place by an arc of at most (|lat|+|lon|) times 6e-14; triangle inequality of angles. C57_search composes with C47.",
"C58": "Model: a heap of numbered blocks, bmalloc/bfree/brealloc with undefined behaviour on a block that is not allocated (Model/Memory); the tokens and the 76 actions of the parser as programs on it, run by the same LALR tables; free_ast_node; the public calls with make_sub, free_sub, the walk of free_cnode and the pointers of the predicate map (Model/MemWorld). Proof: frame rules (a program run on its own blocks and any others leaves the others), one lemma for each grammar rule, the invariant of the LR loop, an invariant of the calls that partitions the subscriptions into stored, waiting and freed.",
"C59": "Model: events as trees of blocks, the 38 actions of the event parser as programs on the heap of C58 run by the same LALR tables, sort_event_lists with the freeing of dropped strings, the two search functions with everything they allocate, reports (Model/EventMemory). Proof: the frame rules of C58, a relation between values and their blocks kept by each grammar rule and by sorting, and the invariant of C58 over the calls.",
"C60": "Model: `rnd` (Model/Double) after each operation on doubles, so `feq` is |rnd(a-b)| < 2^-52. Spec: NumberTest.Holds / HoldsExactly. Proof: `rnd` is characterised as rounding to nearest, ties to even; doubles above 1 are at least 2^-52 apart; the difference of two near doubles is a double (Sterbenz), so it is not rounded; C47 carries this to the report.",
"C61": "Model: the functions of Model/Tree once more as programs on the heap of C58, with an image of every node, directory, name and array (Model/NodeMemory). Spec: the blocks of an image and the number of blocks that a shape needs (Spec/NodeMemory). Proof: the frame rules of C58; by induction on the fuel of partitioning and clustering and on the shape of the tree, each function computes the same tree as without memory and leaves exactly the blocks of its image; the freeing functions by induction on the image.",
"C62": "Model: the functions of Model/Config, Model/Pipeline and Model/PredMap once more as programs on the heap of C58, with an image of every block; texts are looked up in the hash map of Model/StrMap, predicates in a red-black tree whose nodes carry their blocks (Model/ConfigMemory). Spec: the blocks of an image and the number of blocks that a configuration needs (Spec/ConfigMemory). Proof: a relation between the lists and the images; by induction on the expression and the calls, each function computes the same as with lists and leaves exactly the blocks of its image. For the freeing: no table stays empty, because a table is made only to put a text into it and no limit is zero, which widening preserves.",
"C63": "Model: the five models of memory (C58, C59, C61, C62, C64) step by step on one heap (Model/Session). Proof: the frame rules put the invariants side by side; the worlds of the parts stay equal because each part computes the world without memory.",
"C64": "Model: the calls on the heap (Model/ObjMemory), each event a structure of block numbers beside its values, and the same calls without memory. Proof: each call takes the blocks of what it is given and leaves those of its result (C64_variable, and step by step for histories: C64_events_partial); the entries still to be set stay empty until they are set.",
"C65": "Model: programs of single steps (allocate, free, use a block, write or read the parser's global variable; Model/Concurrent), a machine that lets a chosen thread take its next step. Specification: Exclusive (each thread reads back from the global variable what it wrote last), Undisturbed (Spec/Concurrent). Proof: each program is shown to need only its own blocks and read access to the shared ones (DoesT, by recursion on the program), an invariant of the machine kept by every step (Inv.step), and termination under fair schedules by well-founded recursion on the programs (all_finish). C65_own_events needs no condition on the schedule, C65_threads_partial needs Exclusive, C65_texts_race shows why.",
"C66": "Spec/Use states what the calls of a program that only asks should answer, from the meaning of texts, expressions and events alone (TrueOn, Found, AllFound, shelfAfter, InOrder, Right, AllRight). Lemmas/Use shows that on a tree whose searches are exact, a thread that runs alone is answered so (events that were used before are covered by C48's lemmas); C47 and C56 give exact searches, C65 carries the answers of a thread alone over to every interleaving, and Lemmas/OneText shows that one thread with texts cannot be disturbed.",
"C67": "Model/Phases: a part, and the program without memory and interleaving (EventPlain.phases). Specification: Goes, by recursion over the parts, quantifies over the schedules of each part in turn; PartsRight says what the threads of a part should answer from the calls made so far (InTree). Proof: the invariants of C63 (Agree, Owned, Ahead for all calls to come) hold between the parts: sessionRun_more carries them through the calls of the single thread, machine_undisturbed (C65) through the threads; exactness from C47 and C56 for every prefix of the calls (taught_ready, ordinary_ready).",
"C68": "Model/ConstMemory: constants with their two blocks in the heap of Model/Session; calls name them by the order in which they were made. Specification: asValues replaces constants by their names and values, and is none if a constant is used that is not held. Proof: induction over the calls with the invariants of C63 and the blocks of the constants as a separate part of the heap (constRun_does).",
"C69": "Invariant over the history: the table of an attribute whose domain ends at id n-1 has at most n entries (inserts_enums); one call: assign_ienum_id stops at the bound, the rest of the call does not touch the tables. The second half is false of the code: witness.",
"C70": "`Model/RBErase`: one iteration of jsw_rberase on a zipper (path above, subtree below, where the found item is). Invariants: the items left and right of the hole (step_lists), the found item is where the descent last went left (HitAt), colours and black heights (step_ctx: above a node that is not red is a red one, or only the root). Then induction over the history against a list as the set.",
"C71": "`Model/MapFail`: map_set_ with the outcomes of bmalloc and brealloc as arguments. Invariant of C40 (every node in the bucket of its hash, keys distinct, count right) kept by putting the nodes back into as many buckets (rebucket_ok). Induction over the calls.",
"C72": "`Model/RBFail`: the loop of jsw_rbinsert with new_node failing, following the node tree->root points to through the rotations (it is set only after the loop). Compared step by step with the loop that has memory (failLoop_spec), which C39 and C70 are about. Below seven nodes no rotation is made at the top, by counting nodes with the black heights (`Lemmas/RBFail`)."
}