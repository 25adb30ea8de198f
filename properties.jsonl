{"id": "C01", "title": "Integer expressions evaluate to their mathematical value", "statement": "Evaluating an expression built from integer constants, integer variables and the operators + - * & | ^ ~ << >> < > <= >= == != && || ! ?: and the comma yields the value that mathematics assigns to the expression: operands are combined as unbounded integers, comparisons and logical operators give 0 or 1, and only the operands C says are evaluated are evaluated. No such evaluation changes any variable.", "quantifier": "for every expression of any depth, every assignment of values to its variables, and every interpreter state in which those variables are visible", "why_tests_cant": "expressions nest without bound and the operands range over all integers", "anchors": ["src/evaluate.c:eval_add,eval_sub,eval_mul,eval_ior,eval_iand,eval_xor,eval_ones_comp,eval_rshift,eval_lshift,eval_lt,eval_logic_or,eval_logic_and,eval_negate,eval_infix,eval_comma,convert_to_comparable_type"]}
{"id": "C02", "title": "Division and remainder agree with C", "statement": "For b != 0, a / b truncates toward zero, a % b has the sign of a, and (a / b) * b + a % b == a.", "quantifier": "for all integers a and all non-zero b", "why_tests_cant": "two unbounded integer operands", "anchors": ["src/evaluate.c:eval_div,eval_mod"]}
{"id": "C03", "title": "Division or remainder by zero never yields a value", "statement": "Evaluating a / 0 or a % 0 never produces a result the program can go on with.", "quantifier": "for every dividend and every interpreter state", "why_tests_cant": "absence of a result for all dividends", "anchors": ["src/evaluate.c:eval_div,eval_mod"]}
{"id": "C04", "title": "Shifts multiply and divide by powers of two", "statement": "a << n is a * 2^n and a >> n is a divided by 2^n rounded down, for 0 <= n.", "quantifier": "for all integers a and all shift counts n >= 0", "why_tests_cant": "unbounded operands", "anchors": ["src/evaluate.c:eval_lshift,eval_rshift"]}
{"id": "C05", "title": "Comparison operators form one consistent total order", "statement": "Of a < b, a == b, a > b exactly one yields 1; <= , >= , != are the negations of > , < , ==; each yields 0 or 1. For operands that are variables the order is the order of the values the variables hold as C values of their types.", "quantifier": "for all pairs of integers, and for all variables of integer type with any contents", "why_tests_cant": "all pairs of values of all types", "anchors": ["src/evaluate.c:eval_lt,eval_gt,eval_lteq,eval_gteq,eval_eq,eval_n_eq,make_int_from_live_var"]}
{"id": "C06", "title": "Reading an integer variable gives its C value", "statement": "Using a variable of integer type as an operand of arithmetic yields the mathematical value its bytes represent in its declared type.", "quantifier": "for every integer type and every content of the variable's bytes", "why_tests_cant": "2^64 contents per type", "anchors": ["src/evaluate.c:make_int_from_live_var"]}
{"id": "C07", "title": "Assigning a constant wraps modulo the width of the type", "statement": "After x = n for an integer constant n, x reads as the unique value of its type congruent to n modulo 2^width.", "quantifier": "for every integer n, every integer type and every previous content", "why_tests_cant": "n is unbounded", "anchors": ["src/evaluate.c:assign_integer,eval_assign"]}
{"id": "C08", "title": "Assigning one integer variable to another converts the value", "statement": "After x = y for integer variables x and y, x reads as the value of y converted to the type of x.", "quantifier": "for all pairs of integer types, all contents of y, and any contents of neighbouring or uninitialised memory", "why_tests_cant": "depends on bytes outside y that no test controls", "anchors": ["src/evaluate.c:assign_integer"]}
{"id": "C09", "title": "An assignment leaves every other variable alone", "statement": "x = e writes only the bytes of x: any object whose storage is disjoint from x reads the same before and after.", "quantifier": "for every object disjoint from x, every value assigned", "why_tests_cant": "quantifies over all other objects", "anchors": ["src/evaluate.c:eval_assign,assign_integer,assign_ptr"]}
{"id": "C10", "title": "The value of an assignment expression is the value stored", "statement": "In a = (b = n), a receives the value b has after the inner assignment.", "quantifier": "for all integer types of a and b and all n", "why_tests_cant": "all values", "anchors": ["src/evaluate.c:eval_assign"]}
{"id": "C11", "title": "A compound assignment evaluates its left side once", "statement": "In lhs op= e the side effects of lhs happen exactly once.", "quantifier": "for all left-hand sides", "why_tests_cant": "side effects of arbitrary left operands", "anchors": ["src/parser.m4:assignment_expression", "src/evaluate.c:eval_assign"]}
{"id": "C12", "title": "Increment and decrement", "statement": "x++ and x-- yield the old value of x, ++x and --x the new one; afterwards x holds old +- 1 modulo 2^width; nothing else changes.", "quantifier": "for every integer type and every content", "why_tests_cant": "wrap-around at each width for every content", "anchors": ["src/evaluate.c:eval_post_inc,eval_post_dec,eval_inc,eval_dec,live_var_add,live_var_sub"]}
{"id": "C13", "title": "Pointer stepping moves by one element", "statement": "For a pointer p to a type of size k, p++ advances the address held in p by k, and p + i addresses the i-th element like &p[i].", "quantifier": "for all element types and all addresses", "why_tests_cant": "all sizes and addresses", "anchors": ["src/evaluate.c:live_var_add,eval_add,eval_array_access"]}
{"id": "C14", "title": "A cast converts the value", "statement": "(T)x for an integer variable x yields an object of type T whose value is the value of x converted to T, and leaves x unchanged.", "quantifier": "for all pairs of integer types and all contents", "why_tests_cant": "2^64 contents for each of 100 pairs", "anchors": ["src/evaluate.c:eval_cast"]}
{"id": "C15", "title": "Array indexing addresses the i-th element", "statement": "a[i] denotes the object at base + i * size; different in-range indices denote disjoint storage inside the array's allocation; a negative index addresses memory before base.", "quantifier": "for all element sizes, lengths and indices", "why_tests_cant": "all indices and lengths", "anchors": ["src/evaluate.c:eval_array_access,instantiate_array,get_array_size"]}
{"id": "C16", "title": "Address-of and dereference are inverse", "statement": "*&x denotes the same storage with the same type as x; assigning through *&x is visible in x and vice versa; &*p holds the same address as p.", "quantifier": "for all variables, types and contents", "why_tests_cant": "all objects and aliases", "anchors": ["src/evaluate.c:eval_addr,eval_deref"]}
{"id": "C17", "title": "Structure members do not overlap", "statement": "The members of a structure occupy pairwise disjoint byte ranges, in declaration order, inside the size reported by sizeof.", "quantifier": "for every list of members of any sizes and alignments", "why_tests_cant": "unboundedly many structure declarations", "anchors": ["src/evaluate.c:eval_decl_compound,get_alignment_for_type,instantiate_struct"]}
{"id": "C18", "title": "Structure layout equals the platform C ABI", "statement": "Every member has the offset, and the structure the size, that the System V C ABI prescribes (so that structures can be exchanged with compiled libraries).", "quantifier": "for every list of members", "why_tests_cant": "unboundedly many structure declarations", "anchors": ["src/evaluate.c:eval_decl_compound,get_alignment_for_type,eval_sizeof"]}
{"id": "C19", "title": "Union members share their storage", "statement": "Every union member starts at offset 0 and the union is at least as large as, and exactly as large as the largest of, its members.", "quantifier": "for every list of members", "why_tests_cant": "unboundedly many union declarations", "anchors": ["src/evaluate.c:eval_decl_compound"]}
{"id": "C20", "title": "Writing one structure member leaves the others alone", "statement": "s.m = e changes member m only.", "quantifier": "for every structure, every pair of distinct members, every value", "why_tests_cant": "all structures and contents", "anchors": ["src/evaluate.c:eval_comp_access,instantiate_struct,eval_assign"]}
{"id": "C21", "title": "Declaration specifiers mean the same in any order", "statement": "A list of type specifiers denotes the type C gives to that multiset of specifiers whatever the order, storage-class specifiers do not change it, and a list that is no valid combination is rejected.", "quantifier": "for every finite list of specifiers", "why_tests_cant": "unboundedly many lists", "anchors": ["src/genspecresolver.cpp", "src/spec-resolver.h"]}
{"id": "C22", "title": "An identifier denotes its innermost declaration", "statement": "Evaluating a name yields the object of the innermost enclosing scope that declares it; with no declaration anywhere, evaluation fails.", "quantifier": "for every stack of scopes of any depth and contents", "why_tests_cant": "all nestings of scopes", "anchors": ["src/evaluate.c:resolve_identifier,__resolve_id,eval_identifier"]}
{"id": "C23", "title": "A scope never declares the same name twice", "statement": "Declaring a name already declared in the same scope is rejected and a name once declared keeps denoting the same object until its scope ends, whatever is evaluated in between.", "quantifier": "for every program fragment evaluated between two uses of the name", "why_tests_cant": "quantifies over all programs in between", "anchors": ["src/evaluate.c:map_identifier,make_and_map_live_var"]}
{"id": "C24", "title": "Blocks restore the scope they were entered from", "statement": "After an if, while or for statement, or a function call, has finished, exactly the scopes that were open before are open again.", "quantifier": "for every statement and every program state", "why_tests_cant": "all programs", "anchors": ["src/evaluate.c:push_ctx,pop_ctx,eval_if,eval_loop_for,eval_loop_while,eval_fn_call"]}
{"id": "C25", "title": "Functions see their own scope and the globals only", "statement": "A name used in a function body and not declared there denotes the global of that name, whoever the caller is.", "quantifier": "for every caller context", "why_tests_cant": "all call sites", "anchors": ["src/evaluate.c:eval_fn_call,push_ctx"]}
{"id": "C26", "title": "Arguments are evaluated in the caller's scope", "statement": "Each argument expression of a call denotes what it denotes in the scope of the call, independently of the parameter names of the callee.", "quantifier": "for all parameter names and argument expressions", "why_tests_cant": "all combinations of names", "anchors": ["src/evaluate.c:eval_fn_call"]}
{"id": "C27", "title": "Parameters are passed by value", "statement": "Whatever a callee assigns to its parameters, the caller's variables passed as arguments keep their values.", "quantifier": "for every callee body consisting of assignments to parameters and all argument values", "why_tests_cant": "all bodies and values", "anchors": ["src/evaluate.c:eval_fn_call"]}
{"id": "C28", "title": "A call with the wrong number of arguments is rejected", "statement": "Calling a function declared with n parameters with any other number of arguments never runs its body.", "quantifier": "for all parameter and argument counts", "why_tests_cant": "all pairs of counts", "anchors": ["src/evaluate.c:eval_fn_call"]}
{"id": "C29", "title": "A call returns the value of the executed return statement", "statement": "f(args) yields the value of the return expression evaluated in that very call, each time f is called.", "quantifier": "for every function, every call history", "why_tests_cant": "depends on the history of earlier calls", "anchors": ["src/evaluate.c:eval_return,eval_fn_call,__evaluate"]}
{"id": "C30", "title": "A return statement ends the call wherever it stands", "statement": "When a return statement is executed at any depth of nested ifs and loops, no further statement of the function runs.", "quantifier": "for every nesting of statements", "why_tests_cant": "all nestings", "anchors": ["src/evaluate.c:__evaluate,eval_if,eval_fn_call,eval_return"]}
{"id": "C31", "title": "break ends exactly the innermost loop", "statement": "Executing break leaves the innermost enclosing loop, and only it.", "quantifier": "for every nesting of loops and ifs", "why_tests_cant": "all nestings", "anchors": ["src/evaluate.c:eval_break,eval_loop_for,eval_loop_while,__evaluate"]}
{"id": "C32", "title": "Loops run while their condition is non-zero", "statement": "while (c) s and for (i; c; n) s run s exactly as long as c evaluates to a non-zero value and, unless left by break or return, end with c evaluating to zero.", "quantifier": "for every condition, body and number of iterations", "why_tests_cant": "unbounded iteration", "anchors": ["src/evaluate.c:eval_loop_while,eval_loop_for"]}
{"id": "C33", "title": "if takes the branch its condition selects", "statement": "if (c) runs its first branch when c is non-zero and its else branch (if any) when c is zero; ! and if agree on which values are true.", "quantifier": "for every integer value of c", "why_tests_cant": "c is unbounded", "anchors": ["src/evaluate.c:eval_if,eval_negate"]}
{"id": "C34", "title": "Structured integer programs refine the C semantics", "statement": "Any program built from declarations of integer variables, assignments of computed values, increments, if, while, for and blocks of those leaves the variables with the values the C abstract machine (with wrap-around) computes.", "quantifier": "for every such program and every initial state, for terminating runs of any length", "why_tests_cant": "unbounded programs and runs", "anchors": ["src/evaluate.c:__evaluate_1"]}
{"id": "C35", "title": "Static locals keep their value between calls", "statement": "A static local variable is initialised once and keeps its value from one execution of its declaration to the next.", "quantifier": "for any number of executions of the declaration", "why_tests_cant": "unbounded call histories", "anchors": ["src/evaluate.c:handle_static_decl,eval_evaluator_ctx"]}
{"id": "C36", "title": "A declaration means the same each time it is executed", "statement": "Executing the same declaration again (in a loop or a second call) declares variables of the same types as the first time.", "quantifier": "for every declarator and number of executions", "why_tests_cant": "history-dependent", "anchors": ["src/evaluate.c:eval_decl,handle_declarator"]}
{"id": "C37", "title": "Enumerators count up from the last explicit value", "statement": "An enumerator without a value is one more than its predecessor (0 for the first), one with a value has that value.", "quantifier": "for every list of enumerators", "why_tests_cant": "unbounded lists and values", "anchors": ["src/evaluate.c:eval_enumerator"]}
{"id": "C38", "title": "sizeof does not evaluate its operand and gives the C size", "statement": "sizeof e has no side effects; for integer and pointer types it is the C size, for arrays element size times length.", "quantifier": "for every operand", "why_tests_cant": "all operands and states", "anchors": ["src/evaluate.c:eval_sizeof"]}
{"id": "C39", "title": "A name is a type name exactly when a typedef introduced it", "statement": "After any history of declarations and includes the parser treats a name as a type name iff a typedef introduced it in the program or in the latest include, or it is built in.", "quantifier": "for every history of additions and resets", "why_tests_cant": "unbounded histories", "anchors": ["src/typename.c:is_typename,add_typename,reset_include_typenames"]}
{"id": "C40", "title": "List operations implement sequences", "statement": "The chain operations append, prepend, delete and traverse behave as on a finite sequence; operations on one chain do not disturb another.", "quantifier": "for every chain of any length and every element", "why_tests_cant": "unbounded pointer structures", "anchors": ["src/list.h", "src/list.c", "src/tree.h:tree_chain,tree_chain_head,for_each_tree,tree_splice_chains"]}
{"id": "C41", "title": "Splicing lists concatenates them", "statement": "list_splice moves all elements of one list to the front of another.", "quantifier": "for all pairs of lists", "why_tests_cant": "unbounded lists", "anchors": ["src/list.c:list_splice"]}
{"id": "C42", "title": "Completion does not disturb the program", "statement": "Asking for completions leaves every declaration of the program as it was.", "quantifier": "for every program and prefix", "why_tests_cant": "all programs", "anchors": ["src/repl.c:match_identifiers_for_idmap", "src/tree.h:tree_chain"]}
{"id": "C43", "title": "Nested blocks are executed", "statement": "The statements of a block nested directly in another block are executed in order at their place.", "quantifier": "for every nesting of blocks", "why_tests_cant": "all nestings", "anchors": ["src/parser.m4:compound_statement,block_item_list", "src/tree.h:tree_chain"]}
{"id": "C44", "title": "A hash table finds what was put in", "statement": "Looking up the bin of a key yields every element added under that key, for every table size; bins are always inside the table.", "quantifier": "for every key and every history of insertions", "why_tests_cant": "all keys and histories", "anchors": ["src/hash_table.c"]}
{"id": "C45", "title": "The collector never frees a reachable object and frees all others", "statement": "A collection keeps exactly the objects reachable from the roots, and terminates.", "quantifier": "for every object graph and every set of roots", "why_tests_cant": "unbounded graphs", "anchors": ["src/gc.c:collect,mark,sweep", "src/gengc.cpp"]}
{"id": "C46", "title": "The collector's table stays within bounds", "statement": "No allocation/collection history makes the collector read outside its allocation table or read an entry that was never written.", "quantifier": "for every history of allocations and collections", "why_tests_cant": "needs histories of more than ten thousand allocations at exact counts", "anchors": ["src/gc.c:track_new_alloc,extend_allocs,fixup_alloc_array"]}
{"id": "C47", "title": "No collection happens while collection is inhibited", "statement": "Between an inhibit and its matching enable no object is freed, however these are nested.", "quantifier": "for every interleaving of allocations and nested inhibit/enable", "why_tests_cant": "all histories", "anchors": ["src/gc.c:inhibit_gc,enable_gc,maybe_collect"]}
{"id": "C48", "title": "The collector recognises exactly the live objects", "statement": "A word found on the stack is taken as an object iff it is the address of a tracked object.", "quantifier": "for every table content and every word", "why_tests_cant": "all words", "anchors": ["src/gc.c:is_object,fixup_alloc_array"]}
{"id": "C49", "title": "A variable's storage outlives every use of it", "statement": "As long as a variable can be reached by the program its storage is not released.", "quantifier": "for every object graph", "why_tests_cant": "depends on collection timing", "anchors": ["src/gc.c", "src/evaluate.c:track_alloc,eval_return"]}
{"id": "C50", "title": "Tree fields of one node kind never share storage", "statement": "The generated accessors of two different properties of the same tree type address different fields, and each has the declared kind.", "quantifier": "for every language description", "why_tests_cant": "all language descriptions", "anchors": ["src/lang.h", "src/lang.cpp", "src/gentree.cpp", "src/genaccess.cpp"]}
{"id": "C51", "title": "Completion matches survive the trip through the pipe", "statement": "The list of completions received by the REPL process equals the list sent by the child.", "quantifier": "for every list of NUL-free strings", "why_tests_cant": "unbounded lists and strings", "anchors": ["src/repl.c:send_matches,recieve_matches"]}
{"id": "C52", "title": "Completion offers exactly the visible names with the prefix", "statement": "The completions of a prefix are the declared names that start with it; none is missing and none is offered that does not match.", "quantifier": "for every set of declared names and every prefix", "why_tests_cant": "all prefixes and scopes", "anchors": ["src/repl.c:find_global_identifiers,match_identifiers_for_idmap,create_matches_array"]}
{"id": "C53", "title": "A member access being completed is split at its last operator", "statement": "For text of the form obj.prefix or obj->prefix the completer looks up prefix in obj.", "quantifier": "for every obj and prefix", "why_tests_cant": "all texts", "anchors": ["src/repl.c:is_compound_access,split_compound_access_text"]}
{"id": "C54", "title": "String literals decode to the bytes they denote", "statement": "The lexer turns a string literal into the bytes C assigns to it.", "quantifier": "for every literal", "why_tests_cant": "unbounded literals", "anchors": ["src/lex.m4"]}
{"id": "C55", "title": "Character literals decode to the character they denote", "statement": "'c' has the value of the character c, for ordinary characters and escapes.", "quantifier": "for every literal", "why_tests_cant": "all characters", "anchors": ["src/lex.m4:lex_char"]}
{"id": "C56", "title": "A printed integer reads back as itself", "statement": "The decimal text the REPL prints for an integer, entered again, denotes the same integer.", "quantifier": "for every integer", "why_tests_cant": "unbounded", "anchors": ["src/pretty-printer.c", "src/lex.m4"]}
{"id": "C57", "title": "Subtraction is recognised with or without spaces", "statement": "a-n for an identifier a and a literal n lexes as three tokens, like a - n.", "quantifier": "for all names and literals", "why_tests_cant": "all texts", "anchors": ["src/lex.m4"]}
{"id": "C58", "title": "Arguments of library calls arrive in order with promoted types", "statement": "A library function receives its arguments in order; variadic arguments undergo the default argument promotions, which keep their values; fixed ones keep their types.", "quantifier": "for every argument list", "why_tests_cant": "all argument lists", "anchors": ["src/function-call.c:do_ext_call,push_arg"]}
{"id": "C59", "title": "Integer constants reach library functions unchanged", "statement": "An integer constant passed to a library function arrives with its value.", "quantifier": "for every integer that fits the parameter", "why_tests_cant": "all values", "anchors": ["src/function-call.c"]}
{"id": "C60", "title": "The exit status of a script is the return value of main", "statement": "Running a script exits with the value main returns (modulo 256), or the value of a top-level return.", "quantifier": "for every script and returned value", "why_tests_cant": "all programs", "anchors": ["src/cscript.c:evaluate_cscript,cscript_exit,add_call_to_main"]}
{"id": "C61", "title": "main receives the command line", "statement": "In a script, argc is the number of script arguments including the script name and argv[i] is the i-th.", "quantifier": "for every argument list", "why_tests_cant": "unbounded lists", "anchors": ["src/cscript.c:create_arguments", "src/main.c:parse_args"]}
{"id": "C62", "title": "Bytes and values correspond one to one", "statement": "Storing a value of an integer type in memory and loading it with that type gives the value back, and different byte contents give different values.", "quantifier": "for every type, address and value", "why_tests_cant": "all values", "anchors": ["src/evaluate.c:assign_integer,make_int_from_live_var", "src/c.lang:defctype"]}
{"id": "C63", "title": "The evaluator never loses or moves an existing object", "statement": "Whatever is evaluated, every variable declared before keeps its address and its type.", "quantifier": "for every program", "why_tests_cant": "all programs", "anchors": ["src/evaluate.c"]}
{"id": "C64", "title": "Evaluation is deterministic", "statement": "The result of evaluating a program that terminates does not depend on how long one was prepared to wait.", "quantifier": "for every program and any two sufficient time budgets", "why_tests_cant": "all programs", "anchors": ["src/evaluate.c:__evaluate_1"]}
{"id": "C65", "title": "The last line of the preprocessed text is what gets parsed", "statement": "After a REPL line is preprocessed together with the collected headers, the text handed to the parser is exactly the last line of the preprocessor's output.", "quantifier": "for every preprocessor output", "why_tests_cant": "unbounded text", "anchors": ["src/repl.c:run_cpp_on_line"]}
{"id": "C66", "title": "A library call has the effect and the value of the library function", "statement": "A call of a library function calls it exactly once, with the program's memory; what the function stores in the program's objects stays there, and the value of the call is the value the function returns.", "quantifier": "for every library function, every argument list of at most 32 arguments and every integer or pointer return type", "why_tests_cant": "unboundedly many functions, memories and values", "anchors": ["src/function-call.c:do_ext_call", "src/evaluate.c:eval_fn_call"]}
{"id": "C67", "title": "The collector traverses exactly the tree-valued properties", "statement": "The generated mark_object marks the value of a property of a node if and only if the language description declares that property as a tree (and not as a base type).", "quantifier": "for every language description the generators accept and every node kind it declares other than CHAIN_HEAD", "why_tests_cant": "all language descriptions; a forgotten property shows only when a collection happens at the wrong moment", "anchors": ["src/gengc.cpp:outputGCMarkProps", "src/lang.cpp"]}
{"id": "C68", "title": "&&, || and ?: evaluate only the operands C says", "statement": "a && b evaluates b only if a is not 0, a || b only if a is 0, and c ? x : y evaluates c and then exactly one of x and y; the value of && and || is 0 or 1, and the conditional expression does whatever the selected operand does.", "quantifier": "for all operands, whatever they do when evaluated (assign, call, stop the program, never end), and every program state", "why_tests_cant": "the operands are arbitrary programs", "anchors": ["src/evaluate.c:eval_logic_and", "src/evaluate.c:eval_logic_or", "src/evaluate.c:eval_infix"]}
{"id": "C69", "title": "The comma operator and expression lists run from left to right", "statement": "In `a, b` first a is evaluated, its result is dropped, and then the expression does whatever b does; a list of expressions is evaluated in order and has the value of the last one; an operand that stops the program keeps the rest from running.", "quantifier": "for all operands and lists of operands of every length, and every program state", "why_tests_cant": "the operands are arbitrary programs, the lists unbounded", "anchors": ["src/evaluate.c:eval_comma", "src/evaluate.c:eval_expr_list"]}
{"id": "C70", "title": "A binary operator combines the values of its operands", "statement": "Each operand of an arithmetic or comparison operator is evaluated exactly once, and the result is the operator applied to the values the two operands had when they were evaluated, in one of the two orders.", "quantifier": "for all operands, including calls with side effects, and every program state", "why_tests_cant": "the operands are arbitrary programs", "anchors": ["src/evaluate.c:eval_add", "src/evaluate.c:live_var_to_int"]}
{"id": "C71", "title": "Assigning to a pointer stores the address", "statement": "After p = q, p points where q points; after p = n for an integer constant n, p holds n converted to a pointer (modulo 2^64). Nothing but p is changed.", "quantifier": "for all pointers, addresses, constants and program states", "why_tests_cant": "2^64 addresses, unboundedly many states", "anchors": ["src/evaluate.c:assign_ptr"]}
{"id": "C72", "title": "A string literal is stored with its NUL in new storage", "statement": "After p = \"...\", p points to new storage holding the characters of the literal and a terminating NUL; no other object is changed; p[i] is the i-th character, and 0 behind the last one.", "quantifier": "for all strings, pointers and program states", "why_tests_cant": "unboundedly many strings and states", "anchors": ["src/evaluate.c:assign_ptr", "src/evaluate.c:eval_array_access"]}
{"id": "C73", "title": "A program has one syntax tree", "statement": "The grammar gives the tokens of a script, of an input of the REPL, and of an expression at most one tree; wherever a statement or a declaration begins in a token sequence, its end and its tree are determined.", "quantifier": "for every token sequence of any length and every pair of derivations", "why_tests_cant": "token sequences are unbounded and an ambiguity shows only in the sequence that has two readings", "anchors": ["src/parser.m4:183-1602 (all productions)", "src/parser.m4:94 (%right)"]}
{"id": "C74", "title": "Operators group as in C", "statement": "An expression written according to C's table of precedences and associativities is accepted, and the tree built for it stands for that expression; what is accepted as an expression is an expression of C.", "quantifier": "for every expression of any depth, every way of writing it with parentheses, and every token that may follow it", "why_tests_cant": "operators and parentheses nest without bound", "anchors": ["src/parser.m4:primary_expression ... expression (183-611)", "src/tree.h:tree_make_binmod"]}
{"id": "C75", "title": "else belongs to the nearest if", "statement": "In if (a) if (b) s else t the else belongs to the second if; what stands between an if and its else never ends with an if that has no else.", "quantifier": "for all conditions, statements and nesting of loops and branches", "why_tests_cant": "statements nest without bound", "anchors": ["src/parser.m4:selection_statement (1459-1477)", "src/parser.m4:94 (%right ')' ELSE)"]}
{"id": "C76", "title": "A declarator declares what C says", "statement": "The tree built for a declarator, read from the outside to the name, gives the declared name the type C gives it: pointers, arrays, functions and parentheses in any combination.", "quantifier": "for every declarator of any length, whatever its sizes and parameters are", "why_tests_cant": "declarators nest without bound", "anchors": ["src/parser.m4:declarator, direct_declarator, pointer (981-1118)"]}
{"id": "C77", "title": "Functions of any type can be defined", "statement": "Declaration specifiers, a declarator of a function and a body make a function definition whose tree holds the name, the parameters and the body, whatever the function returns.", "quantifier": "for all specifiers, declarators of functions and bodies", "why_tests_cant": "parameters and bodies are unbounded", "anchors": ["src/parser.m4:function_definition (1555-1576)", "src/genaccess.cpp:TREE_CHECK"]}
{"id": "C78", "title": "An integer expression of the source has its value", "statement": "The tokens of an integer expression, written as C writes it with any operators, parentheses and commas, are accepted, and evaluating the tree the parser builds yields the value C gives the expression.", "quantifier": "for all expressions, spellings with parentheses, and program states", "why_tests_cant": "expressions nest without bound and variables take all values", "anchors": ["src/parser.m4:expression (183-611)", "src/evaluate.c:__evaluate_expr"]}
{"id": "C79", "title": "A script leaves the variables with the values C gives them", "statement": "A script of declarations, assignments, steps, if, while, for and blocks on integer variables, written as C writes it, is accepted, and evaluating the tree the parser builds ends with the store C specifies and no other.", "quantifier": "for all such programs and all initial states", "why_tests_cant": "programs are unbounded, loops run any number of times", "anchors": ["src/parser.m4:cscript_translation_unit", "src/cscript.c:185", "src/evaluate.c:__evaluate (2715-2748)"]}
{"id": "C80", "title": "An integer constant has its value", "statement": "A decimal, octal or hexadecimal constant of C, with or without a suffix, is one token with the value C gives it, whatever text follows.", "quantifier": "for all integer constants, all texts that follow and both lexers", "why_tests_cant": "constants have any number of digits and any text may follow", "anchors": ["src/lex.m4:192-205"]}
{"id": "C81", "title": "A text of C tokens is read as these tokens", "statement": "A text that C reads as a sequence of tokens (longest match, white space between tokens or not) is read to its end, and the parser is given these tokens in their order with their names, values and bytes; the word after struct or union is a tag even if it names a type.", "quantifier": "for all token sequences, all their spellings and both lexers", "why_tests_cant": "texts are unbounded and every pair of neighbouring tokens can interact", "anchors": ["src/lex.m4:137-260", "src/parser.m4:84-94"]}
{"id": "C82", "title": "The text of a script determines its result", "statement": "A script whose text C reads as declarations, assignments, steps, if, while, for and blocks on integer variables is lexed and parsed, and evaluating it ends with the store C specifies and no other.", "quantifier": "for all such texts and all initial states", "why_tests_cant": "texts are unbounded, loops run any number of times", "anchors": ["src/lex.m4", "src/parser.m4:cscript_translation_unit", "src/cscript.c:185", "src/evaluate.c"]}
{"id": "C83", "title": "Skipping an attribute skips nothing else", "statement": "__attribute__((...)) with balanced contents on one line is skipped, and lexing goes on right behind its closing parentheses.", "quantifier": "for all contents, blanks before the parentheses, and texts that follow", "why_tests_cant": "the contents and the rest of the line are arbitrary", "anchors": ["src/lex.m4:139"]}
{"id": "C84", "title": "An error ends the script with status 1", "statement": "When the execution of a script reaches an expression or declaration the interpreter gives up with an error message, in any nesting of blocks, branches and loops or in the call of main, the script ends with exit status 1, and nothing that stands after the error is executed.", "quantifier": "for all scripts, all positions of the error, all states", "why_tests_cant": "the error can be at any place of an unbounded program, after any number of loop rounds", "anchors": ["src/evaluate.c:107-119", "src/evaluate.c:2715-2748", "src/cscript.c:127-186"]}
{"id": "C85", "title": "Programs with recursive procedures", "statement": "A program with functions of integer parameters that are called for their effect, which may call themselves and each other to any depth, leaves the variables with the values C gives them.", "quantifier": "for all programs, procedures, arguments, depths of recursion and states", "why_tests_cant": "programs, nesting of calls and the scopes open at a call are unbounded", "anchors": ["src/evaluate.c:378-532", "src/evaluate.c:66-98"]}
{"id": "C86", "title": "Scripts with procedures, from the text to the exit status", "statement": "A script without main that consists of declarations, definitions of functions called for their effect and statements on integers is accepted, ends with exit status 0 and leaves the variables with the values C gives them. This starts from the bytes of the text and the initial state of the interpreter: lexer, parser, objects of the tree, search for main, argc and argv, evaluation.", "quantifier": "for all texts, all such programs, all numbers of arguments, all contents of memory", "why_tests_cant": "texts, programs and depths of recursion are unbounded; a test runs one text", "anchors": ["src/lex.m4", "src/parser.m4", "src/tree.c:5-11", "src/cscript.c:59-186", "src/evaluate.c:378-532", "src/evaluate.c:2812-2834"]}
{"id": "C87", "title": "(void) means no parameters", "statement": "A function that is defined with the parameter list (void) is called without arguments: the call runs its body. A script whose main is defined so runs it.", "quantifier": "for all functions with such a list, all bodies and states; for all scripts with such a main", "why_tests_cant": "bodies, states and scripts are unbounded", "anchors": ["src/evaluate.c:422-447", "src/evaluate.c:1077-1143", "src/evaluate.c:1228-1236", "src/cscript.c:108-173"]}
{"id": "C88", "title": "Scripts with main, from the text to the exit status", "statement": "A script of declarations and definitions, one of them of int main(), is accepted, runs the initialisations and then main, ends with the value of main as its exit status and leaves the variables with the values C gives them.", "quantifier": "for all texts, all such programs, all values of main, all numbers of arguments, all contents of memory", "why_tests_cant": "texts, programs and values are unbounded; a test runs one text", "anchors": ["src/lex.m4", "src/parser.m4", "src/cscript.c:59-218", "src/evaluate.c:378-532"]}
{"id": "C89", "title": "Dialogues at the REPL", "statement": "For each line typed at the REPL bic shows what C gives for it: the value of an expression or assignment in decimal, the name of what is declared, nothing for an empty statement; the variables keep the values C gives them from line to line. This starts from the bytes of each line: lexer, both parses of the line, preprocessor output, objects of the tree, evaluation, printed text.", "quantifier": "for all dialogues of any length, all texts of the lines, all states the session starts in", "why_tests_cant": "dialogues and texts are unbounded; a test types one dialogue", "anchors": ["src/repl.c:371-484", "src/lex.m4", "src/parser.m4", "src/pretty-printer.c", "src/evaluate.c:378-532"]}
{"id": "C90", "title": "Typedefs at the REPL", "statement": "A declaration typedef <type words> <fresh name>; typed at the REPL is accepted, the session goes on, and the name stands for the type.", "quantifier": "for all lists of type words, all fresh names, all states, all ways to write the line", "why_tests_cant": "names, states and texts are unbounded", "anchors": ["src/repl.c:371-431", "src/parser.m4:34-59", "src/parser.m4:622-630", "src/typename.c:18-27", "src/evaluate.c"]}
{"id": "C91", "title": "A rejected line has no effect on later lines", "statement": "After a line that the parser of the REPL rejects, every line is answered as it would have been without the rejected line.", "quantifier": "for all rejected lines, all states, all later lines and answers", "why_tests_cant": "lines and states are unbounded; what a rejected line leaves behind (start condition of the lexer, type names) only shows in later lines", "anchors": ["src/repl.c:371-484", "src/lex.m4", "src/parser.m4:34-59"]}
{"id": "C92", "title": "A cast of a constant converts the value", "statement": "(T)n for an integer constant n yields an object of type T whose value is n converted to T.", "quantifier": "for all integer types and all integers n", "why_tests_cant": "unboundedly many constants", "anchors": ["src/evaluate.c:1840-1850", "src/evaluate.c:1145-1172"]}
{"id": "C93", "title": "Variables of incomplete types are rejected", "statement": "Declaring a variable of a structure or union type whose members are not known is an error.", "quantifier": "for all tags, names and states in which the tag is not defined", "why_tests_cant": "tags, states and nestings of scopes are unbounded", "anchors": ["src/evaluate.c:592-606", "src/evaluate.c:1045-1065", "src/evaluate.c:1108-1143", "src/evaluate.c:2171-2188"]}
{"id": "C94", "title": "Structures are shown member by member", "statement": "For a structure the REPL prints its members one per line in the order of their declaration, each with its name and its value, those of structures within it one level deeper, and each closing brace as deep as the line of its opening brace.", "quantifier": "for every structure with members that are integers, pointers, strings and structures, nested to any depth, and every content of memory", "why_tests_cant": "number and nesting of members are unbounded", "anchors": ["src/pretty-printer.c:7", "src/pretty-printer.c:42"]}
{"id": "C95", "title": "Pointers and strings are shown by address and characters", "statement": "For a pointer the REPL prints (nil) or 0x and the hexadecimal digits of the address; for a char pointer that is not null also the characters up to the NUL, in quotes and parentheses; for a string literal its characters in quotes.", "quantifier": "for every pointer value, every string in memory and every string literal without NUL", "why_tests_cant": "all addresses and strings of any length", "anchors": ["src/pretty-printer.c:15", "src/pretty-printer.c:32", "src/pretty-printer.c:64"]}
{"id": "C96", "title": "The inspector describes variables correctly", "statement": "For ?x the REPL says what type the variable x has, in words, what its value and its size in bytes are and where it was declared.", "quantifier": "for every variable of integer type, pointer type of any depth or array type, and every content of memory", "why_tests_cant": "types and values are unbounded", "anchors": ["src/inspect.c:40", "src/inspect.c:89", "src/c.lang:255", "src/evaluate.c:1009"]}
{"id": "C97", "title": "The preprocessor gets the include directories", "statement": "Running the preprocessor never writes behind the end of the option buffer; the file handed over consists of the includes, one per line, and the line typed; and gcc is called with its options, -I and the directory (one argument) for each directory in the order given, and the file.", "quantifier": "for all lists of include directories, of included headers, and all lines", "why_tests_cant": "the number and the length of directories are unbounded; a buffer too small by one shows only for some allocators", "anchors": ["src/preprocess.c:44", "src/preprocess.c:54", "src/preprocess.c:72", "src/preprocess.c:100"]}
{"id": "C98", "title": "A line declaring a structure variable lays it out as the ABI says", "statement": "For a typed line that declares a variable of a structure or union type with its members, bic shows the name of the variable, and afterwards the variable is an object in fresh memory whose members, in the order written and with the names and types written, are at the offsets the ABI gives them, and whose size is the ABI's.", "quantifier": "for all lists of members of arithmetic, pointer and array types, with and without a tag, however the line is written, and every state of the session in which neither the name nor the tag is declared and memory is left", "why_tests_cant": "members, types, states and texts are unbounded", "anchors": ["src/parser.m4:773", "src/parser.m4:814", "src/evaluate.c:592", "src/evaluate.c:706", "src/evaluate.c:1108", "src/evaluate.c:2171", "src/repl.c:400", "src/repl.c:457"]}
{"id": "C99", "title": "Enumerators declared by a line have their values in the next lines", "statement": "For a typed line that declares an enumeration bic shows nothing, and for an expression over the enumerators in the next line it shows the decimal digits of the value C gives the expression.", "quantifier": "for all lists of enumerators with and without expressions, with and without a tag and a comma at the end, all expressions, however the lines are written, and every state of the session in which the names are not declared", "why_tests_cant": "enumerators, expressions, states and texts are unbounded", "anchors": ["src/parser.m4:889", "src/evaluate.c:1108", "src/evaluate.c:2276", "src/repl.c:400", "src/repl.c:457"]}
{"id": "C100", "title": "A structure keeps what is assigned to its members", "statement": "After a typed line that declares a structure variable, each line x.m=e; shows the value of the assignment and each line x.m; shows the value last assigned to that member, whatever was assigned to the other members in between.", "quantifier": "for all structures with any number of members of any types, all sequences of such lines of any length, all expressions over the other variables, however the lines are written, and every state of the session in which the names are not declared", "why_tests_cant": "members, sequences of lines, expressions, states and texts are unbounded", "anchors": ["src/parser.m4:259", "src/evaluate.c:1145", "src/evaluate.c:1228", "src/evaluate.c:2325", "src/repl.c:400", "src/repl.c:457"]}
{"id": "C101", "title": "An array keeps what lines typed at the REPL assign to its elements", "statement": "After the line `T x[e];` with an integer type T and an expression e of value n > 0, each line `x[i]=f;` with 0 <= i < n shows the value of f converted to T, and each line `x[i];` shows the value last assigned to that element, whatever was assigned to the others. The line of the declaration shows the name. Each answer is the decimal notation and a newline.", "quantifier": "all texts of the lines, all integer element types, all sizes and subscripts written as integer expressions over the variables declared before, all sequences of lines, and all states of the interpreter in which x is not declared and the memory suffices", "why_tests_cant": "Types, sizes, subscripts, values, spellings and sequences of lines are unbounded; a wrong element address, a wrong stride or an element that overlaps another shows only for particular combinations.", "anchors": ["src/parser.m4:237", "src/parser.m4:1023", "src/evaluate.c:1228", "src/evaluate.c:2346", "src/repl.c:400", "src/repl.c:457"]}
{"id": "C102", "title": "A pointer declared at the REPL reads and writes the variable it points to", "statement": "After the line `T *p;` with an integer type T, each line `p=&y;` for a variable y of type T makes p point to y and shows the address of y, `p;` shows this address again, `*p=e;` shows the value of e converted to T and gives it to y, and `*p;` shows the value of y, whether it was assigned through p or by name. Lines that use the variables by name (expressions, assignments, ++ and --) may come in between and behave as in C89. Different variables have different addresses.", "quantifier": "all texts of the lines, all integer types T other than char (a char pointer is shown with the characters it points to), all sequences of such lines, all states of the interpreter with integer variables, none an array, in which p is not declared in the innermost scope and the memory suffices", "why_tests_cant": "Sequences of lines, values, spellings and numbers of variables are unbounded; a pointer that writes too many bytes, points to a copy or is damaged by assignments to other variables shows only for particular combinations.", "anchors": ["src/parser.m4:982", "src/evaluate.c:1206", "src/evaluate.c:1228", "src/evaluate.c:2486", "src/evaluate.c:2523", "src/pretty-printer.c:64", "src/repl.c:400", "src/repl.c:457"]}
{"id": "C103", "title": "Procedures of the startup file can be called at the REPL", "statement": "bic started without a script evaluates the startup file (~/.bic) and then reads lines. The lines may use the variables the file declares and call the procedures it defines; for a call nothing is shown and the variables have the values C gives them, and for the other lines bic shows what C gives for them as in C89. Without a startup file the lines start with no variables.", "quantifier": "all startup files of declarations, definitions of procedures and statements on integers without main, and no startup file; all texts and sequences of lines (expressions, assignments, ++, --, declarations, calls with any arguments); from the state eval_init makes, as long as the memory suffices", "why_tests_cant": "Startup files, procedures (loops and recursion of any depth) and sequences of lines are unbounded; state left behind by the evaluation of the file, a call that leaves a scope open or a definition damaged by running it shows only in later lines.", "anchors": ["src/repl.c:433", "src/repl.c:457", "src/main.c:144", "src/cscript.c:127", "src/cscript.c:193", "src/evaluate.c:394"]}
{"id": "C104", "title": "Library functions can be declared and called at the REPL", "statement": "After a line such as `int abs(int);` the lines may call that function of the C library. The arguments are converted to the types of the parameters, the functions are called once each in the order of the lines and nothing else is called; bic shows the value the function returned, an empty line for the declaration (also when it is repeated), and for other lines what C gives as in C89. The variables keep their values.", "quantifier": "all libraries of functions with integer parameters and results that leave the memory of the program alone, all texts and sequences of lines (declarations of functions with any number of named or unnamed parameters, calls with any expressions as arguments, the lines of C89), all states in which the variables hold their values and there are no callbacks, as long as the memory suffices", "why_tests_cant": "Libraries, argument values and sequences of lines are unbounded; an argument passed with the wrong width or sign, a result stored over a variable or a declaration that is lost shows only for particular values and later lines.", "anchors": ["src/evaluate.c:509", "src/evaluate.c:539", "src/function-call.c:15", "src/function-call.c:51", "src/pretty-printer.c:108", "src/repl.c:476"]}
{"id": "C105", "title": "Headers can be included at the REPL", "statement": "After a line `#include <name>` the lines may use the variables and call the library functions the header declares: a variable has the value the header gives it until a line assigns another, and the functions are called as in C104. The line itself shows nothing. Another #include adds what its header declares and changes nothing else.", "quantifier": "all names of headers, all outputs of the preprocessor (line markers and any number of declarations of integer variables, with or without a constant value, and of library functions), all texts and sequences of lines (#include lines, calls, the lines of C89), all states without headers and callbacks in which the variables hold their values, with any scopes of the implementation below, as long as the memory suffices", "why_tests_cant": "Headers and sequences of lines are unbounded; that an #include changes a variable of another header or hides a function shows only in particular sequences of lines.", "anchors": ["src/evaluate.c:2549", "src/evaluate.c:2566", "src/evaluate.c:2585", "src/lex.m4:187", "src/preprocess.c:13", "src/repl.c:476"]}
{"id": "C106", "title": "An #include line does not end the session", "statement": "If the preprocessor accepts the header, an `#include <name>` line shows nothing and the session goes on, with the variables the lines and the header have declared - also if the header declares nothing, for example if it only defines macros.", "quantifier": "all names of headers, all outputs of the preprocessor (line markers and any number of declarations, none included), all states without headers and callbacks in which the variables hold their values, as long as the memory suffices", "why_tests_cant": "Headers are unbounded; the claim excludes every other outcome, also endings of the process.", "anchors": ["src/evaluate.c:2549", "src/evaluate.c:2576", "src/parser.m4:1592"]}
{"id": "C107", "title": "Variables declared with static at the REPL", "statement": "A line `static T x=e, y;` with an integer type T and `static` anywhere among its specifiers declares its variables in the current scope as the line without `static` does: x gets the value of e converted to T, y the value 0, and the name of the last one is shown. The lines that follow read and write these variables as in C89.", "quantifier": "all texts of the lines, all integer types T, all positions of static, all lists of declared variables, all sequences of such lines and lines of C89, all states of the interpreter with integer variables in which the memory suffices", "why_tests_cant": "Sequences of lines, values, spellings and the contents of the memory handed out are unbounded; a static variable that keeps what its memory held before mostly shows 0 in a test, because fresh memory is 0.", "anchors": ["src/parser.m4:674", "src/evaluate.c:1067", "src/evaluate.c:1108", "src/evaluate.c:574", "src/repl.c:400", "src/repl.c:457"]}
{"id": "C108", "title": "Dialogues with a string", "statement": "After a line `char *p=\"\u2026\";`, a line with a string literal shows its characters in quotes; `p;` shows the address of the string and its characters up to the first NUL; `*p;` and `p[i];` show the value of a character as a signed char; `p[i]=e;` shows the value of e converted to char, which becomes that of the character; `p=\"\u2026\";` makes p point to the new string and shows the new pointer. The declaration shows p, and the address is never null. The answers are those of the bytes the assignments have left.", "quantifier": "all texts of the lines, all string literals, all sequences of such lines, all subscripts and values, all states of the interpreter with integer variables in which the memory suffices", "why_tests_cant": "Strings, sequences of lines and values are unbounded, and the addresses differ from run to run; a byte above 127 or a terminating NUL that is not copied shows only for particular strings and contents of the memory.", "anchors": ["src/evaluate.c:1206", "src/evaluate.c:2346", "src/pretty-printer.c:31", "src/pretty-printer.c:73", "src/parser.m4:206", "src/lex.m4:208", "src/repl.c:400"]}
{"id": "C109", "title": "Typedefs of pointers at the REPL", "statement": "After a line `typedef T *\u2026*x;` with a new name x the line `x y;` declares a variable y of this pointer type and shows its name.", "quantifier": "all lists of type words, all numbers of stars, all names, all states of the interpreter, all ways to write the lines", "why_tests_cant": "Type words, stars, names and states are unbounded; the typedef itself shows nothing in any case, so only a later line tells whether it worked.", "anchors": ["src/repl.c:371-431", "src/parser.m4:34-59", "src/parser.m4:622", "src/typename.c:18", "src/evaluate.c:1067"]}
{"id": "C110", "title": "The dump of a tree tells the tree", "statement": "The text `bic -T` writes for a syntax tree determines the tree: two different trees of the language of bic never have the same dump.", "quantifier": "all language descriptions, all trees that fit the description, of any depth and width, with any strings and numbers", "why_tests_cant": "Trees, their depth and their strings are unbounded, and the claim is about pairs of trees; a property that is left out of the dump, or a text that can be read in two ways, shows only for particular pairs.", "anchors": ["src/gendump.cpp:22-58", "src/gendump.cpp:74-104", "src/tree-dump-primitives.h:10-97", "src/cscript.c:205-215"]}
{"id": "C111", "title": "The graph of a tree", "statement": "The graph `bic -D` writes for a syntax tree has a node for every tree, an edge for every property that is set and from each element of a chain to the next, and nothing else; every edge ends at nodes of the graph, and the content of every field that is not a tree is the only label of the node at the end of the edge named after the property.", "quantifier": "all language descriptions, all trees that fit the description, of any depth and width", "why_tests_cant": "Trees are unbounded; whether two values share a node, or an edge ends nowhere, depends on the types and the chains that occur in the tree.", "anchors": ["src/gendot.cpp:24-58", "src/gendot.cpp:74-112", "src/tree-dump-primitives.h:10-97", "src/c.lang:175-179"]}
{"id": "C112", "title": "Dereferencing a sum", "statement": "For a pointer p to objects of an integer type, `*(p + i)` is the variable of that type whose address is i objects further than the one p points to.", "quantifier": "all programs, all expressions for p and i, all pointers into the user space, all integers i for which the address stays in it", "why_tests_cant": "The index, the address and the expressions around are unbounded; a test that only reads `p + i` as a number sees no difference.", "anchors": ["src/evaluate.c:2523-2560", "src/evaluate.c:1360-1440", "src/evaluate.c:305-336"]}
{"id": "C113", "title": "Comparing and subtracting pointers", "statement": "The comparison of two pointers is the comparison of their addresses, and the difference of two pointers to the same type is the number of objects between them.", "quantifier": "all programs, all pairs of pointers into the user space, all element types, all six comparisons", "why_tests_cant": "The addresses are chosen by the allocator and unbounded in number; with elements of one byte the wrong count looks right.", "anchors": ["src/evaluate.c:338-372", "src/evaluate.c:1394-1440", "src/evaluate.c:305-336"]}
{"id": "C114", "title": "Calling a function through a pointer", "statement": "&f is a pointer to the function f, and a call through it does what a call of f does: the arguments arrive converted to the types of the parameters, the body runs once with the same effect on the variables, and the call has the value of its return statement.", "quantifier": "all programs, all interpreted functions with any number of integer parameters, all arguments, all bodies that end", "why_tests_cant": "The property ranges over all functions and states; the lost value shows only where the result is used, and it is whatever the memory held.", "anchors": ["src/function-call.c:52-126", "src/function-call.c:128-219", "src/evaluate.c:2462-2521"]}
{"id": "C115", "title": "Variables declared with extern", "statement": "extern T x; refers to the global variable x if that has the type T and is an error if it has another type; if there is no such variable it is the object of the libraries with that name, and nothing is stored in it.", "quantifier": "all states, all names, all basic types with any number of stars, all scopes", "why_tests_cant": "The property ranges over all programs that contain such a declaration; the two ways in which it fails need a block or two pointer types.", "anchors": ["src/evaluate.c:911-975", "src/evaluate.c:1013-1030"]}
{"id": "C116", "title": "Structures through pointers", "statement": "If e points to a structure or union variable v, then e->m is the member m of v: it is in the same place, as large, and has the same value; e->m = r gives v.m the value of r converted to the type of m and changes no byte of another member and none outside the structure; and &v is a pointer to the type of v holding the address of v.", "quantifier": "for all heaps, structure and union types, members, pointer expressions and right-hand sides", "why_tests_cant": "A test follows one pointer to one structure; that the freshly made object for *e agrees with the variable for every layout, and that nothing else is written, concerns all lists of members.", "anchors": ["src/parser.m4:268-282", "src/evaluate.c:2523-2547", "src/evaluate.c:638-720", "src/evaluate.c:2486-2521"]}
{"id": "C117", "title": "Linked lists", "statement": "A structure may have members that point to structures of its own type. Where its tag names it, e->next->...->next with any number of steps points to the structure those steps through memory lead to; e->next->...->next->m is the member m of that structure; and assigning to it gives it the converted value and changes no other byte.", "quantifier": "for all structure and union types with a pointer to themselves, all lists in memory, all numbers of steps, all members and values", "why_tests_cant": "Lists and paths are unbounded; every step makes new objects for all members of the type, which for a member that points to the type itself must end and must not disturb memory.", "anchors": ["src/evaluate.c:2171-2269", "src/evaluate.c:650-720", "src/evaluate.c:2523-2547", "src/parser.m4:268-282"]}
{"id": "C118", "title": "Structures declared first and defined later", "statement": "A structure or union type may be used for pointers before it is defined: wherever a program gets, struct S *p; followed by struct S { ... }; in the same scope makes p a pointer to the type that S then stands for, with the members of the definition; so structures can point to each other.", "quantifier": "for all programs, tags, member lists and scopes", "why_tests_cant": "The order and the number of mentions of a tag before its definition, the scopes and the members are unbounded.", "anchors": ["src/evaluate.c:1045-1065", "src/evaluate.c:2171-2210", "src/tree.h:276-279"]}
{"id": "C119", "title": "A structure type is defined once", "statement": "In one scope a structure or union tag is defined at most once: a second definition of the same tag in the same scope is rejected. A definition in an inner scope makes another type and leaves the outer one as it is.", "quantifier": "for all programs, tags and member lists", "why_tests_cant": "The two definitions may be arbitrarily far apart, and everything declared in between depends on the first.", "anchors": ["src/evaluate.c:2171-2210", "src/tree.h:276-279"]}
{"id": "C120", "title": "Structures as values", "statement": "A structure or union can be assigned, initialised from another and passed to a function: the bytes are copied.", "quantifier": "for all programs, structure types and values", "why_tests_cant": "The member lists and the states in which the assignment happens are unbounded; that it fails always, rather than for the types tried, is a statement about all of them.", "anchors": ["src/evaluate.c:1228-1254", "src/evaluate.c:478-487", "src/evaluate.c:726-768"]}
{"id": "C121", "title": "Names for structure types", "statement": "typedef struct S T; makes T a name of the type S stands for, now or once it is defined; typedef struct S { ... } T; and typedef struct { ... } T; make T a name of the new type with the members written; T x; and T *p; then declare what struct S x; and struct S *p; do.", "quantifier": "for all programs, names, tags, member lists and scopes", "why_tests_cant": "The members, the scopes and the distance between the typedef, the definition and the uses are unbounded.", "anchors": ["src/evaluate.c:823-854", "src/evaluate.c:1108-1143", "src/evaluate.c:2171-2210", "src/evaluate.c:1045-1065"]}
{"id": "C122", "title": "The libffi type of a C type", "statement": "The generated get_ffi_type returns, for every C type a description declares, the libffi type named in the declaration, and for every other tree type it ends the program with an error; for bic's own c.lang the libffi type has the size and the kind (signed, unsigned, floating, pointer) of the C type.", "quantifier": "for all language descriptions with distinct names of C types, and all types in them", "why_tests_cant": "Descriptions are unbounded; a test runs the generator on the one description there is, and a call with one argument of one type.", "anchors": ["src/genffitypes.cpp:3-31", "src/lang.cpp:190-235", "src/c.lang:255-269"]}
{"id": "C123", "title": "The table of C types", "statement": "The generated ctypes.def consists of one DEFCTYPE invocation for each C type of the description, in its order, whose five arguments are the name, the friendly name as a string, and the C name, the format and the member as written.", "quantifier": "for all language descriptions", "why_tests_cant": "The fields are arbitrary strings that are pasted into C; which of them the C preprocessor reads back as written is a statement about all strings.", "anchors": ["src/genctypes.cpp:3-21", "src/lang.cpp:190-235", "src/c.lang:255-269"]}
{"id": "C124", "title": "Functions declared before they are defined", "statement": "A function can be declared any number of times before and after its definition; the definition makes the name denote the function with its body.", "quantifier": "for all functions with a type given by keywords, all scopes, all statements between the declarations and the definition", "why_tests_cant": "The statements between a declaration and the definition are an unbounded choice; that the definition fails after every one of them is not a matter of examples.", "anchors": ["src/evaluate.c:776-806", "src/evaluate.c:257-264"]}
{"id": "C125", "title": "The checked string functions", "statement": "__builtin___strcpy_chk(d, s, n) and __builtin___strcat_chk(d, s, n) do what strcpy(d, s) and strcat(d, s) do: the library function is called with the values of d and s, its effect and its value are those of the call, n is not evaluated; executed again, the call does the same again.", "quantifier": "for all states, argument expressions, library functions and numbers of executions", "why_tests_cant": "The builtin removes an argument from the program's own tree; that later executions of the same tree are not affected is a statement about all executions, and the states are unbounded.", "anchors": ["src/evaluate.c:2774-2826", "src/evaluate.c:394-590"]}
{"id": "C126", "title": "Arrays of arrays", "statement": "T a[m][n]; with constants m and n that are not 0 declares an array of m arrays of n elements.", "quantifier": "for all element types, sizes, names and states", "why_tests_cant": "That a declaration never succeeds, whatever the type, the size expressions and the state of the program, is a statement about all of them and about runs of any length.", "anchors": ["src/evaluate.c:608-648", "src/evaluate.c:742-773", "src/evaluate.c:823-854"]}
{"id": "C127", "title": "Names for array types", "statement": "After typedef T A[e]; the name A stands for the type array of T with as many elements as e had the value where the typedef was: A x; declares such an array, in fresh storage, and sizeof (A) is its size in bytes; the typedef itself allocates nothing.", "quantifier": "for all element types, size expressions, states, and whatever is executed between the typedef and the use", "why_tests_cant": "The size is an expression evaluated at each use; that it gives the same value for constants after any execution in between, and another one otherwise, is unbounded.", "anchors": ["src/evaluate.c:608-648", "src/evaluate.c:755-773", "src/evaluate.c:823-854", "src/evaluate.c:2399-2444"]}
{"id": "C128", "title": "Bit-fields", "statement": "A bit-field T m : n; of a structure holds the values of n bits of T: after x.m = e it holds what is left of the value of e in n bits, no other member changes, and adjacent bit-fields of the same type that fit into one unit of that type share it.", "quantifier": "for all structures with bit-fields among their members, all widths, values and states", "why_tests_cant": "The number and order of the members, the widths and the assigned values are unbounded; that no other member's bytes change is a statement about every other member.", "anchors": ["src/evaluate.c:650-704", "src/evaluate.c:802-806", "src/evaluate.c:2098-2123", "src/parser.m4:870-886"]}
{"id": "C129", "title": "A failed #include ends the session", "statement": "If the preprocessor fails on an `#include` line, or the grammar does not accept what it printed, bic ends there - with status 1, or with the message that parsing failed - and never takes the header for an empty one: the line shows nothing, no later line is read, and memory and scopes are as before.", "quantifier": "all names of headers, all headers included before, all states, all later lines, all outputs of the preprocessor the grammar rejects", "why_tests_cant": "The claim excludes every other run of the session, for unboundedly many later lines and rejected texts.", "anchors": ["src/preprocess.c:83-95", "src/evaluate.c:2549-2581", "src/repl.c:463-484"]}
{"id": "C130", "title": "Type names mean the type C says", "statement": "Where `)` or `,` follows, every type name of C - specifiers and an abstract declarator of stars, qualifiers, parentheses, arrays and functions, or none - is accepted by the grammar with exactly one tree; that tree keeps the specifiers and, read from the outside in, says the type C's rules for declarators say. Nothing else is accepted as a type name.", "quantifier": "all token lists, all abstract declarators of any depth, all types of specifiers", "why_tests_cant": "Abstract declarators nest without bound, and uniqueness speaks of all other derivations.", "anchors": ["src/parser.m4:1196-1302", "src/parser.m4:1096-1136", "src/parser.m4:356-366"]}
{"id": "C131", "title": "sizeof with a type name gives the size of that type", "statement": "`sizeof (T D)`, for keywords T of a basic type and an abstract declarator D of stars and arrays of known length, gives the size of the type the type name names, leaving everything else as it is.", "quantifier": "all basic types, all trees of abstract declarators, all states with room for the result", "why_tests_cant": "Declarators nest without bound and the claim is about every state; tests of sizeof (int) and sizeof (char *) pass.", "anchors": ["src/evaluate.c:2399-2442", "src/evaluate.c:2444-2460", "src/parser.m4:1196-1302"]}
{"id": "C132", "title": "A line of several statements is not run in part", "statement": "If a typed line, or what the preprocessor makes of it, is two or more statements, bic ends with 1 before any of them is evaluated: nothing is shown, no later line is read, and memory and scopes are as before. Lines that are one statement are handled as before.", "quantifier": "all lines of two or more statements without typedef, however they are written, all expansions, all states, all later lines", "why_tests_cant": "The claim excludes every other run of the session, for statements, states and later lines without bound.", "anchors": ["src/repl.c:371-397", "src/repl.c:399-431", "src/parser.m4:1400-1414"]}
{"id": "C133", "title": "A line ?x describes the variable and changes nothing", "statement": "A typed line `?x`, however it is written, about a variable shows its type, its value, its size and the place of its declaration, has no other outcome, changes no variable, and the session goes on; about a name that is not declared it says so.", "quantifier": "all variables of integer types, pointers of any depth and arrays, all states of the session, all ways to write the line", "why_tests_cant": "types, states and texts are unbounded, and the claim excludes every other outcome of the line", "anchors": ["src/evaluate.c:1009-1016", "src/inspect.c:89-107", "src/parser.m4:1387-1398", "src/repl.c:463-484"]}
{"id": "C134", "title": "A variable declared in the head of a for is local to the loop", "statement": "A loop `for (T x \u2026; \u2026; \u2026) \u2026` declares nothing in the scopes around it: when it has ended they have the names they had. In particular x may be declared around it and a second such loop may follow.", "quantifier": "all loops with a declaration in the head, all conditions, steps and bodies, all states, all scopes around the loop", "why_tests_cant": "Bodies, states and nesting are unbounded, and the claim is about every name of every enclosing scope.", "anchors": ["src/evaluate.c:1979-2009", "src/parser.m4:1505-1523", "src/evaluate.c:257-264"]}
{"id": "C135", "title": "Parts left out of a for", "statement": "A `for` whose first, second or third part is left out does exactly what the loop with the constant 1 in its place does: it has the same outcomes, whatever its other parts and its body do.", "quantifier": "all loops, all parts and bodies, all numbers of rounds, all states and outcomes", "why_tests_cant": "The claim compares two loops for every body, state and number of rounds.", "anchors": ["src/evaluate.c:1979-2009", "src/evaluate.c:338-362", "src/parser.m4:1376-1384", "src/parser.m4:1487-1523"]}
{"id": "C136", "title": "Initializers in braces", "statement": "`T x[n] = { c1, \u2026, ck };` with at most n constants declares the array with these values in its first elements; `T x = { c };` and structures likewise.", "quantifier": "all integer types, sizes, lists of constants, names and states with enough memory", "why_tests_cant": "Lists, sizes and states are unbounded.", "anchors": ["src/parser.m4:1304-1335", "src/evaluate.c:1228-1254", "src/evaluate.c:1145-1226", "src/evaluate.c:775-820"]}
{"id": "C137", "title": "Assignments to floating variables convert the value", "statement": "An assignment to a variable of type float, double or long double stores the value of its right side, an integer or floating constant or a variable of any arithmetic type, converted to the type of the variable, and changes nothing else.", "quantifier": "all floating types, all right sides and their types and values, all states", "why_tests_cant": "Types, values and states are unbounded, and the claim is about every other byte of memory too.", "anchors": ["src/evaluate.c:1174-1204", "src/evaluate.c:1228-1254", "src/evaluate.c:1145-1172"]}
{"id": "C138", "title": "Operators on floating values", "statement": "The arithmetic operators can be used on floating values: they have a value when an operand is a floating constant or a variable of a floating type.", "quantifier": "all operators, all operands, all states", "why_tests_cant": "Operands and states are unbounded.", "anchors": ["src/evaluate.c:309-336", "src/evaluate.c:338-362", "src/evaluate.c:1371-1395", "src/evaluate.c:1339-1369"]}
{"id": "C139", "title": "Casts from and to floating types convert the value", "statement": "A cast to an arithmetic type makes a new variable of that type holding the value of the operand, an integer or floating constant or a variable of any arithmetic type, converted to the type as C defines it; nothing that existed is changed.", "quantifier": "all arithmetic target types, all operands and their types and values, all states with memory for one more variable", "why_tests_cant": "There are 169 pairs of types, values and states are unbounded, and the claim is about everything else in memory too.", "anchors": ["src/evaluate.c:1840-1966", "src/evaluate.c:1145-1172", "src/evaluate.c:1174-1204"]}
{"id": "C140", "title": "Steps of floating variables", "statement": "x++, x--, ++x and --x on a variable of a floating type have a value, and change the variable by one.", "quantifier": "all four operators, all floating types and values, all states", "why_tests_cant": "Values and states are unbounded.", "anchors": ["src/evaluate.c:1256-1284", "src/evaluate.c:1286-1336", "src/evaluate.c:309-336"]}
{"id": "C141", "title": "Expressions have the value the types of C give them", "statement": "An integer expression evaluates to the value C gives it when the types of its parts are taken into account: the integer promotions, the usual arithmetic conversions, arithmetic modulo 2^width for unsigned types; where C leaves a signed overflow undefined nothing is claimed.", "quantifier": "all expressions of any depth, all integer types of their variables, all values, all states", "why_tests_cant": "Expressions nest without bound, and all combinations of types and values occur.", "anchors": ["src/evaluate.c:309-336", "src/evaluate.c:1339-1592", "src/evaluate.c:1600-1838"]}
{"id": "C142", "title": "Assignments store the value the types of C give the expression", "statement": "An assignment x = e to an integer variable stores the value C gives e, with the types of its parts (integer promotions, usual arithmetic conversions, unsigned arithmetic modulo 2^width), converted to the type of x, and changes no other byte.", "quantifier": "all expressions of any depth, all integer types of x and of the variables of e, all values, all states", "why_tests_cant": "Expressions nest without bound, and all combinations of types and values occur.", "anchors": ["src/evaluate.c:1145-1172", "src/evaluate.c:1228-1254", "src/evaluate.c:1371-1592"]}
{"id": "C143", "title": "Programs compute with the types of C", "statement": "A program of assignments, ++ and --, declarations, if, while and for on integer variables leaves every variable with the value C gives it, where expressions are computed with the types of their parts (integer promotions, usual arithmetic conversions, unsigned arithmetic modulo 2^width).", "quantifier": "all programs of any size and nesting, all integer types of the variables, all initial stores, any number of rounds of the loops", "why_tests_cant": "Programs nest without bound and loops run any number of rounds; all combinations of types and values occur.", "anchors": ["src/evaluate.c:1371-1592", "src/evaluate.c:1600-1757", "src/evaluate.c:1228-1254"]}
{"id": "C144", "title": "Dialogues show the values the types of C give", "statement": "For each line typed at the REPL -- expressions, assignments, steps and declarations on integer variables -- bic shows the value C gives it, where expressions are computed with the types of their parts (integer promotions, usual arithmetic conversions, unsigned arithmetic modulo 2^width), and the variables keep the values C gives them from line to line.", "quantifier": "all dialogues of any length, all expressions of any depth, all integer types of the variables, all values", "why_tests_cant": "Dialogues and expressions have no bound, and all combinations of types and values occur.", "anchors": ["src/repl.c:371-484", "src/lex.m4", "src/parser.m4", "src/pretty-printer.c", "src/evaluate.c:378-532"]}
