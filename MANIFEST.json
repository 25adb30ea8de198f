{
 "claims": [
  {
   "property": "C01",
   "status": "partial",
   "theorems": [
    "Bic.C01_expressions_partial",
    "Bic.C01_plain_partial",
    "Bic.C01_refuted",
    "Bic.C01_value_is_C"
   ],
   "note": "Full statement C01_statement is false of the code (C01_refuted). Proved for every expression in which division, right shift and conditional operators stay in the range where GMP's rounding agrees with C; missing are exactly those cases."
  },
  {
   "property": "C02",
   "status": "partial",
   "theorems": [
    "Bic.C02_rem_partial",
    "Bic.C02_div_partial",
    "Bic.C02_total",
    "Bic.C02_refuted",
    "Bic.C02_identity_fails"
   ],
   "note": "`%` is right for all operands; `/` rounds down, so it is right when exact or when the quotient is not negative. Full statement refuted."
  },
  {
   "property": "C03",
   "status": "proved",
   "theorems": [
    "Bic.C03_no_result"
   ],
   "note": ""
  },
  {
   "property": "C04",
   "status": "partial",
   "theorems": [
    "Bic.C04_shift_partial",
    "Bic.C04_refuted",
    "Bic.C04_negative_count"
   ],
   "note": "Right shift of a negative number that is not a multiple rounds towards zero; full statement refuted. Everything else proved for counts below 2^64."
  },
  {
   "property": "C05",
   "status": "partial",
   "theorems": [
    "Bic.C05_compare_partial",
    "Bic.C05_trichotomy_partial",
    "Bic.C05_refuted"
   ],
   "note": "Variables of unsigned 64-bit types holding 2^63 or more compare as negative; full statement refuted."
  },
  {
   "property": "C06",
   "status": "partial",
   "theorems": [
    "Bic.C06_read_partial",
    "Bic.C06_refuted"
   ],
   "note": "Unsigned 64-bit variables holding 2^63 or more are read as negative; full statement refuted."
  },
  {
   "property": "C07",
   "status": "partial",
   "theorems": [
    "Bic.C07_assign_partial",
    "Bic.C07_refuted"
   ],
   "note": "Proved for all constants and the types of at most 32 bits, and for the 64-bit types when the constant fits a long (mpz_get_si drops bits otherwise). Full statement refuted."
  },
  {
   "property": "C08",
   "status": "partial",
   "theorems": [
    "Bic.C08_assign_partial",
    "Bic.C08_refuted"
   ],
   "note": "Proved whenever the target is not wider than the source; the code reads 8 bytes whatever the type of the source, so the full statement is refuted."
  },
  {
   "property": "C09",
   "status": "proved",
   "theorems": [
    "Bic.C09_isolation"
   ],
   "note": ""
  },
  {
   "property": "C10",
   "status": "partial",
   "theorems": [
    "Bic.C10_chained_partial",
    "Bic.C10_refuted"
   ],
   "note": "The value of an assignment is the unconverted right-hand side; proved when the value fits the type, full statement refuted."
  },
  {
   "property": "C100",
   "status": "partial",
   "theorems": [
    "Bic.Repl.C100_refuted",
    "Bic.Repl.C100_shown",
    "Bic.Repl.C100_members_partial"
   ],
   "note": "From the bytes of the lines to the bytes shown. False in full: for s.a=300; with a char member bic shows 300, the value before its conversion (C10). C100_shown says what is shown in general; C100_members_partial is C100 for the texts of C81_tokens_partial, values that fit into the member and the expressions of C01_expressions_partial, except that the value assigned is not the bare name of a variable. No other session is possible."
  },
  {
   "property": "C101",
   "status": "partial",
   "theorems": [
    "Bic.Repl.C101_refuted",
    "Bic.Repl.C101_shown",
    "Bic.Repl.C101_elements_partial"
   ],
   "note": "From the bytes of the lines to the bytes shown. False in full: for a[0]=300; with an array of char bic shows 300, the value before its conversion (C10). C101_shown says what is shown in general; C101_elements_partial is C101 for the texts of C81_tokens_partial, values that fit into the element and the expressions of C01_expressions_partial, except that the value assigned is not the bare name of a variable. No other session is possible."
  },
  {
   "property": "C102",
   "status": "partial",
   "theorems": [
    "Bic.Repl.C102_refuted",
    "Bic.Repl.C102_shown",
    "Bic.Repl.C102_pointer_partial"
   ],
   "note": "From the bytes of the lines to the bytes shown. False in full: for *p=3000000000; with int *p bic shows 3000000000, the value before its conversion (C10). C102_shown says what is shown in general; C102_pointer_partial is C102 for the texts of C81_tokens_partial, values that fit into the variable and the expressions of C34_programs_partial. Declarations of further variables in between are not covered. No other session is possible."
  },
  {
   "property": "C103",
   "status": "partial",
   "theorems": [
    "Bic.Repl.C103_refuted",
    "Bic.Repl.C103_shown",
    "Bic.Repl.C103_startup_partial"
   ],
   "note": "From the bytes of the startup file and of the lines to the bytes shown, from the state eval_init makes. False in full: for y=3000000000; with int y bic shows 3000000000, the value before its conversion (C10). C103_shown says what is shown in general; C103_startup_partial is C103 for the startup files of C86_script_partial, the texts of C81_tokens_partial, the expressions of C34_programs_partial and values that fit. No other session is possible."
  },
  {
   "property": "C104",
   "status": "partial",
   "theorems": [
    "Bic.Repl.C104_refuted",
    "Bic.Repl.C104_shown",
    "Bic.Repl.C104_library_partial"
   ],
   "note": "From the bytes of the lines to the bytes shown and the calls made. False in full: labs(3000000000) calls labs with -1294967296, because bic passes the value of a computed argument as an int (C59). C104_shown says what is shown and called in general; C104_library_partial is C104 for the texts of C81_tokens_partial, the expressions of C34_programs_partial, at most 32 arguments that are variables or have values that fit into an int (into a long for parameters of at most 32 bits), and assignments of values that fit. Functions declared with extern or without a value are not covered. No other session is possible."
  },
  {
   "property": "C105",
   "status": "partial",
   "theorems": [
    "Bic.Repl.C105_refuted",
    "Bic.Repl.C105_shown",
    "Bic.Repl.C105_headers_partial"
   ],
   "note": "From the bytes of the lines and of the preprocessor's output to the bytes shown and the calls made. False in full: after #include <a.h> with int y=7; the lines y=5; and #include <b.h> leave y with the value 7, because bic evaluates all headers once more. C105_shown says what is shown and called in general; C105_headers_partial is C105 for the texts of C81_tokens_partial, names of headers of letters, digits, _, . and /, the lines of C104_library_partial (without declarations of functions), and #include lines after which the variables of the headers have the values they had. Headers with other declarations are not covered. No other session is possible."
  },
  {
   "property": "C106",
   "status": "partial",
   "theorems": [
    "Bic.Repl.C106_refuted",
    "Bic.Repl.C106_no_declarations",
    "Bic.Repl.C106_include_partial"
   ],
   "note": "False in full: when the headers have no declarations, the parser rejects the empty output and bic ends with 'Parsing of preprocessor output failed' (C106_no_declarations, for every session). C106_include_partial is C106 for headers with at least one declaration and the texts of C105_headers_partial; nothing else can happen."
  },
  {
   "property": "C107",
   "status": "partial",
   "theorems": [
    "Bic.Repl.C107_refuted",
    "Bic.Repl.C107_unset",
    "Bic.Repl.C107_shown",
    "Bic.Repl.C107_static_partial"
   ],
   "note": "From the bytes of the lines to the bytes shown. False in full: static int y; does not set y to 0, so y; shows what the memory of y held before (C107_unset). C107_shown says what is shown in general; C107_static_partial is C107 for the texts of C81_tokens_partial, the expressions of C34_programs_partial, values that fit, and variables without initializer that are assigned before they are read. No other session is possible."
  },
  {
   "property": "C108",
   "status": "partial",
   "theorems": [
    "Bic.Repl.C108_refuted",
    "Bic.Repl.C108_shown",
    "Bic.Repl.C108_strings_partial"
   ],
   "note": "From the bytes of the lines to the bytes shown. False in full: p=\"yo\"; shows the literal, not the pointer (and p[i]=e; the value before the conversion, as in C89). C108_shown says what is shown in general; C108_strings_partial is C108 for the texts of C81_tokens_partial (literals with the escapes of C54_bytes_partial), the expressions of C34_programs_partial, values that fit into char and are computed, and without assignments of literals. Every session is of this kind."
  },
  {
   "property": "C109",
   "status": "partial",
   "theorems": [
    "Bic.Repl.C109_refuted",
    "Bic.Repl.C109_typedef_rejected",
    "Bic.Repl.C109_typedef_ends"
   ],
   "note": "False: the first parse of the line makes x the name of a type, so the second one, of the preprocessed line, is rejected at x. The line shows nothing, keeps all variables and leaves x a type name that denotes nothing (C109_typedef_rejected, for every session), so that x y; ends bic (C109_typedef_ends). Proved for all type words, any number of stars, all names and states, and the texts of C81_tokens_partial. Nothing of the property holds, so there is no _partial theorem."
  },
  {
   "property": "C11",
   "status": "partial",
   "theorems": [
    "Bic.C11_pure_partial",
    "Bic.C11_variable_partial",
    "Bic.C11_refuted"
   ],
   "note": "The left node is shared by tree_make_binmod and evaluated twice; proved when evaluating it changes nothing, full statement refuted."
  },
  {
   "property": "C110",
   "status": "partial",
   "theorems": [
    "Bic.Dump.C110_refuted",
    "Bic.Dump.C110_nested",
    "Bic.Dump.C110_clang",
    "Bic.Dump.C110_dump_partial"
   ],
   "note": "False in full: strings are printed as they are, so the scripts \"a\"; \"b\"; and the one string a\">\\n  <tree T_STRING tSTRING_VAL: \"b have the same dump; of a chain in a chain (a block directly in a block) nothing is printed (C110_nested). C110_dump_partial is C110 for trees whose strings have no newline and without chains in chains, for every description whose types have different names; c.lang has (C110_clang). Floating point numbers are taken by their six printed digits."
  },
  {
   "property": "C111",
   "status": "partial",
   "theorems": [
    "Bic.Dump.C111_refuted",
    "Bic.Dump.C111_graph",
    "Bic.Dump.C111_edges_partial",
    "Bic.Dump.C111_values_partial",
    "Bic.Dump.C111_clang"
   ],
   "note": "False in full: all fields of a tree that are not trees share one node of the graph, so of a structure declaration (size, expanded, kind) only the kind is seen. C111_graph says which nodes and edges are written; C111_edges_partial: all edges end at nodes if there are no empty chains; C111_values_partial: all values are shown if no type has two such fields; C111_clang names the types of c.lang that have. Trees without chains in chains. The clusters and the escaping of quotes in labels are not covered."
  },
  {
   "property": "C112",
   "status": "partial",
   "theorems": [
    "Bic.C112_refuted",
    "Bic.C112_dies"
   ],
   "note": "False: the sum of a pointer and an integer is an integer constant for bic (C13), and * of a constant ends the run: C112_dies says that every evaluation of *(p + i) ends with this error, whatever p, i and the type are."
  },
  {
   "property": "C113",
   "status": "partial",
   "theorems": [
    "Bic.C113_refuted",
    "Bic.C113_compare",
    "Bic.C113_bytes",
    "Bic.C113_pointers_partial"
   ],
   "note": "False in full: the difference of two pointers is the number of bytes between them (C113_bytes, all types), so for int *p, *q it is four times too large. The comparisons hold for all types, also between a pointer and an integer such as 0 (C113_compare); C113_pointers_partial is the whole property for objects of one byte."
  },
  {
   "property": "C114",
   "status": "partial",
   "theorems": [
    "Bic.C114_refuted",
    "Bic.C114_effect_partial",
    "Bic.C114_address"
   ],
   "note": "False in full: closure_entry never stores a result, so a call through a pointer has the value the memory happened to hold (C114_refuted). C114_address says that &f yields a pointer through which f can be called and that older pointers stay valid; C114_effect_partial is the rest of the property: conversion of the arguments, one run of the body, the effect on all variables, and a result object of the right type. Constants given as arguments have to fit into int (C59)."
  },
  {
   "property": "C115",
   "status": "partial",
   "theorems": [
    "Bic.C115_refuted",
    "Bic.C115_global_partial",
    "Bic.C115_library",
    "Bic.C115_unlinked",
    "Bic.C115_again",
    "Bic.C115_clash"
   ],
   "note": "False in full: only the innermost scope is searched, so in a block or function extern int x; does not find the global x and ends the run (C115_refuted, C115_unlinked for all states), and only the TYPE of the two types is compared, so extern char *p; after int *p; is accepted and p keeps its type (C115_again). C115_global_partial is C115 outside of blocks when not both types are pointers; C115_library is the part on the objects of libraries, for all states and types."
  },
  {
   "property": "C116",
   "status": "partial",
   "theorems": [
    "Bic.C116_refuted",
    "Bic.C116_address",
    "Bic.C116_member_partial",
    "Bic.C116_same_partial",
    "Bic.C116_assign_partial"
   ],
   "note": "False in full for nested members: the types of the members are looked up by name again when the pointer is followed, so in a block with another struct T, (&s)->t has the size of the inner T (C116_refuted). The partial theorems are the property for structures and unions (assignment: structures) whose members are of basic types, pointers, arrays of those, and pointers to structures, which are laid out by bic (`Laid`, which a declaration establishes); C116_address holds for all compound variables. Missing: members that are structures."
  },
  {
   "property": "C117",
   "status": "proved",
   "theorems": [
    "Bic.C117_declared",
    "Bic.C117_walk",
    "Bic.C117_member",
    "Bic.C117_assign"
   ],
   "note": "C117_declared: the declaration makes such a type (`Linked`). The other three hold for every `Linked` type, in any scope where the tag names it (elsewhere C116_refuted applies). The other members are of basic or pointer type, arrays of such, or pointers to structs; members that are structs are not covered, as in C17."
  },
  {
   "property": "C118",
   "status": "partial",
   "theorems": [
    "Bic.C118_refuted",
    "Bic.C118_forward",
    "Bic.C118_pointer",
    "Bic.C118_complete",
    "Bic.C118_partial",
    "Bic.C118_mutual"
   ],
   "note": "False in full: when struct S *p; is the first mention of S, handle_forward_decl returns the identifier, so p becomes a pointer to the identifier S and p->m fails for ever (C118_refuted). C118_partial: with struct S; first, the pointer and the definition do what C118 says; C118_mutual: two types that point to each other, the second declared first. C118_forward, C118_pointer and C118_complete are the three steps from any state. Members: as in C117."
  },
  {
   "property": "C119",
   "status": "partial",
   "theorems": [
    "Bic.C119_refuted",
    "Bic.C119_replaces",
    "Bic.C119_never",
    "Bic.C119_inner_partial"
   ],
   "note": "False: tree_copy overwrites the type whether it is incomplete or not. C119_never: no second definition is rejected for being one; C119_replaces: it replaces the first for everything declared with it, so a variable is taken to be as large as the new type although its memory has the old size. C119_inner_partial is the part on inner scopes (members of basic types, pointers, arrays, pointers to the type itself)."
  },
  {
   "property": "C12",
   "status": "partial",
   "theorems": [
    "Bic.C12_steps_partial",
    "Bic.C12_small_partial",
    "Bic.C12_refuted"
   ],
   "note": "Values of 2^63 and more are read as negative; full statement refuted."
  },
  {
   "property": "C120",
   "status": "partial",
   "theorems": [
    "Bic.C120_refuted",
    "Bic.C120_never",
    "Bic.C120_initialised",
    "Bic.C120_parameter"
   ],
   "note": "False for every structure and union: eval_assign takes only T_LIVE_VAR on the left, and a structure is a T_LIVE_COMPOUND. C120_never: no assignment to a structure or union ever succeeds, whatever is assigned; C120_initialised and C120_parameter: neither does an initialisation from another structure nor a call that passes one. What bic does is thereby described in full; nothing of the property holds."
  },
  {
   "property": "C121",
   "status": "partial",
   "theorems": [
    "Bic.C121_refuted",
    "Bic.C121_known",
    "Bic.C121_defined",
    "Bic.C121_partial",
    "Bic.C121_variable",
    "Bic.C121_pointer"
   ],
   "note": "False in full: when typedef struct S T; is the first mention of S, handle_forward_decl returns the identifier, so T names the identifier and never the type (C121_refuted). C121_partial: with struct S; first, T and S stand for the same type once it is defined; C121_known, C121_defined: the tag known already, or the members written in the typedef, with or without a tag; C121_variable, C121_pointer: what is declared with the name. Members: as in C117."
  },
  {
   "property": "C122",
   "status": "proved",
   "theorems": [
    "Bic.LangGen.C122_selected",
    "Bic.LangGen.C122_other",
    "Bic.LangGen.C122_clang"
   ],
   "note": "Nothing missing. The generated text is read with a reader of C tokens (Spec.CTokens) that knows nothing of the generator; sizes and kinds of libffi's types are those of x86-64 Linux."
  },
  {
   "property": "C123",
   "status": "partial",
   "theorems": [
    "Bic.LangGen.C123_refuted",
    "Bic.LangGen.C123_partial",
    "Bic.LangGen.C123_clang",
    "Bic.LangGen.C123_table"
   ],
   "note": "False in full: the fields are written as they are, so a comma in the C name of a type gives an argument too many (C123_refuted). C123_partial: true if the C name, the format and the member contain none of \" / # , ( ) ' and the friendly name is on one line; that is so in c.lang (C123_clang), whose rows have for every C type its name in C, a fitting conversion and the member for its kind (C123_table). clang_friendly: unsigned short is called signed short."
  },
  {
   "property": "C124",
   "status": "partial",
   "theorems": [
    "Bic.C124_refuted",
    "Bic.C124_never",
    "Bic.C124_known",
    "Bic.C124_again",
    "Bic.C124_new",
    "Bic.C124_partial"
   ],
   "note": "False in full: handle_declarator lets a repeated declaration pass but maps a definition like any new name, so after int f(int); the definition int f(int x) {...} in the same scope always ends with an error (C124_never, C124_refuted). C124_partial: the definition first and then any number of declarations, with anything between, leaves the name with the function defined. C124_again: a declaration of a known name changes nothing, even if the name is a variable. Return types given by keywords only."
  },
  {
   "property": "C125",
   "status": "partial",
   "theorems": [
    "Bic.C125_refuted",
    "Bic.C125_undeclared",
    "Bic.C125_partial",
    "Bic.C125_repeated"
   ],
   "note": "False in full: the builtin evaluates a call of the name strcpy, so where that name is not declared the program ends with an error (C125_undeclared, C125_refuted). C125_partial: if the name stands for a declared library function, it is called with the values of the first two arguments, and effect and value are its own; the third argument is taken off the tree and not evaluated. C125_repeated: executed again nothing more is taken off. The call of no arguments at all (a null list) is undefined in C and not claimed."
  },
  {
   "property": "C126",
   "status": "partial",
   "theorems": [
    "Bic.C126_refuted",
    "Bic.C126_never",
    "Bic.C126_named",
    "Bic.C126_typedef"
   ],
   "note": "False in full, and for every instance: no declaration T a[m][n]; or T (*p)[n]; of a keyword type ever succeeds (C126_never, at every recursion depth), nor A x[m]; for an array type A (C126_named), and typedef T A[m][n]; always ends with an error (C126_typedef)."
  },
  {
   "property": "C127",
   "status": "partial",
   "theorems": [
    "Bic.C127_refuted",
    "Bic.C127_typedef",
    "Bic.C127_variable",
    "Bic.C127_sizeof",
    "Bic.C127_partial"
   ],
   "note": "False in full: the size expression is evaluated at each use of the name, not at the typedef (C127_refuted). C127_partial: constant sizes, with any statement evaluated between the typedef and the declaration. C127_typedef, C127_variable, C127_sizeof: what the typedef, the declaration and sizeof do for any size expression of integer arithmetic, with its value at that time. Element types are those of keywords."
  },
  {
   "property": "C128",
   "status": "partial",
   "theorems": [
    "Bic.C128_refuted",
    "Bic.C128_values_refuted",
    "Bic.C128_storage_refuted",
    "Bic.C128_partial"
   ],
   "note": "False in full, in both halves: the width is ignored, so x.a = 9 makes a field of three bits hold 9 (C128_values_refuted), and every bit-field gets a whole unit of its own (C128_storage_refuted). C128_partial: for a structure of any number of members, bit-fields among them, an assignment of a value that fits the width stores exactly that value and changes no byte of another member. Missing: unnamed bit-fields, and values that do not fit."
  },
  {
   "property": "C129",
   "status": "proved",
   "theorems": [
    "Bic.Repl.C129_failed",
    "Bic.Repl.C129_rejected"
   ],
   "note": "Relative to the model of Model/Include.lean: what run_cpp gives is a parameter, none standing for every way it can fail."
  },
  {
   "property": "C13",
   "status": "partial",
   "theorems": [
    "Bic.C13_bytes_partial",
    "Bic.C13_refuted"
   ],
   "note": "The code steps pointers by one byte; proved for one-byte elements, full statement refuted."
  },
  {
   "property": "C130",
   "status": "proved",
   "theorems": [
    "Bic.Parser.C130_reads",
    "Bic.Parser.C130_only"
   ],
   "note": "The lists of specifiers and of parameters are those of the grammar; C130 is about the declarator around them."
  },
  {
   "property": "C131",
   "status": "partial",
   "theorems": [
    "Bic.C131_refuted",
    "Bic.C131_seen",
    "Bic.C131_partial"
   ],
   "note": "False in full: eval_type_specifier looks at the stars the declarator begins with and drops the rest, so `sizeof (int [3])` is 4 and `sizeof (int (*)[3])` is 4. C131_seen says exactly what is computed for every declarator; C131_partial is the statement for declarators of stars only."
  },
  {
   "property": "C132",
   "status": "proved",
   "theorems": [
    "Bic.Repl.C132_typed",
    "Bic.Repl.C132_expanded",
    "Bic.Repl.C132_single"
   ],
   "note": "Relative to Model/Several.lean, which extends the model of the REPL by the exit in repl_do_parse; lines with typedef are left out, because the names they make change the tokens of the rest of the line."
  },
  {
   "property": "C133",
   "status": "partial",
   "theorems": [
    "Bic.Repl.C133_refuted",
    "Bic.Repl.C133_array",
    "Bic.Repl.C133_partial",
    "Bic.Repl.C133_unknown"
   ],
   "note": "False in full, as C96 is: `?a` with an array reads a null pointer, in every run (C133_array), and unsigned short is called signed short (C96_ushort). C133_partial is the statement for all other variables."
  },
  {
   "property": "C134",
   "status": "partial",
   "theorems": [
    "Bic.C134_refuted",
    "Bic.C134_leaks",
    "Bic.C134_shadow",
    "Bic.C134_twice",
    "Bic.C134_partial"
   ],
   "note": "False: eval_loop_for evaluates the declaration in the scope the loop stands in. C134_leaks: every such loop that ends leaves its variable declared there; C134_shadow and C134_twice: where that scope declares the variable already, also by an earlier loop, the loop is given up with an error. C134_partial: the scopes further out are as before and no name is lost. Types given by keywords."
  },
  {
   "property": "C135",
   "status": "partial",
   "theorems": [
    "Bic.C135_refuted",
    "Bic.C135_cond",
    "Bic.C135_partial"
   ],
   "note": "False for the condition: every loop without one reads a null pointer before its body, when its first part has ended (C135_cond; convert_to_comparable_type takes the type of what an empty statement evaluates to). C135_partial is the statement for the first and the third part."
  },
  {
   "property": "C136",
   "status": "partial",
   "theorems": [
    "Bic.C136_refuted",
    "Bic.C136_never",
    "Bic.C136_array",
    "Bic.C136_scalar"
   ],
   "note": "False: the parser accepts lists in braces, but a list evaluates to NULL. C136_never: no assignment with a list on its right side ends normally, whatever is on the left, structures included; C136_array and C136_scalar: every such declaration of an array, or of a variable of an integer type, reads a null pointer. No part of the statement holds."
  },
  {
   "property": "C137",
   "status": "partial",
   "theorems": [
    "Bic.C137_refuted",
    "Bic.C137_partial",
    "Bic.C137_variable",
    "Bic.C137_long_double",
    "Bic.C137_to_integer"
   ],
   "note": "False: with a variable on the right side its 8 bytes are taken for a double, whatever its type (C137_variable), so that int i = 5; d = i; makes d the number with the bits 5; every assignment to a long double is given up with an error, and every assignment of a floating constant to an integer variable. C137_partial: constants and variables of type double, assigned to float and double. Floating conversions are parameters of the model."
  },
  {
   "property": "C138",
   "status": "partial",
   "theorems": [
    "Bic.C138_refuted",
    "Bic.C138_first",
    "Bic.C138_second",
    "Bic.C138_compared"
   ],
   "note": "False: no operator, if or ?: whose first operand evaluates to a floating value ends normally, in any state (C138_first), nor one with such a second operand (C138_second, C138_compared). No part of the statement holds."
  },
  {
   "property": "C139",
   "status": "partial",
   "theorems": [
    "Bic.C139_refuted",
    "Bic.C139_partial",
    "Bic.C139_constant",
    "Bic.C139_range"
   ],
   "note": "False: a floating constant cast to an integer type or to long double is given up with an error, e.g. (int)5.0 (C139_constant). C139_partial: all casts of variables and of integer constants of the range of long, and of floating constants to float and double. C139_range: casting a floating variable is undefined only where C leaves the conversion undefined. Floating conversions are parameters of the model; converting to the same type is assumed to change nothing."
  },
  {
   "property": "C14",
   "status": "proved",
   "theorems": [
    "Bic.C14_cast"
   ],
   "note": ""
  },
  {
   "property": "C140",
   "status": "partial",
   "theorems": [
    "Bic.C140_refuted",
    "Bic.C140_never",
    "Bic.C140_post",
    "Bic.C140_pre"
   ],
   "note": "False: no step of a floating variable ends normally (C140_never). x++ and x-- are given up with nothing changed (C140_post); ++x and --x change the variable by one, and nothing else, and are then given up (C140_pre). Floating addition is a parameter of the model."
  },
  {
   "property": "C141",
   "status": "partial",
   "theorems": [
    "Bic.C141_refuted",
    "Bic.C141_signed_partial",
    "Bic.C141_kept_partial",
    "Bic.C141_modulo",
    "Bic.C141_modulo_wide",
    "Bic.C141_one_value"
   ],
   "note": "False: bic computes with unbounded integers, so that with unsigned u = 4294967295 the value of u + 1 is 4294967296, not 0. C141_signed_partial: right for all expressions whose variables have any integer type but unsigned int, unsigned long and unsigned long long, where / and >> round as in C. C141_kept_partial: right for all types where no conversion and no unsigned operation changes a value. C141_modulo: with +, -, *, &, |, ^, ~ and << by a constant on variables of all types (values below 2^63) the value differs from C's by a multiple of 2^32, and by one of 2^64 if no variable has type unsigned int (C141_modulo_wide). C141_one_value: the typing rules give one type and one value at most."
  },
  {
   "property": "C142",
   "status": "partial",
   "theorems": [
    "Bic.C142_refuted",
    "Bic.C142_narrow_partial",
    "Bic.C142_wide_partial",
    "Bic.C142_signed_partial"
   ],
   "note": "False: with unsigned u = 4294967295 and unsigned long w, w = u + 1 makes w 4294967296, not 0. C142_narrow_partial: right for variables of at most 32 bits and expressions with +, -, *, &, |, ^, ~ and << by a constant on variables of all integer types (values below 2^63), however often C's arithmetic wraps around. C142_wide_partial: right for all types of x and the same operators on variables of all types but unsigned int, if the mathematical value fits into a long, even if C's wraps around. C142_signed_partial: right for all types of x and all expressions whose variables have any integer type but unsigned int, unsigned long and unsigned long long, where / and >> round as in C. Right sides that are just a variable: C08."
  },
  {
   "property": "C143",
   "status": "partial",
   "theorems": [
    "Bic.C143_refuted",
    "Bic.C143_programs_partial",
    "Bic.C143_script_partial",
    "Bic.C143_text_partial",
    "Bic.C143_main_partial",
    "Bic.C143_one_outcome"
   ],
   "note": "False: with unsigned x = 0, x = (x - 1) > 0 makes x 0, not 1. C143_programs_partial: right, and the only outcome, for programs with variables of all integer types whose expressions have no operands of type unsigned int, unsigned long or unsigned long long or compute no value that wraps around, where / and >> round as in C, where what is assigned is computed or a variable at least as wide, and to variables of at most 32 bits also any expression with + - * & | ^ ~ and << by a constant, however it wraps around, and to wider ones such expressions without unsigned int whose mathematical value fits into a long, and where no block stands directly in a block; ++ and -- may wrap around. C143_script_partial: the same from the tokens of a script. C143_text_partial: the same with procedures, from the text of a script to its exit status; C143_main_partial: and with main. C143_one_outcome: C's semantics with types gives each program at most one outcome. okTyped_c, okTypedStatic_c: these programs are programs of C with the same outcome. Missing: other expressions that wrap around, those assignments and blocks, and for procedures what is missing in C86."
  },
  {
   "property": "C144",
   "status": "partial",
   "theorems": [
    "Bic.Repl.C144_refuted",
    "Bic.Repl.C144_dialogue_partial",
    "Bic.Repl.C144_one_outcome"
   ],
   "note": "False: with unsigned x = 0, bic shows -1 for the line x - 1; where C has 4294967295. C144_dialogue_partial: right, and the only possible session, for lines whose expressions have no operands of type unsigned int, unsigned long or unsigned long long or compute no value that wraps around, where / and >> round as in C and assigned values fit; steps may wrap around (okTalk_c: these dialogues are C's; C144_one_outcome: C's rules allow one outcome at most). Missing: expressions that wrap around, and what is missing in C89."
  },
  {
   "property": "C15",
   "status": "partial",
   "theorems": [
    "Bic.C15_index_partial",
    "Bic.C15_elements_partial",
    "Bic.C15_declared",
    "Bic.C15_refuted"
   ],
   "note": "a[-1] is a[1] (mpz_get_ui drops the sign): full statement refuted. Proved for non-negative subscripts, of any declared array of a basic type and of any pointer; elements of different subscripts do not overlap."
  },
  {
   "property": "C16",
   "status": "partial",
   "theorems": [
    "Bic.C16_deref_addr_partial",
    "Bic.C16_assign",
    "Bic.C16_addr_deref",
    "Bic.C16_refuted"
   ],
   "note": "For arrays *&a is not the array: full statement refuted. Proved for variables of basic and pointer types."
  },
  {
   "property": "C17",
   "status": "partial",
   "theorems": [
    "Bic.C17_members_partial",
    "Bic.C17_refuted"
   ],
   "note": "Member types are looked up again by name when a variable is made, so a tag redeclared in between makes members overlap or stick out: full statement refuted. Proved for structs whose members are of basic or pointer type, arrays of such, or pointers to structs and unions (also to the struct itself)."
  },
  {
   "property": "C18",
   "status": "partial",
   "theorems": [
    "Bic.C18_offsets_partial",
    "Bic.C18_refuted"
   ],
   "note": "No padding is added at the end of a struct: full statement refuted. Proved: all the offsets, and the size up to that padding, for members of basic or pointer type, arrays of such, and pointers to structs and unions."
  },
  {
   "property": "C19",
   "status": "partial",
   "theorems": [
    "Bic.C19_refuted",
    "Bic.C19_union_partial"
   ],
   "note": "False in full: as for C17 a member type whose tag is redeclared makes the member larger than the union (C19_refuted). Proved for unions whose members are of basic or pointer type, arrays of such, or pointers to structs and unions; missing: nested compound members whose tags are not redeclared."
  },
  {
   "property": "C20",
   "status": "partial",
   "theorems": [
    "Bic.C20_isolation_partial",
    "Bic.C20_refuted"
   ],
   "note": "Refuted with the same witness as C17. Proved for structs whose members are of basic or pointer type, arrays of such, or pointers to structs and unions (also to the struct itself)."
  },
  {
   "property": "C21",
   "status": "partial",
   "theorems": [
    "Bic.C21_specifiers_partial",
    "Bic.C21_order_partial",
    "Bic.C21_refuted",
    "Bic.C21_bool_rejected"
   ],
   "note": "Type specifiers and permutations of them are right for the multisets the table has; `register`, and `_Bool`, are not accepted, so the full statement is refuted."
  },
  {
   "property": "C22",
   "status": "proved",
   "theorems": [
    "Bic.C22_innermost",
    "Bic.C22_undeclared"
   ],
   "note": ""
  },
  {
   "property": "C23",
   "status": "proved",
   "theorems": [
    "Bic.C23_kept",
    "Bic.C23_redeclare"
   ],
   "note": "C23_redeclare is about declarations with keyword types and plain or initialised declarators; C23_kept is about every evaluation."
  },
  {
   "property": "C24",
   "status": "partial",
   "theorems": [
    "Bic.C24_restored_partial",
    "Bic.C24_kept_partial",
    "Bic.C24_refuted"
   ],
   "note": "A loop left by break leaves its scope open; proved for programs without break, full statement refuted."
  },
  {
   "property": "C25",
   "status": "partial",
   "theorems": [
    "Bic.C25_refuted",
    "Bic.C25_globals_partial"
   ],
   "note": "False in full: the scope of the caller is the parent of the scope of the callee. Proved for all integer functions and calls when no local variable of a caller has the name of a free variable of the body."
  },
  {
   "property": "C26",
   "status": "partial",
   "theorems": [
    "Bic.C26_refuted",
    "Bic.C26_arguments_partial"
   ],
   "note": "False in full: an argument that uses the name of an earlier parameter gets that parameter. Proved for all other argument lists of integer functions."
  },
  {
   "property": "C27",
   "status": "partial",
   "theorems": [
    "Bic.C27_by_value_partial"
   ],
   "note": "Proved for all integer functions that assign only to their parameters and own variables (ifs and loops included), for bodies and arguments on which bic agrees with C; the caller's variables all keep their values. Missing: bodies and arguments outside that language."
  },
  {
   "property": "C28",
   "status": "partial",
   "theorems": [
    "Bic.C28_refuted",
    "Bic.C28_count_partial"
   ],
   "note": "False in full: a function declared with () takes any number of arguments. Proved for every function with at least one parameter and every other number of arguments."
  },
  {
   "property": "C29",
   "status": "partial",
   "theorems": [
    "Bic.C29_refuted",
    "Bic.C29_first_partial"
   ],
   "note": "False in full: a return statement is overwritten with its value, so later calls return the first value. Proved for calls before which the return statements are as parsed."
  },
  {
   "property": "C30",
   "status": "partial",
   "theorems": [
    "Bic.C30_refuted",
    "Bic.C30_return_partial",
    "Bic.C30_end"
   ],
   "note": "False in full: an unbraced return as body of an if or loop does not return. Proved for return statements in braces at any depth, any statements."
  },
  {
   "property": "C31",
   "status": "partial",
   "theorems": [
    "Bic.C31_refuted",
    "Bic.C31_while_partial",
    "Bic.C31_for_partial"
   ],
   "note": "False in full: a break inside the braces of an if leaves only those braces, and the scope of the loop stays open so that an outer loop ends too. Proved for a break directly in the braces of a while or for loop, after any number of rounds."
  },
  {
   "property": "C32",
   "status": "partial",
   "theorems": [
    "Bic.C32_refuted",
    "Bic.C32_loops_partial",
    "Bic.C32_only_partial"
   ],
   "note": "False in full: a condition that is a positive multiple of 2^63 counts as zero. Proved otherwise: a run C describes is done by the evaluator (any nesting, any number of rounds), and a while loop that ends did rounds with non-zero condition and then found it zero or was broken."
  },
  {
   "property": "C33",
   "status": "partial",
   "theorems": [
    "Bic.C33_refuted",
    "Bic.C33_if_partial",
    "Bic.C33_not"
   ],
   "note": "False in full for positive multiples of 2^63. Proved for all other values of the condition and arbitrary branches; ! proved for all values."
  },
  {
   "property": "C34",
   "status": "partial",
   "theorems": [
    "Bic.C34_refuted",
    "Bic.C34_programs_partial",
    "Bic.C34_only_partial"
   ],
   "note": "False in full (division of negative numbers, see C02). Proved for all structured integer programs whose operations bic gets right: execution ends in the store C gives and no other."
  },
  {
   "property": "C35",
   "status": "partial",
   "theorems": [
    "Bic.C35_static_partial"
   ],
   "note": "Proved for every history between the executions and all declarators, for specifiers that are keywords, typedef names or references to tags. Missing: bodies of structures and enumerations inside the static declaration."
  },
  {
   "property": "C36",
   "status": "partial",
   "theorems": [
    "Bic.C36_refuted",
    "Bic.C36_plain_partial",
    "Bic.C36_init_partial"
   ],
   "note": "False in full: executing `int *p = e;` strips the pointer off the tree, the second time p is an int. Proved for scalars and pointers of any depth without initialisers, and for integers with and without initialisers."
  },
  {
   "property": "C37",
   "status": "partial",
   "theorems": [
    "Bic.C37_refuted",
    "Bic.C37_enumerators_partial"
   ],
   "note": "False in full: enumerators are counted with an unsigned int, -1 becomes 1. Proved for all lists of enumerators with values in 0 .. 2^32-1 and expressions that may use earlier enumerators."
  },
  {
   "property": "C38",
   "status": "partial",
   "theorems": [
    "Bic.C38_type_partial",
    "Bic.C38_var_partial",
    "Bic.C38_array_partial",
    "Bic.C38_struct",
    "Bic.C38_refuted"
   ],
   "note": "sizeof evaluates its operand (sizeof (x = y) assigns) and ends the program for integer constants: full statement refuted. Proved for type names made of type keywords, variables and arrays."
  },
  {
   "property": "C39",
   "status": "proved",
   "theorems": [
    "Bic.Typename.C39_typenames"
   ],
   "note": "All histories of declarations of the program and includes; parsing itself is not modelled, a history lists the declarations the parser reduces."
  },
  {
   "property": "C40",
   "status": "proved",
   "theorems": [
    "Bic.C40_sequences"
   ],
   "note": ""
  },
  {
   "property": "C41",
   "status": "partial",
   "theorems": [
    "Bic.C41_others_partial",
    "Bic.C41_never",
    "Bic.C41_refuted"
   ],
   "note": "list_splice never gives the joined list when the spliced list is not empty; proved for what it does otherwise."
  },
  {
   "property": "C42",
   "status": "partial",
   "theorems": [
    "Bic.Repl.C42_refuted",
    "Bic.Repl.C42_untouched_partial"
   ],
   "note": "False in full: completion re-chains the program's identifier trees; completing `a` after `int ab, c;` breaks the declaration. Proved for every state and prefix: scopes and every chain not containing a matching identifier directly stay as they are. Assumes the matching identifiers are different trees."
  },
  {
   "property": "C43",
   "status": "partial",
   "theorems": [
    "Bic.C43_refuted",
    "Bic.C43_blocks_partial"
   ],
   "note": "False in full: a block directly in a block is skipped. Proved for blocks nested as bodies of if, while and for."
  },
  {
   "property": "C44",
   "status": "proved",
   "theorems": [
    "Bic.C44_lookup"
   ],
   "note": ""
  },
  {
   "property": "C45",
   "status": "partial",
   "theorems": [
    "Bic.Gc.C45_collect_partial",
    "Bic.Gc.C45_kept",
    "Bic.Gc.C45_endless",
    "Bic.Gc.C45_refuted"
   ],
   "note": "Marking has no visited check, so a collection with a cycle in reach does not end: full statement refuted. Proved: every collection that ends keeps exactly the reachable objects, and it ends when no cycle is in reach and fewer than 10000 table entries are in use."
  },
  {
   "property": "C46",
   "status": "partial",
   "theorems": [
    "Bic.Gc.C46_history_partial",
    "Bic.Gc.C46_exact",
    "Bic.Gc.C46_refuted"
   ],
   "note": "With exactly 10000 entries in use a collection reads past the table; after the table is enlarged most new entries are not cleared. Proved for histories below 10000 entries; C46_exact says when it goes wrong in general."
  },
  {
   "property": "C47",
   "status": "proved",
   "theorems": [
    "Bic.Gc.C47_inhibited"
   ],
   "note": ""
  },
  {
   "property": "C48",
   "status": "proved",
   "theorems": [
    "Bic.Gc.C48_recognised"
   ],
   "note": ""
  },
  {
   "property": "C49",
   "status": "partial",
   "theorems": [
    "Bic.Gc.C49_storage_partial",
    "Bic.Gc.C49_exact",
    "Bic.Gc.C49_refuted"
   ],
   "note": "Storage belongs to the scope a variable was declared in and is released when that is out of reach, even if the variable is not. Proved when the allocation record is in reach."
  },
  {
   "property": "C50",
   "status": "partial",
   "theorems": [
    "Bic.LangGen.C50_refuted",
    "Bic.LangGen.C50_separate_partial",
    "Bic.LangGen.C50_fields_nodup_partial",
    "Bic.LangGen.C50_accepted",
    "Bic.LangGen.C50_clang"
   ],
   "note": "Refuted in general: a base type named t shares its field names with the trees. Proved for all descriptions whose base types are neither named t nor end in a digit, among them the whole of c.lang (C50_clang). The C compiler's treatment of the emitted text is not modelled."
  },
  {
   "property": "C51",
   "status": "partial",
   "theorems": [
    "Bic.Repl.C51_refuted",
    "Bic.Repl.C51_short_partial",
    "Bic.Repl.C51_long"
   ],
   "note": "False in full: the length returned by read is ignored, and writes of more than PIPE_BUF bytes may arrive in parts. Proved for all lists of strings of fewer than 4096 bytes, every scheduling; every longer string can be received wrongly."
  },
  {
   "property": "C52",
   "status": "partial",
   "theorems": [
    "Bic.Repl.C52_refuted",
    "Bic.Repl.C52_offers_partial"
   ],
   "note": "False in full: an identifier visible in two scopes (leaked by break) is chained twice and walking the matches does not end. Proved for every state and prefix whose matching identifiers are different trees: exactly the visible names with the prefix, in order."
  },
  {
   "property": "C53",
   "status": "partial",
   "theorems": [
    "Bic.Repl.C53_refuted",
    "Bic.Repl.C53_dot_partial",
    "Bic.Repl.C53_arrow_partial",
    "Bic.Repl.C53_arrow_never"
   ],
   "note": "False in full: `ab->c` is split into `a` and `>c`. Proved for all texts with a dot, and for objects of one character with an arrow; proved that no longer object with an arrow is split correctly."
  },
  {
   "property": "C54",
   "status": "partial",
   "theorems": [
    "Bic.Lexer.C54_refuted",
    "Bic.Lexer.C54_bytes_partial",
    "Bic.Lexer.C54_unknown_escape",
    "Bic.Lexer.C54_nul"
   ],
   "note": "False in full: `\\r` and the other simple escapes, hexadecimal escapes and NUL are not read as C does. Proved for every literal made of ordinary characters, \\n, \\t, \\\\, \\\" and octal escapes other than NUL with no octal digit behind them; proved that the unknown escapes are always errors and that NUL is always dropped."
  },
  {
   "property": "C55",
   "status": "partial",
   "theorems": [
    "Bic.Lexer.C55_refuted",
    "Bic.Lexer.C55_value_partial",
    "Bic.Lexer.C55_unknown_escape"
   ],
   "note": "False in full: '\\t' is an error. Proved for every character that stands for itself and for \\n, \\\\ and \\r; proved that every other escape of one character is an error."
  },
  {
   "property": "C56",
   "status": "proved",
   "theorems": [
    "Bic.Lexer.C56_reads_back"
   ],
   "note": "Every value of an integer type, printed by the pretty printer and followed by anything that ends a number, is read as one token with that value."
  },
  {
   "property": "C57",
   "status": "partial",
   "theorems": [
    "Bic.Lexer.C57_refuted",
    "Bic.Lexer.C57_blank_partial",
    "Bic.Lexer.C57_glued"
   ],
   "note": "False in full: `x-1` is read as a name and the constant -1. Proved for all names and digits: with a blank after the minus sign there are three tokens, and without one there are always two."
  },
  {
   "property": "C58",
   "status": "partial",
   "theorems": [
    "Bic.C58_refuted",
    "Bic.C58_promoted_partial",
    "Bic.C58_values_partial",
    "Bic.C58_too_many"
   ],
   "note": "False in full: a variadic unsigned char or unsigned short is passed as unsigned int, and a call with more than 32 arguments ends the interpreter. Proved for every list of at most 32 arguments: they arrive in order with their values, and with the promoted types except for those two."
  },
  {
   "property": "C59",
   "status": "partial",
   "theorems": [
    "Bic.C59_refuted",
    "Bic.C59_fits_partial",
    "Bic.C59_large_never"
   ],
   "note": "False in full: every constant is passed as an int. Proved: each constant that fits an int arrives, and each that fits a long but not an int does not."
  },
  {
   "property": "C60",
   "status": "partial",
   "theorems": [
    "Bic.C60_refuted",
    "Bic.C60_return_partial",
    "Bic.C60_main_zero",
    "Bic.C60_mixed"
   ],
   "note": "False in full: the value main returns is ignored and the status is 0 (C60_refuted, and C60_main_zero for every such script). Proved for every value of a return at top level, in blocks, conditional statements and loops: the status is the value modulo 256. Proved that a script with main and other code ends with status 1 and evaluates nothing."
  },
  {
   "property": "C61",
   "status": "partial",
   "theorems": [
    "Bic.C61_refuted",
    "Bic.C61_attached",
    "Bic.C61_command_line_partial",
    "Bic.C61_args",
    "Bic.C61_main_partial"
   ],
   "note": "False in full: with the name attached to -s (`-sx.c a`) the arguments the script receives are not those of the command line. Proved for every command line on which -s is separate: the script receives its name and the words behind it, in order; argc and argv hold them; main receives them (its first parameter not being called argv)."
  },
  {
   "property": "C62",
   "status": "proved",
   "theorems": [
    "Bic.C62_store_load",
    "Bic.C62_load_injective"
   ],
   "note": ""
  },
  {
   "property": "C63",
   "status": "proved",
   "theorems": [
    "Bic.C63_objects"
   ],
   "note": ""
  },
  {
   "property": "C64",
   "status": "proved",
   "theorems": [
    "Bic.C64_deterministic"
   ],
   "note": ""
  },
  {
   "property": "C65",
   "status": "partial",
   "theorems": [
    "Bic.Repl.C65_refuted",
    "Bic.Repl.C65_last_line_partial"
   ],
   "note": "False in full: the newline that ends the line before is handed to the parser, too. Proved for all outputs: the text handed over is the last line, preceded by that newline if there is one; the output of one empty line is excluded (bic exits)."
  },
  {
   "property": "C66",
   "status": "proved",
   "theorems": [
    "Bic.C66_effect_and_value"
   ],
   "note": "The library function is an arbitrary function of the arguments and the memory that frees none of the memory of the program and returns at most 16 bytes."
  },
  {
   "property": "C67",
   "status": "proved",
   "theorems": [
    "Bic.LangGen.C67_marked"
   ],
   "note": "For every accepted description; what mark_tree does with the value is C45."
  },
  {
   "property": "C68",
   "status": "proved",
   "theorems": [
    "Bic.C68_and",
    "Bic.C68_or",
    "Bic.C68_conditional"
   ],
   "note": "For arbitrary operands with integer values; the condition of ?: must have a value in the range of long (gmp reduces others before comparing with 0)."
  },
  {
   "property": "C69",
   "status": "proved",
   "theorems": [
    "Bic.C69_comma",
    "Bic.C69_stops",
    "Bic.C69_list"
   ],
   "note": "For arbitrary operands."
  },
  {
   "property": "C70",
   "status": "partial",
   "theorems": [
    "Bic.C70_refuted",
    "Bic.C70_arithmetic_partial",
    "Bic.C70_compare"
   ],
   "note": "False in full: a call that returns a variable returns the variable and not its value, so f() + g() may add neither order's values. Proved for arithmetic if the left operand's result still has its value when the right operand has been evaluated, and for comparisons without that condition (their left operand is converted first)."
  },
  {
   "property": "C71",
   "status": "partial",
   "theorems": [
    "Bic.C71_refuted",
    "Bic.C71_pointers_partial"
   ],
   "note": "False in full: p = -1 stores the address 1 (mpz_get_ui drops the sign). Proved for all pointers and all constants that are not negative."
  },
  {
   "property": "C72",
   "status": "proved",
   "theorems": [
    "Bic.C72_string",
    "Bic.C72_characters"
   ],
   "note": "As long as memory for the string is available."
  },
  {
   "property": "C73",
   "status": "proved",
   "theorems": [
    "Bic.C73_script",
    "Bic.C73_repl",
    "Bic.C73_stmt",
    "Bic.C73_decl",
    "Bic.C73_expr"
   ],
   "note": "For all token sequences, under the resolution of the if-else conflict by %right."
  },
  {
   "property": "C74",
   "status": "partial",
   "theorems": [
    "Bic.C74_refuted",
    "Bic.C74_no_cast",
    "Bic.C74_groups_partial",
    "Bic.C74_only",
    "Bic.C74_exactly_partial"
   ],
   "note": "False in full: there are no signs (- x is rejected) and no cast directly below a prefix operator (*(int *)p is rejected). Proved for all other expressions; what is accepted is always an expression of C with the right tree. *=, %=, &= and |= are no tokens."
  },
  {
   "property": "C75",
   "status": "proved",
   "theorems": [
    "Bic.C75_closed",
    "Bic.C75_nearest"
   ],
   "note": ""
  },
  {
   "property": "C76",
   "status": "partial",
   "theorems": [
    "Bic.C76_refuted",
    "Bic.C76_no_static",
    "Bic.C76_reads_partial",
    "Bic.C76_reads_c",
    "Bic.C76_only_partial"
   ],
   "note": "False in full: a[] declares a pointer, a[static 3] is rejected. Proved for all declarators without these brackets, and that every accepted declarator is read as C does once empty brackets are taken for stars."
  },
  {
   "property": "C77",
   "status": "partial",
   "theorems": [
    "Bic.C77_refuted",
    "Bic.C77_defines_partial"
   ],
   "note": "False in full: char *f() {} fails, the body is stored in a T_POINTER. Proved for functions that return the type of the specifiers."
  },
  {
   "property": "C78",
   "status": "partial",
   "theorems": [
    "Bic.C78_refuted",
    "Bic.C78_value_partial"
   ],
   "note": "Tokens to value. False where C01 is (-7 >> 1). Proved for all other integer expressions written by C's table of precedences; unary signs are not among them (C74)."
  },
  {
   "property": "C79",
   "status": "partial",
   "theorems": [
    "Bic.C79_refuted",
    "Bic.C79_script_partial",
    "Bic.C79_statement_partial"
   ],
   "note": "Tokens to final store. False where C34 is (x = -7 / 2;). Proved for the programs of C34_programs_partial; a return is not the bare body of a loop or branch, for may not declare."
  },
  {
   "property": "C80",
   "status": "partial",
   "theorems": [
    "Bic.Lexer.C80_refuted",
    "Bic.Lexer.C80_decimal_partial",
    "Bic.Lexer.C80_hex_partial",
    "Bic.Lexer.C80_octal",
    "Bic.Lexer.C80_suffix"
   ],
   "note": "False in full: 010 is read as 10 (every octal constant as a decimal one), and a suffix is a name of its own. Proved for decimal constants and for hexadecimal ones after 0x. 0X is not read."
  },
  {
   "property": "C81",
   "status": "partial",
   "theorems": [
    "Bic.Lexer.C81_refuted",
    "Bic.Lexer.C81_texts",
    "Bic.Lexer.C81_tokens_partial",
    "Bic.Lexer.C81_dropped",
    "Bic.Lexer.C81_sign"
   ],
   "note": "False in full: const, restrict, volatile and inline are skipped, a digit right after an operator - makes it a sign, <REPL> is a token. Proved for all other texts with the constants of C80 and C55 and the strings of C54; the set of type names is fixed during the text."
  },
  {
   "property": "C82",
   "status": "partial",
   "theorems": [
    "Bic.C82_refuted",
    "Bic.C82_script_partial"
   ],
   "note": "Text to final store. False where C81 is (x=010; leaves 10). Proved for the texts of C81_tokens_partial and the programs of C34_programs_partial, without line markers."
  },
  {
   "property": "C83",
   "status": "partial",
   "theorems": [
    "Bic.Lexer.C83_refuted",
    "Bic.Lexer.C83_attribute_partial",
    "Bic.Lexer.C83_greedy"
   ],
   "note": "False in full: everything up to the last )) of the line is skipped. Proved if there is none on the line after the attribute."
  },
  {
   "property": "C84",
   "status": "partial",
   "theorems": [
    "Bic.C84_error_partial",
    "Bic.C84_main_partial"
   ],
   "note": "Proved for errors reached along executions of C34's kind, in blocks, if, while, for, and for scripts with main. Missing: a break on the way, blocks directly in blocks, conditions outside of the range of C31, errors of the conversion of a condition."
  },
  {
   "property": "C85",
   "status": "partial",
   "theorems": [
    "Bic.C85_refuted",
    "Bic.C85_procedures_partial",
    "Bic.C85_only_partial",
    "Bic.C85_dynamic_partial"
   ],
   "note": "False in full: a procedure assigns to the variable of its caller if that has the name of a global (C25). Proved for all recursive programs in which no parameter or local variable has the name of a global that a procedure uses, arguments do not use the names of earlier parameters (C26), procedures return no values (C29), but may end with return;, with the restrictions of C34. C85_dynamic_partial says what bic does without the condition on names."
  },
  {
   "property": "C86",
   "status": "partial",
   "theorems": [
    "Bic.C86_refuted",
    "Bic.C86_script_partial"
   ],
   "note": "Closed theorem from the bytes of the text and the state eval_init makes. False in full: void g(void) counts as one parameter and g() ends the script with status 1; also where C81, C34 and C85 are. Proved for the texts of C81_tokens_partial, the programs of C34_programs_partial, procedures as in C85_procedures_partial with parameters or ()."
  },
  {
   "property": "C87",
   "status": "partial",
   "theorems": [
    "Bic.C87_refuted",
    "Bic.C87_call_dies",
    "Bic.C87_main_dies"
   ],
   "note": "False: the list counts as one parameter. Proved for all functions and states that such a call is an error, and for all scripts of C88's kind with such a main that they end with status 1 before the body runs."
  },
  {
   "property": "C88",
   "status": "partial",
   "theorems": [
    "Bic.C88_refuted",
    "Bic.C88_main_zero",
    "Bic.C88_main_partial"
   ],
   "note": "Closed theorem from the bytes of the text and the state eval_init makes. False in full: the status is 0 whatever main returns (C88_main_zero, for all such scripts). Proved: main runs and the variables get the values C gives them, with the restrictions of C86_script_partial; the status is right if main returns a multiple of 256 or falls off its end."
  },
  {
   "property": "C89",
   "status": "partial",
   "theorems": [
    "Bic.Repl.C89_refuted",
    "Bic.Repl.C89_shown",
    "Bic.Repl.C89_dialogue_partial"
   ],
   "note": "Starts from the bytes of the lines and ends with the bytes shown. False in full: an assignment shows the value before its conversion (C10): x=3000000000; shows 3000000000 for int x. C89_shown says what bic shows, for all dialogues of declarations with and without initialisation, expressions, assignments, ++ and --, and that no other output is possible; C89_dialogue_partial that it is what C gives where assignments keep the value. Texts as in C81_tokens_partial. Missing: #include, lines of several statements, calls, floating point."
  },
  {
   "property": "C90",
   "status": "partial",
   "theorems": [
    "Bic.Repl.C90_refuted",
    "Bic.Repl.C90_every_typedef_ends"
   ],
   "note": "False: every line is parsed twice, in the second parse the new name is a name of a type, and the declaration without declarator ends bic. Proved for every list of type words, every fresh name, every state and every way to write the line. Nothing of the property holds, so there is no _partial theorem."
  },
  {
   "property": "C91",
   "status": "partial",
   "theorems": [
    "Bic.Repl.C91_refuted",
    "Bic.Repl.C91_rejected_partial"
   ],
   "note": "False in full: after the line that is a single double quote the lexer is inside a string, and x; is not answered. Proved for lines without double quotes and without the words struct, union and typedef: state, type names and mode of the lexer are as before, and every later line has the same answers."
  },
  {
   "property": "C92",
   "status": "partial",
   "theorems": [
    "Bic.C92_refuted",
    "Bic.C92_cast_partial"
   ],
   "note": "False in full: the constant goes through mpz_get_si, (unsigned long)18446744073709551615 is 9223372036854775807. Proved for all constants and the types of at most 32 bits, and for the 64-bit types when the constant fits into a long."
  },
  {
   "property": "C93",
   "status": "partial",
   "theorems": [
    "Bic.C93_refuted",
    "Bic.C93_unknown_accepted",
    "Bic.C93_declared_partial",
    "Bic.C93_forward_partial"
   ],
   "note": "False in full: with a tag that is nowhere declared the declaration is always accepted, and the variable gets an identifier as its type (C93_unknown_accepted, for all states). Proved for tags that have been declared, in any scope, and from the declaration struct tag; on. Missing: arrays and initialised variables of such types."
  },
  {
   "property": "C94",
   "status": "partial",
   "theorems": [
    "Bic.Print.C94_refuted",
    "Bic.Print.C94_printed",
    "Bic.Print.C94_flat_partial"
   ],
   "note": "False in full: all closing braces stand at the left margin. C94_printed says what is printed, for all structures; C94_flat_partial that it is as stated for structures without structures. Floating point members are left out (their texts are opaque)."
  },
  {
   "property": "C95",
   "status": "proved",
   "theorems": [
    "Bic.Print.C95_pointer",
    "Bic.Print.C95_string",
    "Bic.Print.C95_literal"
   ],
   "note": "As equivalences: this text and no other. The text of an address is specified through the value of hexadecimal digits."
  },
  {
   "property": "C96",
   "status": "partial",
   "theorems": [
    "Bic.Inspect.C96_refuted",
    "Bic.Inspect.C96_variable_partial",
    "Bic.Inspect.C96_ushort",
    "Bic.Inspect.C96_array_crashes"
   ],
   "note": "False in full: unsigned short is called signed short, and for arrays a null pointer is read, since they have no locus; both proved for all such variables. Proved for all other variables of integer and pointer types, as an equivalence. The loci are a parameter of the model."
  },
  {
   "property": "C97",
   "status": "partial",
   "theorems": [
    "Bic.Preprocess.C97_refuted",
    "Bic.Preprocess.C97_options",
    "Bic.Preprocess.C97_file",
    "Bic.Preprocess.C97_arguments_partial"
   ],
   "note": "The buffer and the file are proved in full. The arguments are false in full: a directory with a blank in its name is taken apart by the shell, as it is not quoted; proved for names of characters not special to the shell."
  },
  {
   "property": "C98",
   "status": "partial",
   "theorems": [
    "Bic.Repl.C98_refuted",
    "Bic.Repl.C98_struct_partial",
    "Bic.Repl.C98_union_partial"
   ],
   "note": "From the bytes of the line to the bytes shown and the layout in memory. False in full: the size lacks the padding at the end (C18), struct t{char a,*p;short b[3];} s; gets 22 bytes. Proved for the texts of C81_tokens_partial: the offsets and names are right, nothing else can happen at the line, and the size is the end of the last member. Unions are proved with the size of the largest member."
  },
  {
   "property": "C99",
   "status": "partial",
   "theorems": [
    "Bic.Repl.C99_refuted",
    "Bic.Repl.C99_declares_partial",
    "Bic.Repl.C99_dialogue_partial"
   ],
   "note": "From the bytes of the two lines to the bytes shown. False in full: after enum{A=0- 1}; bic shows 1 for A; (C37). Proved for the texts of C81_tokens_partial, enumerators with values in 0 .. 2^32-1 and the expressions of C01_expressions_partial; other constants and variables may be used and keep their values; no other session is possible."
  }
 ]
}