# Formal model of bic: design

`bic` is an interpreter and REPL for C.  This directory holds a Lean 4 model of its
code and machine-checked proofs of the properties listed in `properties.jsonl`.

## Trusted base

* The Lean 4.33.0 kernel.  No own axioms, no `sorry`, no `native_decide`, no
  `bv_decide`, no `unsafe`, no `implemented_by`.  Every theorem depends on at
  most `propext`, `Classical.choice` and `Quot.sound`; the last section lists them
  for each theorem named in `MANIFEST.json` (P, C and Q).
* The hand translation of the C/C++ source to Lean.  Every model definition
  cites the file and lines it stands for and says where it simplifies.  The code is
  neither compiled nor run here: nothing else ties the model to it.
* The documented behaviour of what the code calls: GMP (`mpz_*`), libc (`malloc`,
  `strcmp`, `strdup`, `qsort`, `bsearch`, `getopt`, pipes), libffi, `dlsym`, flex's
  choice of rules, the containers of the C++ library.
* The platform: x86-64 System V, little endian, `long` and pointers 8 bytes, two's
  complement, gcc conversions.  `malloc` succeeds.
* The specifications in `Verif/Spec` and at the head of the files in `Verif/Props`:
  they say what C, the ABI or common sense demand, and are written without the
  functions of the model.

## What is modelled

| Lean module | code |
|---|---|
| `Model.Gmp` | the GMP functions `evaluate.c` calls, on `Int` |
| `Model.CType` | the `defctype` table of `c.lang`, `union value` (tree.h), bytes of values, byte memory with allocated ranges |
| `Model.Tree` | tree objects, contexts, evaluator state, outcomes |
| `Model.Eval` | `evaluate.c` function by function, from `pop_ctx` to `eval_init` (all of `__evaluate_1` but the cases below), `function-call.c` |
| `Model.Build` | the actions of `parser.m4` that do more than make one tree (`tree_make_binmod`) |
| `Model.Spec` | `genspecresolver.cpp` and the function it writes, with the table of `c.lang` |
| `Model.ListC` | `list.h`, `list.c`, the chain functions of `tree.h` and `tree.c`, on pointers |
| `Model.HashTable` | `hash_table.c` |
| `Model.Gc` | `gc.c` and the `mark_object` of `gengc.cpp` |
| `Model.LangGen` | `lang_lexer.lpp`, `lang.h`, `lang.cpp`, what `gentree.cpp`, `genaccess.cpp`, `gengc.cpp`, `gentypes.cpp` emit |
| `Model.Dump` | what the functions written by `gendump.cpp` and `gendot.cpp` print, `tree-dump-primitives.h` |
| `Model.Typename` | `typename.c` and the lexer feedback of `parser.m4` |
| `Model.Lexer` | `lex.m4`: rules, flex's choice between them, literals |
| `Model.Yylex` | which token of the parser an action of `lex.m4` returns |
| `Model.Parser` | the productions of `parser.m4` with their actions, as derivations with trees |
| `Model.Nodes` | how the trees of the parser lie in the heap of the evaluator (fields of `c.lang`, `tree_make`) |
| `Model.Heap` | making the objects of a tree (`tree_make` in the actions of parser.m4) |
| `Model.Printer` | `pretty-printer.c` |
| `Model.ReplLoop`, `Model.Startup`, `Model.Include`, `Model.Several`, `Model.InspectLine` | `repl.c:371-485`, `evaluate.c:2549-2596`, `evaluate.c:1009-1016` |
| `Model.Inspect` | `inspect.c`, `evaluate.c:1009-1027`, descriptions of `c.lang`; loci are a parameter |
| `Model.Preprocess` | `preprocess.c`: the buffer, the command, the text of the file |
| `Model.Repl` | `repl.c`: last line, splitting at `.`/`->`, completion, the pipe |
| `Model.CTypesGen` | `genctypes.cpp`, `genffitypes.cpp` (the texts written, not `main` and `usage`) |
| `Model.Cscript`, `Model.Main` | `cscript.c`, `main.c` |

Not modelled: the preprocessor process, the LALR automaton of bison (that its tables
implement the productions, with the one conflict resolved by `%right`, is trusted;
C86–C91 start from texts, the other evaluator theorems from trees), readline, signals, the layout of `gendot.cpp`'s output (colours, clusters, indentation), where objects were declared (loci; `T_INSPECT` is modelled beside the evaluator, with the loci as a parameter), the interactive switch to the REPL
(`T_REPL`), type names the startup file and the headers included at the REPL make, tree objects left by rejected
lines, floating point values (they are opaque in the model), failing
`malloc`.

## Style of the evaluator model

Tree objects live in a heap (`TId -> Node`), because `evaluate.c` mutates the
program it runs.  C memory is a byte map with allocated ranges; fresh `malloc`
memory has arbitrary contents given by a parameter, so a theorem about all
parameters is a theorem about all uninitialised contents.  The evaluator is one
step function open in its recursive calls, closed by a fuel index; running out
of fuel is an outcome of its own, and fuel monotonicity is proved (C64), so theorems
say `Conv`: the outcome for every sufficiently large budget.
Outcomes: normal, `die` (eval_die), `exit n`, `jump` (longjmp of a return),
`ub` (crash or undefined behaviour in the interpreter itself), out of fuel.

Three bodies of lemmas carry most proofs:

* `Proofs.ExprEval`, `Proofs.Prog`: simulation of the specification languages
  (`Spec.Expr`, `Spec.Prog`, `Spec.Control`) by the evaluator, by induction on the
  big-step derivation;
* `Proofs.Evol`: an invariant preserved by every function of the evaluator and a
  relation between the states before and after every evaluation (nothing is
  undeclared, no object moves, only listed kinds of nodes are rewritten);
* `Proofs.Conv`, `Proofs.Mono`: budgets.

Concrete witnesses (examples beside theorems, refutations) are evaluated by the kernel
(`decide +kernel`) on states built in `Proofs.Witness`.

## How to read the results

Where the code does not have a property, the property is kept as `Cxx_statement : Prop`,
`Cxx_refuted` proves its negation on a witness, and the theorems with suffix `_partial`
prove the part that holds; the note says what is missing.  Theorems without suffix
beside them prove how far the failure goes (for example `C53_arrow_never`).

## Mutation testing

`seeded/LOG.jsonl` records deliberately wrong edits of the model (in a copy outside this
directory), the theorems that stopped building and the theorems that were tightened.

## Properties

### C01 — Integer expressions evaluate to their mathematical value (partial)

*Model:* `Model.Eval`, `Model.Gmp`, `Model.CType`  
*Proof:* induction on the big-step derivation of the value (`Spec.Expr`), for any state and any nesting; the values are compared with unbounded integers, hence with C whenever C defines a value.  
*Result:* Full statement C01_statement is false of the code (C01_refuted). Proved for every expression in which division, right shift and conditional operators stay in the range where GMP's rounding agrees with C; missing are exactly those cases.  
*Theorems:* `Bic.C01_expressions_partial` (Props/Expr.lean; PCQ), `Bic.C01_plain_partial` (Props/Expr.lean; PCQ), `Bic.C01_refuted` (Props/Expr.lean; PQ), `Bic.C01_value_is_C` (Props/Expr.lean; P)

### C02 — Division and remainder agree with C (partial)

*Model:* `Model.Eval`, `Model.Gmp`  
*Proof:* through C01; floor against truncating division on `Int`.  
*Result:* `%` is right for all operands; `/` rounds down, so it is right when exact or when the quotient is not negative. Full statement refuted.  
*Theorems:* `Bic.C02_rem_partial` (Props/Expr.lean; PCQ), `Bic.C02_div_partial` (Props/Expr.lean; PCQ), `Bic.C02_total` (Props/Expr.lean; PCQ), `Bic.C02_refuted` (Props/Expr.lean; PQ), `Bic.C02_identity_fails` (Props/Expr.lean; P)

### C03 — Division or remainder by zero never yields a value (proved)

*Model:* `Model.Eval`  
*Proof:* case analysis of the operator with a zero divisor: no normal outcome exists for any budget.  
*Theorems:* `Bic.C03_no_result` (Props/Expr.lean; PQ)

### C04 — Shifts multiply and divide by powers of two (partial)

*Model:* `Model.Eval`, `Model.Gmp`  
*Proof:* through C01; shifts as multiplication and division by powers of two; bits of two's complement (`Spec.Bits`).  
*Result:* Right shift of a negative number that is not a multiple rounds towards zero; full statement refuted. Everything else proved for counts below 2^64.  
*Theorems:* `Bic.C04_shift_partial` (Props/Expr.lean; PCQ), `Bic.C04_refuted` (Props/Expr.lean; PQ), `Bic.C04_negative_count` (Props/Expr.lean; P)

### C05 — Comparison operators form one consistent total order (partial)

*Model:* `Model.Eval`  
*Proof:* through C01; comparison yields 0 or 1; trichotomy from the order of `Int`.  
*Result:* Variables of unsigned 64-bit types holding 2^63 or more compare as negative; full statement refuted.  
*Theorems:* `Bic.C05_compare_partial` (Props/Expr.lean; PCQ), `Bic.C05_trichotomy_partial` (Props/Expr.lean; PCQ), `Bic.C05_refuted` (Props/Expr.lean; PQ)

### C06 — Reading an integer variable gives its C value (partial)

*Model:* `Model.Eval`, `Model.CType`  
*Proof:* decoding of the bytes of each type against the value ranges of `Spec.CInt`.  
*Result:* Unsigned 64-bit variables holding 2^63 or more are read as negative; full statement refuted.  
*Theorems:* `Bic.C06_read_partial` (Props/Expr.lean; PCQ), `Bic.C06_refuted` (Props/Expr.lean; PQ)

### C07 — Assigning a constant wraps modulo the width of the type (partial)

*Model:* `Model.Eval`, `Model.CType`  
*Proof:* encode/decode round trip against reduction modulo 2^n into the range of the type (`Spec.CInt`).  
*Result:* Proved for all constants and the types of at most 32 bits, and for the 64-bit types when the constant fits a long (mpz_get_si drops bits otherwise). Full statement refuted.  
*Theorems:* `Bic.C07_assign_partial` (Props/Assign.lean; PCQ), `Bic.C07_refuted` (Props/Assign.lean; PCQ)

### C08 — Assigning one integer variable to another converts the value (partial)

*Model:* `Model.Eval`, `Model.CType`  
*Proof:* the same with the source read from memory.  
*Result:* Proved whenever the target is not wider than the source; the code reads 8 bytes whatever the type of the source, so the full statement is refuted.  
*Theorems:* `Bic.C08_assign_partial` (Props/Assign.lean; PCQ), `Bic.C08_refuted` (Props/Assign.lean; PCQ)

### C09 — An assignment leaves every other variable alone (proved)

*Model:* `Model.Eval`  
*Proof:* frame lemma for byte memory: an assignment writes the range of its target only.  
*Theorems:* `Bic.C09_isolation` (Props/Assign.lean; PQ)

### C10 — The value of an assignment expression is the value stored (partial)

*Model:* `Model.Eval`  
*Proof:* two assignments composed.  
*Result:* The value of an assignment is the unconverted right-hand side; proved when the value fits the type, full statement refuted.  
*Theorems:* `Bic.C10_chained_partial` (Props/Steps.lean; PCQ), `Bic.C10_refuted` (Props/Steps.lean; PCQ)

### C11 — A compound assignment evaluates its left side once (partial)

*Model:* `Model.Eval`, `Model.Build`  
*Proof:* the shared left node is evaluated twice; when that is pure both evaluations agree.  
*Result:* The left node is shared by tree_make_binmod and evaluated twice; proved when evaluating it changes nothing, full statement refuted.  
*Theorems:* `Bic.C11_pure_partial` (Props/Steps.lean; PCQ), `Bic.C11_variable_partial` (Props/Steps.lean; PCQ), `Bic.C11_refuted` (Props/Steps.lean; PQ)

### C12 — Increment and decrement (partial)

*Model:* `Model.Eval`, `Model.CType`  
*Proof:* `live_var_add`/`live_var_sub` on the decoded value, modulo 2^n.  
*Result:* Values of 2^63 and more are read as negative; full statement refuted.  
*Theorems:* `Bic.C12_steps_partial` (Props/Steps.lean; PCQ), `Bic.C12_small_partial` (Props/Steps.lean; PCQ), `Bic.C12_refuted` (Props/Steps.lean; PCQ)

### C13 — Pointer stepping moves by one element (partial)

*Model:* `Model.Eval`  
*Proof:* address arithmetic of `live_var_add` against element sizes.  
*Result:* The code steps pointers by one byte; proved for one-byte elements, full statement refuted.  
*Theorems:* `Bic.C13_bytes_partial` (Props/Steps.lean; PCQ), `Bic.C13_refuted` (Props/Steps.lean; PQ)

### C14 — A cast converts the value (proved)

*Model:* `Model.Eval`  
*Proof:* all integer and pointer types against `Spec.CInt`.  
*Theorems:* `Bic.C14_cast` (Props/Steps.lean; PCQ)

### C15 — Array indexing addresses the i-th element (partial)

*Model:* `Model.Eval`  
*Proof:* address of the element by `Spec`-side arithmetic; disjointness of element ranges.  
*Result:* a[-1] is a[1] (mpz_get_ui drops the sign): full statement refuted. Proved for non-negative subscripts, of any declared array of a basic type and of any pointer; elements of different subscripts do not overlap.  
*Theorems:* `Bic.C15_index_partial` (Props/Pointers.lean; PCQ), `Bic.C15_elements_partial` (Props/Pointers.lean; PCQ), `Bic.C15_declared` (Props/Pointers.lean; PCQ), `Bic.C15_refuted` (Props/Pointers.lean; PQ)

### C16 — Address-of and dereference are inverse (partial)

*Model:* `Model.Eval`  
*Proof:* address-of followed by dereference gives an object with the same address and type.  
*Result:* For arrays *&a is not the array: full statement refuted. Proved for variables of basic and pointer types.  
*Theorems:* `Bic.C16_deref_addr_partial` (Props/Pointers.lean; PCQ), `Bic.C16_assign` (Props/Pointers.lean; PCQ), `Bic.C16_addr_deref` (Props/Pointers.lean; PCQ), `Bic.C16_refuted` (Props/Pointers.lean; PQ)

### C17 — Structure members do not overlap (partial)

*Model:* `Model.Eval`, `Spec.Layout`  
*Proof:* induction on the member list of `eval_decl_compound` and of `instantiate_struct`; intervals inside the object and disjoint.  
*Result:* Member types are looked up again by name when a variable is made, so a tag redeclared in between makes members overlap or stick out: full statement refuted. Proved for structs whose members are of basic or pointer type, arrays of such, or pointers to structs and unions (also to the struct itself).  
*Theorems:* `Bic.C17_members_partial` (Props/Structs.lean; PCQ), `Bic.C17_refuted` (Props/Structs.lean; PQ)

### C18 — Structure layout equals the platform C ABI (partial)

*Model:* `Model.Eval`, `Spec.Layout`  
*Proof:* induction on the member list against the ABI rule (least aligned offset behind the previous member).  
*Result:* No padding is added at the end of a struct: full statement refuted. Proved: all the offsets, and the size up to that padding, for members of basic or pointer type, arrays of such, and pointers to structs and unions.  
*Theorems:* `Bic.C18_offsets_partial` (Props/Structs.lean; PCQ), `Bic.C18_refuted` (Props/Structs.lean; PQ)

### C19 — Union members share their storage (partial)

*Model:* `Model.Eval`, `Spec.Layout`  
*Proof:* as C17 for unions: all offsets 0, size the maximum.  
*Result:* False in full: as for C17 a member type whose tag is redeclared makes the member larger than the union (C19_refuted). Proved for unions whose members are of basic or pointer type, arrays of such, or pointers to structs and unions; missing: nested compound members whose tags are not redeclared.  
*Theorems:* `Bic.C19_refuted` (Props/Structs.lean; PCQ), `Bic.C19_union_partial` (Props/Structs.lean; PCQ)

### C20 — Writing one structure member leaves the others alone (partial)

*Model:* `Model.Eval`  
*Proof:* C17 and the frame lemma of C09.  
*Result:* Refuted with the same witness as C17. Proved for structs whose members are of basic or pointer type, arrays of such, or pointers to structs and unions (also to the struct itself).  
*Theorems:* `Bic.C20_isolation_partial` (Props/Structs.lean; PCQ), `Bic.C20_refuted` (Props/Structs.lean; PQ)

### C21 — Declaration specifiers mean the same in any order (partial)

*Model:* `Model.Spec`, `Spec.CSpecifiers`  
*Proof:* for every table: the bit string counts specifiers (induction on the specifier list); then the table of `c.lang` against the multisets of C11 6.7.2.  
*Result:* Type specifiers and permutations of them are right for the multisets the table has; `register`, and `_Bool`, are not accepted, so the full statement is refuted.  
*Theorems:* `Bic.C21_specifiers_partial` (Props/Specifiers.lean; PCQ), `Bic.C21_order_partial` (Props/Specifiers.lean; PCQ), `Bic.C21_refuted` (Props/Specifiers.lean; PCQ), `Bic.C21_bool_rejected` (Props/Specifiers.lean; PCQ)

### C22 — An identifier denotes its innermost declaration (proved)

*Model:* `Model.Eval`  
*Proof:* induction on the chain of scopes of `__resolve_identifier`.  
*Theorems:* `Bic.C22_innermost` (Props/Scope.lean; PQ), `Bic.C22_undeclared` (Props/Scope.lean; PQ)

### C23 — A scope never declares the same name twice (proved)

*Model:* `Model.Eval`  
*Proof:* `Evol`: every evaluation keeps declared names; redeclaration dies before anything is mapped.  
*Result:* C23_redeclare is about declarations with keyword types and plain or initialised declarators; C23_kept is about every evaluation.  
*Theorems:* `Bic.C23_kept` (Props/Scope.lean; PCQ), `Bic.C23_redeclare` (Props/Scope.lean; PQ)

### C24 — Blocks restore the scope they were entered from (partial)

*Model:* `Model.Eval`  
*Proof:* induction over the evaluator for programs without break (every function restores the current scope).  
*Result:* A loop left by break leaves its scope open; proved for programs without break, full statement refuted.  
*Theorems:* `Bic.C24_restored_partial` (Props/Scope.lean; PQ), `Bic.C24_kept_partial` (Props/Scope.lean; PQ), `Bic.C24_refuted` (Props/Scope.lean; PQ)

### C25 — Functions see their own scope and the globals only (partial)

*Model:* `Model.Eval`, `Spec.Prog`  
*Proof:* simulation of calls; the callee's store is the globals and the parameters.  
*Result:* False in full: the scope of the caller is the parent of the scope of the callee. Proved for all integer functions and calls when no local variable of a caller has the name of a free variable of the body.  
*Theorems:* `Bic.C25_refuted` (Props/Calls.lean; PCQ), `Bic.C25_globals_partial` (Props/Calls.lean; PCQ)

### C26 — Arguments are evaluated in the caller's scope (partial)

*Model:* `Model.Eval`, `Spec.Prog`  
*Proof:* induction on the argument list, with the parameters declared so far.  
*Result:* False in full: an argument that uses the name of an earlier parameter gets that parameter. Proved for all other argument lists of integer functions.  
*Theorems:* `Bic.C26_refuted` (Props/Calls.lean; PCQ), `Bic.C26_arguments_partial` (Props/Calls.lean; PCQ)

### C27 — Parameters are passed by value (partial)

*Model:* `Model.Eval`, `Spec.Prog`  
*Proof:* frame theorem for programs (`Proofs.Frames`): scopes not mentioned keep their values.  
*Result:* Proved for all integer functions that assign only to their parameters and own variables (ifs and loops included), for bodies and arguments on which bic agrees with C; the caller's variables all keep their values. Missing: bodies and arguments outside that language.  
*Theorems:* `Bic.C27_by_value_partial` (Props/Calls.lean; PCQ)

### C28 — A call with the wrong number of arguments is rejected (partial)

*Model:* `Model.Eval`  
*Proof:* induction on the two lists walked in parallel.  
*Result:* False in full: a function declared with () takes any number of arguments. Proved for every function with at least one parameter and every other number of arguments.  
*Theorems:* `Bic.C28_refuted` (Props/Calls.lean; PQ), `Bic.C28_count_partial` (Props/Calls.lean; PCQ)

### C29 — A call returns the value of the executed return statement (partial)

*Model:* `Model.Eval`  
*Proof:* the value passed by longjmp is the value of the operand, for a return statement not yet rewritten.  
*Result:* False in full: a return statement is overwritten with its value, so later calls return the first value. Proved for calls before which the return statements are as parsed.  
*Theorems:* `Bic.C29_refuted` (Props/Calls.lean; PCQ), `Bic.C29_first_partial` (Props/Calls.lean; PCQ)

### C30 — A return statement ends the call wherever it stands (partial)

*Model:* `Model.Eval`, `Spec.Control`  
*Proof:* induction on the nesting of statements around the return.  
*Result:* False in full: an unbraced return as body of an if or loop does not return. Proved for return statements in braces at any depth, any statements.  
*Theorems:* `Bic.C30_refuted` (Props/Calls.lean; PQ), `Bic.C30_return_partial` (Props/Calls.lean; PCQ), `Bic.C30_end` (Props/Calls.lean; PCQ)

### C31 — break ends exactly the innermost loop (partial)

*Model:* `Model.Eval`, `Spec.Control`  
*Proof:* induction on the number of rounds before the break.  
*Result:* False in full: a break inside the braces of an if leaves only those braces, and the scope of the loop stays open so that an outer loop ends too. Proved for a break directly in the braces of a while or for loop, after any number of rounds.  
*Theorems:* `Bic.C31_refuted` (Props/Control.lean; PQ), `Bic.C31_while_partial` (Props/Control.lean; PCQ), `Bic.C31_for_partial` (Props/Control.lean; PCQ)

### C32 — Loops run while their condition is non-zero (partial)

*Model:* `Model.Eval`, `Spec.Control`  
*Proof:* simulation in both directions, by induction on the derivation and on the budget.  
*Result:* False in full: a condition that is a positive multiple of 2^63 counts as zero. Proved otherwise: a run C describes is done by the evaluator (any nesting, any number of rounds), and a while loop that ends did rounds with non-zero condition and then found it zero or was broken.  
*Theorems:* `Bic.C32_refuted` (Props/Control.lean; PQ), `Bic.C32_loops_partial` (Props/Control.lean; PCQ), `Bic.C32_only_partial` (Props/Control.lean; PCQ)

### C33 — if takes the branch its condition selects (partial)

*Model:* `Model.Eval`, `Spec.Control`  
*Proof:* case analysis on the value of the condition (`mpz_get_si`/`ui` truncation).  
*Result:* False in full for positive multiples of 2^63. Proved for all other values of the condition and arbitrary branches; ! proved for all values.  
*Theorems:* `Bic.C33_refuted` (Props/Control.lean; PQ), `Bic.C33_if_partial` (Props/Control.lean; PCQ), `Bic.C33_not` (Props/Control.lean; PQ)

### C34 — Structured integer programs refine the C semantics (partial)

*Model:* `Model.Eval`, `Spec.Prog`  
*Proof:* simulation of the big-step semantics by induction on the derivation, plus determinism (C64) for the converse.  
*Result:* False in full (division of negative numbers, see C02). Proved for all structured integer programs whose operations bic gets right: execution ends in the store C gives and no other.  
*Theorems:* `Bic.C34_refuted` (Props/Prog.lean; PQ), `Bic.C34_programs_partial` (Props/Prog.lean; PCQ), `Bic.C34_only_partial` (Props/Prog.lean; PCQ)

### C35 — Static locals keep their value between calls (partial)

*Model:* `Model.Eval`  
*Proof:* invariant over an arbitrary history between two executions of the declaration (`Evol`).  
*Result:* Proved for every history between the executions and all declarators, for specifiers that are keywords, typedef names or references to tags. Missing: bodies of structures and enumerations inside the static declaration.  
*Theorems:* `Bic.C35_static_partial` (Props/Static.lean; PQ)

### C36 — A declaration means the same each time it is executed (partial)

*Model:* `Model.Eval`  
*Proof:* the declaration's trees after the first execution are as before (for the declarators listed).  
*Result:* False in full: executing `int *p = e;` strips the pointer off the tree, the second time p is an int. Proved for scalars and pointers of any depth without initialisers, and for integers with and without initialisers.  
*Theorems:* `Bic.C36_refuted` (Props/Redecl.lean; PQ), `Bic.C36_plain_partial` (Props/Redecl.lean; PQ), `Bic.C36_init_partial` (Props/Redecl.lean; PCQ)

### C37 — Enumerators count up from the last explicit value (partial)

*Model:* `Model.Eval`, `Spec.Enum`  
*Proof:* induction on the enumerator list.  
*Result:* False in full: enumerators are counted with an unsigned int, -1 becomes 1. Proved for all lists of enumerators with values in 0 .. 2^32-1 and expressions that may use earlier enumerators.  
*Theorems:* `Bic.C37_refuted` (Props/Enum.lean; PQ), `Bic.C37_enumerators_partial` (Props/Enum.lean; PCQ)

### C38 — sizeof does not evaluate its operand and gives the C size (partial)

*Model:* `Model.Eval`  
*Proof:* per form of operand; size tables against `Spec.CInt`.  
*Result:* sizeof evaluates its operand (sizeof (x = y) assigns) and ends the program for integer constants: full statement refuted. Proved for type names made of type keywords, variables and arrays.  
*Theorems:* `Bic.C38_type_partial` (Props/Pointers.lean; PCQ), `Bic.C38_var_partial` (Props/Pointers.lean; PCQ), `Bic.C38_array_partial` (Props/Pointers.lean; PCQ), `Bic.C38_struct` (Props/Structs.lean; PCQ), `Bic.C38_refuted` (Props/Pointers.lean; PQ)

### C39 — A name is a type name exactly when a typedef introduced it (proved)

*Model:* `Model.Typename`  
*Proof:* induction on the history of declarations.  
*Result:* All histories of declarations of the program and includes; parsing itself is not modelled, a history lists the declarations the parser reduces.  
*Theorems:* `Bic.Typename.C39_typenames` (Props/Typename.lean; PQ)

### C40 — List operations implement sequences (proved)

*Model:* `Model.ListC`, `Spec.Sequences`  
*Proof:* refinement: rings of pointers represent sequences, preserved by every operation.  
*Theorems:* `Bic.C40_sequences` (Props/Lists.lean; PCQ)

### C41 — Splicing lists concatenates them (partial)

*Model:* `Model.ListC`, `Spec.Sequences`  
*Proof:* refinement as C40.  
*Result:* list_splice never gives the joined list when the spliced list is not empty; proved for what it does otherwise.  
*Theorems:* `Bic.C41_others_partial` (Props/Lists.lean; PCQ), `Bic.C41_never` (Props/Lists.lean; PCQ), `Bic.C41_refuted` (Props/Lists.lean; PCQ)

### C42 — Completion does not disturb the program (partial)

*Model:* `Model.Repl`, `Model.ListC`, `Model.Eval`  
*Proof:* refinement between the evaluator state and the heap of list objects; which list nodes are written.  
*Result:* False in full: completion re-chains the program's identifier trees; completing `a` after `int ab, c;` breaks the declaration. Proved for every state and prefix: scopes and every chain not containing a matching identifier directly stay as they are. Assumes the matching identifiers are different trees.  
*Theorems:* `Bic.Repl.C42_refuted` (Props/Complete.lean; PCQ), `Bic.Repl.C42_untouched_partial` (Props/Complete.lean; PCQ)

### C43 — Nested blocks are executed (partial)

*Model:* `Model.Eval`, `Spec.Control`  
*Proof:* simulation as C32.  
*Result:* False in full: a block directly in a block is skipped. Proved for blocks nested as bodies of if, while and for.  
*Theorems:* `Bic.C43_refuted` (Props/Control.lean; PQ), `Bic.C43_blocks_partial` (Props/Control.lean; PCQ)

### C44 — A hash table finds what was put in (proved)

*Model:* `Model.HashTable`  
*Proof:* invariant: every element is in the bin of its key; induction over the operations.  
*Theorems:* `Bic.C44_lookup` (Props/Lists.lean; PCQ)

### C45 — The collector never frees a reachable object and frees all others (partial)

*Model:* `Model.Gc`, `Spec.Reach`  
*Proof:* marking computes reachability (induction on the order of a graph without cycle in reach; divergence on a cycle).  
*Result:* Marking has no visited check, so a collection with a cycle in reach does not end: full statement refuted. Proved: every collection that ends keeps exactly the reachable objects, and it ends when no cycle is in reach and fewer than 10000 table entries are in use.  
*Theorems:* `Bic.Gc.C45_collect_partial` (Props/Gc.lean; PCQ), `Bic.Gc.C45_kept` (Props/Gc.lean; PCQ), `Bic.Gc.C45_endless` (Props/Gc.lean; PCQ), `Bic.Gc.C45_refuted` (Props/Gc.lean; PCQ)

### C46 — The collector's table stays within bounds (partial)

*Model:* `Model.Gc`, `Spec.Histories`  
*Proof:* invariant of the allocation table over all histories.  
*Result:* With exactly 10000 entries in use a collection reads past the table; after the table is enlarged most new entries are not cleared. Proved for histories below 10000 entries; C46_exact says when it goes wrong in general.  
*Theorems:* `Bic.Gc.C46_history_partial` (Props/Gc.lean; PCQ), `Bic.Gc.C46_exact` (Props/Gc.lean; PCQ), `Bic.Gc.C46_refuted` (Props/Gc.lean; PCQ)

### C47 — No collection happens while collection is inhibited (proved)

*Model:* `Model.Gc`, `Spec.Histories`  
*Proof:* invariant: the inhibit count equals the nesting depth.  
*Theorems:* `Bic.Gc.C47_inhibited` (Props/Gc.lean; PQ)

### C48 — The collector recognises exactly the live objects (proved)

*Model:* `Model.Gc`  
*Proof:* binary search on a sorted table.  
*Theorems:* `Bic.Gc.C48_recognised` (Props/Gc.lean; PCQ)

### C49 — A variable's storage outlives every use of it (partial)

*Model:* `Model.Gc`  
*Proof:* reachability from the variable to its allocation record.  
*Result:* Storage belongs to the scope a variable was declared in and is released when that is out of reach, even if the variable is not. Proved when the allocation record is in reach.  
*Theorems:* `Bic.Gc.C49_storage_partial` (Props/Gc.lean; PCQ), `Bic.Gc.C49_exact` (Props/Gc.lean; PCQ), `Bic.Gc.C49_refuted` (Props/Gc.lean; PCQ)

### C50 — Tree fields of one node kind never share storage (partial)

*Model:* `Model.LangGen`, `Spec.LangDesc`  
*Proof:* the parser inverts the writing of descriptions (both directions); invariant of the field pools by induction on the description; names of fields are injective.  
*Result:* Refuted in general: a base type named t shares its field names with the trees. Proved for all descriptions whose base types are neither named t nor end in a digit, among them the whole of c.lang (C50_clang). The C compiler's treatment of the emitted text is not modelled.  
*Theorems:* `Bic.LangGen.C50_refuted` (Props/LangGen.lean; PCQ), `Bic.LangGen.C50_separate_partial` (Props/LangGen.lean; PCQ), `Bic.LangGen.C50_fields_nodup_partial` (Props/LangGen.lean; PCQ), `Bic.LangGen.C50_accepted` (Props/LangGen.lean; PCQ), `Bic.LangGen.C50_clang` (Props/Clang.lean; PCQ)

### C51 — Completion matches survive the trip through the pipe (partial)

*Model:* `Model.Repl`  
*Proof:* induction on the list of strings, for every schedule of reads and writes.  
*Result:* False in full: the length returned by read is ignored, and writes of more than PIPE_BUF bytes may arrive in parts. Proved for all lists of strings of fewer than 4096 bytes, every scheduling; every longer string can be received wrongly.  
*Theorems:* `Bic.Repl.C51_refuted` (Props/Pipe.lean; PCQ), `Bic.Repl.C51_short_partial` (Props/Pipe.lean; PCQ), `Bic.Repl.C51_long` (Props/Pipe.lean; PCQ)

### C52 — Completion offers exactly the visible names with the prefix (partial)

*Model:* `Model.Repl`, `Model.ListC`  
*Proof:* induction on the scopes and maps walked.  
*Result:* False in full: an identifier visible in two scopes (leaked by break) is chained twice and walking the matches does not end. Proved for every state and prefix whose matching identifiers are different trees: exactly the visible names with the prefix, in order.  
*Theorems:* `Bic.Repl.C52_refuted` (Props/Complete.lean; PCQ), `Bic.Repl.C52_offers_partial` (Props/Complete.lean; PCQ)

### C53 — A member access being completed is split at its last operator (partial)

*Model:* `Model.Repl`  
*Proof:* induction on the text.  
*Result:* False in full: `ab->c` is split into `a` and `>c`. Proved for all texts with a dot, and for objects of one character with an arrow; proved that no longer object with an arrow is split correctly.  
*Theorems:* `Bic.Repl.C53_refuted` (Props/ReplText.lean; P), `Bic.Repl.C53_dot_partial` (Props/ReplText.lean; PQ), `Bic.Repl.C53_arrow_partial` (Props/ReplText.lean; PCQ), `Bic.Repl.C53_arrow_never` (Props/ReplText.lean; PCQ)

### C54 — String literals decode to the bytes they denote (partial)

*Model:* `Model.Lexer`, `Spec.Literal`, `Spec.Regex`  
*Proof:* derivatives decide matching; induction on the pieces of the literal.  
*Result:* False in full: `\r` and the other simple escapes, hexadecimal escapes and NUL are not read as C does. Proved for every literal made of ordinary characters, \n, \t, \\, \" and octal escapes other than NUL with no octal digit behind them; proved that the unknown escapes are always errors and that NUL is always dropped.  
*Theorems:* `Bic.Lexer.C54_refuted` (Props/Literals.lean; PCQ), `Bic.Lexer.C54_bytes_partial` (Props/Literals.lean; PCQ), `Bic.Lexer.C54_unknown_escape` (Props/Literals.lean; PCQ), `Bic.Lexer.C54_nul` (Props/Literals.lean; PCQ)

### C55 — Character literals decode to the character they denote (partial)

*Model:* `Model.Lexer`, `Spec.Literal`, `Spec.Regex`  
*Proof:* as C54 for one piece.  
*Result:* False in full: '\t' is an error. Proved for every character that stands for itself and for \n, \\ and \r; proved that every other escape of one character is an error.  
*Theorems:* `Bic.Lexer.C55_refuted` (Props/Literals.lean; PCQ), `Bic.Lexer.C55_value_partial` (Props/Literals.lean; PCQ), `Bic.Lexer.C55_unknown_escape` (Props/Literals.lean; PCQ)

### C56 — A printed integer reads back as itself (proved)

*Model:* `Model.Lexer`, `Model.Printer`  
*Proof:* longest match of the number rules on printed digits; digits read back.  
*Result:* Every value of an integer type, printed by the pretty printer and followed by anything that ends a number, is read as one token with that value.  
*Theorems:* `Bic.Lexer.C56_reads_back` (Props/Lexical.lean; PCQ)

### C57 — Subtraction is recognised with or without spaces (partial)

*Model:* `Model.Lexer`  
*Proof:* longest match on the text.  
*Result:* False in full: `x-1` is read as a name and the constant -1. Proved for all names and digits: with a blank after the minus sign there are three tokens, and without one there are always two.  
*Theorems:* `Bic.Lexer.C57_refuted` (Props/Lexical.lean; PCQ), `Bic.Lexer.C57_blank_partial` (Props/Lexical.lean; PCQ), `Bic.Lexer.C57_glued` (Props/Lexical.lean; PCQ)

### C58 — Arguments of library calls arrive in order with promoted types (partial)

*Model:* `Model.Eval` (`do_call`, `do_ext_call`)  
*Proof:* induction on the argument list.  
*Result:* False in full: a variadic unsigned char or unsigned short is passed as unsigned int, and a call with more than 32 arguments ends the interpreter. Proved for every list of at most 32 arguments: they arrive in order with their values, and with the promoted types except for those two.  
*Theorems:* `Bic.C58_refuted` (Props/ExtCall.lean; PCQ), `Bic.C58_promoted_partial` (Props/ExtCall.lean; PCQ), `Bic.C58_values_partial` (Props/ExtCall.lean; PCQ), `Bic.C58_too_many` (Props/ExtCall.lean; PCQ)

### C59 — Integer constants reach library functions unchanged (partial)

*Model:* `Model.Eval` (`do_ext_call`)  
*Proof:* conversion of the constant to `int`.  
*Result:* False in full: every constant is passed as an int. Proved: each constant that fits an int arrives, and each that fits a long but not an int does not.  
*Theorems:* `Bic.C59_refuted` (Props/ExtCall.lean; PCQ), `Bic.C59_fits_partial` (Props/ExtCall.lean; PCQ), `Bic.C59_large_never` (Props/ExtCall.lean; PCQ)

### C60 — The exit status of a script is the return value of main (partial)

*Model:* `Model.Cscript`, `Model.Eval`  
*Proof:* through C30; status modulo 256.  
*Result:* False in full: the value main returns is ignored and the status is 0 (C60_refuted, and C60_main_zero for every such script). Proved for every value of a return at top level, in blocks, conditional statements and loops: the status is the value modulo 256. Proved that a script with main and other code ends with status 1 and evaluates nothing.  
*Theorems:* `Bic.C60_refuted` (Props/Script.lean; PQ), `Bic.C60_return_partial` (Props/Script.lean; PCQ), `Bic.C60_main_zero` (Props/Script.lean; PCQ), `Bic.C60_mixed` (Props/Script.lean; PCQ)

### C61 — main receives the command line (partial)

*Model:* `Model.Cscript`, `Model.Main`, `Model.Eval`  
*Proof:* induction on the command line and on the array built by `create_arguments`.  
*Result:* False in full: with the name attached to -s (`-sx.c a`) the arguments the script receives are not those of the command line. Proved for every command line on which -s is separate: the script receives its name and the words behind it, in order; argc and argv hold them; main receives them (its first parameter not being called argv).  
*Theorems:* `Bic.C61_refuted` (Props/Script.lean; PCQ), `Bic.C61_attached` (Props/Script.lean; PQ), `Bic.C61_command_line_partial` (Props/Script.lean; PQ), `Bic.C61_args` (Props/Script.lean; PCQ), `Bic.C61_main_partial` (Props/Script.lean; PCQ)

### C62 — Bytes and values correspond one to one (proved)

*Model:* `Model.CType`  
*Proof:* encode/decode round trip for every type.  
*Theorems:* `Bic.C62_store_load` (Props/Steps.lean; PCQ), `Bic.C62_load_injective` (Props/Steps.lean; PCQ)

### C63 — The evaluator never loses or moves an existing object (proved)

*Model:* `Model.Eval`  
*Proof:* `Evol`: allocated ranges of live objects stay disjoint and inside memory.  
*Theorems:* `Bic.C63_objects` (Props/Scope.lean; PQ)

### C64 — Evaluation is deterministic (proved)

*Model:* `Model.Eval`  
*Proof:* monotonicity of every function in its recursive calls.  
*Theorems:* `Bic.C64_deterministic` (Props/Steps.lean; PQ)

### C65 — The last line of the preprocessed text is what gets parsed (partial)

*Model:* `Model.Repl`  
*Proof:* induction on the text.  
*Result:* False in full: the newline that ends the line before is handed to the parser, too. Proved for all outputs: the text handed over is the last line, preceded by that newline if there is one; the output of one empty line is excluded (bic exits).  
*Theorems:* `Bic.Repl.C65_refuted` (Props/ReplText.lean; P), `Bic.Repl.C65_last_line_partial` (Props/ReplText.lean; PCQ)

### C66 — A library call has the effect and the value of the library function (proved)

*Model:* `Model.Eval` (`do_ext_call`)  
*Proof:* the library function is a parameter; state before and after compared.  
*Result:* The library function is an arbitrary function of the arguments and the memory that frees none of the memory of the program and returns at most 16 bytes.  
*Theorems:* `Bic.C66_effect_and_value` (Props/ExtCall.lean; PCQ)

### C67 — The collector traverses exactly the tree-valued properties (proved)

*Model:* `Model.LangGen`, `Spec.LangDesc`  
*Proof:* through the invariant of C50.  
*Result:* For every accepted description; what mark_tree does with the value is C45.  
*Theorems:* `Bic.LangGen.C67_marked` (Props/LangGen.lean; PCQ)

### C68 — &&, || and ?: evaluate only the operands C says (proved)

*Model:* `Model.Eval` (`eval_logic_and`, `eval_logic_or`, `eval_infix`)  
*Proof:* each outcome of the operand is followed through the bind of the evaluator; `SameRun` is an equivalence of all outcomes, so it covers programs that stop or never end.  
*Result:* For arbitrary operands with integer values; the condition of ?: must have a value in the range of long (gmp reduces others before comparing with 0).  
*Theorems:* `Bic.C68_and` (Props/Lazy.lean; PQ), `Bic.C68_or` (Props/Lazy.lean; PQ), `Bic.C68_conditional` (Props/Lazy.lean; PQ)

### C69 — The comma operator and expression lists run from left to right (proved)

*Model:* `Model.Eval` (`eval_comma`, `eval_expr_list`)  
*Proof:* induction on the list of expressions.  
*Result:* For arbitrary operands.  
*Theorems:* `Bic.C69_comma` (Props/Lazy.lean; PQ), `Bic.C69_stops` (Props/Lazy.lean; PQ), `Bic.C69_list` (Props/Lazy.lean; PQ)

### C70 — A binary operator combines the values of its operands (partial)

*Model:* `Model.Eval` (`eval_binary`, `live_var_to_int`)  
*Proof:* the operands are converted after both are evaluated; witness by kernel evaluation.  
*Result:* False in full: a call that returns a variable returns the variable and not its value, so f() + g() may add neither order's values. Proved for arithmetic if the left operand's result still has its value when the right operand has been evaluated, and for comparisons without that condition (their left operand is converted first).  
*Theorems:* `Bic.C70_refuted` (Props/Lazy.lean; PQ), `Bic.C70_arithmetic_partial` (Props/Lazy.lean; PCQ), `Bic.C70_compare` (Props/Lazy.lean; PCQ)

### C71 — Assigning to a pointer stores the address (partial)

*Model:* `Model.Eval` (`assign_ptr`)  
*Proof:* the eight bytes stored are the address modulo 2^64.  
*Result:* False in full: p = -1 stores the address 1 (mpz_get_ui drops the sign). Proved for all pointers and all constants that are not negative.  
*Theorems:* `Bic.C71_refuted` (Props/PtrAssign.lean; PQ), `Bic.C71_pointers_partial` (Props/PtrAssign.lean; PCQ)

### C72 — A string literal is stored with its NUL in new storage (proved)

*Model:* `Model.Eval` (`assign_ptr`, `eval_array_access`)  
*Proof:* induction on the string for the bytes stored; allocation is fresh because live memory is below the break; `p[i]` through C15.  
*Result:* As long as memory for the string is available.  
*Theorems:* `Bic.C72_string` (Props/PtrAssign.lean; PCQ), `Bic.C72_characters` (Props/PtrAssign.lean; PCQ)

### C73 — A program has one syntax tree (proved)

*Model:* `Model.Parser` (the productions and actions of parser.m4)  
*Proof:* a deterministic parser with fuel (`Proofs.ParseFn`) finds whatever is derivable: induction on derivations, each phrase with what may follow it (`Proofs.ParseComplete`); the parser is a function, so trees are unique.  
*Result:* For all token sequences, under the resolution of the if-else conflict by %right.  
*Theorems:* `Bic.C73_script` (Props/Grammar.lean; PCQ), `Bic.C73_repl` (Props/Grammar.lean; PCQ), `Bic.C73_stmt` (Props/Grammar.lean; PCQ), `Bic.C73_decl` (Props/Grammar.lean; PCQ), `Bic.C73_expr` (Props/Grammar.lean; PCQ)

### C74 — Operators group as in C (partial)

*Model:* `Model.Parser`; `Spec.Syntax` is the table of precedences  
*Proof:* both directions by induction (`Proofs.ParseExpr`), uniqueness by C73.  
*Result:* False in full: there are no signs (- x is rejected) and no cast directly below a prefix operator (*(int *)p is rejected). Proved for all other expressions; what is accepted is always an expression of C with the right tree. *=, %=, &= and |= are no tokens.  
*Theorems:* `Bic.C74_refuted` (Props/Grammar.lean; PCQ), `Bic.C74_no_cast` (Props/Grammar.lean; PCQ), `Bic.C74_groups_partial` (Props/Grammar.lean; PCQ), `Bic.C74_only` (Props/Grammar.lean; PQ), `Bic.C74_exactly_partial` (Props/Grammar.lean; PCQ)

### C75 — else belongs to the nearest if (proved)

*Model:* `Model.Parser` (`slIf` holds the resolution of the conflict)  
*Proof:* induction on derivations for the statement that ends with an open if; the tree by C73.  
*Theorems:* `Bic.C75_closed` (Props/Grammar.lean; P), `Bic.C75_nearest` (Props/Grammar.lean; PCQ)

### C76 — A declarator declares what C says (partial)

*Model:* `Model.Parser`; `Spec.Declarator` is C11 6.7.6  
*Proof:* both directions by induction, `fillPtr` commutes with stars (`Proofs.ParseDecl`).  
*Result:* False in full: a[] declares a pointer, a[static 3] is rejected. Proved for all declarators without these brackets, and that every accepted declarator is read as C does once empty brackets are taken for stars.  
*Theorems:* `Bic.C76_refuted` (Props/Grammar.lean; PCQ), `Bic.C76_no_static` (Props/Grammar.lean; PCQ), `Bic.C76_reads_partial` (Props/Grammar.lean; PCQ), `Bic.C76_reads_c` (Props/Grammar.lean; P), `Bic.C76_only_partial` (Props/Grammar.lean; PQ)

### C77 — Functions of any type can be defined (partial)

*Model:* `Model.Parser` (`setStmts` is the checked access macro)  
*Proof:* a declarator that reads as a function of the base type is a T_FN, by counting the steps to the base.  
*Result:* False in full: char *f() {} fails, the body is stored in a T_POINTER. Proved for functions that return the type of the specifiers.  
*Theorems:* `Bic.C77_refuted` (Props/Grammar.lean; PCQ), `Bic.C77_defines_partial` (Props/Grammar.lean; PCQ)

### C78 — An integer expression of the source has its value (partial)

*Model:* `Model.Parser`, `Model.Nodes` (the objects of a tree), the evaluator; `Spec.Source` says how expressions are written  
*Proof:* the tree stands for the expression (C74), its objects are those of the expression (induction on `Means`), C01 gives the value, C73 that there is no other tree.  
*Result:* Tokens to value. False where C01 is (-7 >> 1). Proved for all other integer expressions written by C's table of precedences; unary signs are not among them (C74).  
*Theorems:* `Bic.C78_refuted` (Props/Source.lean; PQ), `Bic.C78_value_partial` (Props/Source.lean; PCQ)

### C79 — A script leaves the variables with the values C gives them (partial)

*Model:* `Model.Parser`, `Model.Nodes`, the evaluator; `Spec.Source` says how programs are written  
*Proof:* induction on how the program is written gives its tree and the objects of the tree (`Proofs.Source`), C21 the declared types, C34 the run, C73 that there is no other tree.  
*Result:* Tokens to final store. False where C34 is (x = -7 / 2;). Proved for the programs of C34_programs_partial; a return is not the bare body of a loop or branch, for may not declare.  
*Theorems:* `Bic.C79_refuted` (Props/Source.lean; PQ), `Bic.C79_script_partial` (Props/Source.lean; PCQ), `Bic.C79_statement_partial` (Props/Source.lean; PCQ)

### C80 — An integer constant has its value (partial)

*Model:* `Model.Lexer`; `Spec.Text` has C's integer constants  
*Proof:* the rule that matches longest is the one for the constant, for every text that follows; the folds over the digits agree.  
*Result:* False in full: 010 is read as 10 (every octal constant as a decimal one), and a suffix is a name of its own. Proved for decimal constants and for hexadecimal ones after 0x. 0X is not read.  
*Theorems:* `Bic.Lexer.C80_refuted` (Props/Text.lean; PCQ), `Bic.Lexer.C80_decimal_partial` (Props/Text.lean; PCQ), `Bic.Lexer.C80_hex_partial` (Props/Text.lean; PCQ), `Bic.Lexer.C80_octal` (Props/Text.lean; PCQ), `Bic.Lexer.C80_suffix` (Props/Text.lean; PCQ)

### C81 — A text of C tokens is read as these tokens (partial)

*Model:* `Model.Lexer`, `Model.Yylex` (names of tokens); `Spec.Text` is C11 6.4: spellings, longest match  
*Proof:* induction on the text.  For the fixed words, derivatives of all rules are computed by the kernel for every word and every next byte; a rule whose derivative is empty cannot depend on what follows (`Proofs.Words`).  Names, numbers and strings by their rules (`Proofs.Tokens`, `Proofs.Text`, C54, C55).  
*Result:* False in full: const, restrict, volatile and inline are skipped, a digit right after an operator - makes it a sign, <REPL> is a token. Proved for all other texts with the constants of C80 and C55 and the strings of C54; the set of type names is fixed during the text.  
*Theorems:* `Bic.Lexer.C81_refuted` (Props/Text.lean; PCQ), `Bic.Lexer.C81_texts` (Props/Text.lean; PCQ), `Bic.Lexer.C81_tokens_partial` (Props/Text.lean; PCQ), `Bic.Lexer.C81_dropped` (Props/Text.lean; PCQ), `Bic.Lexer.C81_sign` (Props/Text.lean; PCQ)

### C82 — The text of a script determines its result (partial)

*Model:* `Model.Lexer`, `Model.Yylex`, `Model.Parser`, `Model.Nodes`, the evaluator  
*Proof:* C81 gives the tokens and that there are no others, C79 the rest.  
*Result:* Text to final store. False where C81 is (x=010; leaves 10). Proved for the texts of C81_tokens_partial and the programs of C34_programs_partial, without line markers.  
*Theorems:* `Bic.C82_refuted` (Props/ScriptText.lean; PCQ), `Bic.C82_script_partial` (Props/ScriptText.lean; PCQ)

### C83 — Skipping an attribute skips nothing else (partial)

*Model:* `Model.Lexer`  
*Proof:* what matches beyond the attribute ends with `))` on the same line; no other rule goes on after `__attribute__` and a blank or parenthesis (derivatives).  
*Result:* False in full: everything up to the last )) of the line is skipped. Proved if there is none on the line after the attribute.  
*Theorems:* `Bic.Lexer.C83_refuted` (Props/Attribute.lean; PCQ), `Bic.Lexer.C83_attribute_partial` (Props/Attribute.lean; PCQ), `Bic.Lexer.C83_greedy` (Props/Attribute.lean; PCQ)

### C84 — An error ends the script with status 1 (partial)

*Model:* `Model.Cscript` (`evaluate_cscript`, exit status), the evaluator  
*Proof:* `Fails` says where the error is reached; by induction the evaluator stops there (`fails_dies`), and no statement catches the stop.  
*Result:* Proved for errors reached along executions of C34's kind, in blocks, if, while, for, and for scripts with main. Missing: a break on the way, blocks directly in blocks, conditions outside of the range of C31, errors of the conversion of a condition.  
*Theorems:* `Bic.C84_error_partial` (Props/Errors.lean; PCQ), `Bic.C84_main_partial` (Props/Errors.lean; PCQ)

### C85 — Programs with recursive procedures (partial)

*Model:* the evaluator; `Spec.Prog` has procedures, of which `Rules.sees` says what scopes they see  
*Proof:* induction on the execution: the procedures stay in the outermost scope (`FnsAt`), a call opens and closes one scope (`run_ended_procs`); by a second induction C's rule and bic's give the same where names are kept apart (`run_dynamic`).  
*Result:* False in full: a procedure assigns to the variable of its caller if that has the name of a global (C25). Proved for all recursive programs in which no parameter or local variable has the name of a global that a procedure uses, arguments do not use the names of earlier parameters (C26), procedures return no values (C29), but may end with return;, with the restrictions of C34. C85_dynamic_partial says what bic does without the condition on names.  
*Theorems:* `Bic.C85_refuted` (Props/Procs.lean; PCQ), `Bic.C85_procedures_partial` (Props/Procs.lean; PCQ), `Bic.C85_only_partial` (Props/Procs.lean; PCQ), `Bic.C85_dynamic_partial` (Props/Procs.lean; PCQ)

### C86 — Scripts with procedures, from the text to the exit status (partial)

*Model:* `Model.Lexer`, `Model.Yylex`, `Model.Parser`, `Model.Heap` (objects of the tree), `Model.Cscript`, the evaluator from `initSt`  
*Proof:* C81 and C73 give the only tree; the parser leaves no holes (`der_full`), so the tree can be made (`build_makes`) in the initial state, which is sane (`initSt_Sane`); definitions of procedures add to the procedures that C85 needs (`parts_ended`).  
*Result:* Closed theorem from the bytes of the text and the state eval_init makes. False in full: void g(void) counts as one parameter and g() ends the script with status 1; also where C81, C34 and C85 are. Proved for the texts of C81_tokens_partial, the programs of C34_programs_partial, procedures as in C85_procedures_partial with parameters or ().  
*Theorems:* `Bic.C86_refuted` (Props/ScriptProcs.lean; PCQ), `Bic.C86_script_partial` (Props/ScriptProcs.lean; PCQ)

### C87 — (void) means no parameters (partial)

*Model:* the evaluator, `Model.Cscript`; for scripts also the lexer, the parser and `Model.Heap`  
*Proof:* the parser makes one declaration without declarator (`VoidList`), `callUser` counts it (`callUser_number`); for `main` the call that is added has the argument `argc`, whose assignment to nothing is the error (`callUser_void`, `script_voidMain`).  
*Result:* False: the list counts as one parameter. Proved for all functions and states that such a call is an error, and for all scripts of C88's kind with such a main that they end with status 1 before the body runs.  
*Theorems:* `Bic.C87_refuted` (Props/VoidList.lean; PQ), `Bic.C87_call_dies` (Props/VoidList.lean; PQ), `Bic.C87_main_dies` (Props/VoidList.lean; PCQ)

### C88 — Scripts with main, from the text to the exit status (partial)

*Model:* as C86  
*Proof:* as C86; the tree of the call is added to the root, which was made last, so nothing else changes (`Good.unchain`); the body of `main` runs as in C85 in a scope of its own (`call_ended`), and a value that it returns is dropped (`callUser_value`).  
*Result:* Closed theorem from the bytes of the text and the state eval_init makes. False in full: the status is 0 whatever main returns (C88_main_zero, for all such scripts). Proved: main runs and the variables get the values C gives them, with the restrictions of C86_script_partial; the status is right if main returns a multiple of 256 or falls off its end.  
*Theorems:* `Bic.C88_refuted` (Props/ScriptMain.lean; PCQ), `Bic.C88_main_zero` (Props/ScriptMain.lean; PCQ), `Bic.C88_main_partial` (Props/ScriptMain.lean; PCQ)

### C89 — Dialogues at the REPL (partial)

*Model:* `Model.ReplLoop` (loop of the REPL), `Model.Lexer`, `Model.Yylex`, `Model.Parser`, `Model.Heap`, the evaluator, `Model.Printer`; the preprocessor is a parameter; `Spec.Dialogue` says what C shows  
*Proof:* induction on the dialogue; for each line C81 and C73 give the only tree of both parses (`doParse_of`), the tree is made in the state of the session (`build_makes`), the evaluator simulates the input (`eval_full`, C34's relations) and the printer shows the decimal digits of the value (`line_of`).  
*Result:* Starts from the bytes of the lines and ends with the bytes shown. False in full: an assignment shows the value before its conversion (C10): x=3000000000; shows 3000000000 for int x. C89_shown says what bic shows, for all dialogues of declarations with and without initialisation, expressions, assignments, ++ and --, and that no other output is possible; C89_dialogue_partial that it is what C gives where assignments keep the value. Texts as in C81_tokens_partial. Missing: #include, lines of several statements, calls, floating point.  
*Theorems:* `Bic.Repl.C89_refuted` (Props/Dialogue.lean; PCQ), `Bic.Repl.C89_shown` (Props/Dialogue.lean; PCQ), `Bic.Repl.C89_dialogue_partial` (Props/Dialogue.lean; PCQ)

### C90 — Typedefs at the REPL (partial)

*Model:* as C89, with the names of types that a parse adds  
*Proof:* the name is a name of a type in the second parse, whose only tree (C73) is a declaration without declarator; `eval_decl` of it dies (`evalTypedef`).  
*Result:* False: every line is parsed twice, in the second parse the new name is a name of a type, and the declaration without declarator ends bic. Proved for every list of type words, every fresh name, every state and every way to write the line. Nothing of the property holds, so there is no _partial theorem.  
*Theorems:* `Bic.Repl.C90_refuted` (Props/ReplTypedef.lean; PCQ), `Bic.Repl.C90_every_typedef_ends` (Props/ReplTypedef.lean; PCQ)

### C91 — A rejected line has no effect on later lines (partial)

*Model:* as C89; `Rejects` is the parser that stops at the first token that no input has there  
*Proof:* without quotes and compound types no rule changes the start condition (`next_calm`, table checked by the kernel); without the token TYPEDEF no name is added (`replUnit_typedef`); states that differ in the buffer of the lexer only have the same answers (`Line.sim`).  
*Result:* False in full: after the line that is a single double quote the lexer is inside a string, and x; is not answered. Proved for lines without double quotes and without the words struct, union and typedef: state, type names and mode of the lexer are as before, and every later line has the same answers.  
*Theorems:* `Bic.Repl.C91_refuted` (Props/ReplErrors.lean; PCQ), `Bic.Repl.C91_rejected_partial` (Props/ReplErrors.lean; PCQ)

### C92 — A cast of a constant converts the value (partial)

*Model:* the evaluator (`eval_cast`, `assign_integer`, `mpz_get_si`)  
*Proof:* the new object and the store are computed symbolically; `mpz_get_si` keeps the value modulo 2^63.  
*Result:* False in full: the constant goes through mpz_get_si, (unsigned long)18446744073709551615 is 9223372036854775807. Proved for all constants and the types of at most 32 bits, and for the 64-bit types when the constant fits into a long.  
*Theorems:* `Bic.C92_refuted` (Props/CastConst.lean; PCQ), `Bic.C92_cast_partial` (Props/CastConst.lean; PCQ)

### C93 — Variables of incomplete types are rejected (partial)

*Model:* the evaluator (`eval_decl`, `handle_forward_decl`, `eval_decl_compound`, `make_and_map_live_var`)  
*Proof:* symbolic execution for any state; the lookup of tags through the scopes by induction on the scopes.  
*Result:* False in full: with a tag that is nowhere declared the declaration is always accepted, and the variable gets an identifier as its type (C93_unknown_accepted, for all states). Proved for tags that have been declared, in any scope, and from the declaration struct tag; on. Missing: arrays and initialised variables of such types.  
*Theorems:* `Bic.C93_refuted` (Props/Incomplete.lean; PQ), `Bic.C93_unknown_accepted` (Props/Incomplete.lean; PQ), `Bic.C93_declared_partial` (Props/Incomplete.lean; PQ), `Bic.C93_forward_partial` (Props/Incomplete.lean; PQ)

### C94 — Structures are shown member by member (partial)

*Model:* `Model.Printer` (all of pretty-printer.c); `Spec.Print` is the layout  
*Proof:* mutual induction on the structure and its members; the integers by C56's lemmas, the pointers by C95.  
*Result:* False in full: all closing braces stand at the left margin. C94_printed says what is printed, for all structures; C94_flat_partial that it is as stated for structures without structures. Floating point members are left out (their texts are opaque).  
*Theorems:* `Bic.Print.C94_refuted` (Props/PrintValue.lean; PCQ), `Bic.Print.C94_printed` (Props/PrintValue.lean; PCQ), `Bic.Print.C94_flat_partial` (Props/PrintValue.lean; PCQ)

### C95 — Pointers and strings are shown by address and characters (proved)

*Model:* `Model.Printer`; `Spec.Print` and `PtrAssign.StringAt` say what addresses and strings are  
*Proof:* induction on the number for the hexadecimal digits and their uniqueness, on the string for the characters.  
*Result:* As equivalences: this text and no other. The text of an address is specified through the value of hexadecimal digits.  
*Theorems:* `Bic.Print.C95_pointer` (Props/PrintValue.lean; PCQ), `Bic.Print.C95_string` (Props/PrintValue.lean; PCQ), `Bic.Print.C95_literal` (Props/PrintValue.lean; PCQ)

### C96 — The inspector describes variables correctly (partial)

*Model:* `Model.Inspect` (inspect.c, descriptions of c.lang), `Model.Printer`, the evaluator for `sizeof`; `Spec.Inspect` has the words  
*Proof:* induction on the pointer type for its words; value by C94/C95, size by C38.  
*Result:* False in full: unsigned short is called signed short, and for arrays a null pointer is read, since they have no locus; both proved for all such variables. Proved for all other variables of integer and pointer types, as an equivalence. The loci are a parameter of the model.  
*Theorems:* `Bic.Inspect.C96_refuted` (Props/Inspect.lean; PCQ), `Bic.Inspect.C96_variable_partial` (Props/Inspect.lean; PCQ), `Bic.Inspect.C96_ushort` (Props/Inspect.lean; PCQ), `Bic.Inspect.C96_array_crashes` (Props/Inspect.lean; PCQ)

### C97 — The preprocessor gets the include directories (partial)

*Model:* `Model.Preprocess` (preprocess.c without system calls); `Spec.Shell` says what the words of a command are  
*Proof:* induction on the directories for the length and the two loops, on the words for their uniqueness (needed by the refutation).  
*Result:* The buffer and the file are proved in full. The arguments are false in full: a directory with a blank in its name is taken apart by the shell, as it is not quoted; proved for names of characters not special to the shell.  
*Theorems:* `Bic.Preprocess.C97_refuted` (Props/Preprocess.lean; PCQ), `Bic.Preprocess.C97_options` (Props/Preprocess.lean; PCQ), `Bic.Preprocess.C97_file` (Props/Preprocess.lean; PCQ), `Bic.Preprocess.C97_arguments_partial` (Props/Preprocess.lean; PCQ)

### C98 — A line declaring a structure variable lays it out as the ABI says (partial)

*Model:* as C89, with `Spec.StructSource` for the tokens and `Spec.Layout` for the ABI  
*Proof:* induction on the members for the trees of the parser (`fields_der`), which are those of C18 (`Src`); then C18's layout of the declaration (`compDecl_conv`) and the generic theorem about lines (`line_shows`).  
*Result:* From the bytes of the line to the bytes shown and the layout in memory. False in full: the size lacks the padding at the end (C18), struct t{char a,*p;short b[3];} s; gets 22 bytes. Proved for the texts of C81_tokens_partial: the offsets and names are right, nothing else can happen at the line, and the size is the end of the last member. Unions are proved with the size of the largest member.  
*Theorems:* `Bic.Repl.C98_refuted` (Props/StructText.lean; PCQ), `Bic.Repl.C98_struct_partial` (Props/StructText.lean; PCQ), `Bic.Repl.C98_union_partial` (Props/StructText.lean; PCQ)

### C99 — Enumerators declared by a line have their values in the next lines (partial)

*Model:* as C89, with `Spec.EnumSource` for the tokens and `Spec.Enum` for the values  
*Proof:* induction on the enumerators for the trees of the parser (`enumerators_der`); then C37 for the declaration, `eval_full` for the expression and the generic theorem about lines (`line_shows`).  
*Result:* From the bytes of the two lines to the bytes shown. False in full: after enum{A=0- 1}; bic shows 1 for A; (C37). Proved for the texts of C81_tokens_partial, enumerators with values in 0 .. 2^32-1 and the expressions of C01_expressions_partial; other constants and variables may be used and keep their values; no other session is possible.  
*Theorems:* `Bic.Repl.C99_refuted` (Props/EnumText.lean; PCQ), `Bic.Repl.C99_declares_partial` (Props/EnumText.lean; PCQ), `Bic.Repl.C99_dialogue_partial` (Props/EnumText.lean; PCQ)

### C100 — A structure keeps what is assigned to its members (partial)

*Model:* as C98, with `Spec.StructDialogue` for the lines and the values  
*Proof:* an invariant of the session (`Members`: each member that was assigned to holds its value, the members do not overlap, everything declared before is still there), established by the declaration (`members_of`, `kept_of`) and kept by each line (`minput_conv`); induction on the lines.  
*Result:* From the bytes of the lines to the bytes shown. False in full: for s.a=300; with a char member bic shows 300, the value before its conversion (C10). C100_shown says what is shown in general; C100_members_partial is C100 for the texts of C81_tokens_partial, values that fit into the member and the expressions of C01_expressions_partial, except that the value assigned is not the bare name of a variable. No other session is possible.  
*Theorems:* `Bic.Repl.C100_refuted` (Props/StructDialogue.lean; PCQ), `Bic.Repl.C100_shown` (Props/StructDialogue.lean; PCQ), `Bic.Repl.C100_members_partial` (Props/StructDialogue.lean; PCQ)

### C101 — An array keeps what lines typed at the REPL assign to its elements (partial)

*Model:* as C89, with `Spec.ArrayDialogue` for the lines and the values  
*Proof:* an invariant of the session (`Elems`: each element that was assigned to holds its value, everything declared before is still there), established by the declaration (`arrayDecl_conv`) and kept by each line (`ainput_conv`); induction on the lines.  
*Result:* From the bytes of the lines to the bytes shown. False in full: for a[0]=300; with an array of char bic shows 300, the value before its conversion (C10). C101_shown says what is shown in general; C101_elements_partial is C101 for the texts of C81_tokens_partial, values that fit into the element and the expressions of C01_expressions_partial, except that the value assigned is not the bare name of a variable. No other session is possible.  
*Theorems:* `Bic.Repl.C101_refuted` (Props/ArrayDialogue.lean; PCQ), `Bic.Repl.C101_shown` (Props/ArrayDialogue.lean; PCQ), `Bic.Repl.C101_elements_partial` (Props/ArrayDialogue.lean; PCQ)

### C102 — A pointer declared at the REPL reads and writes the variable it points to (partial)

*Model:* as C89, with `Spec.PtrDialogue` for the lines and the values  
*Proof:* an invariant of the session (`PInv`: the variables hold their values at fixed addresses, the cell of the pointer lies apart from them and holds the address of the variable pointed to), established by the declaration (`ptrDecl_conv`) and kept by each line (`pinput_conv`; `Touch` says that the lines of C89 write only to variables); induction on the lines.  
*Result:* From the bytes of the lines to the bytes shown. False in full: for *p=3000000000; with int *p bic shows 3000000000, the value before its conversion (C10). C102_shown says what is shown in general; C102_pointer_partial is C102 for the texts of C81_tokens_partial, values that fit into the variable and the expressions of C34_programs_partial. Declarations of further variables in between are not covered. No other session is possible.  
*Theorems:* `Bic.Repl.C102_refuted` (Props/PtrDialogue.lean; PCQ), `Bic.Repl.C102_shown` (Props/PtrDialogue.lean; PCQ), `Bic.Repl.C102_pointer_partial` (Props/PtrDialogue.lean; PCQ)

### C103 — Procedures of the startup file can be called at the REPL (partial)

*Model:* as C86 and C89, with `Model.Startup` for `evaluate_startup_file` and `Spec.Startup` for the lines  
*Proof:* the invariant of C86 (variables hold their values, procedures stay in the outermost scope: `FnsAt`) holds after the startup file (`started`) and is kept by each line (`sinput_conv`; `callLine_conv` for calls); induction on the lines.  
*Result:* From the bytes of the startup file and of the lines to the bytes shown, from the state eval_init makes. False in full: for y=3000000000; with int y bic shows 3000000000, the value before its conversion (C10). C103_shown says what is shown in general; C103_startup_partial is C103 for the startup files of C86_script_partial, the texts of C81_tokens_partial, the expressions of C34_programs_partial and values that fit. No other session is possible.  
*Theorems:* `Bic.Repl.C103_refuted` (Props/Startup.lean; PCQ), `Bic.Repl.C103_shown` (Props/Startup.lean; PCQ), `Bic.Repl.C103_startup_partial` (Props/Startup.lean; PCQ)

### C104 — Library functions can be declared and called at the REPL (partial)

*Model:* as C89, with the calls of C58, C59 and C66 (`callExtDecl`, `doExtCall`) and `Spec.Library` for the lines  
*Proof:* an invariant of the session (`LibAt`: each declared function is a prototype in the outermost scope with the type of its value; no callbacks), established by the declaration (`proto_conv`) and kept by each line (`linput_conv`; `args_conv` says what the parameters get, `libLine_conv` what a call does); induction on the lines.  
*Result:* From the bytes of the lines to the bytes shown and the calls made. False in full: labs(3000000000) calls labs with -1294967296, because bic passes the value of a computed argument as an int (C59). C104_shown says what is shown and called in general; C104_library_partial is C104 for the texts of C81_tokens_partial, the expressions of C34_programs_partial, at most 32 arguments that are variables or have values that fit into an int (into a long for parameters of at most 32 bits), and assignments of values that fit. Functions declared with extern or without a value are not covered. No other session is possible.  
*Theorems:* `Bic.Repl.C104_refuted` (Props/Library.lean; PCQ), `Bic.Repl.C104_shown` (Props/Library.lean; PCQ), `Bic.Repl.C104_library_partial` (Props/Library.lean; PCQ)

### C105 — Headers can be included at the REPL (partial)

*Model:* as C104, with `Model.Include` for `eval_cpp_include` and `Spec.Headers` for headers and lines  
*Proof:* an invariant of the session (`HdrAt`: the scope of the headers holds the functions they declare; `Good` with the scope of the headers below the open scopes), established anew by each `#include` (`headers_conv`; `htext_tokens` and `items_der` for the text) and kept by the other lines (`hinput_conv`); induction on the lines.  
*Result:* From the bytes of the lines and of the preprocessor's output to the bytes shown and the calls made. False in full: after #include <a.h> with int y=7; the lines y=5; and #include <b.h> leave y with the value 7, because bic evaluates all headers once more. C105_shown says what is shown and called in general; C105_headers_partial is C105 for the texts of C81_tokens_partial, names of headers of letters, digits, _, . and /, the lines of C104_library_partial (without declarations of functions), and #include lines after which the variables of the headers have the values they had. Headers with other declarations are not covered. No other session is possible.  
*Theorems:* `Bic.Repl.C105_refuted` (Props/Headers.lean; PCQ), `Bic.Repl.C105_shown` (Props/Headers.lean; PCQ), `Bic.Repl.C105_headers_partial` (Props/Headers.lean; PCQ)

### C106 — An #include line does not end the session (partial)

*Model:* as C105  
*Proof:* `include_shows` of C105; without declarations the token list is empty, and no text of the grammar of scripts is (`Parser.start`), so only the failing branch of `Include` applies (`include_empty`).  
*Result:* False in full: when the headers have no declarations, the parser rejects the empty output and bic ends with 'Parsing of preprocessor output failed' (C106_no_declarations, for every session). C106_include_partial is C106 for headers with at least one declaration and the texts of C105_headers_partial; nothing else can happen.  
*Theorems:* `Bic.Repl.C106_refuted` (Props/Headers.lean; PCQ), `Bic.Repl.C106_no_declarations` (Props/Headers.lean; PCQ), `Bic.Repl.C106_include_partial` (Props/Headers.lean; PCQ)

### C107 — Variables declared with static at the REPL (partial)

*Model:* as C89, with `Spec.StaticLine` for the lines  
*Proof:* `static_conv`: the declarations are made in a scope of their own (`declares_full` of C34), and evaluating the context they leave behind moves them to the current scope (`evalStaticCtx_apply` of C35); the rest as for C89. For the refutation, memory full of ones: declaring does not change bytes (`declares_full`).  
*Result:* From the bytes of the lines to the bytes shown. False in full: static int y; does not set y to 0, so y; shows what the memory of y held before (C107_unset). C107_shown says what is shown in general; C107_static_partial is C107 for the texts of C81_tokens_partial, the expressions of C34_programs_partial, values that fit, and variables without initializer that are assigned before they are read. No other session is possible.  
*Theorems:* `Bic.Repl.C107_refuted` (Props/StaticLine.lean; PCQ), `Bic.Repl.C107_unset` (Props/StaticLine.lean; PCQ), `Bic.Repl.C107_shown` (Props/StaticLine.lean; PCQ), `Bic.Repl.C107_static_partial` (Props/StaticLine.lean; PCQ)

### C108 — Dialogues with a string (partial)

*Model:* as C101, with strings (`assign_ptr` of `eval_assign`, `track_alloc`) and `Spec.StrDialogue` for the lines  
*Proof:* an invariant of the session (`SInv`: the variable is a live pointer to `char`, at the address it holds are the bytes, apart from the variable and from the memory of the scopes, and the other variables are kept), established by the declaration (`strDecl_conv`: the copy lies in fresh memory) and kept by each line (`chInput_conv`); induction on the lines. The address is existential: the answers are those for some address that is not null.  
*Result:* From the bytes of the lines to the bytes shown. False in full: p="yo"; shows the literal, not the pointer (and p[i]=e; the value before the conversion, as in C89). C108_shown says what is shown in general; C108_strings_partial is C108 for the texts of C81_tokens_partial (literals with the escapes of C54_bytes_partial), the expressions of C34_programs_partial, values that fit into char and are computed, and without assignments of literals. Every session is of this kind.  
*Theorems:* `Bic.Repl.C108_refuted` (Props/StrDialogue.lean; PCQ), `Bic.Repl.C108_shown` (Props/StrDialogue.lean; PCQ), `Bic.Repl.C108_strings_partial` (Props/StrDialogue.lean; PCQ)

### C109 — Typedefs of pointers at the REPL (partial)

*Model:* as C90  
*Proof:* the grammar does not derive `typedef`, type words, stars and a type name, whatever follows (`not_unit`: the specifiers and the pointer end where the complete parser of C73 ends them, and no declarator begins with a type name), nor any beginning of it before the name; so the parser rejects the line at the name and nowhere else (`rejects_at`), and no typedef is completed in the second parse.  
*Result:* False: the first parse of the line makes x the name of a type, so the second one, of the preprocessed line, is rejected at x. The line shows nothing, keeps all variables and leaves x a type name that denotes nothing (C109_typedef_rejected, for every session), so that x y; ends bic (C109_typedef_ends). Proved for all type words, any number of stars, all names and states, and the texts of C81_tokens_partial. Nothing of the property holds, so there is no _partial theorem.  
*Theorems:* `Bic.Repl.C109_refuted` (Props/TypedefPtr.lean; PCQ), `Bic.Repl.C109_typedef_rejected` (Props/TypedefPtr.lean; PCQ), `Bic.Repl.C109_typedef_ends` (Props/TypedefPtr.lean; PCQ)

### C110 — The dump of a tree tells the tree (partial)

*Model:* what the functions written by `gendump.cpp` print, with `tree-dump-primitives.h`, for any description read by `Model/LangGen.lean`  
*Proof:* unique readability: two dumps followed by the end of a line are equal only if the trees and what follows are (`dump_inj`, structural induction on the tree together with chains and properties); texts without newline end where the line ends, names where a character that is no letter or digit follows.  
*Result:* False in full: strings are printed as they are, so the scripts "a"; "b"; and the one string a">\n  <tree T_STRING tSTRING_VAL: "b have the same dump; of a chain in a chain (a block directly in a block) nothing is printed (C110_nested). C110_dump_partial is C110 for trees whose strings have no newline and without chains in chains, for every description whose types have different names; c.lang has (C110_clang). Floating point numbers are taken by their six printed digits.  
*Theorems:* `Bic.Dump.C110_refuted` (Props/Dump.lean; PCQ), `Bic.Dump.C110_nested` (Props/Dump.lean; PCQ), `Bic.Dump.C110_clang` (Props/Dump.lean; PCQ), `Bic.Dump.C110_dump_partial` (Props/Dump.lean; PCQ)

### C111 — The graph of a tree (partial)

*Model:* the lines written by the functions of `gendot.cpp`, without looks  
*Proof:* membership in the list of lines, by structural induction (`dot_mem`), against a specification that says what is drawn for each part of the tree (`Drawn`); the types of `c.lang` are read by the kernel.  
*Result:* False in full: all fields of a tree that are not trees share one node of the graph, so of a structure declaration (size, expanded, kind) only the kind is seen. C111_graph says which nodes and edges are written; C111_edges_partial: all edges end at nodes if there are no empty chains; C111_values_partial: all values are shown if no type has two such fields; C111_clang names the types of c.lang that have. Trees without chains in chains. The clusters and the escaping of quotes in labels are not covered.  
*Theorems:* `Bic.Dump.C111_refuted` (Props/Dump.lean; PCQ), `Bic.Dump.C111_graph` (Props/Dump.lean; PCQ), `Bic.Dump.C111_edges_partial` (Props/Dump.lean; PCQ), `Bic.Dump.C111_values_partial` (Props/Dump.lean; PCQ), `Bic.Dump.C111_clang` (Props/Dump.lean; PCQ)

### C112 — Dereferencing a sum (partial)

*Model:* `eval_deref` and `eval_add` on pointers  
*Proof:* the sum is an integer constant by the theorem on arithmetic of C70, which `eval_deref` refuses; uniqueness of outcomes refutes the statement.  
*Result:* False: the sum of a pointer and an integer is an integer constant for bic (C13), and * of a constant ends the run: C112_dies says that every evaluation of *(p + i) ends with this error, whatever p, i and the type are.  
*Theorems:* `Bic.C112_refuted` (Props/PtrArith.lean; PCQ), `Bic.C112_dies` (Props/PtrArith.lean; PCQ)

### C113 — Comparing and subtracting pointers (partial)

*Model:* `convert_to_comparable_type`, the comparisons, `eval_sub` on pointers  
*Proof:* a pointer below 2^63 denotes its address as an integer (`PointerTo.denotes`), so the comparison and arithmetic theorems of C70 apply to it.  
*Result:* False in full: the difference of two pointers is the number of bytes between them (C113_bytes, all types), so for int *p, *q it is four times too large. The comparisons hold for all types, also between a pointer and an integer such as 0 (C113_compare); C113_pointers_partial is the whole property for objects of one byte.  
*Theorems:* `Bic.C113_refuted` (Props/PtrArith.lean; PCQ), `Bic.C113_compare` (Props/PtrArith.lean; PCQ), `Bic.C113_bytes` (Props/PtrArith.lean; PCQ), `Bic.C113_pointers_partial` (Props/PtrArith.lean; PCQ)

### C114 — Calling a function through a pointer (partial)

*Model:* `handle_addr_fn_def`, `get_entry_point_for_fn`, `closure_entry`, `do_ext_call`, calls through live variables  
*Proof:* induction over the parameters for the types of the closure, for the new objects and for passing them on; the run of the body is the one of the call theorems (`bound_return`, `bound_end`, `bound_left`).  
*Result:* False in full: closure_entry never stores a result, so a call through a pointer has the value the memory happened to hold (C114_refuted). C114_address says that &f yields a pointer through which f can be called and that older pointers stay valid; C114_effect_partial is the rest of the property: conversion of the arguments, one run of the body, the effect on all variables, and a result object of the right type. Constants given as arguments have to fit into int (C59).  
*Theorems:* `Bic.C114_refuted` (Props/FnPtr.lean; PQ), `Bic.C114_effect_partial` (Props/FnPtr.lean; PCQ), `Bic.C114_address` (Props/FnPtr.lean; PCQ)

### C115 — Variables declared with extern (partial)

*Model:* `handle_extern_decl`, `resolve_symbol`, `resolve_ptr_type`, `eval_decl`  
*Proof:* induction over the stars of the declarator; the declaration comes down to `externTail`, which is computed in each of the four cases.  
*Result:* False in full: only the innermost scope is searched, so in a block or function extern int x; does not find the global x and ends the run (C115_refuted, C115_unlinked for all states), and only the TYPE of the two types is compared, so extern char *p; after int *p; is accepted and p keeps its type (C115_again). C115_global_partial is C115 outside of blocks when not both types are pointers; C115_library is the part on the objects of libraries, for all states and types.  
*Theorems:* `Bic.C115_refuted` (Props/Extern.lean; PQ), `Bic.C115_global_partial` (Props/Extern.lean; PCQ), `Bic.C115_library` (Props/Extern.lean; PQ), `Bic.C115_unlinked` (Props/Extern.lean; PQ), `Bic.C115_again` (Props/Extern.lean; PQ), `Bic.C115_clash` (Props/Extern.lean; PQ)

### C116 — Structures through pointers (partial)

*Model:* `eval_deref`, `instantiate_struct`, `eval_comp_access`, `eval_addr`, assignment  
*Proof:* `*e` makes a new object over the same bytes: induction over the members (`instElements_conv`) puts each at the offset of the layout, which is also where the variable has it; the assignment writes inside one member, and members are disjoint (`CompAt.write`, shared with C20).  
*Result:* False in full for nested members: the types of the members are looked up by name again when the pointer is followed, so in a block with another struct T, (&s)->t has the size of the inner T (C116_refuted). The partial theorems are the property for structures and unions (assignment: structures) whose members are of basic types, pointers, arrays of those, and pointers to structures, which are laid out by bic (`Laid`, which a declaration establishes); C116_address holds for all compound variables. Missing: members that are structures.  
*Theorems:* `Bic.C116_refuted` (Props/Arrow.lean; PCQ), `Bic.C116_address` (Props/Arrow.lean; PCQ), `Bic.C116_member_partial` (Props/Arrow.lean; PCQ), `Bic.C116_same_partial` (Props/Arrow.lean; PCQ), `Bic.C116_assign_partial` (Props/Arrow.lean; PCQ)

### C117 — Linked lists (proved)

*Model:* `eval_decl_compound`, `instantiate_struct`, `eval_deref`, `eval_comp_access`, assignment  
*Proof:* the members that are pointers to tags are resolved through the scopes (`Item.To`); the layout and instantiation inductions of C17 are carried out for them too; induction over the arrows of the path, each step by C116_member_partial; readable memory is below 2^62, so no address wraps around.  
*Result:* C117_declared: the declaration makes such a type (`Linked`). The other three hold for every `Linked` type, in any scope where the tag names it (elsewhere C116_refuted applies). The other members are of basic or pointer type, arrays of such, or pointers to structs; members that are structs are not covered, as in C17.  
*Theorems:* `Bic.C117_declared` (Props/Links.lean; PCQ), `Bic.C117_walk` (Props/Links.lean; PCQ), `Bic.C117_member` (Props/Links.lean; PCQ), `Bic.C117_assign` (Props/Links.lean; PCQ)

### C118 — Structures declared first and defined later (partial)

*Model:* `handle_forward_decl`, `eval_decl_compound` with `tree_copy`, `eval_decl`, `handle_declarator`  
*Proof:* the layout of the completed type is the induction of C17 on the overwritten tree; the changed tree is the only one (`GrowD [f]`), so earlier pointers to it keep their types and later look-ups of the tag find it.  
*Result:* False in full: when struct S *p; is the first mention of S, handle_forward_decl returns the identifier, so p becomes a pointer to the identifier S and p->m fails for ever (C118_refuted). C118_partial: with struct S; first, the pointer and the definition do what C118 says; C118_mutual: two types that point to each other, the second declared first. C118_forward, C118_pointer and C118_complete are the three steps from any state. Members: as in C117.  
*Theorems:* `Bic.C118_refuted` (Props/Forward.lean; PQ), `Bic.C118_forward` (Props/Forward.lean; PQ), `Bic.C118_pointer` (Props/Forward.lean; PQ), `Bic.C118_complete` (Props/Forward.lean; PCQ), `Bic.C118_partial` (Props/Forward.lean; PCQ), `Bic.C118_mutual` (Props/Forward.lean; PCQ)

### C119 — A structure type is defined once (partial)

*Model:* `eval_decl_compound` with `tree_copy`  
*Proof:* the same lemma as for C118 (`completeTag_conv`), with a type that has members already.  
*Result:* False: tree_copy overwrites the type whether it is incomplete or not. C119_never: no second definition is rejected for being one; C119_replaces: it replaces the first for everything declared with it, so a variable is taken to be as large as the new type although its memory has the old size. C119_inner_partial is the part on inner scopes (members of basic types, pointers, arrays, pointers to the type itself).  
*Theorems:* `Bic.C119_refuted` (Props/Retag.lean; PQ), `Bic.C119_replaces` (Props/Retag.lean; PCQ), `Bic.C119_never` (Props/Retag.lean; PCQ), `Bic.C119_inner_partial` (Props/Retag.lean; PCQ)

### C120 — Structures as values (partial)

*Model:* `eval_assign`, `handle_declarator` with an initialiser, parameter passing in `eval_fn_call`  
*Proof:* the left side evaluates to the object made for the structure, which evaluation never turns into a variable (`Evol`: its tree is not among those that change), so the test of eval_assign fails.  
*Result:* False for every structure and union: eval_assign takes only T_LIVE_VAR on the left, and a structure is a T_LIVE_COMPOUND. C120_never: no assignment to a structure or union ever succeeds, whatever is assigned; C120_initialised and C120_parameter: neither does an initialisation from another structure nor a call that passes one. What bic does is thereby described in full; nothing of the property holds.  
*Theorems:* `Bic.C120_refuted` (Props/StructAssign.lean; PQ), `Bic.C120_never` (Props/StructAssign.lean; PQ), `Bic.C120_initialised` (Props/StructAssign.lean; PCQ), `Bic.C120_parameter` (Props/StructAssign.lean; PCQ)

### C121 — Names for structure types (partial)

*Model:* `map_typedef`, `eval_decl`, `eval_identifier`, `eval_decl_compound`  
*Proof:* each declaration from any state; the layout is the induction of C17, and the name is bound to the tree that C118's completion overwrites, so it follows the definition.  
*Result:* False in full: when typedef struct S T; is the first mention of S, handle_forward_decl returns the identifier, so T names the identifier and never the type (C121_refuted). C121_partial: with struct S; first, T and S stand for the same type once it is defined; C121_known, C121_defined: the tag known already, or the members written in the typedef, with or without a tag; C121_variable, C121_pointer: what is declared with the name. Members: as in C117.  
*Theorems:* `Bic.C121_refuted` (Props/TypedefStruct.lean; PQ), `Bic.C121_known` (Props/TypedefStruct.lean; PQ), `Bic.C121_defined` (Props/TypedefStruct.lean; PCQ), `Bic.C121_partial` (Props/TypedefStruct.lean; PCQ), `Bic.C121_variable` (Props/TypedefStruct.lean; PCQ), `Bic.C121_pointer` (Props/TypedefStruct.lean; PQ)

### C122 — The libffi type of a C type (proved)

*Model:* `outputFFITypes` (`Model.CTypesGen`), the reader of descriptions (`Model.LangGen`)  
*Proof:* the C types collected are those of the description (induction over its forms); names are words because the lexer made them (induction over the text), so every case is read back as its seven tokens, and the cases are read in order.  
*Result:* Nothing missing. The generated text is read with a reader of C tokens (Spec.CTokens) that knows nothing of the generator; sizes and kinds of libffi's types are those of x86-64 Linux.  
*Theorems:* `Bic.LangGen.C122_selected` (Props/CTypesGen.lean; PCQ), `Bic.LangGen.C122_other` (Props/CTypesGen.lean; PCQ), `Bic.LangGen.C122_clang` (Props/CTypesGen.lean; PCQ)

### C123 — The table of C types (partial)

*Model:* `outputTreeDefCtype` (`Model.CTypesGen`)  
*Proof:* induction over the C types; a line is read back token by token, with the invariant that the reader of a harmless field is between tokens or in a word; a friendly name is a string body because the lexer made it.  
*Result:* False in full: the fields are written as they are, so a comma in the C name of a type gives an argument too many (C123_refuted). C123_partial: true if the C name, the format and the member contain none of " / # , ( ) ' and the friendly name is on one line; that is so in c.lang (C123_clang), whose rows have for every C type its name in C, a fitting conversion and the member for its kind (C123_table). clang_friendly: unsigned short is called signed short.  
*Theorems:* `Bic.LangGen.C123_refuted` (Props/CTypesGen.lean; PCQ), `Bic.LangGen.C123_partial` (Props/CTypesGen.lean; PCQ), `Bic.LangGen.C123_clang` (Props/CTypesGen.lean; PCQ), `Bic.LangGen.C123_table` (Props/CTypesGen.lean; PCQ)

### C124 — Functions declared before they are defined (partial)

*Model:* `handle_declarator` (T_FN), `map_identifier`, `eval_decl`  
*Proof:* the declaration from any state; what follows keeps the scope's names and the function's tree (the evolution invariant of C23/C63 over any sequence of statements), so the definition meets a mapped name.  
*Result:* False in full: handle_declarator lets a repeated declaration pass but maps a definition like any new name, so after int f(int); the definition int f(int x) {...} in the same scope always ends with an error (C124_never, C124_refuted). C124_partial: the definition first and then any number of declarations, with anything between, leaves the name with the function defined. C124_again: a declaration of a known name changes nothing, even if the name is a variable. Return types given by keywords only.  
*Theorems:* `Bic.C124_refuted` (Props/Proto.lean; PQ), `Bic.C124_never` (Props/Proto.lean; PQ), `Bic.C124_known` (Props/Proto.lean; PQ), `Bic.C124_again` (Props/Proto.lean; PQ), `Bic.C124_new` (Props/Proto.lean; PQ), `Bic.C124_partial` (Props/Proto.lean; PQ)

### C125 — The checked string functions (partial)

*Model:* `handle_builtin_strcpy_chk`, `handle_builtin_strcat_chk`, `eval_fn_call`  
*Proof:* the builtin's state is the caller's with the chain shortened and two trees added, so the call it makes is one of C58 and C66; shortening is idempotent on at most three arguments.  
*Result:* False in full: the builtin evaluates a call of the name strcpy, so where that name is not declared the program ends with an error (C125_undeclared, C125_refuted). C125_partial: if the name stands for a declared library function, it is called with the values of the first two arguments, and effect and value are its own; the third argument is taken off the tree and not evaluated. C125_repeated: executed again nothing more is taken off. The call of no arguments at all (a null list) is undefined in C and not claimed.  
*Theorems:* `Bic.C125_refuted` (Props/Builtin.lean; PQ), `Bic.C125_undeclared` (Props/Builtin.lean; PQ), `Bic.C125_partial` (Props/Builtin.lean; PCQ), `Bic.C125_repeated` (Props/Builtin.lean; PQ)

### C126 — Arrays of arrays (partial)

*Model:* `alloc_array`, `instantiate_array`, `handle_declarator`, `map_typedef`  
*Proof:* inversion of the evaluator at every depth: the declarator's node is never replaced while the size is evaluated (the evolution invariant of `Proofs/Evol.lean`), so `instantiate_array` always meets it and dies.  
*Result:* False in full, and for every instance: no declaration T a[m][n]; or T (*p)[n]; of a keyword type ever succeeds (C126_never, at every recursion depth), nor A x[m]; for an array type A (C126_named), and typedef T A[m][n]; always ends with an error (C126_typedef).  
*Theorems:* `Bic.C126_refuted` (Props/ArrayTypes.lean; PQ), `Bic.C126_never` (Props/ArrayTypes.lean; PQ), `Bic.C126_named` (Props/ArrayTypes.lean; PQ), `Bic.C126_typedef` (Props/ArrayTypes.lean; PQ)

### C127 — Names for array types (partial)

*Model:* `map_typedef`, `handle_declarator`, `alloc_array`, `eval_sizeof`  
*Proof:* composition of convergent evaluations; constancy of the type's node through the evaluation in between by the evolution invariant of `Proofs/Evol.lean`.  
*Result:* False in full: the size expression is evaluated at each use of the name, not at the typedef (C127_refuted). C127_partial: constant sizes, with any statement evaluated between the typedef and the declaration. C127_typedef, C127_variable, C127_sizeof: what the typedef, the declaration and sizeof do for any size expression of integer arithmetic, with its value at that time. Element types are those of keywords.  
*Theorems:* `Bic.C127_refuted` (Props/ArrayTypes.lean; PQ), `Bic.C127_typedef` (Props/ArrayTypes.lean; PQ), `Bic.C127_variable` (Props/ArrayTypes.lean; PCQ), `Bic.C127_sizeof` (Props/ArrayTypes.lean; PCQ), `Bic.C127_partial` (Props/ArrayTypes.lean; PCQ)

### C128 — Bit-fields (partial)

*Model:* `instantiate_struct_element`, `handle_declarator`, `expand_decl_chain`, `layout_struct`, member access and assignment  
*Proof:* the structure theorems behind C17 and C20 (induction on the member list) extended by bit-field declarators, then uniqueness of the conversion of a value that is in range.  
*Result:* False in full, in both halves: the width is ignored, so x.a = 9 makes a field of three bits hold 9 (C128_values_refuted), and every bit-field gets a whole unit of its own (C128_storage_refuted). C128_partial: for a structure of any number of members, bit-fields among them, an assignment of a value that fits the width stores exactly that value and changes no byte of another member. Missing: unnamed bit-fields, and values that do not fit.  
*Theorems:* `Bic.C128_refuted` (Props/Bits.lean; PQ), `Bic.C128_values_refuted` (Props/Bits.lean; PQ), `Bic.C128_storage_refuted` (Props/Bits.lean; PQ), `Bic.C128_partial` (Props/Bits.lean; PCQ)

### C129 — A failed #include ends the session (proved)

*Model:* `eval_cpp_include`, `run_cpp` (as a parameter), the loop of `bic_repl`  
*Proof:* inversion of the relations of `Model/Include.lean`; the parse of the line itself is unique (C73).  
*Result:* Relative to the model of Model/Include.lean: what run_cpp gives is a parameter, none standing for every way it can fail.  
*Theorems:* `Bic.Repl.C129_failed` (Props/HeaderFail.lean; PCQ), `Bic.Repl.C129_rejected` (Props/HeaderFail.lean; PCQ)

### C130 — Type names mean the type C says (proved)

*Model:* the rules `type_name`, `abstract_declarator`, `direct_abstract_declarator`, `pointer`  
*Proof:* induction over C's derivations one way and over the grammar's the other; uniqueness from the completeness of the recogniser; the spec reads inside out, the tree outside in.  
*Result:* The lists of specifiers and of parameters are those of the grammar; C130 is about the declarator around them.  
*Theorems:* `Bic.Parser.C130_reads` (Props/AbstractDecl.lean; PCQ), `Bic.Parser.C130_only` (Props/AbstractDecl.lean; PQ)

### C131 — sizeof with a type name gives the size of that type (partial)

*Model:* `eval_sizeof`, `eval_type_specifier`, `resolve_ptr_type` (for the loop over stars)  
*Proof:* induction over the tree of the declarator; refuted by `sizeof (int [3])`.  
*Result:* False in full: eval_type_specifier looks at the stars the declarator begins with and drops the rest, so `sizeof (int [3])` is 4 and `sizeof (int (*)[3])` is 4. C131_seen says exactly what is computed for every declarator; C131_partial is the statement for declarators of stars only.  
*Theorems:* `Bic.C131_refuted` (Props/AbstractDecl.lean; PCQ), `Bic.C131_seen` (Props/AbstractDecl.lean; PCQ), `Bic.C131_partial` (Props/AbstractDecl.lean; PCQ)

### C132 — A line of several statements is not run in part (proved)

*Model:* `repl_do_parse`, `repl_parse_line`, the loop of `bic_repl`  
*Proof:* the tree of the line is unique (C73), so that no other case of the relations applies; no type names are made without `typedef` (as in C91).  
*Result:* Relative to Model/Several.lean, which extends the model of the REPL by the exit in repl_do_parse; lines with typedef are left out, because the names they make change the tokens of the rest of the line.  
*Theorems:* `Bic.Repl.C132_typed` (Props/Several.lean; PCQ), `Bic.Repl.C132_expanded` (Props/Several.lean; PCQ), `Bic.Repl.C132_single` (Props/Several.lean; PCQ)

### C133 — A line ?x describes the variable and changes nothing (partial)

*Model:* `eval_inspect`, `inspect`, the loop of `bic_repl`, the rule `repl_statement`  
*Proof:* the parse of the line is determined; C96 in the state with the objects of the line, under which the description of a variable is stable.  
*Result:* False in full, as C96 is: `?a` with an array reads a null pointer, in every run (C133_array), and unsigned short is called signed short (C96_ushort). C133_partial is the statement for all other variables.  
*Theorems:* `Bic.Repl.C133_refuted` (Props/InspectLine.lean; PCQ), `Bic.Repl.C133_array` (Props/InspectLine.lean; PCQ), `Bic.Repl.C133_partial` (Props/InspectLine.lean; PCQ), `Bic.Repl.C133_unknown` (Props/InspectLine.lean; PCQ)

### C134 — A variable declared in the head of a for is local to the loop (partial)

*Model:* `eval_loop_for`, `eval_decl`, `handle_decl`, `map_identifier`  
*Proof:* the declarator has made its entry in the scope on top (C23, C25), and no evaluation takes entries from a scope (the invariant of C63); C23 for the second declaration.  
*Result:* False: eval_loop_for evaluates the declaration in the scope the loop stands in. C134_leaks: every such loop that ends leaves its variable declared there; C134_shadow and C134_twice: where that scope declares the variable already, also by an earlier loop, the loop is given up with an error. C134_partial: the scopes further out are as before and no name is lost. Types given by keywords.  
*Theorems:* `Bic.C134_refuted` (Props/ForDecl.lean; PQ), `Bic.C134_leaks` (Props/ForDecl.lean; PQ), `Bic.C134_shadow` (Props/ForDecl.lean; PQ), `Bic.C134_twice` (Props/ForDecl.lean; PQ), `Bic.C134_partial` (Props/ForDecl.lean; PQ)

### C135 — Parts left out of a for (partial)

*Model:* `eval_loop_for`, `convert_to_comparable_type`, `__evaluate_1`  
*Proof:* the round of the loop is cut before its third part; induction on the budget of one loop gives a run of the other, since no evaluation changes the nodes of the parts (invariant of C63).  
*Result:* False for the condition: every loop without one reads a null pointer before its body, when its first part has ended (C135_cond; convert_to_comparable_type takes the type of what an empty statement evaluates to). C135_partial is the statement for the first and the third part.  
*Theorems:* `Bic.C135_refuted` (Props/ForParts.lean; PQ), `Bic.C135_cond` (Props/ForParts.lean; PQ), `Bic.C135_partial` (Props/ForParts.lean; PQ)

### C136 — Initializers in braces (partial)

*Model:* `handle_declarator`, `eval_assign`, `assign_integer`, `assign_ptr`, `__evaluate_1`  
*Proof:* a list stays a list under every evaluation (invariant of C63) and evaluates to NULL; the declarations by the lemmas of C15 and C23.  
*Result:* False: the parser accepts lists in braces, but a list evaluates to NULL. C136_never: no assignment with a list on its right side ends normally, whatever is on the left, structures included; C136_array and C136_scalar: every such declaration of an array, or of a variable of an integer type, reads a null pointer. No part of the statement holds.  
*Theorems:* `Bic.C136_refuted` (Props/InitList.lean; PCQ), `Bic.C136_never` (Props/InitList.lean; PQ), `Bic.C136_array` (Props/InitList.lean; PCQ), `Bic.C136_scalar` (Props/InitList.lean; PQ)

### C137 — Assignments to floating variables convert the value (partial)

*Model:* `assign_float`, `assign_integer`, `eval_assign`  
*Proof:* evaluation of the assignment for every outcome of its sides; stored bytes by the lemmas of C09 and C62.  
*Result:* False: with a variable on the right side its 8 bytes are taken for a double, whatever its type (C137_variable), so that int i = 5; d = i; makes d the number with the bits 5; every assignment to a long double is given up with an error, and every assignment of a floating constant to an integer variable. C137_partial: constants and variables of type double, assigned to float and double. Floating conversions are parameters of the model.  
*Theorems:* `Bic.C137_refuted` (Props/FloatAssign.lean; PCQ), `Bic.C137_partial` (Props/FloatAssign.lean; PCQ), `Bic.C137_variable` (Props/FloatAssign.lean; PCQ), `Bic.C137_long_double` (Props/FloatAssign.lean; PQ), `Bic.C137_to_integer` (Props/FloatAssign.lean; PQ)

### C138 — Operators on floating values (partial)

*Model:* `make_int_from_live_var`, `convert_to_comparable_type`, the operators of `evaluate.c`, `eval_if`  
*Proof:* floating constants and variables stay what they are under every evaluation (invariant of C63); each operator gives up on them.  
*Result:* False: no operator, if or ?: whose first operand evaluates to a floating value ends normally, in any state (C138_first), nor one with such a second operand (C138_second, C138_compared). No part of the statement holds.  
*Theorems:* `Bic.C138_refuted` (Props/FloatOps.lean; PQ), `Bic.C138_first` (Props/FloatOps.lean; PQ), `Bic.C138_second` (Props/FloatOps.lean; PQ), `Bic.C138_compared` (Props/FloatOps.lean; PQ)

### C139 — Casts from and to floating types convert the value (partial)

*Model:* `eval_cast`, `assign_integer`, `assign_float`, `make_live_var`  
*Proof:* evaluation of the cast for every operand and pair of types; the new variable by the lemmas of C14.  
*Result:* False: a floating constant cast to an integer type or to long double is given up with an error, e.g. (int)5.0 (C139_constant). C139_partial: all casts of variables and of integer constants of the range of long, and of floating constants to float and double. C139_range: casting a floating variable is undefined only where C leaves the conversion undefined. Floating conversions are parameters of the model; converting to the same type is assumed to change nothing.  
*Theorems:* `Bic.C139_refuted` (Props/FloatCast.lean; PQ), `Bic.C139_partial` (Props/FloatCast.lean; PCQ), `Bic.C139_constant` (Props/FloatCast.lean; PQ), `Bic.C139_range` (Props/FloatCast.lean; PCQ)

### C140 — Steps of floating variables (partial)

*Model:* `live_var_add`, `live_var_sub`, `eval_post_inc`, `eval_inc`, `eval_post_dec`, `eval_dec`, `make_int_from_live_var`  
*Proof:* evaluation of the step for every operand that ends at a floating variable.  
*Result:* False: no step of a floating variable ends normally (C140_never). x++ and x-- are given up with nothing changed (C140_post); ++x and --x change the variable by one, and nothing else, and are then given up (C140_pre). Floating addition is a parameter of the model.  
*Theorems:* `Bic.C140_refuted` (Props/FloatStep.lean; PCQ), `Bic.C140_never` (Props/FloatStep.lean; PCQ), `Bic.C140_post` (Props/FloatStep.lean; PQ), `Bic.C140_pre` (Props/FloatStep.lean; PCQ)

### C141 — Expressions have the value the types of C give them (partial)

*Model:* `make_int_from_live_var`, the operators of `evaluate.c`; C's typing rules in `Spec/Typed.lean`  
*Proof:* induction over C's typed evaluation: with signed types every conversion keeps the value, so the typed value is the mathematical one of C01; for the operators that respect it a congruence modulo 2^32 is carried along.  
*Result:* False: bic computes with unbounded integers, so that with unsigned u = 4294967295 the value of u + 1 is 4294967296, not 0. C141_signed_partial: right for all expressions whose variables have any integer type but unsigned int, unsigned long and unsigned long long, where / and >> round as in C. C141_kept_partial: right for all types where no conversion and no unsigned operation changes a value. C141_modulo: with +, -, *, &, |, ^, ~ and << by a constant on variables of all types (values below 2^63) the value differs from C's by a multiple of 2^32, and by one of 2^64 if no variable has type unsigned int (C141_modulo_wide). C141_one_value: the typing rules give one type and one value at most.  
*Theorems:* `Bic.C141_refuted` (Props/TypedExpr.lean; PQ), `Bic.C141_signed_partial` (Props/TypedExpr.lean; PCQ), `Bic.C141_kept_partial` (Props/TypedExpr.lean; PCQ), `Bic.C141_modulo` (Props/TypedExpr.lean; PCQ), `Bic.C141_modulo_wide` (Props/TypedWide.lean; PCQ), `Bic.C141_one_value` (Props/TypedExpr.lean; PCQ)

### C142 — Assignments store the value the types of C give the expression (partial)

*Model:* `eval_assign`, `assign_integer`, the operators of `evaluate.c`; C's typing rules in `Spec/Typed.lean`  
*Proof:* C141's inductions for the right side; `mpz_get_si` and the store keep the value modulo 2^width of the variable.  
*Result:* False: with unsigned u = 4294967295 and unsigned long w, w = u + 1 makes w 4294967296, not 0. C142_narrow_partial: right for variables of at most 32 bits and expressions with +, -, *, &, |, ^, ~ and << by a constant on variables of all integer types (values below 2^63), however often C's arithmetic wraps around. C142_wide_partial: right for all types of x and the same operators on variables of all types but unsigned int, if the mathematical value fits into a long, even if C's wraps around. C142_signed_partial: right for all types of x and all expressions whose variables have any integer type but unsigned int, unsigned long and unsigned long long, where / and >> round as in C. Right sides that are just a variable: C08.  
*Theorems:* `Bic.C142_refuted` (Props/TypedAssign.lean; PQ), `Bic.C142_narrow_partial` (Props/TypedAssign.lean; PCQ), `Bic.C142_wide_partial` (Props/TypedWide.lean; PCQ), `Bic.C142_signed_partial` (Props/TypedAssign.lean; PCQ)

### C143 — Programs compute with the types of C (partial)

*Model:* `eval_assign`, `eval_decl`, the loops and operators of `evaluate.c`; C's semantics with types in `Spec/TypedProg.lean`  
*Proof:* Induction on the typed run gives a run of `Spec/Prog.lean`: C141's inductions for the expressions, steps in the common type with `int` composed with the conversion; then C34, C79, C86 and C88.  
*Result:* False: with unsigned x = 0, x = (x - 1) > 0 makes x 0, not 1. C143_programs_partial: right, and the only outcome, for programs with variables of all integer types whose expressions have no operands of type unsigned int, unsigned long or unsigned long long or compute no value that wraps around, where / and >> round as in C, where what is assigned is computed or a variable at least as wide, and to variables of at most 32 bits also any expression with + - * & | ^ ~ and << by a constant, however it wraps around, and to wider ones such expressions without unsigned int whose mathematical value fits into a long, and where no block stands directly in a block; ++ and -- may wrap around. C143_script_partial: the same from the tokens of a script. C143_text_partial: the same with procedures, from the text of a script to its exit status; C143_main_partial: and with main. C143_one_outcome: C's semantics with types gives each program at most one outcome. okTyped_c, okTypedStatic_c: these programs are programs of C with the same outcome. Missing: other expressions that wrap around, those assignments and blocks, and for procedures what is missing in C86.  
*Theorems:* `Bic.C143_refuted` (Props/TypedProg.lean; PCQ), `Bic.C143_programs_partial` (Props/TypedProg.lean; PCQ), `Bic.C143_script_partial` (Props/TypedProg.lean; PCQ), `Bic.C143_text_partial` (Props/TypedProg.lean; PCQ), `Bic.C143_main_partial` (Props/TypedProg.lean; PCQ), `Bic.C143_one_outcome` (Props/TypedOne.lean; PCQ)

### C144 — Dialogues show the values the types of C give (partial)

*Model:* The REPL's loop as for C89, the operators of `evaluate.c`; C's typing rules in `Spec/Typed.lean`  
*Proof:* Each reply with C's types is a reply of `Spec/Dialogue.lean` by C141's inductions; then C89.  
*Result:* False: with unsigned x = 0, bic shows -1 for the line x - 1; where C has 4294967295. C144_dialogue_partial: right, and the only possible session, for lines whose expressions have no operands of type unsigned int, unsigned long or unsigned long long or compute no value that wraps around, where / and >> round as in C and assigned values fit; steps may wrap around (okTalk_c: these dialogues are C's; C144_one_outcome: C's rules allow one outcome at most). Missing: expressions that wrap around, and what is missing in C89.  
*Theorems:* `Bic.Repl.C144_refuted` (Props/TypedDialogue.lean; PCQ), `Bic.Repl.C144_dialogue_partial` (Props/TypedDialogue.lean; PCQ), `Bic.Repl.C144_one_outcome` (Props/TypedDialogue.lean; PCQ)
