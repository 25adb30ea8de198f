import Verif.Spec.LangDesc

/-!
# c.lang

The language description of bic: the text of `/repo/src/c.lang` line by line, and what it
declares in the terms of `Spec/LangDesc.lean`.  `Props/LangGen.lean` proves that the text lexes
to the tokens of the declarations.
-/

namespace Bic.LangGen
open Spec

/-- `/repo/src/c.lang`, line by line -/
def clangLines : List String := [
  "(defbasetypes",
  "  (integer \"mpz_t\")",
  "  (ffloat \"mpf_t\")",
  "  (string \"char *\")",
  "  (jmp_buf \"jmp_buf\")",
  "  (ptr \"void *\")",
  "  (sz \"size_t\")",
  "  (flag \"bool\")",
  "  (ffi_cif \"ffi_cif *\")",
  "  (ffi_types \"ffi_type **\")",
  "  (ffi_closure \"ffi_closure *\")",
  "  (comp_decl_type \"compound_type\")",
  "  (live_var_val \"union value *\"))",
  "",
  "(deftype T_INTEGER \"Constant integer\" \"tINT\"",
  "         ((\"VAL\" integer)))",
  "",
  "(deftype T_FLOAT \"Constant floating point\" \"tFLOAT\"",
  "         ((\"VAL\" ffloat)))",
  "",
  "(deftype T_STRING \"Constant string\" \"tSTRING\"",
  "         ((\"VAL\" string)))",
  "",
  "(deftype T_P_INC \"Increment (postfix)\" \"tPINC\"",
  "         (\"EXP\"))",
  "",
  "(deftype T_P_DEC \"Decrement (postfix)\" \"tPDEC\"",
  "         (\"EXP\"))",
  "",
  "(deftype T_INC \"Increment (unary)\" \"tINC\"",
  "         (\"EXP\"))",
  "",
  "(deftype T_DEC \"Decrement (unary)\" \"tDEC\"",
  "         (\"EXP\"))",
  "",
  "(deftype T_NEGATE \"Negate\" \"tNEGATE\"",
  "         (\"EXP\"))",
  "",
  "(deftype T_ONES_COMP \"One's Complement\" \"tONES_COMP\"",
  "         (\"EXP\"))",
  "",
  "(deftype T_SIZEOF \"Size of\" \"tSZOF\"",
  "         (\"EXP\"))",
  "",
  "(deftype T_IDENTIFIER \"Identifier\" \"tID\"",
  "         ((\"STR\" string)))",
  "",
  "(deftype T_POINTER \"Pointer\" \"tPTR\"",
  "         (\"EXP\" \"QUALIFIERS\"))",
  "",
  "(deftype T_INSPECT \"Inspect Identifier\" \"tINSPECT\"",
  "         (\"EXP\"))",
  "",
  "(deftype T_MUL \"Multiply\" \"tMUL\"",
  "         (\"LHS\" \"RHS\"))",
  "",
  "(deftype T_DIV \"Divide\" \"tDIV\"",
  "         (\"LHS\" \"RHS\"))",
  "",
  "(deftype T_MOD \"Modulus\" \"tMOD\"",
  "         (\"LHS\" \"RHS\"))",
  "",
  "(deftype T_ADD \"Addition\" \"tADD\"",
  "         (\"LHS\" \"RHS\"))",
  "",
  "(deftype T_SUB \"Subtraction\" \"tSUB\"",
  "         (\"LHS\" \"RHS\"))",
  "",
  "(deftype T_LSHIFT \"Left Shift\" \"tLSHIFT\"",
  "         (\"LHS\" \"RHS\"))",
  "",
  "(deftype T_RSHIFT \"Right Shift\" \"tRSHIFT\"",
  "         (\"LHS\" \"RHS\"))",
  "",
  "(deftype T_LT \"Less than\" \"tLT\"",
  "         (\"LHS\" \"RHS\"))",
  "",
  "(deftype T_GT \"Greater than\" \"tGT\"",
  "         (\"LHS\" \"RHS\"))",
  "",
  "(deftype T_LTEQ \"Less than or equal\" \"tLTEQ\"",
  "         (\"LHS\" \"RHS\"))",
  "",
  "(deftype T_GTEQ \"Less than or equal\" \"tGTEQ\"",
  "         (\"LHS\" \"RHS\"))",
  "",
  "(deftype T_EQ \"Equal\" \"tEQ\"",
  "         (\"LHS\" \"RHS\"))",
  "",
  "(deftype T_N_EQ \"Not Equal\" \"tN_EQ\"",
  "         (\"LHS\" \"RHS\"))",
  "",
  "(deftype T_L_OR \"Logical OR\" \"tL_OR\"",
  "         (\"LHS\" \"RHS\"))",
  "",
  "(deftype T_I_OR \"Inclusive OR\" \"tI_OR\"",
  "         (\"LHS\" \"RHS\"))",
  "",
  "(deftype T_X_OR \"Exclusive OR\" \"tX_OR\"",
  "         (\"LHS\" \"RHS\"))",
  "",
  "(deftype T_I_AND \"Inclusive AND\" \"tI_AND\"",
  "         (\"LHS\" \"RHS\"))",
  "",
  "(deftype T_L_AND \"Logical AND\" \"tL_AND\"",
  "         (\"LHS\" \"RHS\"))",
  "",
  "(deftype T_COMMA \"Comma operator\" \"tCOMMA\"",
  "         (\"LHS\" \"RHS\"))",
  "",
  "(deftype T_IF \"If\" \"tIF\"",
  "         (\"COND\" \"TRUE_STMTS\" \"ELSE_STMTS\"))",
  "",
  "(deftype T_ASSIGN \"Assignment\" \"tASSIGN\"",
  "         (\"LHS\" \"RHS\"))",
  "",
  "(deftype T_CAST \"Cast\" \"tCAST\"",
  "         (\"NEWTYPE\" \"EXP\"))",
  "",
  "(deftype T_TYPEDEF \"typedef storage class specifier\")",
  "(deftype T_EXTERN \"external storage class specifier\")",
  "(deftype T_STATIC \"static storage class specifier\")",
  "(deftype T_AUTO \"auto storage class specifier\")",
  "(deftype T_REGISTER \"register storage class specifier\")",
  "",
  "(deftype T_VOID_TS \"void\")",
  "(deftype T_CHAR_TS \"char\")",
  "(deftype T_SHORT_TS \"short\")",
  "(deftype T_INT_TS \"integer\")",
  "(deftype T_LONG_TS \"long\")",
  "(deftype T_FLOAT_TS \"float\")",
  "(deftype T_DOUBLE_TS \"double\")",
  "(deftype T_SIGNED_TS \"signed\")",
  "(deftype T_UNSIGNED_TS \"unsigned\")",
  "(deftype T_BOOL_TS \"bool\")",
  "",
  "(deftype T_CONST \"const type qualifier\")",
  "(deftype T_RESTRICT \"restrict type qualifier\")",
  "(deftype T_VOLATILE \"volatile type qualifier\")",
  "",
  "(deftype T_EMPTY \"Empty block\")",
  "(deftype T_EXPR_LIST \"Expression List\" \"tEXPR_LIST\"",
  "         (\"CHAIN\"))",
  "",
  "(deftype T_INLINE \"inline function specifier\")",
  "",
  "(deftype T_BITFIELD \"Bitfield declarator\" \"tBITFIELD\"",
  "         (\"SZ\" \"DECLARATOR\"))",
  "",
  "(deftype T_COMP_ACCESS \"Compound Access\" \"tCOMP_ACCESS\"",
  "         (\"OBJ\" \"MEMBER\"))",
  "",
  "(deftype T_ARRAY_ACCESS \"Array Access\" \"tARR_ACCESS\"",
  "         (\"OBJ\" \"IDX\"))",
  "",
  "(deftype T_ADDR \"Address Operator\" \"tADDR\"",
  "         (\"EXP\"))",
  "",
  "(deftype T_DEREF \"Address Dereference\" \"tDEREF\"",
  "         (\"EXP\"))",
  "",
  "(deftype T_ARRAY \"Array Declaration\" \"tARRAY\"",
  "         (\"DECL\" \"QUALIFIERS\" \"SZ\"))",
  "",
  "(deftype T_ARRAY_TYPE \"Array Type\" \"tARRAY_TYPE\"",
  "         (\"BASE_TYPE\" \"SZ\"))",
  "",
  "(deftype T_DECL \"Declaration\" \"tDECL\"",
  "         (\"SPECS\" \"DECLS\"",
  "          (\"OFFSET\" sz)))",
  "",
  "(deftype T_TYPE_SPECIFIER \"Type specifier\" \"tTYPE_SPECIFIER\"",
  "         (\"SPECS\" \"DECL\"))",
  "",
  "(deftype T_DECL_COMPOUND \"Compound Declataion\" \"tCOMP_DECL\"",
  "         (\"ID\" \"DECLS\"",
  "               (\"SZ\" sz)",
  "               (\"EXPANDED\" flag)",
  "               (\"TYPE\"  comp_decl_type)))",
  "",
  "(deftype T_FN \"Function\" \"tFN\"",
  "         (\"DECL\" \"ARGS\" \"RET_TYPE\" \"STMTS\"))",
  "",
  "(deftype T_BUILTIN \"Builtin function handler\" \"tBUILTIN\"",
  "         ((\"HANDLER\" ptr)))",
  "",
  "(deftype T_FN_CALL \"Function Call\" \"tFNCALL\"",
  "         (\"ID\" \"ARGS\"))",
  "",
  "(deftype T_CLOSURE \"Closure Call\" \"tCLOSURE\"",
  "         (\"ARG_TYPES\" \"RET_TYPE\" \"FN\"",
  "          (\"CIF\" ffi_cif)",
  "          (\"TYPES\" ffi_types)",
  "          (\"CLOSURE\" ffi_closure)))",
  "",
  "(deftype T_FN_ARG \"Function Argument\" \"tFNARG\"",
  "         (\"EXP\"))",
  "",
  "(deftype T_INFIX \"Infix Operator\" \"tINFIX\"",
  "         (\"COND\" \"TRUE_STMT\" \"FALSE_STMT\"))",
  "",
  "(deftype T_LOOP_FOR \"For loop\" \"tFLOOP\"",
  "         (\"INIT\" \"COND\" \"AFTER\" \"STMTS\"))",
  "",
  "(deftype T_LOOP_WHILE \"While loop\" \"tWLOOP\"",
  "         (\"COND\" \"STMTS\"))",
  "",
  "(deftype T_RETURN \"Function return\" \"tRET\"",
  "         (\"EXP\"))",
  "",
  "(deftype T_BREAK \"Break statement\")",
  "",
  "(deftype T_REPL \"Switch to REPL\")",
  "",
  "(deftype T_ENUMERATOR \"Enumerator\" \"tENUM\"",
  "         (\"NAME\" \"ENUMS\"))",
  "",
  "(deftype T_VARIADIC \"Variadic Function Argument\")",
  "",
  "(deftype T_LIVE_VAR \"Live Variable\" \"tLV\"",
  "         (\"TYPE\"",
  "          (\"VAL\" live_var_val)",
  "          (\"IS_ARRAY\" flag)",
  "          (\"ARRAY_SZ\" sz)))",
  "",
  "(deftype T_LIVE_COMPOUND \"Live Compound\" \"tLV_COMP\"",
  "         (\"DECL\" \"MEMBERS\"",
  "                 (\"BASE\" ptr)))",
  "",
  "(deftype CHAIN_HEAD \"Tree Chain Head\")",
  "",
  "(deftype E_CTX \"Evaluator Context\" \"tECTX\"",
  "         (\"ID_MAP\" \"STRUCT_ID_MAP\" \"UNION_ID_MAP\" \"PARENT_CTX\" \"ALLOC_CHAIN\" \"NAME\" \"RETVAL\"",
  "          (\"JMP_BUF\" jmp_buf)",
  "          (\"SHOULD_BREAK\" flag)",
  "          (\"IS_FN_CALL\" flag)",
  "          (\"IS_STATIC\" flag)))",
  "",
  "(deftype E_ALLOC \"Evaluator allocation\" \"tALLOC\"",
  "         ((\"PTR\" ptr)))",
  "",
  "(deftype E_INCOMP_TYPE \"Incompletel type\")",
  "",
  "(deftype E_MAP \"Evaluator map\" \"tEMAP\"",
  "         (\"LEFT\" \"RIGHT\"))",
  "",
  "(deftype CPP_INCLUDE \"C preprocessor include directive\" \"tCPP_INCLUDE\"",
  "         ((\"STR\" string)))",
  "",
  "(deftype D_T_VOID \"Void type\")",
  "",
  "(deftype T_EXT_FUNC \"External function\" \"tEXT_FUNC\"",
  "         (\"FN\"))",
  "",
  "(defctype D_T_CHAR \"signed char\" \"char\" \"d\" \"ival\" ffi_type_schar)",
  "(defctype D_T_SHORT \"signed short\" \"short\" \"hd\" \"ival\" ffi_type_sshort)",
  "(defctype D_T_INT \"signed integer\" \"int\" \"d\" \"ival\" ffi_type_sint)",
  "(defctype D_T_LONG \"signed long\" \"long\" \"ld\" \"ival\" ffi_type_slong)",
  "(defctype D_T_LONGLONG \"signed long long\" \"long long\" \"lld\" \"ival\" ffi_type_slong)",
  "(defctype D_T_UCHAR \"unsigned char\" \"unsigned char\" \"u\" \"ival\" ffi_type_uchar)",
  "(defctype D_T_USHORT \"signed short\" \"unsigned short\" \"hu\" \"ival\" ffi_type_ushort)",
  "(defctype D_T_UINT \"unsigned integer\" \"unsigned int\" \"u\" \"ival\" ffi_type_uint)",
  "(defctype D_T_ULONG \"unsigned long\" \"unsigned long\" \"lu\" \"ival\" ffi_type_ulong)",
  "(defctype D_T_ULONGLONG \"unsigned long long\" \"unsigned long long\" \"llu\" \"ival\" ffi_type_ulong)",
  "(defctype D_T_FLOAT \"float\" \"float\" \"f\" \"dval\" ffi_type_float)",
  "(defctype D_T_DOUBLE \"double\" \"double\" \"f\" \"dval\" ffi_type_double)",
  "(defctype D_T_LONGDOUBLE \"long double\" \"long double\" \"Lf\" \"dval\" ffi_type_longdouble)",
  "(defctype D_T_PTR \"pointer\" \"void *\" \"p\" \"ival\" ffi_type_pointer \"tDTPTR\"",
  "          (\"EXP\"))",
  "",
  "(defspecifier D_T_CHAR ((T_CHAR_TS)",
  "                        (T_SIGNED_TS T_CHAR_TS)))",
  "",
  "(defspecifier D_T_SHORT ((T_SHORT_TS)",
  "                         (T_SIGNED_TS T_SHORT_TS)",
  "                         (T_SHORT_TS T_INT_TS)",
  "                         (T_SIGNED_TS T_SHORT_TS T_INT_TS)))",
  "",
  "(defspecifier D_T_INT ((T_INT_TS)",
  "                       (T_SIGNED_TS)",
  "                       (T_SIGNED_TS T_INT_TS)))",
  "",
  "(defspecifier D_T_LONG ((T_LONG_TS)",
  "                        (T_SIGNED_TS T_LONG_TS)",
  "                        (T_LONG_TS T_INT_TS)",
  "                        (T_SIGNED_TS T_LONG_TS T_INT_TS)))",
  "",
  "(defspecifier D_T_LONGLONG ((T_LONG_TS T_LONG_TS)",
  "                            (T_SIGNED_TS T_LONG_TS T_LONG_TS)",
  "                            (T_LONG_TS T_LONG_TS T_INT_TS)",
  "                            (T_SIGNED_TS T_LONG_TS T_LONG_TS T_INT_TS)))",
  "",
  "(defspecifier D_T_UCHAR ((T_UNSIGNED_TS T_CHAR_TS)))",
  "",
  "(defspecifier D_T_USHORT ((T_UNSIGNED_TS T_SHORT_TS)",
  "                          (T_UNSIGNED_TS T_SHORT_TS T_INT_TS)))",
  "",
  "(defspecifier D_T_UINT ((T_UNSIGNED_TS)",
  "                        (T_UNSIGNED_TS T_INT_TS)))",
  "",
  "(defspecifier D_T_ULONG ((T_UNSIGNED_TS T_LONG_TS)",
  "                         (T_UNSIGNED_TS T_LONG_TS T_INT_TS)))",
  "",
  "(defspecifier D_T_ULONGLONG ((T_UNSIGNED_TS T_LONG_TS T_LONG_TS)",
  "                             (T_UNSIGNED_TS T_LONG_TS T_LONG_TS T_INT_TS)))",
  "",
  "(defspecifier D_T_FLOAT ((T_FLOAT_TS)))",
  "(defspecifier D_T_DOUBLE ((T_DOUBLE_TS)))",
  "(defspecifier D_T_LONGDOUBLE ((T_LONG_TS T_DOUBLE_TS)))",
  "(defspecifier D_T_VOID ((T_VOID_TS)))",
  "(defspecifier :ignore T_EXTERN)",
  "(defspecifier :ignore T_TYPEDEF)",
  "(defspecifier :ignore T_STATIC)",
  "(defspecifier :self T_IDENTIFIER)",
  "(defspecifier :self T_DECL_COMPOUND)",
  "(defspecifier :self T_ENUMERATOR)"]

/-- `/repo/src/c.lang` (every line ends with a newline) -/
def clangText : List Char := clangLines.flatMap fun l => l.toList ++ ['\n']

/-- what `/repo/src/c.lang` declares -/
def clangDesc : List Form := [
  .base [("integer", "mpz_t"), ("ffloat", "mpf_t"), ("string", "char *"), ("jmp_buf", "jmp_buf"), ("ptr", "void *"), ("sz", "size_t"), ("flag", "bool"), ("ffi_cif", "ffi_cif *"), ("ffi_types", "ffi_type **"), ("ffi_closure", "ffi_closure *"), ("comp_decl_type", "compound_type"), ("live_var_val", "union value *")],
  .type "T_INTEGER" "Constant integer" (some ⟨"tINT", [⟨"VAL", .data "integer"⟩]⟩),
  .type "T_FLOAT" "Constant floating point" (some ⟨"tFLOAT", [⟨"VAL", .data "ffloat"⟩]⟩),
  .type "T_STRING" "Constant string" (some ⟨"tSTRING", [⟨"VAL", .data "string"⟩]⟩),
  .type "T_P_INC" "Increment (postfix)" (some ⟨"tPINC", [⟨"EXP", .tree⟩]⟩),
  .type "T_P_DEC" "Decrement (postfix)" (some ⟨"tPDEC", [⟨"EXP", .tree⟩]⟩),
  .type "T_INC" "Increment (unary)" (some ⟨"tINC", [⟨"EXP", .tree⟩]⟩),
  .type "T_DEC" "Decrement (unary)" (some ⟨"tDEC", [⟨"EXP", .tree⟩]⟩),
  .type "T_NEGATE" "Negate" (some ⟨"tNEGATE", [⟨"EXP", .tree⟩]⟩),
  .type "T_ONES_COMP" "One's Complement" (some ⟨"tONES_COMP", [⟨"EXP", .tree⟩]⟩),
  .type "T_SIZEOF" "Size of" (some ⟨"tSZOF", [⟨"EXP", .tree⟩]⟩),
  .type "T_IDENTIFIER" "Identifier" (some ⟨"tID", [⟨"STR", .data "string"⟩]⟩),
  .type "T_POINTER" "Pointer" (some ⟨"tPTR", [⟨"EXP", .tree⟩, ⟨"QUALIFIERS", .tree⟩]⟩),
  .type "T_INSPECT" "Inspect Identifier" (some ⟨"tINSPECT", [⟨"EXP", .tree⟩]⟩),
  .type "T_MUL" "Multiply" (some ⟨"tMUL", [⟨"LHS", .tree⟩, ⟨"RHS", .tree⟩]⟩),
  .type "T_DIV" "Divide" (some ⟨"tDIV", [⟨"LHS", .tree⟩, ⟨"RHS", .tree⟩]⟩),
  .type "T_MOD" "Modulus" (some ⟨"tMOD", [⟨"LHS", .tree⟩, ⟨"RHS", .tree⟩]⟩),
  .type "T_ADD" "Addition" (some ⟨"tADD", [⟨"LHS", .tree⟩, ⟨"RHS", .tree⟩]⟩),
  .type "T_SUB" "Subtraction" (some ⟨"tSUB", [⟨"LHS", .tree⟩, ⟨"RHS", .tree⟩]⟩),
  .type "T_LSHIFT" "Left Shift" (some ⟨"tLSHIFT", [⟨"LHS", .tree⟩, ⟨"RHS", .tree⟩]⟩),
  .type "T_RSHIFT" "Right Shift" (some ⟨"tRSHIFT", [⟨"LHS", .tree⟩, ⟨"RHS", .tree⟩]⟩),
  .type "T_LT" "Less than" (some ⟨"tLT", [⟨"LHS", .tree⟩, ⟨"RHS", .tree⟩]⟩),
  .type "T_GT" "Greater than" (some ⟨"tGT", [⟨"LHS", .tree⟩, ⟨"RHS", .tree⟩]⟩),
  .type "T_LTEQ" "Less than or equal" (some ⟨"tLTEQ", [⟨"LHS", .tree⟩, ⟨"RHS", .tree⟩]⟩),
  .type "T_GTEQ" "Less than or equal" (some ⟨"tGTEQ", [⟨"LHS", .tree⟩, ⟨"RHS", .tree⟩]⟩),
  .type "T_EQ" "Equal" (some ⟨"tEQ", [⟨"LHS", .tree⟩, ⟨"RHS", .tree⟩]⟩),
  .type "T_N_EQ" "Not Equal" (some ⟨"tN_EQ", [⟨"LHS", .tree⟩, ⟨"RHS", .tree⟩]⟩),
  .type "T_L_OR" "Logical OR" (some ⟨"tL_OR", [⟨"LHS", .tree⟩, ⟨"RHS", .tree⟩]⟩),
  .type "T_I_OR" "Inclusive OR" (some ⟨"tI_OR", [⟨"LHS", .tree⟩, ⟨"RHS", .tree⟩]⟩),
  .type "T_X_OR" "Exclusive OR" (some ⟨"tX_OR", [⟨"LHS", .tree⟩, ⟨"RHS", .tree⟩]⟩),
  .type "T_I_AND" "Inclusive AND" (some ⟨"tI_AND", [⟨"LHS", .tree⟩, ⟨"RHS", .tree⟩]⟩),
  .type "T_L_AND" "Logical AND" (some ⟨"tL_AND", [⟨"LHS", .tree⟩, ⟨"RHS", .tree⟩]⟩),
  .type "T_COMMA" "Comma operator" (some ⟨"tCOMMA", [⟨"LHS", .tree⟩, ⟨"RHS", .tree⟩]⟩),
  .type "T_IF" "If" (some ⟨"tIF", [⟨"COND", .tree⟩, ⟨"TRUE_STMTS", .tree⟩, ⟨"ELSE_STMTS", .tree⟩]⟩),
  .type "T_ASSIGN" "Assignment" (some ⟨"tASSIGN", [⟨"LHS", .tree⟩, ⟨"RHS", .tree⟩]⟩),
  .type "T_CAST" "Cast" (some ⟨"tCAST", [⟨"NEWTYPE", .tree⟩, ⟨"EXP", .tree⟩]⟩),
  .type "T_TYPEDEF" "typedef storage class specifier" none,
  .type "T_EXTERN" "external storage class specifier" none,
  .type "T_STATIC" "static storage class specifier" none,
  .type "T_AUTO" "auto storage class specifier" none,
  .type "T_REGISTER" "register storage class specifier" none,
  .type "T_VOID_TS" "void" none,
  .type "T_CHAR_TS" "char" none,
  .type "T_SHORT_TS" "short" none,
  .type "T_INT_TS" "integer" none,
  .type "T_LONG_TS" "long" none,
  .type "T_FLOAT_TS" "float" none,
  .type "T_DOUBLE_TS" "double" none,
  .type "T_SIGNED_TS" "signed" none,
  .type "T_UNSIGNED_TS" "unsigned" none,
  .type "T_BOOL_TS" "bool" none,
  .type "T_CONST" "const type qualifier" none,
  .type "T_RESTRICT" "restrict type qualifier" none,
  .type "T_VOLATILE" "volatile type qualifier" none,
  .type "T_EMPTY" "Empty block" none,
  .type "T_EXPR_LIST" "Expression List" (some ⟨"tEXPR_LIST", [⟨"CHAIN", .tree⟩]⟩),
  .type "T_INLINE" "inline function specifier" none,
  .type "T_BITFIELD" "Bitfield declarator" (some ⟨"tBITFIELD", [⟨"SZ", .tree⟩, ⟨"DECLARATOR", .tree⟩]⟩),
  .type "T_COMP_ACCESS" "Compound Access" (some ⟨"tCOMP_ACCESS", [⟨"OBJ", .tree⟩, ⟨"MEMBER", .tree⟩]⟩),
  .type "T_ARRAY_ACCESS" "Array Access" (some ⟨"tARR_ACCESS", [⟨"OBJ", .tree⟩, ⟨"IDX", .tree⟩]⟩),
  .type "T_ADDR" "Address Operator" (some ⟨"tADDR", [⟨"EXP", .tree⟩]⟩),
  .type "T_DEREF" "Address Dereference" (some ⟨"tDEREF", [⟨"EXP", .tree⟩]⟩),
  .type "T_ARRAY" "Array Declaration" (some ⟨"tARRAY", [⟨"DECL", .tree⟩, ⟨"QUALIFIERS", .tree⟩, ⟨"SZ", .tree⟩]⟩),
  .type "T_ARRAY_TYPE" "Array Type" (some ⟨"tARRAY_TYPE", [⟨"BASE_TYPE", .tree⟩, ⟨"SZ", .tree⟩]⟩),
  .type "T_DECL" "Declaration" (some ⟨"tDECL", [⟨"SPECS", .tree⟩, ⟨"DECLS", .tree⟩, ⟨"OFFSET", .data "sz"⟩]⟩),
  .type "T_TYPE_SPECIFIER" "Type specifier" (some ⟨"tTYPE_SPECIFIER", [⟨"SPECS", .tree⟩, ⟨"DECL", .tree⟩]⟩),
  .type "T_DECL_COMPOUND" "Compound Declataion" (some ⟨"tCOMP_DECL", [⟨"ID", .tree⟩, ⟨"DECLS", .tree⟩, ⟨"SZ", .data "sz"⟩, ⟨"EXPANDED", .data "flag"⟩, ⟨"TYPE", .data "comp_decl_type"⟩]⟩),
  .type "T_FN" "Function" (some ⟨"tFN", [⟨"DECL", .tree⟩, ⟨"ARGS", .tree⟩, ⟨"RET_TYPE", .tree⟩, ⟨"STMTS", .tree⟩]⟩),
  .type "T_BUILTIN" "Builtin function handler" (some ⟨"tBUILTIN", [⟨"HANDLER", .data "ptr"⟩]⟩),
  .type "T_FN_CALL" "Function Call" (some ⟨"tFNCALL", [⟨"ID", .tree⟩, ⟨"ARGS", .tree⟩]⟩),
  .type "T_CLOSURE" "Closure Call" (some ⟨"tCLOSURE", [⟨"ARG_TYPES", .tree⟩, ⟨"RET_TYPE", .tree⟩, ⟨"FN", .tree⟩, ⟨"CIF", .data "ffi_cif"⟩, ⟨"TYPES", .data "ffi_types"⟩, ⟨"CLOSURE", .data "ffi_closure"⟩]⟩),
  .type "T_FN_ARG" "Function Argument" (some ⟨"tFNARG", [⟨"EXP", .tree⟩]⟩),
  .type "T_INFIX" "Infix Operator" (some ⟨"tINFIX", [⟨"COND", .tree⟩, ⟨"TRUE_STMT", .tree⟩, ⟨"FALSE_STMT", .tree⟩]⟩),
  .type "T_LOOP_FOR" "For loop" (some ⟨"tFLOOP", [⟨"INIT", .tree⟩, ⟨"COND", .tree⟩, ⟨"AFTER", .tree⟩, ⟨"STMTS", .tree⟩]⟩),
  .type "T_LOOP_WHILE" "While loop" (some ⟨"tWLOOP", [⟨"COND", .tree⟩, ⟨"STMTS", .tree⟩]⟩),
  .type "T_RETURN" "Function return" (some ⟨"tRET", [⟨"EXP", .tree⟩]⟩),
  .type "T_BREAK" "Break statement" none,
  .type "T_REPL" "Switch to REPL" none,
  .type "T_ENUMERATOR" "Enumerator" (some ⟨"tENUM", [⟨"NAME", .tree⟩, ⟨"ENUMS", .tree⟩]⟩),
  .type "T_VARIADIC" "Variadic Function Argument" none,
  .type "T_LIVE_VAR" "Live Variable" (some ⟨"tLV", [⟨"TYPE", .tree⟩, ⟨"VAL", .data "live_var_val"⟩, ⟨"IS_ARRAY", .data "flag"⟩, ⟨"ARRAY_SZ", .data "sz"⟩]⟩),
  .type "T_LIVE_COMPOUND" "Live Compound" (some ⟨"tLV_COMP", [⟨"DECL", .tree⟩, ⟨"MEMBERS", .tree⟩, ⟨"BASE", .data "ptr"⟩]⟩),
  .type "CHAIN_HEAD" "Tree Chain Head" none,
  .type "E_CTX" "Evaluator Context" (some ⟨"tECTX", [⟨"ID_MAP", .tree⟩, ⟨"STRUCT_ID_MAP", .tree⟩, ⟨"UNION_ID_MAP", .tree⟩, ⟨"PARENT_CTX", .tree⟩, ⟨"ALLOC_CHAIN", .tree⟩, ⟨"NAME", .tree⟩, ⟨"RETVAL", .tree⟩, ⟨"JMP_BUF", .data "jmp_buf"⟩, ⟨"SHOULD_BREAK", .data "flag"⟩, ⟨"IS_FN_CALL", .data "flag"⟩, ⟨"IS_STATIC", .data "flag"⟩]⟩),
  .type "E_ALLOC" "Evaluator allocation" (some ⟨"tALLOC", [⟨"PTR", .data "ptr"⟩]⟩),
  .type "E_INCOMP_TYPE" "Incompletel type" none,
  .type "E_MAP" "Evaluator map" (some ⟨"tEMAP", [⟨"LEFT", .tree⟩, ⟨"RIGHT", .tree⟩]⟩),
  .type "CPP_INCLUDE" "C preprocessor include directive" (some ⟨"tCPP_INCLUDE", [⟨"STR", .data "string"⟩]⟩),
  .type "D_T_VOID" "Void type" none,
  .type "T_EXT_FUNC" "External function" (some ⟨"tEXT_FUNC", [⟨"FN", .tree⟩]⟩),
  .ctype "D_T_CHAR" "signed char" "char" "d" "ival" "ffi_type_schar" none,
  .ctype "D_T_SHORT" "signed short" "short" "hd" "ival" "ffi_type_sshort" none,
  .ctype "D_T_INT" "signed integer" "int" "d" "ival" "ffi_type_sint" none,
  .ctype "D_T_LONG" "signed long" "long" "ld" "ival" "ffi_type_slong" none,
  .ctype "D_T_LONGLONG" "signed long long" "long long" "lld" "ival" "ffi_type_slong" none,
  .ctype "D_T_UCHAR" "unsigned char" "unsigned char" "u" "ival" "ffi_type_uchar" none,
  .ctype "D_T_USHORT" "signed short" "unsigned short" "hu" "ival" "ffi_type_ushort" none,
  .ctype "D_T_UINT" "unsigned integer" "unsigned int" "u" "ival" "ffi_type_uint" none,
  .ctype "D_T_ULONG" "unsigned long" "unsigned long" "lu" "ival" "ffi_type_ulong" none,
  .ctype "D_T_ULONGLONG" "unsigned long long" "unsigned long long" "llu" "ival" "ffi_type_ulong" none,
  .ctype "D_T_FLOAT" "float" "float" "f" "dval" "ffi_type_float" none,
  .ctype "D_T_DOUBLE" "double" "double" "f" "dval" "ffi_type_double" none,
  .ctype "D_T_LONGDOUBLE" "long double" "long double" "Lf" "dval" "ffi_type_longdouble" none,
  .ctype "D_T_PTR" "pointer" "void *" "p" "ival" "ffi_type_pointer" (some ⟨"tDTPTR", [⟨"EXP", .tree⟩]⟩),
  .spec "D_T_CHAR" [["T_CHAR_TS"], ["T_SIGNED_TS", "T_CHAR_TS"]],
  .spec "D_T_SHORT" [["T_SHORT_TS"], ["T_SIGNED_TS", "T_SHORT_TS"], ["T_SHORT_TS", "T_INT_TS"], ["T_SIGNED_TS", "T_SHORT_TS", "T_INT_TS"]],
  .spec "D_T_INT" [["T_INT_TS"], ["T_SIGNED_TS"], ["T_SIGNED_TS", "T_INT_TS"]],
  .spec "D_T_LONG" [["T_LONG_TS"], ["T_SIGNED_TS", "T_LONG_TS"], ["T_LONG_TS", "T_INT_TS"], ["T_SIGNED_TS", "T_LONG_TS", "T_INT_TS"]],
  .spec "D_T_LONGLONG" [["T_LONG_TS", "T_LONG_TS"], ["T_SIGNED_TS", "T_LONG_TS", "T_LONG_TS"], ["T_LONG_TS", "T_LONG_TS", "T_INT_TS"], ["T_SIGNED_TS", "T_LONG_TS", "T_LONG_TS", "T_INT_TS"]],
  .spec "D_T_UCHAR" [["T_UNSIGNED_TS", "T_CHAR_TS"]],
  .spec "D_T_USHORT" [["T_UNSIGNED_TS", "T_SHORT_TS"], ["T_UNSIGNED_TS", "T_SHORT_TS", "T_INT_TS"]],
  .spec "D_T_UINT" [["T_UNSIGNED_TS"], ["T_UNSIGNED_TS", "T_INT_TS"]],
  .spec "D_T_ULONG" [["T_UNSIGNED_TS", "T_LONG_TS"], ["T_UNSIGNED_TS", "T_LONG_TS", "T_INT_TS"]],
  .spec "D_T_ULONGLONG" [["T_UNSIGNED_TS", "T_LONG_TS", "T_LONG_TS"], ["T_UNSIGNED_TS", "T_LONG_TS", "T_LONG_TS", "T_INT_TS"]],
  .spec "D_T_FLOAT" [["T_FLOAT_TS"]],
  .spec "D_T_DOUBLE" [["T_DOUBLE_TS"]],
  .spec "D_T_LONGDOUBLE" [["T_LONG_TS", "T_DOUBLE_TS"]],
  .spec "D_T_VOID" [["T_VOID_TS"]],
  .ignore "T_EXTERN",
  .ignore "T_TYPEDEF",
  .ignore "T_STATIC",
  .self "T_IDENTIFIER",
  .self "T_DECL_COMPOUND",
  .self "T_ENUMERATOR"]

end Bic.LangGen
