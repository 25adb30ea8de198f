import Verif.Model.Tree
import Verif.Model.Lexer
/-!
# The grammar (parser.m4)

bison turns the productions of parser.m4:183-1602 into an LALR(1) parser that runs the action of a
production whenever it reduces by it.  Modelled here are the productions with their actions:
`Der N i t r` says that the nonterminal `N` derives the tokens of `i` up to the remainder `r`, and
that the actions build the tree `t`.  That bison's tables implement the productions is trusted.

The grammar has one conflict, between the two forms of `if` before ELSE.  `%right ')' ELSE` (94)
gives the short form and ELSE the same precedence, so bison shifts: the short form is reduced only
if the next token is not ELSE.

Trees are modelled without their identity, location and sharing; `tree_make_binmod` uses its left
operand twice.  Side effects of `maybe_add_typenames` on later tokens are not modelled here (see
Model.Typename): the sequence of tokens is given.
-/

namespace Bic.Parser
open Lexer (Str)

/-- the tokens without a value (84-94 and the character tokens); those of lex.m4 that no
production uses are left out, except the ones that C uses -/
inductive K where
  | lparen | rparen | lbrack | rbrack | lbrace | rbrace | dot | arrow | incr | decr
  | bang | amp | star | tilde | slash | percent | plus | minus | shl | shr | lt | gt | le | ge | eqeq | ne
  | caret | bar | andand | oror | question | colon | assign | addA | subA | divA | shlA | shrA | xorA | comma | semi
  | ellipsis | sizeof
  | typedef | extern | static | auto | register
  | void | char | short | int | long | float | double | signed | unsigned | bool
  | struct | union | enum | const | restrict | volatile | inline
  | if_ | else_ | while_ | for_ | return_ | break_ | repl
  | case | continue | default | do_ | goto | switch
deriving DecidableEq, Repr

/-- tokens -/
inductive T where
  | ident (s : Str)
  | typeName (s : Str)
  | integer (v : Int)
  | floatCst (s : Str)
  | string (s : Str)
  | cPreInc (s : Str)
  | p (k : K)
deriving DecidableEq, Repr

/-- the trees the actions build (c.lang); `null` is NULL -/
inductive PT where
  | null
  | integer (v : Int)
  | flt (s : Str)
  | ident (s : Str)
  | str (s : Str)
  | chain (ts : List PT)
  | fnCall (f args : PT)
  | arrAccess (obj idx : PT)
  | pInc (e : PT) | pDec (e : PT) | inc (e : PT) | dec (e : PT)
  | compAccess (obj mem : PT)
  | negate (e : PT) | addr (e : PT) | deref (e : PT) | onesComp (e : PT) | sizeof (e : PT)
  | cast (ty e : PT)
  | bin (op : BinOp) (l r : PT)
  | cmp (op : CmpOp) (l r : PT)
  | lOr (l r : PT) | lAnd (l r : PT)
  | infix (c t f : PT)
  | assign (l r : PT)
  | exprList (c : PT)
  | decl (specs decls : PT)
  | kw (k : Kw)
  | compound (isStruct : Bool) (id decls : PT)
  | enumr (name enums : PT)
  | bitfield (sz d : PT)
  | pointer (quals e : PT)
  | array (d quals sz : PT)
  | fn (d args stmts : PT)
  | variadic
  | typeSpec (specs d : PT)
  | empty
  | cppInclude (s : Str)
  | inspect (e : PT)
  | repl
  | ifS (c t e : PT)
  | whileS (c b : PT)
  | forS (init cond after stmts : PT)
  | brk
  | ret (e : PT)

/-- the nonterminals.  `bin 0` is cast_expression and `bin 1` … `bin 10` are
multiplicative_expression … logical_or_expression -/
inductive N where
  | primary | postfix | argList | unary | bin (l : Nat) | cond | constant | assignment | expression
  | declaration | declSpecs | declSpec | initDeclList | initDecl | storage | typeSpecifier | structSpec
  | structDeclList | structDecl | sqList | sq | structDeclrList | structDeclr | enumSpec | enumList | enumerator
  | typeQual | fnSpec | declarator | directDecl | pointer | tqList | paramTypeList | paramList | paramDecl | identList
  | typeName | abstractDecl | directAbs | initializer | initList | designation | desigList | designator | exprStmt
  | replStmt | replUnit
  | statement | compoundStmt | blockItems | blockItem | selection | iteration | jump
  | externalDecl | fnDef | declList | cscriptDecl | cscriptUnit
deriving DecidableEq, Repr

/-- the binary operators of each level and the trees they build (368-547) -/
def binAction : Nat → K → Option (PT → PT → PT)
  | 1, .star => some (.bin .mul)
  | 1, .slash => some (.bin .div)
  | 1, .percent => some (.bin .mod)
  | 2, .plus => some (.bin .add)
  | 2, .minus => some (.bin .sub)
  | 3, .shl => some (.bin .lshift)
  | 3, .shr => some (.bin .rshift)
  | 4, .lt => some (.cmp .lt)
  | 4, .gt => some (.cmp .gt)
  | 4, .le => some (.cmp .lteq)
  | 4, .ge => some (.cmp .gteq)
  | 5, .eqeq => some (.cmp .eq)
  | 5, .ne => some (.cmp .neq)
  | 6, .amp => some (.bin .iand)
  | 7, .caret => some (.bin .xor)
  | 8, .bar => some (.bin .ior)
  | 9, .andand => some .lAnd
  | 10, .oror => some .lOr
  | _, _ => none

/-- the unary operators (296-346) -/
def unaryAction : K → Option (PT → PT)
  | .incr => some .inc
  | .decr => some .dec
  | .bang => some .negate
  | .amp => some .addr
  | .star => some .deref
  | .tilde => some .onesComp
  | .sizeof => some .sizeof
  | _ => none

/-- the assignment operators (564-598); `tree_make_binmod` is tree.h:252-264 -/
def assignAction : K → Option (PT → PT → PT)
  | .assign => some fun l r => .assign l r
  | .addA => some fun l r => .assign l (.bin .add l r)
  | .subA => some fun l r => .assign l (.bin .sub l r)
  | .divA => some fun l r => .assign l (.bin .div l r)
  | .shlA => some fun l r => .assign l (.bin .lshift l r)
  | .shrA => some fun l r => .assign l (.bin .rshift l r)
  | .xorA => some fun l r => .assign l (.bin .xor l r)
  | _ => none

/-- storage_class_specifier (674-705) -/
def storageAction : K → Option Kw
  | .typedef => some .typedef
  | .extern => some .extern
  | .static => some .static
  | .auto => some .auto
  | .register => some .register
  | _ => none

/-- the keywords among the type specifiers (707-767) -/
def typeAction : K → Option Kw
  | .void => some .void
  | .char => some .char
  | .short => some .short
  | .int => some .int
  | .long => some .long
  | .float => some .float
  | .double => some .double
  | .signed => some .signed
  | .unsigned => some .unsigned
  | .bool => some .bool
  | _ => none

/-- type_qualifier (959-972) -/
def qualAction : K → Option Kw
  | .const => some .const
  | .restrict => some .restrict
  | .volatile => some .volatile
  | _ => none

/-- struct_or_union (803-812) -/
def structAction : K → Option Bool
  | .struct => some true
  | .union => some false
  | _ => none

/-- `while (tPTR_EXP(p)) p = tPTR_EXP(p); tPTR_EXP(p) = d;` (985-992, 1220-1225) -/
def fillPtr : PT → PT → PT
  | .pointer q .null, d => .pointer q d
  | .pointer q e, d => .pointer q (fillPtr e d)
  | t, _ => t

/-- `tFN_STMTS($2) = …` (1561, 1570): the access macro (genaccess.cpp:27, `TREE_CHECK`) ends the
program if the declarator is another tree -/
def setStmts : PT → PT → Option PT
  | .fn d args _, b => some (.fn d args b)
  | _, _ => none

/-- the next token is not ELSE -/
def noElse : List T → Bool
  | .p .else_ :: _ => false
  | _ => true

set_option linter.unusedVariables false in
/-- the productions with their actions -/
inductive Der : N → List T → PT → List T → Prop
  -- primary_expression (183-217)
  | pInt {v r} : Der .primary (.integer v :: r) (.integer v) r
  | pFlt {s r} : Der .primary (.floatCst s :: r) (.flt s) r
  | pIdent {s r} : Der .primary (.ident s :: r) (.ident s) r
  | pStr {s r} : Der .primary (.string s :: r) (.str s) r
  | pParen {i t r} : Der .expression i t (.p .rparen :: r) → Der .primary (.p .lparen :: i) t r
  -- postfix_expression (219-283)
  | poPrimary {i t r} : Der .primary i t r → Der .postfix i t r
  | poCall0 {i t r} : Der .postfix i t (.p .lparen :: .p .rparen :: r) → Der .postfix i (.fnCall t .null) r
  | poCall {i t j a r} : Der .postfix i t (.p .lparen :: j) → Der .argList j a (.p .rparen :: r) →
      Der .postfix i (.fnCall t a) r
  | poIndex {i t j e r} : Der .postfix i t (.p .lbrack :: j) → Der .expression j e (.p .rbrack :: r) →
      Der .postfix i (.arrAccess t e) r
  | poInc {i t r} : Der .postfix i t (.p .incr :: r) → Der .postfix i (.pInc t) r
  | poDec {i t r} : Der .postfix i t (.p .decr :: r) → Der .postfix i (.pDec t) r
  | poDot {i t s r} : Der .postfix i t (.p .dot :: .ident s :: r) → Der .postfix i (.compAccess t (.ident s)) r
  | poArrow {i t s r} : Der .postfix i t (.p .arrow :: .ident s :: r) →
      Der .postfix i (.compAccess (.deref t) (.ident s)) r
  -- argument_expression_list (285-294)
  | agOne {i t r} : Der .assignment i t r → Der .argList i (.chain [t]) r
  | agMore {i ts j t r} : Der .argList i (.chain ts) (.p .comma :: j) → Der .assignment j t r →
      Der .argList i (.chain (ts ++ [t])) r
  -- unary_expression (296-354)
  | uPostfix {i t r} : Der .postfix i t r → Der .unary i t r
  | uOp {k f i t r} : unaryAction k = some f → Der .unary i t r → Der .unary (.p k :: i) (f t) r
  | uSizeofT {i t r} : Der .typeName i t (.p .rparen :: r) → Der .unary (.p .sizeof :: .p .lparen :: i) (.sizeof t) r
  -- cast_expression (356-366)
  | cUnary {i t r} : Der .unary i t r → Der (.bin 0) i t r
  | cCast {i ty j t r} : Der .typeName i ty (.p .rparen :: j) → Der (.bin 0) j t r →
      Der (.bin 0) (.p .lparen :: i) (.cast ty t) r
  -- multiplicative_expression … logical_or_expression (368-547)
  | bBase {l i t r} : l < 10 → Der (.bin l) i t r → Der (.bin (l + 1)) i t r
  | bOp {l i a k f j b r} : Der (.bin (l + 1)) i a (.p k :: j) → binAction (l + 1) k = some f → Der (.bin l) j b r →
      Der (.bin (l + 1)) i (f a b) r
  -- conditional_expression, constant_expression (549-562)
  | cdBase {i t r} : Der (.bin 10) i t r → Der .cond i t r
  | cdCond {i c j a j' b r} : Der (.bin 10) i c (.p .question :: j) → Der .expression j a (.p .colon :: j') →
      Der .cond j' b r → Der .cond i (.infix c a b) r
  | constant {i t r} : Der .cond i t r → Der .constant i t r
  -- assignment_expression (564-598)
  | asCond {i t r} : Der .cond i t r → Der .assignment i t r
  | asOp {i l k f j e r} : Der .unary i l (.p k :: j) → assignAction k = some f → Der .assignment j e r →
      Der .assignment i (f l e) r
  -- expression (600-611)
  | exOne {i t r} : Der .assignment i t r → Der .expression i (.exprList (.chain [t])) r
  | exMore {i ts j t r} : Der .expression i (.exprList (.chain ts)) (.p .comma :: j) → Der .assignment j t r →
      Der .expression i (.exprList (.chain (ts ++ [t]))) r
  -- declaration (613-631)
  | dcEmpty {i s r} : Der .declSpecs i s (.p .semi :: r) → Der .declaration i (.decl s .null) r
  | dcDecl {i s j d r} : Der .declSpecs i s j → Der .initDeclList j d (.p .semi :: r) → Der .declaration i (.decl s d) r
  -- declaration_specifiers (633-649)
  | dsOne {i t r} : Der .declSpec i t r → Der .declSpecs i (.chain [t]) r
  | dsMore {i ts j t r} : Der .declSpecs i (.chain ts) j → Der .declSpec j t r → Der .declSpecs i (.chain (ts ++ [t])) r
  | dsStorage {i t r} : Der .storage i t r → Der .declSpec i t r
  | dsType {i t r} : Der .typeSpecifier i t r → Der .declSpec i t r
  | dsQual {i t r} : Der .typeQual i t r → Der .declSpec i t r
  | dsFn {i t r} : Der .fnSpec i t r → Der .declSpec i t r
  -- init_declarator_list, init_declarator (651-672)
  | idlOne {i t r} : Der .initDecl i t r → Der .initDeclList i (.chain [t]) r
  | idlMore {i ts j t r} : Der .initDeclList i (.chain ts) (.p .comma :: j) → Der .initDecl j t r →
      Der .initDeclList i (.chain (ts ++ [t])) r
  | idDecl {i t r} : Der .declarator i t r → Der .initDecl i t r
  | idInit {i t j e r} : Der .declarator i t (.p .assign :: j) → Der .initializer j e r → Der .initDecl i (.assign t e) r
  -- storage_class_specifier, type_specifier (674-771)
  | storage {k w r} : storageAction k = some w → Der .storage (.p k :: r) (.kw w) r
  | typeKw {k w r} : typeAction k = some w → Der .typeSpecifier (.p k :: r) (.kw w) r
  | typeStruct {i t r} : Der .structSpec i t r → Der .typeSpecifier i t r
  | typeEnum {i t r} : Der .enumSpec i t r → Der .typeSpecifier i t r
  | typeName {s r} : Der .typeSpecifier (.typeName s :: r) (.ident s) r
  -- struct_or_union_specifier (773-801)
  | stFull {k b s i d r} : structAction k = some b → Der .structDeclList i d (.p .rbrace :: r) →
      Der .structSpec (.p k :: .ident s :: .p .lbrace :: i) (.compound b (.ident s) d) r
  | stAnon {k b i d r} : structAction k = some b → Der .structDeclList i d (.p .rbrace :: r) →
      Der .structSpec (.p k :: .p .lbrace :: i) (.compound b .null d) r
  | stRef {k b s r} : structAction k = some b → Der .structSpec (.p k :: .ident s :: r) (.compound b (.ident s) .null) r
  -- struct_declaration_list … struct_declarator (814-887)
  | sdlOne {i t r} : Der .structDecl i t r → Der .structDeclList i (.chain [t]) r
  | sdlMore {i ts j t r} : Der .structDeclList i (.chain ts) j → Der .structDecl j t r →
      Der .structDeclList i (.chain (ts ++ [t])) r
  | sdDecl {i s j d r} : Der .sqList i s j → Der .structDeclrList j d (.p .semi :: r) → Der .structDecl i (.decl s d) r
  | sdEmpty {i s r} : Der .sqList i s (.p .semi :: r) → Der .structDecl i (.decl s .null) r
  | sqlOne {i t r} : Der .sq i t r → Der .sqList i (.chain [t]) r
  | sqlMore {i ts j t r} : Der .sqList i (.chain ts) j → Der .sq j t r → Der .sqList i (.chain (ts ++ [t])) r
  | sqType {i t r} : Der .typeSpecifier i t r → Der .sq i t r
  | sqQual {i t r} : Der .typeQual i t r → Der .sq i t r
  | srlOne {i t r} : Der .structDeclr i t r → Der .structDeclrList i (.chain [t]) r
  | srlMore {i ts j t r} : Der .structDeclrList i (.chain ts) (.p .comma :: j) → Der .structDeclr j t r →
      Der .structDeclrList i (.chain (ts ++ [t])) r
  | srDecl {i t r} : Der .declarator i t r → Der .structDeclr i t r
  | srAnon {i e r} : Der .constant i e r → Der .structDeclr (.p .colon :: i) (.bitfield e .null) r
  | srBits {i t j e r} : Der .declarator i t (.p .colon :: j) → Der .constant j e r → Der .structDeclr i (.bitfield e t) r
  -- enum_specifier … enumerator (889-957)
  | enAnon {i d r} : Der .enumList i d (.p .rbrace :: r) → Der .enumSpec (.p .enum :: .p .lbrace :: i) (.enumr .null d) r
  | enNamed {s i d r} : Der .enumList i d (.p .rbrace :: r) →
      Der .enumSpec (.p .enum :: .ident s :: .p .lbrace :: i) (.enumr (.ident s) d) r
  | enAnonC {i d r} : Der .enumList i d (.p .comma :: .p .rbrace :: r) →
      Der .enumSpec (.p .enum :: .p .lbrace :: i) (.enumr .null d) r
  | enNamedC {s i d r} : Der .enumList i d (.p .comma :: .p .rbrace :: r) →
      Der .enumSpec (.p .enum :: .ident s :: .p .lbrace :: i) (.enumr (.ident s) d) r
  | enRef {s r} : Der .enumSpec (.p .enum :: .ident s :: r) (.enumr (.ident s) .null) r
  | elOne {i t r} : Der .enumerator i t r → Der .enumList i (.chain [t]) r
  | elMore {i ts j t r} : Der .enumList i (.chain ts) (.p .comma :: j) → Der .enumerator j t r →
      Der .enumList i (.chain (ts ++ [t])) r
  | eName {s r} : Der .enumerator (.ident s :: r) (.ident s) r
  | eValue {s i e r} : Der .constant i e r → Der .enumerator (.ident s :: .p .assign :: i) (.assign (.ident s) e) r
  -- type_qualifier, function_specifier (959-979)
  | qual {k w r} : qualAction k = some w → Der .typeQual (.p k :: r) (.kw w) r
  | inline {r} : Der .fnSpec (.p .inline :: r) (.kw .inline) r
  -- declarator (981-994)
  | dDirect {i t r} : Der .directDecl i t r → Der .declarator i t r
  | dPtr {i p j t r} : Der .pointer i p j → Der .directDecl j t r → Der .declarator i (fillPtr p t) r
  -- direct_declarator (996-1094)
  | ddIdent {s r} : Der .directDecl (.ident s :: r) (.ident s) r
  | ddParen {i t r} : Der .declarator i t (.p .rparen :: r) → Der .directDecl (.p .lparen :: i) t r
  | ddArrQ {i t j q j' e r} : Der .directDecl i t (.p .lbrack :: j) → Der .tqList j q j' →
      Der .assignment j' e (.p .rbrack :: r) → Der .directDecl i (.array t q e) r
  | ddArrQ0 {i t j q r} : Der .directDecl i t (.p .lbrack :: j) → Der .tqList j q (.p .rbrack :: r) →
      Der .directDecl i (.array t q .null) r
  | ddArr {i t j e r} : Der .directDecl i t (.p .lbrack :: j) → Der .assignment j e (.p .rbrack :: r) →
      Der .directDecl i (.array t .null e) r
  | ddArrSQ {i t j q j' e r} : Der .directDecl i t (.p .lbrack :: .p .static :: j) → Der .tqList j q j' →
      Der .assignment j' e (.p .rbrack :: r) → Der .directDecl i (.array t q e) r
  | ddArrQS {i t j q j' e r} : Der .directDecl i t (.p .lbrack :: j) → Der .tqList j q (.p .static :: j') →
      Der .assignment j' e (.p .rbrack :: r) → Der .directDecl i (.array t q e) r
  | ddArrQStar {i t j q r} : Der .directDecl i t (.p .lbrack :: j) → Der .tqList j q (.p .star :: .p .rbrack :: r) →
      Der .directDecl i (.array t q .null) r
  | ddArrStar {i t r} : Der .directDecl i t (.p .lbrack :: .p .star :: .p .rbrack :: r) →
      Der .directDecl i (.pointer .null t) r
  | ddArr0 {i t r} : Der .directDecl i t (.p .lbrack :: .p .rbrack :: r) → Der .directDecl i (.pointer .null t) r
  | ddFn {i t j a r} : Der .directDecl i t (.p .lparen :: j) → Der .paramTypeList j a (.p .rparen :: r) →
      Der .directDecl i (.fn t a .null) r
  | ddFnIds {i t j a r} : Der .directDecl i t (.p .lparen :: j) → Der .identList j a (.p .rparen :: r) →
      Der .directDecl i (.fn t a .null) r
  | ddFn0 {i t r} : Der .directDecl i t (.p .lparen :: .p .rparen :: r) → Der .directDecl i (.fn t .null .null) r
  -- pointer, type_qualifier_list (1096-1136)
  | ptr {r} : Der .pointer (.p .star :: r) (.pointer .null .null) r
  | ptrQ {i q r} : Der .tqList i q r → Der .pointer (.p .star :: i) (.pointer q .null) r
  | ptrP {i p r} : Der .pointer i p r → Der .pointer (.p .star :: i) (.pointer .null p) r
  | ptrQP {i q j p r} : Der .tqList i q j → Der .pointer j p r → Der .pointer (.p .star :: i) (.pointer q p) r
  | tqOne {i t r} : Der .typeQual i t r → Der .tqList i (.chain [t]) r
  | tqMore {i ts j t r} : Der .tqList i (.chain ts) j → Der .typeQual j t r → Der .tqList i (.chain (ts ++ [t])) r
  -- parameter_type_list … identifier_list (1138-1194)
  | ptlList {i t r} : Der .paramList i t r → Der .paramTypeList i t r
  | ptlVar {i ts r} : Der .paramList i (.chain ts) (.p .comma :: .p .ellipsis :: r) →
      Der .paramTypeList i (.chain (ts ++ [.variadic])) r
  | plOne {i t r} : Der .paramDecl i t r → Der .paramList i (.chain [t]) r
  | plMore {i ts j t r} : Der .paramList i (.chain ts) (.p .comma :: j) → Der .paramDecl j t r →
      Der .paramList i (.chain (ts ++ [t])) r
  | pdDecl {i s j d r} : Der .declSpecs i s j → Der .declarator j d r → Der .paramDecl i (.decl s d) r
  | pdAbs {i s j d r} : Der .declSpecs i s j → Der .abstractDecl j d r → Der .paramDecl i (.decl s d) r
  | pdNone {i s r} : Der .declSpecs i s r → Der .paramDecl i (.decl s .null) r
  | ilOne {s r} : Der .identList (.ident s :: r) (.chain [.ident s]) r
  | ilMore {i ts s r} : Der .identList i (.chain ts) (.p .comma :: .ident s :: r) →
      Der .identList i (.chain (ts ++ [.ident s])) r
  -- type_name (1196-1213)
  | tnSpecs {i s r} : Der .sqList i s r → Der .typeName i (.typeSpec s .null) r
  | tnAbs {i s j d r} : Der .sqList i s j → Der .abstractDecl j d r → Der .typeName i (.typeSpec s d) r
  -- abstract_declarator, direct_abstract_declarator (1215-1302)
  | abPtr {i p r} : Der .pointer i p r → Der .abstractDecl i p r
  | abDirect {i t r} : Der .directAbs i t r → Der .abstractDecl i t r
  | abBoth {i p j t r} : Der .pointer i p j → Der .directAbs j t r → Der .abstractDecl i (fillPtr p t) r
  | daParen {i t r} : Der .abstractDecl i t (.p .rparen :: r) → Der .directAbs (.p .lparen :: i) t r
  | daArr0 {r} : Der .directAbs (.p .lbrack :: .p .rbrack :: r) (.array .null .null .null) r
  | daArr {i e r} : Der .assignment i e (.p .rbrack :: r) → Der .directAbs (.p .lbrack :: i) (.array .null .null e) r
  | daMoreArr0 {i t r} : Der .directAbs i t (.p .lbrack :: .p .rbrack :: r) → Der .directAbs i (.array t .null .null) r
  | daMoreArr {i t j e r} : Der .directAbs i t (.p .lbrack :: j) → Der .assignment j e (.p .rbrack :: r) →
      Der .directAbs i (.array t .null e) r
  | daStar {r} : Der .directAbs (.p .lbrack :: .p .star :: .p .rbrack :: r) (.array .null .null .null) r
  | daMoreStar {i t r} : Der .directAbs i t (.p .lbrack :: .p .star :: .p .rbrack :: r) →
      Der .directAbs i (.array t .null .null) r
  | daFn0 {r} : Der .directAbs (.p .lparen :: .p .rparen :: r) (.fn .null .null .null) r
  | daFn {i a r} : Der .paramTypeList i a (.p .rparen :: r) → Der .directAbs (.p .lparen :: i) (.fn .null a .null) r
  | daMoreFn0 {i t r} : Der .directAbs i t (.p .lparen :: .p .rparen :: r) → Der .directAbs i (.fn t .null .null) r
  | daMoreFn {i t j a r} : Der .directAbs i t (.p .lparen :: j) → Der .paramTypeList j a (.p .rparen :: r) →
      Der .directAbs i (.fn t a .null) r
  -- initializer … designator (1304-1374)
  | inExpr {i t r} : Der .assignment i t r → Der .initializer i t r
  | inList {i t r} : Der .initList i t (.p .rbrace :: r) → Der .initializer (.p .lbrace :: i) t r
  | inListC {i t r} : Der .initList i t (.p .comma :: .p .rbrace :: r) → Der .initializer (.p .lbrace :: i) t r
  | ilInit {i t r} : Der .initializer i t r → Der .initList i (.chain [t]) r
  | ilDesig {i l j t r} : Der .designation i l j → Der .initializer j t r → Der .initList i (.chain [.assign l t]) r
  | ilMoreInit {i ts j t r} : Der .initList i (.chain ts) (.p .comma :: j) → Der .initializer j t r →
      Der .initList i (.chain (ts ++ [t])) r
  | ilMoreDesig {i ts j l j' t r} : Der .initList i (.chain ts) (.p .comma :: j) → Der .designation j l j' →
      Der .initializer j' t r → Der .initList i (.chain (ts ++ [.assign l t])) r
  | designation {i l r} : Der .desigList i l (.p .assign :: r) → Der .designation i l r
  | dlOne {i t r} : Der .designator i t r → Der .desigList i (.chain [t]) r
  | dlMore {i ts j t r} : Der .desigList i (.chain ts) j → Der .designator j t r → Der .desigList i (.chain (ts ++ [t])) r
  | dgIndex {i e r} : Der .constant i e (.p .rbrack :: r) → Der .designator (.p .lbrack :: i) (.arrAccess .null e) r
  | dgMember {s r} : Der .designator (.p .dot :: .ident s :: r) (.compAccess .null (.ident s)) r
  -- expression_statement (1376-1384)
  | esEmpty {r} : Der .exprStmt (.p .semi :: r) .empty r
  | esExpr {i t r} : Der .expression i t (.p .semi :: r) → Der .exprStmt i t r
  -- repl_statement, repl_translation_unit (1387-1414)
  | rsExpr {i t r} : Der .exprStmt i t r → Der .replStmt i t r
  | rsDecl {i t r} : Der .declaration i t r → Der .replStmt i t r
  | rsInc {s r} : Der .replStmt (.cPreInc s :: r) (.cppInclude s) r
  | rsInspect {s r} : Der .replStmt (.p .question :: .ident s :: r) (.inspect (.ident s)) r
  | ruOne {i t r} : Der .replStmt i t r → Der .replUnit i (.chain [t]) r
  | ruMore {i ts j t r} : Der .replUnit i (.chain ts) j → Der .replStmt j t r → Der .replUnit i (.chain (ts ++ [t])) r
  -- statement … block_item (1416-1457)
  | sExpr {i t r} : Der .exprStmt i t r → Der .statement i t r
  | sComp {i t r} : Der .compoundStmt i t r → Der .statement i t r
  | sSel {i t r} : Der .selection i t r → Der .statement i t r
  | sIter {i t r} : Der .iteration i t r → Der .statement i t r
  | sJump {i t r} : Der .jump i t r → Der .statement i t r
  | sRepl {r} : Der .statement (.p .repl :: .p .semi :: r) .repl r
  | csEmpty {r} : Der .compoundStmt (.p .lbrace :: .p .rbrace :: r) .empty r
  | csItems {i t r} : Der .blockItems i t (.p .rbrace :: r) → Der .compoundStmt (.p .lbrace :: i) t r
  | biOne {i t r} : Der .blockItem i t r → Der .blockItems i (.chain [t]) r
  | biMore {i ts j t r} : Der .blockItems i (.chain ts) j → Der .blockItem j t r → Der .blockItems i (.chain (ts ++ [t])) r
  | biDecl {i t r} : Der .declaration i t r → Der .blockItem i t r
  | biStmt {i t r} : Der .statement i t r → Der .blockItem i t r
  -- selection_statement (1459-1477), with the resolution of the conflict by %right (94)
  | slIf {i c j t r} : Der .expression i c (.p .rparen :: j) → Der .statement j t r → noElse r →
      Der .selection (.p .if_ :: .p .lparen :: i) (.ifS c t .null) r
  | slElse {i c j t j' e r} : Der .expression i c (.p .rparen :: j) → Der .statement j t (.p .else_ :: j') →
      Der .statement j' e r → Der .selection (.p .if_ :: .p .lparen :: i) (.ifS c t e) r
  -- iteration_statement (1479-1526)
  | itWhile {i c j b r} : Der .expression i c (.p .rparen :: j) → Der .statement j b r →
      Der .iteration (.p .while_ :: .p .lparen :: i) (.whileS c b) r
  | itFor2 {i a j c j' b r} : Der .exprStmt i a j → Der .exprStmt j c (.p .rparen :: j') → Der .statement j' b r →
      Der .iteration (.p .for_ :: .p .lparen :: i) (.forS a c .null b) r
  | itFor3 {i a j c j' d j'' b r} : Der .exprStmt i a j → Der .exprStmt j c j' → Der .expression j' d (.p .rparen :: j'') →
      Der .statement j'' b r → Der .iteration (.p .for_ :: .p .lparen :: i) (.forS a c d b) r
  | itForD2 {i a j c j' b r} : Der .declaration i a j → Der .exprStmt j c (.p .rparen :: j') → Der .statement j' b r →
      Der .iteration (.p .for_ :: .p .lparen :: i) (.forS a c .null b) r
  | itForD3 {i a j c j' d j'' b r} : Der .declaration i a j → Der .exprStmt j c j' →
      Der .expression j' d (.p .rparen :: j'') → Der .statement j'' b r →
      Der .iteration (.p .for_ :: .p .lparen :: i) (.forS a c d b) r
  -- jump_statement (1528-1548)
  | jBreak {r} : Der .jump (.p .break_ :: .p .semi :: r) .brk r
  | jReturn0 {r} : Der .jump (.p .return_ :: .p .semi :: r) (.ret .null) r
  | jReturn {i e r} : Der .expression i e (.p .semi :: r) → Der .jump (.p .return_ :: i) (.ret e) r
  -- external_declaration … cscript_translation_unit (1550-1602)
  | xFn {i t r} : Der .fnDef i t r → Der .externalDecl i t r
  | xDecl {i t r} : Der .declaration i t r → Der .externalDecl i t r
  | fdOld {i s j d j' l j'' b t r} : Der .declSpecs i s j → Der .declarator j d j' → Der .declList j' l j'' →
      Der .compoundStmt j'' b r → setStmts d b = some t → Der .fnDef i (.decl s (.chain [t])) r
  | fdNew {i s j d j' b t r} : Der .declSpecs i s j → Der .declarator j d j' → Der .compoundStmt j' b r →
      setStmts d b = some t → Der .fnDef i (.decl s (.chain [t])) r
  | dllOne {i t r} : Der .declaration i t r → Der .declList i (.chain [t]) r
  | dllMore {i ts j t r} : Der .declList i (.chain ts) j → Der .declaration j t r → Der .declList i (.chain (ts ++ [t])) r
  | cxExt {i t r} : Der .externalDecl i t r → Der .cscriptDecl i t r
  | cxStmt {i t r} : Der .statement i t r → Der .cscriptDecl i t r
  | cuOne {i t r} : Der .cscriptDecl i t r → Der .cscriptUnit i (.chain [t]) r
  | cuMore {i ts j t r} : Der .cscriptUnit i (.chain ts) j → Der .cscriptDecl j t r →
      Der .cscriptUnit i (.chain (ts ++ [t])) r

end Bic.Parser
