import Verif.Model.Parser
/-!
# How C writes expressions

C11 6.5 as the usual table of precedences: `Writes p e i r` says that the tokens of `i` before the
remainder `r` write the expression `e` where an operand of precedence `p` or higher is wanted.  Only
`T`, `K` and the shape of trees are taken from the model.

The precedences: 1 comma, 2 assignment, 3 conditional, 4 to 13 the binary operators from `||` to
`*`, 14 casts, 15 the prefix operators, 16 the postfix operators.  A table says for each prefix
operator which operand it wants.
-/

namespace Bic.CSyn
open Parser (T K PT)
open Lexer (Str)

/-- prefix operators -/
inductive Pre where
  | inc | dec | addr | deref | plus | minus | compl | not | sizeof
deriving DecidableEq, Repr

def Pre.tok : Pre → K
  | .inc => .incr | .dec => .decr | .addr => .amp | .deref => .star | .plus => .plus | .minus => .minus
  | .compl => .tilde | .not => .bang | .sizeof => .sizeof

/-- C11 6.5.3: `++`, `--` and `sizeof` want a unary expression, the others a cast expression -/
def cTable : Pre → Option Nat
  | .inc => some 15 | .dec => some 15 | .sizeof => some 15
  | _ => some 14

/-- binary operators -/
inductive Bin where
  | lor | land | or | xor | and | eq | ne | lt | gt | le | ge | shl | shr | add | sub | mul | div | mod
deriving DecidableEq, Repr

def Bin.prec : Bin → Nat
  | .lor => 4 | .land => 5 | .or => 6 | .xor => 7 | .and => 8 | .eq => 9 | .ne => 9
  | .lt => 10 | .gt => 10 | .le => 10 | .ge => 10 | .shl => 11 | .shr => 11 | .add => 12 | .sub => 12
  | .mul => 13 | .div => 13 | .mod => 13

def Bin.tok : Bin → K
  | .lor => .oror | .land => .andand | .or => .bar | .xor => .caret | .and => .amp | .eq => .eqeq | .ne => .ne
  | .lt => .lt | .gt => .gt | .le => .le | .ge => .ge | .shl => .shl | .shr => .shr | .add => .plus | .sub => .minus
  | .mul => .star | .div => .slash | .mod => .percent

/-- assignments -/
inductive Asg where
  | plain | add | sub | div | shl | shr | xor
deriving DecidableEq, Repr

def Asg.tok : Asg → K
  | .plain => .assign | .add => .addA | .sub => .subA | .div => .divA | .shl => .shlA | .shr => .shrA | .xor => .xorA

/-- expressions; `arg1` and `argMore` are lists of arguments -/
inductive CE where
  | int (v : Int) | flt (s : Str) | ident (s : Str) | str (s : Str)
  | bin (o : Bin) (a b : CE) | asg (o : Asg) (a b : CE) | cond (c a b : CE) | comma (a b : CE)
  | pre (o : Pre) (a : CE) | cast (ty : PT) (a : CE) | sizeofT (ty : PT)
  | call0 (f : CE) | call (f a : CE) | index (a b : CE) | pInc (a : CE) | pDec (a : CE)
  | dot (a : CE) (s : Str) | arrow (a : CE) (s : Str)
  | arg1 (a : CE) | argMore (l a : CE)

/-- what is wanted: an expression of a precedence, or a list of arguments -/
inductive Want where
  | prec (p : Nat)
  | args

/-- `tbl` gives the operands of the prefix operators and `TN` the type names -/
inductive Writes (tbl : Pre → Option Nat) (TN : List T → PT → List T → Prop) : Want → CE → List T → List T → Prop
  | int {p v r} : Writes tbl TN (.prec p) (.int v) (.integer v :: r) r
  | flt {p s r} : Writes tbl TN (.prec p) (.flt s) (.floatCst s :: r) r
  | ident {p s r} : Writes tbl TN (.prec p) (.ident s) (.ident s :: r) r
  | str {p s r} : Writes tbl TN (.prec p) (.str s) (.string s :: r) r
  | paren {p e i r} : Writes tbl TN (.prec 1) e i (.p .rparen :: r) → Writes tbl TN (.prec p) e (.p .lparen :: i) r
  | bin {p o a b i j r} : p ≤ o.prec → Writes tbl TN (.prec o.prec) a i (.p o.tok :: j) →
      Writes tbl TN (.prec (o.prec + 1)) b j r → Writes tbl TN (.prec p) (.bin o a b) i r
  | asg {p o a b i j r} : p ≤ 2 → Writes tbl TN (.prec 15) a i (.p o.tok :: j) → Writes tbl TN (.prec 2) b j r →
      Writes tbl TN (.prec p) (.asg o a b) i r
  | cond {p c a b i j j' r} : p ≤ 3 → Writes tbl TN (.prec 4) c i (.p .question :: j) →
      Writes tbl TN (.prec 1) a j (.p .colon :: j') → Writes tbl TN (.prec 3) b j' r →
      Writes tbl TN (.prec p) (.cond c a b) i r
  | comma {p a b i j r} : p ≤ 1 → Writes tbl TN (.prec 1) a i (.p .comma :: j) → Writes tbl TN (.prec 2) b j r →
      Writes tbl TN (.prec p) (.comma a b) i r
  | pre {p o q a i r} : p ≤ 15 → tbl o = some q → Writes tbl TN (.prec q) a i r →
      Writes tbl TN (.prec p) (.pre o a) (.p o.tok :: i) r
  | cast {p ty a i j r} : p ≤ 14 → TN i ty (.p .rparen :: j) → Writes tbl TN (.prec 14) a j r →
      Writes tbl TN (.prec p) (.cast ty a) (.p .lparen :: i) r
  | sizeofT {p ty i r} : p ≤ 15 → TN i ty (.p .rparen :: r) →
      Writes tbl TN (.prec p) (.sizeofT ty) (.p .sizeof :: .p .lparen :: i) r
  | call0 {p f i r} : p ≤ 16 → Writes tbl TN (.prec 16) f i (.p .lparen :: .p .rparen :: r) →
      Writes tbl TN (.prec p) (.call0 f) i r
  | call {p f a i j r} : p ≤ 16 → Writes tbl TN (.prec 16) f i (.p .lparen :: j) → Writes tbl TN .args a j (.p .rparen :: r) →
      Writes tbl TN (.prec p) (.call f a) i r
  | index {p a b i j r} : p ≤ 16 → Writes tbl TN (.prec 16) a i (.p .lbrack :: j) →
      Writes tbl TN (.prec 1) b j (.p .rbrack :: r) → Writes tbl TN (.prec p) (.index a b) i r
  | pInc {p a i r} : p ≤ 16 → Writes tbl TN (.prec 16) a i (.p .incr :: r) → Writes tbl TN (.prec p) (.pInc a) i r
  | pDec {p a i r} : p ≤ 16 → Writes tbl TN (.prec 16) a i (.p .decr :: r) → Writes tbl TN (.prec p) (.pDec a) i r
  | dot {p a s i r} : p ≤ 16 → Writes tbl TN (.prec 16) a i (.p .dot :: .ident s :: r) →
      Writes tbl TN (.prec p) (.dot a s) i r
  | arrow {p a s i r} : p ≤ 16 → Writes tbl TN (.prec 16) a i (.p .arrow :: .ident s :: r) →
      Writes tbl TN (.prec p) (.arrow a s) i r
  | arg1 {a i r} : Writes tbl TN (.prec 2) a i r → Writes tbl TN .args (.arg1 a) i r
  | argMore {l a i j r} : Writes tbl TN .args l i (.p .comma :: j) → Writes tbl TN (.prec 2) a j r →
      Writes tbl TN .args (.argMore l a) i r

/-- the tree of a prefix operator; c.lang has no tree for the signs -/
def Pre.tree : Pre → PT → Option PT
  | .inc, t => some (.inc t) | .dec, t => some (.dec t) | .addr, t => some (.addr t) | .deref, t => some (.deref t)
  | .compl, t => some (.onesComp t) | .not, t => some (.negate t) | .sizeof, t => some (.sizeof t)
  | .plus, _ => none | .minus, _ => none

def Bin.tree : Bin → PT → PT → PT
  | .lor => .lOr | .land => .lAnd
  | .or => .bin .ior | .xor => .bin .xor | .and => .bin .iand | .eq => .cmp .eq | .ne => .cmp .neq
  | .lt => .cmp .lt | .gt => .cmp .gt | .le => .cmp .lteq | .ge => .cmp .gteq
  | .shl => .bin .lshift | .shr => .bin .rshift | .add => .bin .add | .sub => .bin .sub
  | .mul => .bin .mul | .div => .bin .div | .mod => .bin .mod

def Asg.tree : Asg → PT → PT → PT
  | .plain, l, r => .assign l r
  | .add, l, r => .assign l (.bin .add l r)
  | .sub, l, r => .assign l (.bin .sub l r)
  | .div, l, r => .assign l (.bin .div l r)
  | .shl, l, r => .assign l (.bin .lshift l r)
  | .shr, l, r => .assign l (.bin .rshift l r)
  | .xor, l, r => .assign l (.bin .xor l r)

/-- the tree stands for the expression.  An expression list stands for the commas between its
members -/
inductive Means : PT → CE → Prop
  | int {v} : Means (.integer v) (.int v)
  | flt {s} : Means (.flt s) (.flt s)
  | ident {s} : Means (.ident s) (.ident s)
  | str {s} : Means (.str s) (.str s)
  | one {t e} : Means t e → Means (.exprList (.chain [t])) e
  | comma {ts t a b} : ts ≠ [] → Means (.exprList (.chain ts)) a → Means t b →
      Means (.exprList (.chain (ts ++ [t]))) (.comma a b)
  | bin {o l r a b} : Means l a → Means r b → Means (o.tree l r) (.bin o a b)
  | asg {o l r a b} : Means l a → Means r b → Means (o.tree l r) (.asg o a b)
  | cond {c a b c' a' b'} : Means c c' → Means a a' → Means b b' → Means (.infix c a b) (.cond c' a' b')
  | pre {o t t' a} : Means t a → o.tree t = some t' → Means t' (.pre o a)
  | cast {ty t a} : Means t a → Means (.cast ty t) (.cast ty a)
  | sizeofT {ty} : Means (.sizeof ty) (.sizeofT ty)
  | call0 {t f} : Means t f → Means (.fnCall t .null) (.call0 f)
  | call {t u f a} : Means t f → Means u a → Means (.fnCall t u) (.call f a)
  | index {t u a b} : Means t a → Means u b → Means (.arrAccess t u) (.index a b)
  | pInc {t a} : Means t a → Means (.pInc t) (.pInc a)
  | pDec {t a} : Means t a → Means (.pDec t) (.pDec a)
  | dot {t a s} : Means t a → Means (.compAccess t (.ident s)) (.dot a s)
  | arrow {t a s} : Means t a → Means (.compAccess (.deref t) (.ident s)) (.arrow a s)
  | arg1 {t a} : Means t a → Means (.chain [t]) (.arg1 a)
  | argMore {ts t l a} : Means (.chain ts) l → Means t a → Means (.chain (ts ++ [t])) (.argMore l a)

end Bic.CSyn
