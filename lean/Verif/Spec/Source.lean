import Verif.Spec.Syntax
import Verif.Spec.Prog
import Verif.Spec.CSpecifiers
import Verif.Model.Nodes
/-!
# How C writes structured integer programs

The concrete syntax of the programs of Spec.Prog (C11 6.5, 6.7, 6.8), as tokens.  `nameStr` only turns
the bytes of an identifier into a string.
-/

namespace Bic.CSyn
open Parser (T K PT nameStr)
open Lexer (Str)
open Spec (Expr BOp Act Stmt Proc Part)

/-- operators that evaluate both operands -/
def Bin.op : Bin → Option BOp
  | .or => some .or | .xor => some .xor | .and => some .and | .eq => some .eq | .ne => some .ne
  | .lt => some .lt | .gt => some .gt | .le => some .le | .ge => some .ge | .shl => some .shl | .shr => some .shr
  | .add => some .add | .sub => some .sub | .mul => some .mul | .div => some .div | .mod => some .mod
  | .lor => none | .land => none

/-- the operator of a compound assignment -/
def Asg.op : Asg → Option BOp
  | .add => some .add | .sub => some .sub | .div => some .div | .shl => some .shl | .shr => some .shr | .xor => some .xor
  | .plain => none

/-- the integer expression without side effects that is written -/
inductive ExprOf : CE → Expr → Prop
  | int {v} : ExprOf (.int v) (.lit v)
  | ident {s} : ExprOf (.ident s) (.var (nameStr s))
  | bin {o bo a b x y} : Bin.op o = some bo → ExprOf a x → ExprOf b y → ExprOf (.bin o a b) (.bin bo x y)
  | land {a b x y} : ExprOf a x → ExprOf b y → ExprOf (.bin .land a b) (.land x y)
  | lor {a b x y} : ExprOf a x → ExprOf b y → ExprOf (.bin .lor a b) (.lor x y)
  | compl {a x} : ExprOf a x → ExprOf (.pre .compl a) (.compl x)
  | lnot {a x} : ExprOf a x → ExprOf (.pre .not a) (.lnot x)
  | cond {c a b z x y} : ExprOf c z → ExprOf a x → ExprOf b y → ExprOf (.cond c a b) (.cond z x y)
  | comma {a b x y} : ExprOf a x → ExprOf b y → ExprOf (.comma a b) (.comma x y)

/-- the keyword tokens of type specifiers -/
def kwTok : Kw → Option K
  | .void => some .void | .char => some .char | .short => some .short | .int => some .int | .long => some .long
  | .float => some .float | .double => some .double | .signed => some .signed | .unsigned => some .unsigned
  | .bool => some .bool
  | _ => none

section
variable (tbl : Pre → Option Nat) (TN : List T → PT → List T → Prop)

/-- an expression of precedence `p` -/
def WE (p : Nat) (e : Expr) (i r : List T) : Prop := ∃ c, Writes tbl TN (.prec p) c i r ∧ ExprOf c e

/-- assignments to a variable and steps -/
inductive WAct : Act → List T → List T → Prop
  | set {s e i r} : WE tbl TN 2 e i r → WAct (.set (nameStr s) e) (.ident s :: .p .assign :: i) r
  | setOp {s o bo e i r} : Asg.op o = some bo → WE tbl TN 2 e i r →
      WAct (.set (nameStr s) (.bin bo (.var (nameStr s)) e)) (.ident s :: .p o.tok :: i) r
  | pInc {s r} : WAct (.step (nameStr s) 1) (.ident s :: .p .incr :: r) r
  | pDec {s r} : WAct (.step (nameStr s) (-1)) (.ident s :: .p .decr :: r) r
  | inc {s r} : WAct (.step (nameStr s) 1) (.p .incr :: .ident s :: r) r
  | dec {s r} : WAct (.step (nameStr s) (-1)) (.p .decr :: .ident s :: r) r

/-- a name with an optional initialiser -/
inductive WDecl : String × Option Expr → List T → List T → Prop
  | plain {s r} : WDecl (nameStr s, none) (.ident s :: r) r
  | init {s e i r} : WE tbl TN 2 e i r → WDecl (nameStr s, some e) (.ident s :: .p .assign :: i) r

inductive WDecls : List (String × Option Expr) → List T → List T → Prop
  | one {d i r} : WDecl tbl TN d i r → WDecls [d] i r
  | more {d ds i j r} : WDecl tbl TN d i (.p .comma :: j) → WDecls ds j r → WDecls (d :: ds) i r

/-- the words of a type in any order -/
inductive WSpecs : List Kw → List T → List T → Prop
  | one {w k r} : kwTok w = some k → WSpecs [w] (.p k :: r) r
  | more {w k ws i r} : kwTok w = some k → WSpecs ws i r → WSpecs (w :: ws) (.p k :: i) r

/-- what is written: a statement, a statement or declaration, the contents of a block, the body of
a loop or a branch -/
inductive SK where
  | stmt | item | items | body

/-- a statement that may be the body of a loop or branch without braces; `return` may not (C30), a
block is written with `braces` -/
def bare : Stmt → Bool
  | .ret _ => false
  | .leave => false
  | .block _ => false
  | _ => true

/-- the arguments of a call -/
inductive WArgs : List Expr → List T → List T → Prop
  | one {e i r} : WE tbl TN 2 e i r → WArgs [e] i r
  | more {e es i j r} : WE tbl TN 2 e i (.p .comma :: j) → WArgs es j r → WArgs (e :: es) i r

inductive Src : SK → Stmt → List T → List T → Prop
  | act {a i r} : WAct tbl TN a i (.p .semi :: r) → Src .stmt (.act a) i r
  | skip {r} : Src .stmt .skip (.p .semi :: r) r
  | cond {e a i j r} : WE tbl TN 1 e i (.p .rparen :: j) → Src .body a j r → (∀ r', r ≠ .p .else_ :: r') →
      Src .stmt (.cond e a .skip) (.p .if_ :: .p .lparen :: i) r
  | condElse {e a b i j j' r} : WE tbl TN 1 e i (.p .rparen :: j) → Src .body a j (.p .else_ :: j') → Src .body b j' r →
      Src .stmt (.cond e a b) (.p .if_ :: .p .lparen :: i) r
  | whileS {e b i j r} : WE tbl TN 1 e i (.p .rparen :: j) → Src .body b j r →
      Src .stmt (.whileS e b) (.p .while_ :: .p .lparen :: i) r
  | forS {x e y b i j j' j'' r} : WAct tbl TN x i (.p .semi :: j) → WE tbl TN 1 e j (.p .semi :: j') →
      WAct tbl TN y j' (.p .rparen :: j'') → Src .body b j'' r →
      Src .stmt (.forS x e y b) (.p .for_ :: .p .lparen :: i) r
  | ret {e i r} : WE tbl TN 1 e i (.p .semi :: r) → Src .stmt (.ret e) (.p .return_ :: i) r
  | leave {r} : Src .stmt .leave (.p .return_ :: .p .semi :: r) r
  | call0 {s r} : Src .stmt (.call (nameStr s) []) (.ident s :: .p .lparen :: .p .rparen :: .p .semi :: r) r
  | call {s es i r} : WArgs tbl TN es i (.p .rparen :: .p .semi :: r) →
      Src .stmt (.call (nameStr s) es) (.ident s :: .p .lparen :: i) r
  | block {p i r} : Src .items p i (.p .rbrace :: r) → Src .stmt (.block p) (.p .lbrace :: i) r
  | empty {r} : Src .stmt .skip (.p .lbrace :: .p .rbrace :: r) r
  | stmt {p i r} : Src .stmt p i r → Src .item p i r
  | decl {ws c ds i j r} : WSpecs ws i j → CSpec.Gives ws (.arith c) → WDecls tbl TN ds j (.p .semi :: r) →
      Src .item (.decl c ds) i r
  | last {p i r} : Src .item p i r → Src .items (.seq p .skip) i r
  | more {p q i j r} : Src .item p i j → Src .items q j r → Src .items (.seq p q) i r
  | bare {p i r} : bare p = true → Src .stmt p i r → Src .body p i r
  | braces {p i r} : Src .items p i (.p .rbrace :: r) → Src .body p (.p .lbrace :: i) r

/-- the declaration of a parameter -/
inductive WParam : CT × String → List T → List T → Prop
  | mk {ws c s i r} : WSpecs ws i (.ident s :: r) → CSpec.Gives ws (.arith c) → WParam (c, nameStr s) i r

inductive WParams : List (CT × String) → List T → List T → Prop
  | one {d i r} : WParam d i r → WParams [d] i r
  | more {d ds i j r} : WParam d i (.p .comma :: j) → WParams ds j r → WParams (d :: ds) i r

/-- the body of a function -/
inductive WBody : Stmt → List T → List T → Prop
  | items {p i r} : Src tbl TN .items p i (.p .rbrace :: r) → WBody p (.p .lbrace :: i) r
  | empty {r} : WBody .skip (.p .lbrace :: .p .rbrace :: r) r

/-- the definition of a function (C11 6.9.1) whose type is `void` or arithmetic; `v` says whether an
empty list of parameters may be written `(void)` -/
inductive WProc (v : Prop) : String → Proc → List T → List T → Prop
  | params {ws ty s ps b i j j' r} : WSpecs ws i (.ident s :: .p .lparen :: j) → CSpec.Gives ws ty → ty ≠ .bool →
      WParams ps j (.p .rparen :: j') → WBody tbl TN b j' r → WProc v (nameStr s) ⟨ps, b⟩ i r
  | none {ws ty s b i j r} : WSpecs ws i (.ident s :: .p .lparen :: .p .rparen :: j) → CSpec.Gives ws ty → ty ≠ .bool →
      WBody tbl TN b j r → WProc v (nameStr s) ⟨[], b⟩ i r
  | void {ws ty s b i j r} : v → WSpecs ws i (.ident s :: .p .lparen :: .p .void :: .p .rparen :: j) → CSpec.Gives ws ty →
      ty ≠ .bool → WBody tbl TN b j r → WProc v (nameStr s) ⟨[], b⟩ i r

inductive WPart (v : Prop) : Part → List T → List T → Prop
  | stmt {p i r} : Src tbl TN .item p i r → WPart v (.stmt p) i r
  | proc {f q i r} : WProc tbl TN v f q i r → WPart v (.proc f q) i r

/-- a script -/
inductive WParts (v : Prop) : List Part → List T → List T → Prop
  | one {u i r} : WPart tbl TN v u i r → WParts v [u] i r
  | more {u us i j r} : WPart tbl TN v u i j → WParts v us j r → WParts v (u :: us) i r

end

end Bic.CSyn
