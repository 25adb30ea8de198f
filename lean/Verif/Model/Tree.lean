import Verif.Model.CType
/-!
# Tree objects, evaluator contexts and evaluator state
-/

namespace Bic

/-- Address of a tree object (`/repo/src/tree.h:70-75`). -/
abbrev TId := Nat

/-- A `tree` pointer, `none` = NULL. -/
abbrev Ref := Option TId

/-- Declaration specifier trees without data (`/repo/src/c.lang:120-145`). -/
inductive Kw where
  | typedef | extern | static | auto | register
  | void | char | short | int | long | float | double | signed | unsigned | bool
  | const | restrict | volatile | inline
deriving DecidableEq, Repr

/-- T_ADD … T_I_AND of `/repo/src/c.lang:54-103` whose evaluation follows the
same scheme (evaluate.c:1371-1592). -/
inductive BinOp where
  | add | sub | mul | div | mod | lshift | rshift | ior | xor | iand
deriving DecidableEq, Repr

/-- T_LT, T_GT, T_LTEQ, T_GTEQ, T_EQ, T_N_EQ (evaluate.c:1600-1757). -/
inductive CmpOp where
  | lt | gt | lteq | gteq | eq | neq
deriving DecidableEq, Repr

/-- One E_MAP object (`/repo/src/c.lang:244-245`): the identifier tree with its
string, and what it is mapped to. -/
structure Binding where
  name : String
  id : TId
  val : Ref
deriving DecidableEq, Repr

/-- A tree object: one constructor per tree type of `/repo/src/c.lang`, with the
properties the evaluator uses.  Simplifications: a CHAIN_HEAD carries the list of
its elements (justified by the list refinement theorems, C40); id maps are lists
of `Binding`s instead of chains of E_MAP trees; source positions (locus) and
qualifiers are dropped; `T_STRING` carries its bytes. -/
inductive Node where
  | integer (v : Int)
  | flt (bits : Nat)
  | str (s : List Byte)
  | pInc (e : Ref) | pDec (e : Ref) | inc (e : Ref) | dec (e : Ref)
  | negate (e : Ref) | onesComp (e : Ref) | sizeof (e : Ref)
  | ident (s : String)
  | pointer (e : Ref)
  | inspect (e : Ref)
  | bin (op : BinOp) (l r : Ref)
  | cmp (op : CmpOp) (l r : Ref)
  | lOr (l r : Ref) | lAnd (l r : Ref) | comma (l r : Ref)
  | ifS (c t e : Ref)
  | assign (l r : Ref)
  | cast (ty e : Ref)
  | kw (k : Kw)
  | empty
  | exprList (c : Ref)
  | bitfield (sz d : Ref)
  | compAccess (obj mem : Ref)
  | arrAccess (obj idx : Ref)
  | addr (e : Ref) | deref (e : Ref)
  | array (d sz : Ref)
  | arrayType (base sz : Ref)
  | decl (specs decls : Ref) (off : Nat)
  | typeSpec (specs d : Ref)
  | compound (id decls : Ref) (sz : Nat) (expanded isStruct : Bool)
  | fn (d args ret stmts : Ref)
  | builtin (name : String)
  | fnCall (id args : Ref)
  | closure (argTypes ret fn : Ref)
  | infix (c t f : Ref)
  | forS (init cond after stmts : Ref)
  | whileS (c stmts : Ref)
  | ret (e : Ref)
  | brk
  | repl
  | enumr (name enums : Ref)
  | variadic
  | lv (ty : Ref) (addr : Nat) (isArr : Bool) (arrSz : Nat)
  | lcomp (decl : Ref) (members : List Binding) (base : Nat)
  | chain (elems : List TId)
  | staticCtx (map : List Binding)
  | incomp
  | cppInclude (s : String)
  | void
  | extFunc (fn : Ref)
  | ctype (c : CT) (e : Ref)
deriving DecidableEq, Repr

/-- An evaluator context, E_CTX (`/repo/src/c.lang:232-237`).  The chain
`cur_ctx, PARENT_CTX, …` is the list `St.ctxs`.  `uid` stands for the identity of
the object. -/
structure Ctx where
  uid : Nat
  name : String
  ids : List Binding
  structs : List Binding
  unions : List Binding
  allocs : List Nat
  retval : Ref
  shouldBreak : Bool
  isFn : Bool
deriving DecidableEq, Repr

/-- An argument as handed to libffi (function-call.c:18-50): the register class
and the bits. -/
inductive FfiArg where
  | int (c : CT) (reg : Nat)
  | fp (c : CT) (bits : Nat)
  | str (s : List Byte)
deriving DecidableEq, Repr

/-- Observable event: a call of a library function (address, arguments, position
of the first variadic argument). -/
structure Event where
  addr : Nat
  args : List FfiArg
  variadic : Option Nat
deriving DecidableEq, Repr

/-- The evaluator's state: tree objects, memory, context stack (`cur_ctx` and its
parents, evaluate.c:23), `include_ctx` (evaluate.c:28), the include chain
(evaluate.c:34), closures made for function pointers (function-call.c:163-217),
and the library calls made so far. -/
structure St where
  nodes : TId → Option Node
  next : TId
  mem : Mem
  ctxs : List Ctx
  nextUid : Nat
  includeCtx : Option Ctx
  includes : List String
  closures : List (Nat × TId)
  events : List Event

/-- Why evaluation stopped without a result. -/
inductive Stop where
  /-- `eval_die`: message and exit status 1 (evaluate.c:105-118) -/
  | die (msg : String)
  /-- `exit(n)` -/
  | exit (code : Int)
  /-- `longjmp` to the context with this identity (evaluate.c:2742) -/
  | jump (uid : Nat)
  /-- deterministic abnormal end: failed `assert`, SIGFPE of GMP -/
  | abort (msg : String)
  /-- undefined behaviour of the interpreter itself (NULL dereference, access to
  memory that is not allocated, wrong union member, …) -/
  | ub (msg : String)
  /-- behaviour outside the model (interactive REPL, `#include` processing) -/
  | unmodelled (msg : String)
deriving DecidableEq, Repr

/-- Outcome of an evaluation. `fuel`: the step budget ran out. -/
inductive Out (α : Type) where
  | ok (a : α) (s : St)
  | stop (w : Stop) (s : St)
  | fuel

/-- Evaluator computations. -/
abbrev M (α : Type) : Type := St → Out α

namespace M
protected def pure (a : α) : M α := fun s => .ok a s
protected def bind (m : M α) (f : α → M β) : M β := fun s =>
  match m s with
  | .ok a s' => f a s'
  | .stop w s' => .stop w s'
  | .fuel => .fuel
end M

instance : Monad M where
  pure := M.pure
  bind := M.bind

def stop (w : Stop) : M α := fun s => .stop w s
def die (msg : String) : M α := stop (.die msg)
def ub (msg : String) : M α := stop (.ub msg)
def outOfFuel : M α := fun _ => .fuel
def get : M St := fun s => .ok s s
def modify (f : St → St) : M Unit := fun s => .ok () (f s)

/-- Floating point conversions and the outside world.  These are parameters of
the model; theorems hold for all of them. -/
structure Env where
  /-- bits of `(float|double|long double) v` -/
  fpOfInt : CT → Int → Nat
  /-- `(T)x` for `x` of a floating type; `none` = out of range (undefined) -/
  fpToInt : CT → Nat → CT → Option Int
  /-- conversion between floating types -/
  fpConv : CT → CT → Nat → Nat
  /-- `x += v` on a floating type -/
  fpAdd : CT → Nat → Int → Nat
  /-- `dlsym(RTLD_DEFAULT, name)` -/
  dlsym : String → Option Nat
  /-- a library call: new memory and the bytes of the return value -/
  extCall : Nat → List FfiArg → Mem → Mem × List Byte

end Bic
