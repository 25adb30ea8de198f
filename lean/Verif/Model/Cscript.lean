import Verif.Model.Eval
/-!
# Running a script, `/repo/src/cscript.c` and `/repo/src/main.c`

Line numbers without a file name refer to `/repo/src/cscript.c`.  Parsing (28-57) is
not part of the model: the script is the chain `head` the parser has built.  The
order in which tree objects are created differs from the code where it has no
influence on the result.
-/

namespace Bic.Script

/-- `get_integer` (tree.c:20-25): the parameter is an `unsigned int`. -/
def getInteger (n : Nat) : M TId := mk (.integer (n % 2 ^ 32 : Nat))

/-- `get_addr` (tree.c:27-32) -/
def getAddr (p : Nat) : M TId := mk (.integer (p % 2 ^ 64 : Nat))

/-- the trees `argv[i] = address` (93-104) -/
def argAssigns : Nat → List Nat → M (List TId)
  | _, [] => pure []
  | i, p :: ps => do
    let idx ← getInteger i
    let obj ← mk (.ident "argv")
    let acc ← mk (.arrAccess (some obj) (some idx))
    let rhs ← getAddr p
    let asg ← mk (.assign (some acc) (some rhs))
    let rest ← argAssigns (i + 1) ps
    pure (asg :: rest)

/-- the declaration `int argc = n` (65-74); the declarator is not in a chain. -/
def argcDecl (n : Nat) : M TId := do
  let id ← mk (.ident "argc")
  let v ← getInteger n
  let asg ← mk (.assign (some id) (some v))
  let ty ← mk (.kw .int)
  let specs ← mk (.chain [ty])
  mk (.decl (some specs) (some asg) 0)

/-- the declaration `char *argv[n]` (78-88) -/
def argvDecl (n : Nat) : M TId := do
  let ty ← mk (.kw .char)
  let specs ← mk (.chain [ty])
  let sz ← getInteger n
  let id ← mk (.ident "argv")
  let array ← mk (.array (some id) (some sz))
  let ptr ← mk (.pointer (some array))
  mk (.decl (some specs) (some ptr) 0)

/-- the chain built by `create_arguments` (59-103); `argv` is the list of the addresses
of the arguments. -/
def argTrees (argv : List Nat) : M TId := do
  let d1 ← argcDecl argv.length
  let d2 ← argvDecl argv.length
  let as ← argAssigns 0 argv
  mk (.chain (d1 :: d2 :: as))

section
variable (R : Rec)

/-- `create_arguments` (59-106) -/
def createArguments (argv : List Nat) : M Unit := do
  let chain ← argTrees argv
  evaluate R (some chain)

/-- `add_call_to_main` (108-125).  The message about too many parameters is not
modelled; the call is made nevertheless. -/
def addCallToMain (head : TId) (numArgs : Nat) : M Unit := do
  let id ← mk (.ident "main")
  let argc ← mk (.ident "argc")
  let argv ← mk (.ident "argv")
  let args ← (if numArgs = 0 then pure none
    else do
      let l ← mk (.chain (if numArgs = 1 then [argc] else [argc, argv]))
      pure (some l))
  let call ← mk (.fnCall (some id) args)
  match ← node head with
  | .chain es => setNode head (.chain (es ++ [call]))
  | _ => ub "tree_chain to a tree that is not a chain"

/-- what the loop of `__evaluate_cscript` (145-173) finds out -/
structure Found where
  numMainArgs : Nat
  hasMain : Bool
  hasNonDecls : Bool

/-- the first declarator of a declaration (148): when the loop has no rounds the variable
points to the list itself (list.h:37-40), and it stays NULL when there is none. -/
def firstDeclarator (decls : Ref) : M Ref := do
  match ← peek decls with
  | some (.chain (f :: _)) => pure (some f)
  | _ => pure decls

/-- one round of the loop of `__evaluate_cscript` (145-173) -/
def inspectDecl (t : TId) (f : Found) : M Found := do
  match ← node t with
  | .decl _ decls _ => do
    match ← peek (← firstDeclarator decls) with
    | some (.fn id args _ _) => do
      match ← peek id with
      | some (.ident x) =>
        if x = "main" then do
          let as ← chainElems args
          pure { f with numMainArgs := f.numMainArgs + as.length, hasMain := true }
        else pure f
      | _ => pure f
    | _ => pure f
  | _ => pure { f with hasNonDecls := true }

/-- the loop of `__evaluate_cscript` (145-173) -/
def inspectDecls : List TId → Found → M Found
  | [], f => pure f
  | t :: ts, f => do inspectDecls ts (← inspectDecl t f)

/-- `__evaluate_cscript` (127-186) -/
def evaluateCscript (head : TId) (argv : List Nat) : M Unit := do
  let es ← chainElems (some head)
  let f ← inspectDecls es ⟨0, false, false⟩
  if f.hasMain && f.hasNonDecls then stop (.exit 1)
  else do
    createArguments R argv
    (if f.hasMain then addCallToMain head f.numMainArgs else pure ())
    evaluate R (some head)

end

/-- The exit status of the process: `evaluate_cscript` returns 0 (218) when
`__evaluate_cscript` returns, and `main` returns that (main.c:159); `eval_die` exits
with 1; of the argument of `exit` the parent process sees eight bits. -/
def status : Out Unit → Option Nat
  | .ok _ _ => some 0
  | .stop (.die _) _ => some 1
  | .stop (.exit n) _ => some (n % 256).toNat
  | _ => none

end Bic.Script
