import Verif.Model.Tree
import Verif.Spec.Expr
/-!
# Flow of control (specification)

What the statements of C do, given what expressions and declarations do: `Ev s t r
s'` says that evaluating the tree `t` in state `s` gives the object `r` and the
state `s'`; `Cd s t v s'` says that the condition `t` has the value `v`.
-/

namespace Bic.Spec

/-- how a statement ends: normally, by `break`, by `return` with an object -/
inductive Flow where
  | next
  | brk
  | ret (v : Option TId)
deriving DecidableEq

/-- open an (empty) scope -/
def enter (s : St) (name : String) : St :=
  { s with
    ctxs := { uid := s.nextUid, name, ids := [], structs := [], unions := [], allocs := [],
              retval := none, shouldBreak := false, isFn := false } :: s.ctxs,
    nextUid := s.nextUid + 1 }

/-- close the innermost scope -/
def leave (s : St) : St := { s with ctxs := s.ctxs.tail }

/-- a statement that returns leaves the closing of scopes to the call -/
def close (f : Flow) (s : St) : St :=
  match f with
  | .ret _ => s
  | _ => leave s

/-- statements that direct the flow of control -/
def isControl : Node → Bool
  | .ifS _ _ _ | .whileS _ _ | .forS _ _ _ _ | .ret _ | .brk | .chain _ => true
  | _ => false

def isJump : Node → Bool
  | .ret _ | .brk => true
  | _ => false

def isChain : Node → Bool
  | .chain _ => true
  | _ => false

def isDecl : Node → Bool
  | .decl _ _ _ => true
  | _ => false

/-- the object is a value, not a statement -/
def NoJump (s : St) (r : Option TId) : Prop :=
  ∀ t, r = some t → ∃ n, s.nodes t = some n ∧ isJump n = false

/-- what is executed -/
inductive Code where
  | stmt (t : TId)
  | block (ts : List TId)
  /-- the statement governed by `if`, `while` or `for` -/
  | body (b : Option TId)
  /-- the rounds of a loop: condition, expression after each round, body -/
  | loop (c : TId) (after : Option (Option TId)) (b : Option TId)

/-- The parts of the language a program may use: which values count as true, and
whether there may be `break`, `return` (with or without an expression), an unbraced `break` or `return` as body of
a loop or `if`, a block directly inside a block. -/
structure Lang where
  truth : Int → Bool → Prop
  brk : Prop
  ret : Option TId → Prop
  single : Prop
  nested : Prop

/-- the scope of a loop round -/
def loopName : Option (Option TId) → String
  | none => "While Loop"
  | some _ => "For Loop"

/-- `Exec … s k f s'`: executing `k` in state `s` ends as `f` says in state `s'`. -/
inductive Exec (L : Lang) (Ev : St → Option TId → Option TId → St → Prop) (Cd : St → TId → Int → St → Prop) :
    St → Code → Flow → St → Prop
  | expr {s t n r s'} : s.nodes t = some n → isControl n = false → Ev s (some t) r s' → NoJump s' r →
      Exec L Ev Cd s (.stmt t) .next s'
  | brk {s t} : L.brk → s.nodes t = some .brk → Exec L Ev Cd s (.stmt t) .brk s
  | ret {s t e r s'} : L.ret e → s.nodes t = some (.ret e) → Ev s e r s' → Exec L Ev Cd s (.stmt t) (.ret r) s'
  | nested {s t ts f s'} : L.nested → s.nodes t = some (.chain ts) →
      Exec L Ev Cd (enter s "Block") (.block ts) f s' → Exec L Ev Cd s (.stmt t) f (close f s')
  | cond {s t c x y v b f s1 s'} : s.nodes t = some (.ifS (some c) x y) → Cd s c v s1 → L.truth v b →
      Exec L Ev Cd (enter s1 "If statement") (.body (if b then x else y)) f s' →
      Exec L Ev Cd s (.stmt t) f (close f s')
  | whileS {s t c b f s'} : s.nodes t = some (.whileS (some c) b) → Exec L Ev Cd s (.loop c none b) f s' →
      Exec L Ev Cd s (.stmt t) f s'
  | forS {s t i n c a b r s1 f s'} : s.nodes t = some (.forS (some i) (some c) a b) →
      s.nodes i = some n → isDecl n = false → Ev s (some i) r s1 →
      Exec L Ev Cd s1 (.loop c (some a) b) f s' → Exec L Ev Cd s (.stmt t) f s'
  | stop {s c a b v s'} : Cd s c v s' → L.truth v false → Exec L Ev Cd s (.loop c a b) .next s'
  | round {s c b v f s1 s2 s'} : Cd s c v s1 → L.truth v true →
      Exec L Ev Cd (enter s1 "While Loop") (.body b) .next s2 →
      Exec L Ev Cd (leave s2) (.loop c none b) f s' → Exec L Ev Cd s (.loop c none b) f s'
  | roundFor {s c a b v r f s1 s2 s3 s'} : Cd s c v s1 → L.truth v true →
      Exec L Ev Cd (enter s1 "For Loop") (.body b) .next s2 → Ev (leave s2) a r s3 →
      Exec L Ev Cd s3 (.loop c (some a) b) f s' → Exec L Ev Cd s (.loop c (some a) b) f s'
  | left {s c a b v s1 s'} : Cd s c v s1 → L.truth v true →
      Exec L Ev Cd (enter s1 (loopName a)) (.body b) .brk s' → Exec L Ev Cd s (.loop c a b) .next (leave s')
  | returned {s c a b v r s1 s'} : Cd s c v s1 → L.truth v true →
      Exec L Ev Cd (enter s1 (loopName a)) (.body b) (.ret r) s' → Exec L Ev Cd s (.loop c a b) (.ret r) s'
  | nil {s} : Exec L Ev Cd s (.block []) .next s
  | cons {s t ts f s1 s'} : Exec L Ev Cd s (.stmt t) .next s1 → Exec L Ev Cd s1 (.block ts) f s' →
      Exec L Ev Cd s (.block (t :: ts)) f s'
  | jump {s t ts f s'} : f ≠ .next → Exec L Ev Cd s (.stmt t) f s' → Exec L Ev Cd s (.block (t :: ts)) f s'
  | none {s} : Exec L Ev Cd s (.body none) .next s
  | braces {s t ts f s'} : s.nodes t = some (.chain ts) → Exec L Ev Cd s (.block ts) f s' →
      Exec L Ev Cd s (.body (some t)) f s'
  | single {s t n f s'} : s.nodes t = some n → isChain n = false → (isJump n = true → L.single) →
      Exec L Ev Cd s (.stmt t) f s' → Exec L Ev Cd s (.body (some t)) f s'

end Bic.Spec
