import Verif.Spec.Expr
/-!
# Structured integer programs (specification)

A small language of integer variables and its big-step semantics.  Scopes are lists
of variables, the store is the list of the open scopes, innermost first.  `Rules`
says which expressions and values are covered, so that the same semantics can be
read as C (`cRules`) and restricted to what bic gets right.
-/

namespace Bic.Spec

/-- a variable and its value; `none` is the indeterminate value -/
structure Var where
  ty : CT
  val : Option Int
deriving DecidableEq

/-- the names of a scope: integer variables and other things (`none`) -/
abbrev Frame := List (String × Option Var)

/-- the open scopes, innermost first -/
abbrev Store := List Frame

def Frame.find (x : String) : Frame → Option (Option Var)
  | [] => none
  | (y, v) :: fr => if y = x then some v else Frame.find x fr

/-- what the name `x` denotes -/
def Store.find (x : String) : Store → Option (Option Var)
  | [] => none
  | fr :: σ => match Frame.find x fr with
    | some v => some v
    | none => Store.find x σ

/-- `x` is an integer variable of type `c` with the contents `v` -/
def Store.Has (σ : Store) (x : String) (c : CT) (v : Option Int) : Prop := σ.find x = some (some ⟨c, v⟩)

def Frame.write (x : String) (w : Int) : Frame → Frame
  | [] => []
  | (y, v) :: fr =>
    if y = x then (y, v.map fun u => ⟨u.ty, some w⟩) :: fr else (y, v) :: Frame.write x w fr

/-- give the variable `x` the value `w` -/
def Store.write (x : String) (w : Int) : Store → Store
  | [] => []
  | fr :: σ => match Frame.find x fr with
    | some _ => Frame.write x w fr :: σ
    | none => fr :: Store.write x w σ

/-- `x = e;`, `x += d` in the form of `++` and `--` -/
inductive Act where
  | set (x : String) (e : Expr)
  | step (x : String) (d : Int)

inductive Stmt where
  | act (a : Act)
  | decl (c : CT) (ds : List (String × Option Expr))
  | skip
  | seq (a b : Stmt)
  | cond (e : Expr) (a b : Stmt)
  | whileS (e : Expr) (b : Stmt)
  | forS (i : Act) (e : Expr) (a : Act) (b : Stmt)
  /-- the rounds of a loop -/
  | rounds (e : Expr) (a : Option Act) (b : Stmt)
  | ret (e : Expr)
  /-- `return;` -/
  | leave
  | block (b : Stmt)
  /-- the call `f(es);` of a procedure -/
  | call (f : String) (es : List Expr)

/-- a function whose value is not used -/
structure Proc where
  params : List (CT × String)
  body : Stmt

/-- how a statement ends -/
inductive End where
  | next
  | ret (v : Int)
  | left

structure Rules where
  op : BOp → Int → Int → Int → Prop
  truth : Int → Bool → Prop
  /-- values of variables that may be read -/
  read : Int → Prop
  /-- `e`, whose value is `v`, may be assigned to a variable of type `c` -/
  asg : Store → CT → Expr → Int → Prop
  /-- a block may stand directly in a block -/
  nested : Prop
  /-- the procedures of the program -/
  proc : String → Option Proc
  /-- of the open scopes `hidden ++ visible` a procedure sees `visible` -/
  sees : (hidden visible : Store) → Prop
  /-- the procedure may be called with these arguments and end so -/
  call : Proc → List Expr → End → Prop

/-- the same rules for the program with the procedures `Φ` -/
def Rules.with (L : Rules) (Φ : String → Option Proc) : Rules := { L with proc := Φ }

/-- C, with computations on unbounded integers and conversion on assignment; a
procedure sees the outermost scope only -/
def cRules : Rules :=
  ⟨cOp, cTruth, fun _ => True, fun _ _ _ _ => True, True, fun _ => none, fun _ v => v.length = 1, fun _ _ _ => True⟩

/-- the value of an expression -/
def Rules.Value (L : Rules) (σ : Store) (e : Expr) (v : Int) : Prop :=
  Val L.op L.truth (fun x v => ∃ c, σ.Has x c (some v) ∧ L.read v) e v

inductive Acts (L : Rules) : Store → Act → Store → Prop
  | set {σ x e c u v w} : σ.Has x c u → L.Value σ e v → L.asg σ c e v → Converts c v w →
      Acts L σ (.set x e) (σ.write x w)
  | step {σ x d c v w} : σ.Has x c (some v) → Converts c (v + d) w → Acts L σ (.step x d) (σ.write x w)

/-- a declaration: each variable comes into being before its initialiser is evaluated -/
inductive Declares (L : Rules) (c : CT) : Store → List (String × Option Expr) → Store → Prop
  | nil {σ} : Declares L c σ [] σ
  | plain {fr σ x ds σ'} : Frame.find x fr = none → Declares L c ((fr ++ [(x, some ⟨c, none⟩)]) :: σ) ds σ' →
      Declares L c (fr :: σ) ((x, none) :: ds) σ'
  | init {fr σ x e ds σ1 σ'} : Frame.find x fr = none →
      Acts L ((fr ++ [(x, some ⟨c, none⟩)]) :: σ) (.set x e) σ1 → Declares L c σ1 ds σ' →
      Declares L c (fr :: σ) ((x, some e) :: ds) σ'

/-- the names declared in a scope -/
def Frame.names (fr : Frame) : List String := fr.map (·.1)

/-- the scope of a call: the parameters `ps` have the values of the argument
expressions `es`, evaluated in the scope of the call, converted to their types -/
inductive Params (L : Rules) (σ : Store) : List (CT × String) → List Expr → Frame → Prop
  | nil : Params L σ [] [] []
  | cons {c x e v w ps es fr} : integral c → L.Value σ e v → L.asg σ c e v → Converts c v w → Params L σ ps es fr →
      Params L σ ((c, x) :: ps) (e :: es) ((x, some ⟨c, some w⟩) :: fr)

/-- `Run L σ p f σ' n`: executing `p` ends as `f` says with the store `σ'`, `n`
variables having been created. -/
inductive Run (L : Rules) : Store → Stmt → End → Store → Nat → Prop
  | act {σ a σ'} : Acts L σ a σ' → Run L σ (.act a) .next σ' 0
  | decl {σ c ds σ'} : integral c → Declares L c σ ds σ' → Run L σ (.decl c ds) .next σ' ds.length
  | skip {σ} : Run L σ .skip .next σ 0
  | seq {σ a b f σ1 σ' n m} : Run L σ a .next σ1 n → Run L σ1 b f σ' m → Run L σ (.seq a b) f σ' (n + m)
  | stop {σ a b f σ' n} : Run L σ a f σ' n → f ≠ .next → Run L σ (.seq a b) f σ' n
  | cond {σ e x y v b f fr σ' n} : L.Value σ e v → L.truth v b → Run L ([] :: σ) (if b then x else y) f (fr :: σ') n →
      Run L σ (.cond e x y) f σ' n
  | whileS {σ e b f σ' n} : Run L σ (.rounds e none b) f σ' n → Run L σ (.whileS e b) f σ' n
  | forS {σ i e a b f σ1 σ' n} : Acts L σ i σ1 → Run L σ1 (.rounds e (some a) b) f σ' n → Run L σ (.forS i e a b) f σ' n
  | last {σ e a b v} : L.Value σ e v → L.truth v false → Run L σ (.rounds e a b) .next σ 0
  | round {σ e b v f fr σ1 σ' n m} : L.Value σ e v → L.truth v true → Run L ([] :: σ) b .next (fr :: σ1) n →
      Run L σ1 (.rounds e none b) f σ' m → Run L σ (.rounds e none b) f σ' (n + m)
  | roundFor {σ e a b v f fr σ1 σ2 σ' n m} : L.Value σ e v → L.truth v true → Run L ([] :: σ) b .next (fr :: σ1) n →
      Acts L σ1 a σ2 → Run L σ2 (.rounds e (some a) b) f σ' m → Run L σ (.rounds e (some a) b) f σ' (n + m)
  | returned {σ e a b v f fr σ1 n} : L.Value σ e v → L.truth v true → Run L ([] :: σ) b f (fr :: σ1) n → f ≠ .next →
      Run L σ (.rounds e a b) f σ1 n
  | ret {σ e v} : L.Value σ e v → Run L σ (.ret e) (.ret v) σ 0
  | leave {σ} : Run L σ .leave .left σ 0
  | block {σ b f fr σ' n} : L.nested → Run L ([] :: σ) b f (fr :: σ') n → Run L σ (.block b) f σ' n
  | call {hid vis f es q g fr fr' vis' n} : L.proc f = some q → (∀ k ∈ (hid ++ vis).dropLast, f ∉ k.names) → L.sees hid vis →
      L.call q es g → Params L (hid ++ vis) q.params es fr → fr.names.Nodup → Run L (fr :: vis) q.body g (fr' :: vis') n →
      Run L (hid ++ vis) (.call f es) .next (hid ++ vis') (q.params.length + n)

/-- a part of a script: a statement or declaration, or the definition of a procedure -/
inductive Part where
  | stmt (p : Stmt)
  | proc (f : String) (q : Proc)

/-- the procedures `Φ` and `f` -/
def addProc (Φ : String → Option Proc) (f : String) (q : Proc) : String → Option Proc := fun g => if g = f then some q else Φ g

/-- the parts of a script, one after the other, in the outermost scope; a procedure must have a new
name -/
inductive RunParts (L : Rules) : (String → Option Proc) → Frame → List Part → (String → Option Proc) → Frame → Nat → Prop
  | nil {Φ fr} : RunParts L Φ fr [] Φ fr 0
  | stmt {Φ Φ' fr fr1 fr2 p us n m} : Run (L.with Φ) [fr] p .next [fr1] n → RunParts L Φ fr1 us Φ' fr2 m →
      RunParts L Φ fr (.stmt p :: us) Φ' fr2 (n + m)
  | proc {Φ Φ' fr fr' f q us n} : Frame.find f fr = none → RunParts L (addProc Φ f q) (fr ++ [(f, none)]) us Φ' fr' n →
      RunParts L Φ fr (.proc f q :: us) Φ' fr' n

/-- the names an expression uses -/
def Expr.uses : Expr → List String
  | .lit _ => []
  | .var x => [x]
  | .bin _ a b | .land a b | .lor a b | .comma a b => a.uses ++ b.uses
  | .compl a | .lnot a => a.uses
  | .cond c a b => c.uses ++ a.uses ++ b.uses

def Act.uses : Act → List String
  | .set x e => x :: e.uses
  | .step x _ => [x]

/-- the free names of a declaration: what its initialisers use and it does not declare
before -/
def declFree : List (String × Option Expr) → List String
  | [] => []
  | (x, e) :: ds => ((e.map Expr.uses).getD [] ++ declFree ds).filter (· ≠ x)

/-- the names a statement declares in the scope it stands in -/
def Stmt.binds : Stmt → List String
  | .decl _ ds => ds.map (·.1)
  | .seq a b => a.binds ++ b.binds
  | _ => []

/-- the names declared in the scopes that a statement opens -/
def Stmt.inners : Stmt → List String
  | .seq a b => a.inners ++ b.inners
  | .cond _ a b => a.binds ++ a.inners ++ (b.binds ++ b.inners)
  | .whileS _ b | .forS _ _ _ b | .rounds _ _ b | .block b => b.binds ++ b.inners
  | _ => []

/-- the free names of a statement -/
def Stmt.free : Stmt → List String
  | .act a => a.uses
  | .decl _ ds => declFree ds
  | .skip | .leave => []
  | .seq a b => a.free ++ b.free.filter (· ∉ a.binds)
  | .cond e a b => e.uses ++ a.free ++ b.free
  | .whileS e b => e.uses ++ b.free
  | .forS i e a b => i.uses ++ e.uses ++ a.uses ++ b.free
  | .rounds e a b => e.uses ++ (a.map Act.uses).getD [] ++ b.free
  | .ret e => e.uses
  | .block b => b.free
  | .call f es => f :: (es.map Expr.uses).flatten

/-- the variable assigned -/
def Act.target : Act → String
  | .set x _ => x
  | .step x _ => x

/-- the variables a statement assigns that it does not declare itself; what the
procedures called assign does not count -/
def Stmt.writes : Stmt → List String
  | .act a => [a.target]
  | .decl _ _ | .skip | .ret _ | .leave | .call _ _ => []
  | .seq a b => a.writes ++ b.writes.filter (· ∉ a.binds)
  | .cond _ a b => a.writes ++ b.writes
  | .whileS _ b | .block b => b.writes
  | .forS i _ a b => i.target :: a.target :: b.writes
  | .rounds _ a b => (a.map Act.target).toList ++ b.writes

/-- only the names used matter to the value of an expression -/
theorem Val.congr {op : BOp → Int → Int → Int → Prop} {truth : Int → Bool → Prop} {ρ ρ' : String → Int → Prop} {e v}
    (h : Val op truth ρ e v) : (∀ x ∈ e.uses, ∀ v, ρ x v → ρ' x v) → Val op truth ρ' e v := by
  induction h with
  | lit z => exact fun _ => .lit z
  | var h => exact fun hr => .var (hr _ (by simp [Expr.uses]) _ h)
  | bin _ _ h iha ihb =>
    exact fun hr => .bin (iha fun x hx => hr x (by simp [Expr.uses, hx])) (ihb fun x hx => hr x (by simp [Expr.uses, hx])) h
  | compl _ h ih => exact fun hr => .compl (ih hr) h
  | lnot _ h ih => exact fun hr => .lnot (ih hr) h
  | land_false _ ih => exact fun hr => .land_false (ih fun x hx => hr x (by simp [Expr.uses, hx]))
  | land_true _ hx _ hv iha ihb =>
    exact fun hr => .land_true (iha fun x hx => hr x (by simp [Expr.uses, hx])) hx
      (ihb fun x hx => hr x (by simp [Expr.uses, hx])) hv
  | lor_true _ hx ih => exact fun hr => .lor_true (ih fun x hx => hr x (by simp [Expr.uses, hx])) hx
  | lor_false _ _ hv iha ihb =>
    exact fun hr => .lor_false (iha fun x hx => hr x (by simp [Expr.uses, hx]))
      (ihb fun x hx => hr x (by simp [Expr.uses, hx])) hv
  | cond_true _ hx _ ihc iha =>
    exact fun hr => .cond_true (ihc fun x hx => hr x (by simp [Expr.uses, hx])) hx
      (iha fun x hx => hr x (by simp [Expr.uses, hx]))
  | cond_false _ hx _ ihc iha =>
    exact fun hr => .cond_false (ihc fun x hx => hr x (by simp [Expr.uses, hx])) hx
      (iha fun x hx => hr x (by simp [Expr.uses, hx]))
  | comma _ _ iha ihb =>
    exact fun hr => .comma (iha fun x hx => hr x (by simp [Expr.uses, hx])) (ihb fun x hx => hr x (by simp [Expr.uses, hx]))

end Bic.Spec
