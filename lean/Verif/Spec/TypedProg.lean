import Verif.Spec.Prog
import Verif.Spec.Typed
/-!
# Integer programs with the types of C (specification)

The semantics of `Spec/Prog.lean`, with the values of expressions as their types in C give them.
-/

namespace Bic.Spec

/-- which expressions have values and what may be done with them -/
structure TRules where
  value : Store → Expr → Int → Prop
  /-- `e` has the value `v` and may be assigned to a variable of type `c` -/
  asg : Store → CT → Expr → Int → Prop
  /-- a block may stand directly in a block -/
  nested : Prop
  /-- the procedures of the program -/
  proc : String → Option Proc
  /-- of the open scopes `hidden ++ visible` a procedure sees `visible` -/
  sees : (hidden visible : Store) → Prop
  /-- the procedure may be called with these arguments and end so -/
  call : Proc → List Expr → End → Prop

/-- the same rules for the program with the procedures `Φ` -/
def TRules.with (L : TRules) (Φ : String → Option Proc) : TRules := { L with proc := Φ }

/-- the variables of a store: their values are values of their types -/
def Store.Vars (σ : Store) (x : String) (c : CT) (v : Int) : Prop := σ.Has x c (some v) ∧ integral c ∧ InRange c v

/-- C; a procedure sees the outermost scope only -/
def cTyped : TRules :=
  ⟨fun σ e v => ∃ c, CTVal σ.Vars e c v, fun σ _ e v => ∃ c, CTVal σ.Vars e c v, True, fun _ => none, fun _ v => v.length = 1, fun _ _ _ => True⟩

/-- `x = e` converts the value of `e` to the type of `x`; `x++` computes `x + 1` (6.5.2.4p2, 6.5.16.2p3), in the common type of `x` and `int` -/
inductive TActs (L : TRules) : Store → Act → Store → Prop
  | set {σ x e c u v w} : σ.Has x c u → L.asg σ c e v → Converts c v w → TActs L σ (.set x e) (σ.write x w)
  | step {σ x d c v r w} : σ.Vars x c v → TResult Converts (common c .int) (v + d) r → Converts c r w →
      TActs L σ (.step x d) (σ.write x w)

/-- a declaration: each variable comes into being before its initialiser is evaluated -/
inductive TDeclares (L : TRules) (c : CT) : Store → List (String × Option Expr) → Store → Prop
  | nil {σ} : TDeclares L c σ [] σ
  | plain {fr σ x ds σ'} : Frame.find x fr = none → TDeclares L c ((fr ++ [(x, some ⟨c, none⟩)]) :: σ) ds σ' →
      TDeclares L c (fr :: σ) ((x, none) :: ds) σ'
  | init {fr σ x e ds σ1 σ'} : Frame.find x fr = none →
      TActs L ((fr ++ [(x, some ⟨c, none⟩)]) :: σ) (.set x e) σ1 → TDeclares L c σ1 ds σ' →
      TDeclares L c (fr :: σ) ((x, some e) :: ds) σ'

/-- the scope of a call: the parameters have the values of the arguments, converted to their types (6.5.2.2p7) -/
inductive TParams (L : TRules) (σ : Store) : List (CT × String) → List Expr → Frame → Prop
  | nil : TParams L σ [] [] []
  | cons {c x e v w ps es fr} : integral c → L.asg σ c e v → Converts c v w → TParams L σ ps es fr →
      TParams L σ ((c, x) :: ps) (e :: es) ((x, some ⟨c, some w⟩) :: fr)

/-- `TRun L σ p f σ' n`: executing `p` ends as `f` says with the store `σ'`, `n` variables having been created. -/
inductive TRun (L : TRules) : Store → Stmt → End → Store → Nat → Prop
  | act {σ a σ'} : TActs L σ a σ' → TRun L σ (.act a) .next σ' 0
  | decl {σ c ds σ'} : integral c → TDeclares L c σ ds σ' → TRun L σ (.decl c ds) .next σ' ds.length
  | skip {σ} : TRun L σ .skip .next σ 0
  | seq {σ a b f σ1 σ' n m} : TRun L σ a .next σ1 n → TRun L σ1 b f σ' m → TRun L σ (.seq a b) f σ' (n + m)
  | stop {σ a b f σ' n} : TRun L σ a f σ' n → f ≠ .next → TRun L σ (.seq a b) f σ' n
  | cond {σ e x y v b f fr σ' n} : L.value σ e v → cTruth v b → TRun L ([] :: σ) (if b then x else y) f (fr :: σ') n →
      TRun L σ (.cond e x y) f σ' n
  | whileS {σ e b f σ' n} : TRun L σ (.rounds e none b) f σ' n → TRun L σ (.whileS e b) f σ' n
  | forS {σ i e a b f σ1 σ' n} : TActs L σ i σ1 → TRun L σ1 (.rounds e (some a) b) f σ' n → TRun L σ (.forS i e a b) f σ' n
  | last {σ e a b v} : L.value σ e v → cTruth v false → TRun L σ (.rounds e a b) .next σ 0
  | round {σ e b v f fr σ1 σ' n m} : L.value σ e v → cTruth v true → TRun L ([] :: σ) b .next (fr :: σ1) n →
      TRun L σ1 (.rounds e none b) f σ' m → TRun L σ (.rounds e none b) f σ' (n + m)
  | roundFor {σ e a b v f fr σ1 σ2 σ' n m} : L.value σ e v → cTruth v true → TRun L ([] :: σ) b .next (fr :: σ1) n →
      TActs L σ1 a σ2 → TRun L σ2 (.rounds e (some a) b) f σ' m → TRun L σ (.rounds e (some a) b) f σ' (n + m)
  | returned {σ e a b v f fr σ1 n} : L.value σ e v → cTruth v true → TRun L ([] :: σ) b f (fr :: σ1) n → f ≠ .next →
      TRun L σ (.rounds e a b) f σ1 n
  | ret {σ e v} : L.value σ e v → TRun L σ (.ret e) (.ret v) σ 0
  | leave {σ} : TRun L σ .leave .left σ 0
  | block {σ b f fr σ' n} : L.nested → TRun L ([] :: σ) b f (fr :: σ') n → TRun L σ (.block b) f σ' n
  | call {hid vis f es q g fr fr' vis' n} : L.proc f = some q → (∀ k ∈ (hid ++ vis).dropLast, f ∉ k.names) → L.sees hid vis →
      L.call q es g → TParams L (hid ++ vis) q.params es fr → fr.names.Nodup → TRun L (fr :: vis) q.body g (fr' :: vis') n →
      TRun L (hid ++ vis) (.call f es) .next (hid ++ vis') (q.params.length + n)

/-- the parts of a script, one after the other, in the outermost scope; a procedure must have a new name -/
inductive TRunParts (L : TRules) : (String → Option Proc) → Frame → List Part → (String → Option Proc) → Frame → Nat → Prop
  | nil {Φ fr} : TRunParts L Φ fr [] Φ fr 0
  | stmt {Φ Φ' fr fr1 fr2 p us n m} : TRun (L.with Φ) [fr] p .next [fr1] n → TRunParts L Φ fr1 us Φ' fr2 m →
      TRunParts L Φ fr (.stmt p :: us) Φ' fr2 (n + m)
  | proc {Φ Φ' fr fr' f q us n} : Frame.find f fr = none → TRunParts L (addProc Φ f q) (fr ++ [(f, none)]) us Φ' fr' n →
      TRunParts L Φ fr (.proc f q :: us) Φ' fr' n

end Bic.Spec
