import Verif.Model.Eval
/-!
# Monotonicity in the recursion budget

Every function of the evaluator is monotone in the functions it calls
recursively, for the order in which `Out.fuel` is below everything.  Consequence:
an outcome other than `Out.fuel` does not depend on the budget.
-/

namespace Bic
open Lean.Order

/-- `fuel` is below everything, other outcomes are only related to themselves. -/
inductive OutLe {α : Type} : Out α → Out α → Prop
  | fuel {b} : OutLe .fuel b
  | refl {a} : OutLe a a

instance : PartialOrder (Out α) where
  rel := OutLe
  rel_refl := .refl
  rel_trans h1 h2 := by cases h1 <;> cases h2 <;> constructor
  rel_antisymm h1 h2 := by cases h1 <;> cases h2 <;> rfl

instance : PartialOrder (M α) := inferInstanceAs (PartialOrder (St → Out α))

theorem M_le_iff {a b : M α} : a ⊑ b ↔ ∀ s, OutLe (a s) (b s) := Iff.rfl

instance : MonoBind M where
  bind_mono_left {α β a₁ a₂ f} h := by
    intro s
    have h := h s
    show OutLe (M.bind a₁ f s) (M.bind a₂ f s)
    unfold M.bind
    generalize a₁ s = x at h
    generalize a₂ s = y at h
    cases h with
    | fuel => exact .fuel
    | refl => exact .refl
  bind_mono_right {α β a f₁ f₂} h := by
    intro s
    show OutLe (M.bind a f₁ s) (M.bind a f₂ s)
    unfold M.bind
    split
    · exact h _ _
    · exact .refl
    · exact .refl

/-- field-wise order -/
structure RecLe (a b : Rec) : Prop where
  ev : ∀ x, a.ev x ⊑ b.ev x
  loopWhile : ∀ x y, a.loopWhile x y ⊑ b.loopWhile x y
  loopFor : ∀ x y z, a.loopFor x y z ⊑ b.loopFor x y z
  resolvePtr : ∀ x y, a.resolvePtr x y ⊑ b.resolvePtr x y
  handleDecl : ∀ x y, a.handleDecl x y ⊑ b.handleDecl x y
  mapTypedef : ∀ x y, a.mapTypedef x y ⊑ b.mapTypedef x y
  instStruct : ∀ x y, a.instStruct x y ⊑ b.instStruct x y
  alignment : ∀ x, a.alignment x ⊑ b.alignment x

instance : PartialOrder Rec where
  rel := RecLe
  rel_refl := by intro a; constructor <;> intros <;> exact PartialOrder.rel_refl
  rel_trans h1 h2 :=
    { ev := fun _ => PartialOrder.rel_trans (h1.ev _) (h2.ev _)
      loopWhile := fun _ _ => PartialOrder.rel_trans (h1.loopWhile _ _) (h2.loopWhile _ _)
      loopFor := fun _ _ _ => PartialOrder.rel_trans (h1.loopFor _ _ _) (h2.loopFor _ _ _)
      resolvePtr := fun _ _ => PartialOrder.rel_trans (h1.resolvePtr _ _) (h2.resolvePtr _ _)
      handleDecl := fun _ _ => PartialOrder.rel_trans (h1.handleDecl _ _) (h2.handleDecl _ _)
      mapTypedef := fun _ _ => PartialOrder.rel_trans (h1.mapTypedef _ _) (h2.mapTypedef _ _)
      instStruct := fun _ _ => PartialOrder.rel_trans (h1.instStruct _ _) (h2.instStruct _ _)
      alignment := fun _ => PartialOrder.rel_trans (h1.alignment _) (h2.alignment _) }
  rel_antisymm {a b} h1 h2 := by
    cases a; cases b
    congr
    · funext x; exact PartialOrder.rel_antisymm (h1.ev x) (h2.ev x)
    · funext x y; exact PartialOrder.rel_antisymm (h1.loopWhile x y) (h2.loopWhile x y)
    · funext x y z; exact PartialOrder.rel_antisymm (h1.loopFor x y z) (h2.loopFor x y z)
    · funext x y; exact PartialOrder.rel_antisymm (h1.resolvePtr x y) (h2.resolvePtr x y)
    · funext x y; exact PartialOrder.rel_antisymm (h1.handleDecl x y) (h2.handleDecl x y)
    · funext x y; exact PartialOrder.rel_antisymm (h1.mapTypedef x y) (h2.mapTypedef x y)
    · funext x y; exact PartialOrder.rel_antisymm (h1.instStruct x y) (h2.instStruct x y)
    · funext x; exact PartialOrder.rel_antisymm (h1.alignment x) (h2.alignment x)

theorem mono_ev (x) : monotone (fun R : Rec => R.ev x) := fun _ _ h => h.ev x
theorem mono_loopWhile (x y) : monotone (fun R : Rec => R.loopWhile x y) :=
  fun _ _ h => h.loopWhile x y
theorem mono_loopFor (x y z) : monotone (fun R : Rec => R.loopFor x y z) :=
  fun _ _ h => h.loopFor x y z
theorem mono_resolvePtr (x y) : monotone (fun R : Rec => R.resolvePtr x y) :=
  fun _ _ h => h.resolvePtr x y
theorem mono_handleDecl (x y) : monotone (fun R : Rec => R.handleDecl x y) :=
  fun _ _ h => h.handleDecl x y
theorem mono_mapTypedef (x y) : monotone (fun R : Rec => R.mapTypedef x y) :=
  fun _ _ h => h.mapTypedef x y
theorem mono_instStruct (x y) : monotone (fun R : Rec => R.instStruct x y) :=
  fun _ _ h => h.instStruct x y
theorem mono_alignment (x) : monotone (fun R : Rec => R.alignment x) :=
  fun _ _ h => h.alignment x

theorem mono_forEachLast (f : Rec → TId → M Ref) (h : ∀ t, monotone (fun R => f R t)) (a l) :
    monotone (fun R => forEachLast (f R) a l) := by
  induction l generalizing a with
  | nil => unfold forEachLast; exact monotone_const _
  | cons t ts ih =>
    unfold forEachLast
    apply monotone_bind
    · exact h t
    · apply monotone_of_monotone_apply; intro r; exact ih r

theorem mono_eachDecl (f : Rec → Ref → M Ref) (h : ∀ t, monotone (fun R => f R t)) (d) :
    monotone (fun R => eachDecl (f R) d) := by
  unfold eachDecl
  apply monotone_bind
  · exact monotone_const _
  · apply monotone_of_monotone_apply; intro n
    split
    · exact mono_forEachLast _ (fun t => h (some t)) _ _
    · exact h d

/-- one step of a monotonicity proof -/
syntax "mono1" : tactic
macro_rules
  | `(tactic| mono1) => `(tactic| first
    | with_reducible exact monotone_const _
    | with_reducible exact mono_ev _ | with_reducible exact mono_loopWhile _ _
    | with_reducible exact mono_loopFor _ _ _
    | with_reducible exact mono_resolvePtr _ _ | with_reducible exact mono_handleDecl _ _
    | with_reducible exact mono_mapTypedef _ _
    | with_reducible exact mono_instStruct _ _ | with_reducible exact mono_alignment _
    | (with_reducible apply mono_eachDecl; intro _)
    | (with_reducible apply mono_forEachLast; intro _)
    | monotonicity)

theorem mono_convComparable (t) : monotone (fun R : Rec => convComparable R t) := by
  unfold convComparable
  repeat' mono1
macro_rules | `(tactic| mono1) => `(tactic| with_reducible exact mono_convComparable _)

theorem mono_getSizeOfType (t) : monotone (fun R : Rec => getSizeOfType R t) := by
  unfold getSizeOfType
  repeat' mono1
macro_rules | `(tactic| mono1) => `(tactic| with_reducible exact mono_getSizeOfType _)

theorem mono_getArraySize (a b) : monotone (fun R : Rec => getArraySize R a b) := by
  unfold getArraySize
  repeat' mono1
macro_rules | `(tactic| mono1) => `(tactic| with_reducible exact mono_getArraySize _ _)

theorem mono_resolvePtrStep (a b) : monotone (fun R : Rec => resolvePtrStep R a b) := by
  unfold resolvePtrStep
  repeat' mono1
macro_rules | `(tactic| mono1) => `(tactic| with_reducible exact mono_resolvePtrStep _ _)

theorem mono_instElement (d b) : monotone (fun R : Rec => instElement R d b) := by
  unfold instElement
  repeat' mono1
macro_rules | `(tactic| mono1) => `(tactic| with_reducible exact mono_instElement _ _)

theorem mono_instElements (b l) : monotone (fun R : Rec => instElements R b l) := by
  induction l with
  | nil => unfold instElements; repeat' mono1
  | cons x xs ih => unfold instElements; repeat' (first | exact ih | mono1)
macro_rules | `(tactic| mono1) => `(tactic| with_reducible exact mono_instElements _ _)

theorem mono_instStructStep (a b) : monotone (fun R : Rec => instStructStep R a b) := by
  unfold instStructStep
  repeat' mono1
macro_rules | `(tactic| mono1) => `(tactic| with_reducible exact mono_instStructStep _ _)

theorem mono_allocStruct (a) : monotone (fun R : Rec => allocStruct R a) := by
  unfold allocStruct
  repeat' mono1
macro_rules | `(tactic| mono1) => `(tactic| with_reducible exact mono_allocStruct _)

theorem mono_allocArray (a b c) : monotone (fun R : Rec => allocArray R a b c) := by
  unfold allocArray
  repeat' mono1
macro_rules | `(tactic| mono1) => `(tactic| with_reducible exact mono_allocArray _ _ _)

theorem mono_declareArray (a b c) : monotone (fun R : Rec => declareArray R a b c) := by
  unfold declareArray
  repeat' mono1
macro_rules | `(tactic| mono1) => `(tactic| with_reducible exact mono_declareArray _ _ _)

theorem mono_handleDeclSwitch (a b) : monotone (fun R : Rec => handleDeclSwitch R a b) := by
  unfold handleDeclSwitch
  repeat' mono1
macro_rules | `(tactic| mono1) => `(tactic| with_reducible exact mono_handleDeclSwitch _ _)

theorem mono_handleDeclStep (a b) : monotone (fun R : Rec => handleDeclStep R a b) := by
  unfold handleDeclStep
  repeat' mono1
macro_rules | `(tactic| mono1) => `(tactic| with_reducible exact mono_handleDeclStep _ _)

theorem mono_mapTypedefStep (a b) : monotone (fun R : Rec => mapTypedefStep R a b) := by
  unfold mapTypedefStep
  repeat' mono1
macro_rules | `(tactic| mono1) => `(tactic| with_reducible exact mono_mapTypedefStep _ _)

theorem mono_handleExternDecl (E : Env) (a b) : monotone (fun R : Rec => handleExternDecl E R a b) := by
  unfold handleExternDecl
  repeat' mono1
macro_rules | `(tactic| mono1) => `(tactic| with_reducible exact mono_handleExternDecl _ _ _)

theorem mono_evalExtFunc (E : Env) (a) : monotone (fun R : Rec => evalExtFunc E R a) := by
  unfold evalExtFunc
  repeat' mono1
macro_rules | `(tactic| mono1) => `(tactic| with_reducible exact mono_evalExtFunc _ _)

theorem mono_handleStaticDecl (a b c) : monotone (fun R : Rec => handleStaticDecl R a b c) := by
  unfold handleStaticDecl
  repeat' mono1
macro_rules | `(tactic| mono1) => `(tactic| with_reducible exact mono_handleStaticDecl _ _ _)

theorem mono_evalDecl (E : Env) (a b c) : monotone (fun R : Rec => evalDecl E R a b c) := by
  unfold evalDecl
  repeat' mono1
macro_rules | `(tactic| mono1) => `(tactic| with_reducible exact mono_evalDecl _ _ _ _)

theorem mono_evalAssign (E : Env) (a b) : monotone (fun R : Rec => evalAssign E R a b) := by
  unfold evalAssign
  repeat' mono1
macro_rules | `(tactic| mono1) => `(tactic| with_reducible exact mono_evalAssign _ _ _)

theorem mono_evalLvalue (a) : monotone (fun R : Rec => evalLvalue R a) := by
  unfold evalLvalue
  repeat' mono1
macro_rules | `(tactic| mono1) => `(tactic| with_reducible exact mono_evalLvalue _)

theorem mono_evalPost (E : Env) (d e) : monotone (fun R : Rec => evalPost E R d e) := by
  unfold evalPost
  repeat' mono1
macro_rules | `(tactic| mono1) => `(tactic| with_reducible exact mono_evalPost _ _ _)

theorem mono_evalPre (E : Env) (d e) : monotone (fun R : Rec => evalPre E R d e) := by
  unfold evalPre
  repeat' mono1
macro_rules | `(tactic| mono1) => `(tactic| with_reducible exact mono_evalPre _ _ _)

theorem mono_evalNegate (e) : monotone (fun R : Rec => evalNegate R e) := by
  unfold evalNegate
  repeat' mono1
macro_rules | `(tactic| mono1) => `(tactic| with_reducible exact mono_evalNegate _)

theorem mono_evalOnesComp (e) : monotone (fun R : Rec => evalOnesComp R e) := by
  unfold evalOnesComp
  repeat' mono1
macro_rules | `(tactic| mono1) => `(tactic| with_reducible exact mono_evalOnesComp _)

theorem mono_evalBin (o l r) : monotone (fun R : Rec => evalBin R o l r) := by
  unfold evalBin
  repeat' mono1
macro_rules | `(tactic| mono1) => `(tactic| with_reducible exact mono_evalBin _ _ _)

theorem mono_evalCmp (o l r) : monotone (fun R : Rec => evalCmp R o l r) := by
  unfold evalCmp
  repeat' mono1
macro_rules | `(tactic| mono1) => `(tactic| with_reducible exact mono_evalCmp _ _ _)

theorem mono_evalLOr (l r) : monotone (fun R : Rec => evalLOr R l r) := by
  unfold evalLOr
  repeat' mono1
macro_rules | `(tactic| mono1) => `(tactic| with_reducible exact mono_evalLOr _ _)

theorem mono_evalLAnd (l r) : monotone (fun R : Rec => evalLAnd R l r) := by
  unfold evalLAnd
  repeat' mono1
macro_rules | `(tactic| mono1) => `(tactic| with_reducible exact mono_evalLAnd _ _)

theorem mono_evalCast (E : Env) (a b) : monotone (fun R : Rec => evalCast E R a b) := by
  unfold evalCast
  repeat' mono1
macro_rules | `(tactic| mono1) => `(tactic| with_reducible exact mono_evalCast _ _ _)

theorem mono_cscriptExit (e) : monotone (fun R : Rec => cscriptExit R e) := by
  unfold cscriptExit
  repeat' mono1
macro_rules | `(tactic| mono1) => `(tactic| with_reducible exact mono_cscriptExit _)

theorem mono_evalElems (l) : monotone (fun R : Rec => evalElems R l) := by
  induction l with
  | nil => unfold evalElems; repeat' mono1
  | cons x xs ih => unfold evalElems; repeat' (first | exact ih | mono1)
macro_rules | `(tactic| mono1) => `(tactic| with_reducible exact mono_evalElems _)

theorem mono_evaluate (h) : monotone (fun R : Rec => evaluate R h) := by
  unfold evaluate
  repeat' mono1
macro_rules | `(tactic| mono1) => `(tactic| with_reducible exact mono_evaluate _)

theorem mono_loopForStep (a b c) : monotone (fun R : Rec => loopForStep R a b c) := by
  unfold loopForStep
  repeat' mono1
macro_rules | `(tactic| mono1) => `(tactic| with_reducible exact mono_loopForStep _ _ _)

theorem mono_loopWhileStep (a b) : monotone (fun R : Rec => loopWhileStep R a b) := by
  unfold loopWhileStep
  repeat' mono1
macro_rules | `(tactic| mono1) => `(tactic| with_reducible exact mono_loopWhileStep _ _)

theorem mono_evalInfix (a b c) : monotone (fun R : Rec => evalInfix R a b c) := by
  unfold evalInfix
  repeat' mono1
macro_rules | `(tactic| mono1) => `(tactic| with_reducible exact mono_evalInfix _ _ _)

theorem mono_evalIf (a b c) : monotone (fun R : Rec => evalIf R a b c) := by
  unfold evalIf
  repeat' mono1
macro_rules | `(tactic| mono1) => `(tactic| with_reducible exact mono_evalIf _ _ _)

theorem mono_evalReturn (a b) : monotone (fun R : Rec => evalReturn R a b) := by
  unfold evalReturn
  repeat' mono1
macro_rules | `(tactic| mono1) => `(tactic| with_reducible exact mono_evalReturn _ _)

theorem mono_evalExprList (a) : monotone (fun R : Rec => evalExprList R a) := by
  unfold evalExprList
  repeat' mono1
macro_rules | `(tactic| mono1) => `(tactic| with_reducible exact mono_evalExprList _)

theorem mono_alignmentStep (a) : monotone (fun R : Rec => alignmentStep R a) := by
  unfold alignmentStep
  repeat' mono1
macro_rules | `(tactic| mono1) => `(tactic| with_reducible exact mono_alignmentStep _)

theorem mono_layoutLoop (i a b l) : monotone (fun R : Rec => layoutLoop R i a b l) := by
  induction l generalizing a b with
  | nil => unfold layoutLoop; repeat' mono1
  | cons x xs ih => unfold layoutLoop; repeat' (first | exact ih _ _ | mono1)
macro_rules | `(tactic| mono1) => `(tactic| with_reducible exact mono_layoutLoop _ _ _ _)

theorem mono_expandCompound (a) : monotone (fun R : Rec => expandCompound R a) := by
  unfold expandCompound
  repeat' mono1
macro_rules | `(tactic| mono1) => `(tactic| with_reducible exact mono_expandCompound _)

theorem mono_evalDeclCompound (a b c d) : monotone (fun R : Rec => evalDeclCompound R a b c d) := by
  unfold evalDeclCompound
  repeat' mono1
macro_rules | `(tactic| mono1) => `(tactic| with_reducible exact mono_evalDeclCompound _ _ _ _)

theorem mono_enumLoop (v l) : monotone (fun R : Rec => enumLoop R v l) := by
  induction l generalizing v with
  | nil => unfold enumLoop; repeat' mono1
  | cons x xs ih => unfold enumLoop; repeat' (first | exact ih _ | mono1)
macro_rules | `(tactic| mono1) => `(tactic| with_reducible exact mono_enumLoop _ _)

theorem mono_evalEnumerator (a b) : monotone (fun R : Rec => evalEnumerator R a b) := by
  unfold evalEnumerator
  repeat' mono1
macro_rules | `(tactic| mono1) => `(tactic| with_reducible exact mono_evalEnumerator _ _)

theorem mono_evalCompAccess (a b) : monotone (fun R : Rec => evalCompAccess R a b) := by
  unfold evalCompAccess
  repeat' mono1
macro_rules | `(tactic| mono1) => `(tactic| with_reducible exact mono_evalCompAccess _ _)

theorem mono_evalDeref (a) : monotone (fun R : Rec => evalDeref R a) := by
  unfold evalDeref
  repeat' mono1
macro_rules | `(tactic| mono1) => `(tactic| with_reducible exact mono_evalDeref _)

theorem mono_evalArrayAccess (a b) : monotone (fun R : Rec => evalArrayAccess R a b) := by
  unfold evalArrayAccess
  repeat' mono1
macro_rules | `(tactic| mono1) => `(tactic| with_reducible exact mono_evalArrayAccess _ _)

theorem mono_evalSizeof (a) : monotone (fun R : Rec => evalSizeof R a) := by
  unfold evalSizeof
  repeat' mono1
macro_rules | `(tactic| mono1) => `(tactic| with_reducible exact mono_evalSizeof _)

theorem mono_evalTypeSpec (a b) : monotone (fun R : Rec => evalTypeSpec R a b) := by
  unfold evalTypeSpec
  repeat' mono1
macro_rules | `(tactic| mono1) => `(tactic| with_reducible exact mono_evalTypeSpec _ _)

theorem mono_closureArgTypes (n l) : monotone (fun R : Rec => closureArgTypes R n l) := by
  induction l generalizing n with
  | nil => unfold closureArgTypes; repeat' mono1
  | cons x xs ih => unfold closureArgTypes; repeat' (first | exact ih _ | mono1)
macro_rules | `(tactic| mono1) => `(tactic| with_reducible exact mono_closureArgTypes _ _)

theorem mono_entryPointForFn (a) : monotone (fun R : Rec => entryPointForFn R a) := by
  unfold entryPointForFn
  repeat' mono1
macro_rules | `(tactic| mono1) => `(tactic| with_reducible exact mono_entryPointForFn _)

theorem mono_evalAddr (a) : monotone (fun R : Rec => evalAddr R a) := by
  unfold evalAddr
  repeat' mono1
macro_rules | `(tactic| mono1) => `(tactic| with_reducible exact mono_evalAddr _)

theorem mono_doExtCall (E : Env) (a b c d) : monotone (fun R : Rec => doExtCall E R a b c d) := by
  unfold doExtCall
  repeat' mono1
macro_rules | `(tactic| mono1) => `(tactic| with_reducible exact mono_doExtCall _ _ _ _ _)

theorem mono_evalFnArgs (l) : monotone (fun R : Rec => evalFnArgs R l) := by
  induction l with
  | nil => unfold evalFnArgs; repeat' mono1
  | cons x xs ih => unfold evalFnArgs; repeat' (first | exact ih | mono1)
macro_rules | `(tactic| mono1) => `(tactic| with_reducible exact mono_evalFnArgs _)

theorem mono_bindParams (l l') : monotone (fun R : Rec => bindParams R l l') := by
  induction l generalizing l' with
  | nil => unfold bindParams; repeat' mono1
  | cons x xs ih =>
    cases l' with
    | nil => unfold bindParams; repeat' mono1
    | cons y ys => unfold bindParams; repeat' (first | exact ih _ | mono1)
macro_rules | `(tactic| mono1) => `(tactic| with_reducible exact mono_bindParams _ _)

theorem mono_runBody (a b c) : monotone (fun R : Rec => runBody R a b c) := by
  intro R R' hR
  rw [M_le_iff]
  intro s
  have h : OutLe (evaluate R c s) (evaluate R' c s) := mono_evaluate c R R' hR s
  show OutLe (runBody R a b c s) (runBody R' a b c s)
  unfold runBody
  generalize evaluate R c s = x at h
  generalize evaluate R' c s = y at h
  cases h with
  | fuel => exact .fuel
  | refl => exact .refl
macro_rules | `(tactic| mono1) => `(tactic| with_reducible exact mono_runBody _ _ _)

theorem mono_callUser (a b c d) : monotone (fun R : Rec => callUser R a b c d) := by
  unfold callUser
  repeat' mono1
macro_rules | `(tactic| mono1) => `(tactic| with_reducible exact mono_callUser _ _ _ _)

theorem mono_callExtDecl (E : Env) (a b c d) : monotone (fun R : Rec => callExtDecl E R a b c d) := by
  unfold callExtDecl
  repeat' mono1
macro_rules | `(tactic| mono1) => `(tactic| with_reducible exact mono_callExtDecl _ _ _ _ _)

theorem mono_callLive (E : Env) (a b) : monotone (fun R : Rec => callLive E R a b) := by
  unfold callLive
  repeat' mono1
macro_rules | `(tactic| mono1) => `(tactic| with_reducible exact mono_callLive _ _ _)

theorem mono_callBuiltin (a b) : monotone (fun R : Rec => callBuiltin R a b) := by
  unfold callBuiltin
  repeat' mono1
macro_rules | `(tactic| mono1) => `(tactic| with_reducible exact mono_callBuiltin _ _)

theorem mono_evalFnCall (E : Env) (a b) : monotone (fun R : Rec => evalFnCall E R a b) := by
  unfold evalFnCall
  repeat' mono1
macro_rules | `(tactic| mono1) => `(tactic| with_reducible exact mono_evalFnCall _ _ _)

theorem mono_evalNode (E : Env) (t n) : monotone (fun R : Rec => evalNode E R t n) := by
  unfold evalNode
  repeat' mono1
macro_rules | `(tactic| mono1) => `(tactic| with_reducible exact mono_evalNode _ _ _)

theorem mono_evStep (E : Env) (r) : monotone (fun R : Rec => evStep E R r) := by
  unfold evStep
  repeat' mono1
macro_rules | `(tactic| mono1) => `(tactic| with_reducible exact mono_evStep _ _)


theorem mono_step (E : Env) : monotone (step E) := by
  intro R R' h
  exact
    { ev := fun x => mono_evStep E x R R' h
      loopWhile := fun x y => mono_loopWhileStep x y R R' h
      loopFor := fun x y z => mono_loopForStep x y z R R' h
      resolvePtr := fun x y => mono_resolvePtrStep x y R R' h
      handleDecl := fun x y => mono_handleDeclStep x y R R' h
      mapTypedef := fun x y => mono_mapTypedefStep x y R R' h
      instStruct := fun x y => mono_instStructStep x y R R' h
      alignment := fun x => mono_alignmentStep x R R' h }

theorem bottom_le (R : Rec) : bottom ⊑ R := by
  constructor <;> intros <;> intro _ <;> exact .fuel

theorem run_le_succ (E : Env) (n : Nat) : run E n ⊑ run E (n + 1) := by
  induction n with
  | zero => exact bottom_le _
  | succ n ih => exact mono_step E _ _ ih

theorem run_mono (E : Env) {n m : Nat} (h : n ≤ m) : run E n ⊑ run E m := by
  induction m with
  | zero => cases Nat.le_zero.mp h; exact PartialOrder.rel_refl
  | succ m ih =>
    by_cases hnm : n = m + 1
    · subst hnm; exact PartialOrder.rel_refl
    · exact PartialOrder.rel_trans (ih (by omega)) (run_le_succ E m)

theorem OutLe.eq_of_ne {a b : Out α} (h : OutLe a b) (hne : a ≠ .fuel) : b = a := by
  cases h with
  | fuel => exact absurd rfl hne
  | refl => rfl

end Bic
