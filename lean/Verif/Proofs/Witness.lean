import Verif.Proofs.Assign
import Verif.Proofs.Quiet
import Verif.Spec.Control
/-!
# Concrete states and computed outcomes

Used for examples (non-vacuity of the property theorems) and for refutations of
properties the code does not have.  The outcome of a concrete run is computed by
the kernel.
-/

namespace Bic
open Spec

/-- a run that ended is the outcome with every larger budget -/
theorem Conv.of_ev {E : Env} {t : Ref} {s : St} (n : Nat) {o : Out Ref} (h : (run E n).ev t s = o)
    (ho : o ≠ .fuel) : Conv E (fun R => R.ev t) s o :=
  ⟨n, fun _ hm => run_ev_mono hm h ho⟩

/-- the integer an outcome stands for -/
def outVal : Out Ref → Option Int
  | .ok (some r) s =>
    match s.nodes r with
    | some (.integer v) => some v
    | some (.lv (some τ) a _ _) =>
      match s.nodes τ with
      | some (.ctype c _) => some (toPtrdiff (c.decode (s.mem.load c.size a)))
      | _ => none
    | _ => none
  | _ => none

theorem outVal_denotes {s : St} {r : TId} {v : Int} (h : Denotes s r v) : outVal (.ok (some r) s) = some v := by
  rcases h with h | ⟨c, w, ⟨τ, a, ⟨⟨arr, sz, h1⟩, ⟨e, h2⟩, _, _⟩, rfl⟩, rfl⟩
  · simp [outVal, h]
  · simp [outVal, h1, h2]

/-- the computed value is the only one the evaluation can have -/
theorem EvalsTo.computed {E : Env} {s : St} {t : TId} {v w : Int} (h : EvalsTo E s t v) (n : Nat)
    (hc : outVal ((run E n).ev (some t) s) = some w) : v = w := by
  obtain ⟨r, s', h1, _, h3⟩ := h
  have hne : (run E n).ev (some t) s ≠ .fuel := by
    intro hf; rw [hf] at hc; cases hc
  have := Conv.unique h1 (Conv.of_ev n rfl hne)
  rw [← this, outVal_denotes h3] at hc
  exact Option.some.inj hc

/-- what an evaluation that ended normally gave -/
def outRef : Out Ref → Ref
  | .ok r _ => r
  | _ => none

/-- the state in which an evaluation ended -/
def outSt (d : St) : Out Ref → St
  | .ok _ s => s
  | .stop _ s => s
  | .fuel => d

def isOk : Out Ref → Bool
  | .ok _ _ => true
  | _ => false

def isFuel : Out Ref → Bool
  | .fuel => true
  | _ => false

/-- a concrete run that ends normally -/
theorem Conv.computed {E : Env} {t : Ref} {s : St} (n : Nat) (h : isOk ((run E n).ev t s) = true) :
    Conv E (fun R => R.ev t) s (.ok (outRef ((run E n).ev t s)) (outSt s ((run E n).ev t s))) := by
  refine Conv.of_ev n ?_ (by intro h; cases h)
  revert h
  cases (run E n).ev t s <;> simp [isOk, outRef, outSt]

/-- an outside world in which nothing happens -/
def E0 : Env where
  fpOfInt _ _ := 0
  fpToInt _ _ _ := none
  fpConv _ _ _ := 0
  fpAdd _ _ _ := 0
  dlsym _ := none
  extCall _ _ m := (m, [])

/-- memory whose bytes from 4096 on are `bs`, all accessible, followed by free
memory -/
def memOf (bs : List Byte) : Mem where
  byte := fun a => if 4096 ≤ a then bs.getD (a - 4096) 0 else 0
  live := fun a => decide (4096 ≤ a ∧ a < 4096 + bs.length)
  brk := 4096 + (bs.length / 16 + 1) * 16 + 16

/-- the scope of the program -/
def ctx1 (ids : List Binding) : Ctx :=
  { uid := 1, name := "Toplevel", ids, structs := [], unions := [], allocs := [],
    retval := none, shouldBreak := false, isFn := false }

/-- a state with the given tree objects, variables and memory -/
def stOf (l : List Node) (ids : List Binding) (bs : List Byte) : St where
  nodes := fun t => l[t]?
  next := l.length
  mem := memOf bs
  ctxs := [ctx1 ids]
  nextUid := 2
  includeCtx := none
  includes := []
  closures := []
  events := []

theorem stOf_WF (l ids bs) : WF (stOf l ids bs) := fun _ h => List.getElem?_eq_none h

theorem stOf_Inv (l ids bs) : Inv (stOf l ids bs) where
  wf := stOf_WF l ids bs
  uids := ⟨Nat.lt_succ_self 1, trivial⟩
  tags c hc := by
    obtain rfl : c = ctx1 ids := by simpa [stOf] using hc
    exact ⟨fun b hb => by simp [ctx1] at hb, fun b hb => by simp [ctx1] at hb⟩

theorem memOf_livelt (bs : List Byte) : LiveLt (memOf bs) := by
  intro x hx
  simp [memOf] at hx ⊢
  omega

/-- states a program passes through: statements evaluated one after the other,
blocks entered -/
inductive Reach (E : Env) (s0 : St) : St → Prop
  | start : Reach E s0 s0
  | stmt {s s' : St} {t r : Ref} : Reach E s0 s → Conv E (fun R => R.ev t) s (.ok r s') → Reach E s0 s'
  | enter {s : St} (name : String) : Reach E s0 s → Reach E s0 (Spec.enter s name)

/-- trees as the parser makes them (no objects, no types laid out) -/
def Parsed : Node → Prop
  | .lv _ _ _ _ => False
  | .lcomp _ _ _ => False
  | .compound _ _ sz expanded _ => sz = 0 ∧ expanded = false
  | .decl _ _ off => off = 0
  | .staticCtx _ => False
  | _ => True

instance : DecidablePred Parsed := fun n => by
  cases n <;> simp only [Parsed] <;> infer_instance

/-- the state after evaluating `t` with budget `n` -/
def evTo (n : Nat) (t : TId) (s : St) : St := outSt s ((run E0 n).ev (some t) s)

theorem evTo_conv (n : Nat) (t : TId) (s : St) (r : Ref) (hok : isOk ((run E0 n).ev (some t) s) = true)
    (hr : outRef ((run E0 n).ev (some t) s) = r) : Conv E0 (fun R => R.ev (some t)) s (.ok r (evTo n t s)) := by
  subst hr; exact Conv.computed n hok

theorem evTo_unique {s s' : St} {t : TId} {r : Ref} (n : Nat) (hok : isOk ((run E0 n).ev (some t) s) = true)
    (h : Conv E0 (fun R => R.ev (some t)) s (.ok r s')) : s' = evTo n t s := by
  have := Conv.unique h (Conv.computed n hok)
  exact (Out.ok.inj this).2

theorem Reach.computed {s0 s : St} (h : Reach E0 s0 s) (n : Nat) (t : TId) (hok : isOk ((run E0 n).ev (some t) s) = true) :
    Reach E0 s0 (evTo n t s) := .stmt h (Conv.computed n hok)

end Bic
