import Verif.Props.TypedExpr
import Verif.Props.Assign
/-!
# C142: assignments of expressions with the types of C
-/

namespace Bic
open Spec

/-- `t` is `x = e`: its left side evaluates to the variable `x` of the integer type `k` at `a`, its right side is the tree of `e` -/
structure AssignsExpr (E : Env) (s : St) (t x τ : TId) (k : CT) (a : Nat) (e : Expr) : Prop where
  tree : ∃ l r, s.nodes t = some (.assign l (some r)) ∧ Conv E (fun R => R.ev l) s (.ok (some x) s) ∧ ERep s.nodes r e
  lv : LvAt s x τ k a
  int : integral k

/-- after the evaluation of `t` the bytes of the variable at `a` represent the value `u` of type `k`, and no other byte is changed -/
def Stores (E : Env) (s : St) (t : TId) (k : CT) (a : Nat) (u : Int) : Prop :=
  ∃ y s', Conv E (fun R => R.ev (some t)) s (.ok y s') ∧ Represents k (bytesAt s'.mem a k.size) u ∧
    ∀ b, b < a ∨ a + k.size ≤ b → s'.mem.byte b = s.mem.byte b

/-- C142: an assignment stores the value C gives the expression, with the types of its parts, converted to the type of the variable. -/
def C142_statement : Prop :=
  ∀ (E : Env) (s : St) (t x τ : TId) (k c : CT) (a : Nat) (e : Expr) (v u : Int), WF s → AssignsExpr E s t x τ k a e → CTVal (VarT s) e c v →
    Converts k v u → Stores E s t k a u

/-- assigning what an expression computes -/
theorem stores_computed {E : Env} {s : St} {t x τ : TId} {k : CT} {a : Nat} {e : Expr} {m u : Int} (w : WF s) (h : AssignsExpr E s t x τ k a e)
    (hv : Val okOp okTruth (VarIs s) e m) (hc : computed e = true) (hk : width k ≤ 32 ∨ (-2 ^ 63 ≤ m ∧ m < 2 ^ 63)) (hu : Converts k m u) :
    Stores E s t k a u := by
  obtain ⟨l, r, h1, h2, h3⟩ := h.tree
  obtain ⟨q, s2, c2, x2, _, i2⟩ := eval_exprG (E := E) w (fun _ _ h => h) h3 m hv s (Ext.refl s)
  have hx := h.lv.ext x2
  have hcv := assign_conv h1 h2 c2 hx h.int (.int (i2.1 hc))
  refine ⟨_, _, hcv, ?_, fun b hb => ?_⟩
  · have := ((hx.wr _ _ _).holds_iff _).mp (hx.holds_wr (mpzGetSi m))
    rwa [(getSi_converts h.int hk).unique (.inl h.int) hu] at this
  · rw [wr_mem, Mem.store_byte_other _ _ _ _ _ hb, x2.mem]

/-- C142 for variables of at most 32 bits and expressions with `+`, `-`, `*`, `&`, `|`, `^`, `~` and `<<` by a constant, on variables of any integer type: there bic's unbounded
arithmetic and C's, which wraps around, lead to the same value. -/
theorem C142_narrow_partial (E : Env) (s : St) (t x τ : TId) (k c : CT) (a : Nat) (e : Expr) (v u : Int) (w : WF s)
    (h : AssignsExpr E s t x τ k a e) (hv : CTVal (LongVar s) e c v) (hr : ringExpr e) (hc : computed e = true) (hk : width k ≤ 32)
    (hu : Converts k v u) : Stores E s t k a u := by
  obtain ⟨_, m, h1, h2⟩ := ring_modulo (ρ' := VarIs s) (fun _ _ _ ⟨⟨t, h1, h2⟩, h3⟩ =>
    ⟨h2.elim (fun h => h.1 ▸ trivial) (·.1), t, h1, h2.elim (fun h => .inl h.2.1) fun h => .inr ⟨_, h.2, h3⟩⟩) hv hr
  refine stores_computed w h h1 hc (.inl hk) (converts_of_congr hu ((m - v) / 2 ^ 32 * 2 ^ (32 - width k)) ?_)
  rw [Int.mul_assoc, ← Int.pow_add, Nat.sub_add_cancel hk]
  omega

/-- C142 for variables of all types and expressions whose variables have any integer type but `unsigned int`, `unsigned long` and
`unsigned long long`, where `/` and `>>` round as in C. Missing are these three types where a result of more than 32 bits matters, and right sides
that are just a variable (C08). -/
theorem C142_signed_partial (E : Env) (s : St) (t x τ : TId) (k c : CT) (a : Nat) (e : Expr) (v u : Int) (w : WF s)
    (h : AssignsExpr E s t x τ k a e) (hv : TVal roundsSame Converts cTruth (SignedVar s) e c v) (hc : computed e = true)
    (hu : Converts k v u) : Stores E s t k a u := by
  obtain ⟨h1, h2, h3⟩ := TVal.signed SignedVar.like hv
  have hl := wider (long_like h1) h2
  refine stores_computed w h (TVal.toVal (ρ := SignedVar s) (fun x c v hx => ?_) h3) hc (.inr ⟨hl.1, hl.2⟩) hu
  have hr := SignedVar.like x c v hx
  obtain ⟨⟨t, h1, h2⟩, h4⟩ := hx
  exact ⟨t, h1, h2.elim (fun h => .inl h.2.1) fun h => .inr ⟨_, h.2, wider (long_like hr.1) hr.2⟩⟩

/-- `unsigned int u = 4294967295` at 4096, `unsigned long w` at 4104; `u = u * u` (3), `w = u + 1` (9) -/
def stTypedAsg : St :=
  stOf [.ident "u", .ctype .uint none, .lv (some 1) 4096 false 0, .assign (some 0) (some 4), .bin .mul (some 0) (some 0), .ident "w",
        .ctype .ulong none, .lv (some 6) 4104 false 0, .integer 1, .assign (some 5) (some 10), .bin .add (some 0) (some 8)]
    [⟨"u", 0, some 2⟩, ⟨"w", 5, some 7⟩] [255, 255, 255, 255, 0, 0, 0, 0, 7, 0, 0, 0, 0, 0, 0, 0]

theorem stTypedAsg_u : VarT stTypedAsg "u" .uint 4294967295 :=
  ⟨2, rfl, .inr ⟨trivial, 1, 4096, ⟨⟨_, _, rfl⟩, ⟨_, rfl⟩, .inl trivial, rfl⟩, by decide +kernel⟩⟩

/-- `u = u * u` makes `u` 1, although bic computes 18446744065119617025 -/
example : Stores E0 stTypedAsg 3 .uint 4096 1 :=
  C142_narrow_partial E0 stTypedAsg 3 2 1 .uint .uint 4096 (.bin .mul (.var "u") (.var "u")) 1 1 (stOf_WF _ _ _)
    ⟨⟨some 0, 4, rfl, ident_conv rfl rfl, .bin (o := .mul) (l := 0) (r := 0) rfl (.var rfl) (.var rfl)⟩,
      ⟨⟨_, _, rfl⟩, ⟨_, rfl⟩, .inl trivial, rfl⟩, trivial⟩
    (.arith (o := .mul) (c := .uint) (d := .uint) (x' := 4294967295) (y' := 4294967295) (z := 18446744065119617025) rfl
      (.var ⟨stTypedAsg_u, by decide⟩) (.var ⟨stTypedAsg_u, by decide⟩) (.self (by decide)) (.self (by decide)) trivial
      (show (18446744065119617025 : Int) = 4294967295 * 4294967295 by decide) ⟨by decide, 4294967294, by decide⟩)
    ⟨trivial, trivial, .inl (by decide)⟩ rfl (by decide) (.self (by decide))

/-- C142 in full is false: `w = u + 1` makes `w` 4294967296, in C it is 0. -/
theorem C142_refuted : ¬ C142_statement := by
  intro h
  obtain ⟨y, s', h1, h2, _⟩ := h E0 stTypedAsg 9 7 6 .ulong .uint 4104 (.bin .add (.var "u") (.lit 1)) 0 0 (stOf_WF _ _ _)
    ⟨⟨some 5, 10, rfl, ident_conv rfl rfl, .bin (o := .add) (l := 0) (r := 8) rfl (.var rfl) (.lit rfl)⟩,
      ⟨⟨_, _, rfl⟩, ⟨_, rfl⟩, .inl trivial, rfl⟩, trivial⟩
    (.arith (c := .uint) (d := .int) (x' := 4294967295) (y' := 1) (z := 4294967296) rfl (.var stTypedAsg_u) (.lit (.inl ⟨rfl, by decide⟩))
      (.self (by decide)) (.self (by decide)) trivial rfl ⟨by decide, 1, by decide⟩) (.self (by decide))
  have hb : bytesAt s'.mem 4104 8 = [0, 0, 0, 0, 1, 0, 0, 0] := bytesAfter_conv 10 (by decide +kernel) h1
  have h3 : (0 : Int) = 4294967296 := by
    refine Converts.unique (c := .ulong) (.inl trivial) h2.2 ?_
    rw [show bytesAt s'.mem 4104 CT.ulong.size = _ from hb]
    exact ⟨by decide, 0, by decide⟩
  omega

end Bic
