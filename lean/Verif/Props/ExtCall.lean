import Verif.Proofs.ExtCall
import Verif.Proofs.Repr
import Verif.Props.Calls
/-!
# Calls of library functions (C58, C59, C66)

`LibCall E s t fa vp ret es`: the tree `t` calls the library function at `fa`, declared with the result
type `ret` (`none` is `void`) and with `...` at position `vp`, if any; `es` are the argument
expressions.  `HasArgs E s es as m`: they have the values `as`.
-/

namespace Bic
open Spec

namespace Spec

/-- the default argument promotions (C11 6.5.2.2p6) -/
def promoted : CT → CT
  | .char | .uchar | .short | .ushort => .int
  | .float => .double
  | c => c

/-- the register holds the value, extended to 64 bits -/
def Carries (reg : Nat) (v : Int) : Prop := reg < 2 ^ 64 ∧ ∃ k : Int, v = reg + k * 2 ^ 64

/-- The type an argument has when it arrives. -/
def typeIn (var : Bool) (c : CT) : CT := if var then promoted c else c

/-- What C says about an argument: `var` tells whether it is a variadic one, `widen` is the conversion
of `float` to `double`. -/
def Arrives (widen : Nat → Nat) (var : Bool) : Arg → FfiArg → Prop
  | .int c v, .int c' reg => c' = typeIn var c ∧ Carries reg v
  | .const z, .int c' reg => c' = .int ∧ Carries reg z
  | .fp c b, .fp c' b' => c' = typeIn var c ∧ b' = if var = true ∧ c = .float then widen b else b
  | .str s, .str s' => s' = s
  | _, _ => False

/-- Is the argument at position `n` a variadic one? -/
def Variadic (vp : Option Nat) (n : Nat) : Prop := ∃ p, vp = some p ∧ p ≤ n

/-- what a function that declares the parameter with type `c` reads -/
def Reads (c : CT) (f : FfiArg) (v : Int) : Prop := ∃ c' reg, f = .int c' reg ∧ Converts c reg v

end Spec

/-- the call is made, with arguments of which `P` holds, position by position -/
def Received (E : Env) (s : St) (t : TId) (fa : Nat) (vp : Option Nat) (as : List Arg) (P : Nat → Arg → FfiArg → Prop) : Prop :=
  ∃ r s' fs, Evl E s (some t) r s' ∧ s'.events = s.events ++ [⟨fa, fs, vp⟩] ∧ fs.length = as.length ∧
    ∀ n a f, as[n]? = some a → fs[n]? = some f → P n a f

/-- **C58**: arguments arrive in order, the variadic ones promoted -/
def C58_statement : Prop :=
  ∀ (E : Env) (s : St) (t : TId) (fa : Nat) (vp : Option Nat) (ret : Option CT) (es : List TId) (as : List Arg) (m : Nat), WF s →
    LibCall E s t fa vp ret es → HasArgs E s es as m → Room s (m + 2) → (∀ z, .const z ∈ as → InRange .int z) →
    Received E s t fa vp as fun n a f => ∀ var, (var = true ↔ Variadic vp n) → Arrives (E.fpConv .float .double) var a f

theorem isVar_iff (vp : Option Nat) (n : Nat) : isVar vp n = true ↔ Variadic vp n := by
  cases vp <;> simp [isVar, Variadic]

theorem passAll_get (E : Env) (vp : Option Nat) : ∀ (as : List Arg) (k n : Nat), (passAll E vp k as)[n]? = as[n]?.map (pass E (isVar vp (k + n))) := by
  intro as
  induction as with
  | nil => intros; rfl
  | cons a as ih =>
    intro k n
    cases n with
    | zero => rfl
    | succ n =>
      simp only [passAll, List.getElem?_cons_succ, ih]
      rw [show k + 1 + n = k + (n + 1) by omega]

theorem passAll_length (E : Env) (vp : Option Nat) (as : List Arg) (k : Nat) : (passAll E vp k as).length = as.length := by
  induction as generalizing k with
  | nil => rfl
  | cons a as ih => simp [passAll, ih]

/-- arguments are of the kinds they are said to be -/
def Arg.Valid : Arg → Prop
  | .int c _ => integral c ∨ c = .ptr
  | .fp c _ => c.isFp = true
  | _ => True

theorem ArgAt.valid {s : St} {r : TId} {a : Arg} (h : ArgAt s r a) : a.Valid := by
  cases a with
  | int c v => obtain ⟨_, _, h, _⟩ := h; exact h.int
  | fp c b =>
    rcases h with ⟨_, rfl⟩ | ⟨_, _, _, _, _, _, _, h, _⟩
    · rfl
    · exact h
  | _ => trivial

theorem HasArgs.valid {E : Env} {s : St} {es : List TId} {as : List Arg} {m : Nat} (h : HasArgs E s es as m) (w : WF s) (hr : Room s m) :
    ∀ a ∈ as, a.Valid := by
  obtain ⟨rs, s1, he, _, _, hf⟩ := h s (.refl s) w hr
  clear hr w h he
  induction hf with
  | nil => simp
  | cons h1 _ ih =>
    intro a ha
    rcases List.mem_cons.mp ha with rfl | ha
    · exact h1.valid
    · exact ih a ha

/-- the arguments that arrive -/
theorem received {E : Env} {s : St} {t : TId} {fa : Nat} {vp : Option Nat} {ret : Option CT} {es : List TId} {as : List Arg} {m : Nat}
    {P : Nat → Arg → FfiArg → Prop} (w : WF s) (hl : LibCall E s t fa vp ret es) (ha : HasArgs E s es as m) (hr : Room s (m + 2))
    (hn : as.length ≤ 32) (hP : ∀ (n : Nat) (a : Arg), as[n]? = some a → a.Valid → P n a (pass E (isVar vp n) a)) : Received E s t fa vp as P := by
  have h := libCall_conv w hl ha hr hn
  have key : ∀ n a f, as[n]? = some a → (passAll E vp 0 as)[n]? = some f → P n a f := by
    intro n a f h1 h2
    rw [passAll_get, h1, Nat.zero_add] at h2
    cases h2
    exact hP n a h1 (ha.valid w (hr.mono (by omega)) a (List.mem_of_getElem? h1))
  cases ret with
  | none =>
    obtain ⟨s1, g, h⟩ := h
    exact ⟨none, _, passAll E vp 0 as, h, by simp [calledSt, g.events], passAll_length _ _ _ _, key⟩
  | some c =>
    obtain ⟨s1, v, τ, a, arr, sz, e, g, _, _, _, h⟩ := h
    exact ⟨some v, _, passAll E vp 0 as, h, by simp [resultSt, calledSt, g.events], passAll_length _ _ _ _, key⟩

theorem carries_encode (v : Int) : Carries (CT.ulong.encode v) v := by
  refine ⟨CT.encode_lt .ulong v, v / 2 ^ 64, ?_⟩
  rw [CT.encode_int]
  simp only [CT.modulus, CT.size]
  omega

theorem pass_arrives (E : Env) (var : Bool) (a : Arg) (hv : a.Valid) (hz : ∀ z, a = .const z → InRange .int z)
    (hu : var = true → ∀ c v, a = .int c v → c ≠ .uchar ∧ c ≠ .ushort) : Arrives (E.fpConv .float .double) var a (pass E var a) := by
  cases a with
  | int c v =>
    have h := carries_encode v
    cases var with
    | false => cases c <;> exact ⟨rfl, h⟩
    | true =>
      have := hu rfl c v rfl
      cases c <;> first | exact ⟨rfl, h⟩ | (simp at this; done) | simp [Arg.Valid, integral] at hv
  | const z =>
    have h := hz z rfl
    simp only [pass]
    have hl : -2 ^ 63 ≤ z ∧ z < 2 ^ 63 := by
      have h1 := h.1
      have h2 := h.2
      simp [lo, hi, signed, width] at h1 h2
      omega
    rw [mpzGetSi_eq hl.1 hl.2, CT.decode_encode_of_inRange (.inl (by decide)) h]
    exact ⟨rfl, carries_encode z⟩
  | fp c b =>
    cases var <;> cases c <;> simp [Arg.Valid, CT.isFp] at hv <;> simp [pass, Arrives, typeIn, promoted]
  | str bs => rfl

/-- C58 for at most 32 arguments, none of the variadic ones an `unsigned char` or an `unsigned short`.
Missing: these are promoted to `unsigned int` (C: to `int`), and more arguments. -/
theorem C58_promoted_partial (E : Env) (s : St) (t : TId) (fa : Nat) (vp : Option Nat) (ret : Option CT) (es : List TId) (as : List Arg)
    (m : Nat) (w : WF s) (hl : LibCall E s t fa vp ret es) (ha : HasArgs E s es as m) (hr : Room s (m + 2)) (hn : as.length ≤ 32)
    (hz : ∀ z, .const z ∈ as → InRange .int z)
    (hu : ∀ n c v, Variadic vp n → as[n]? = some (.int c v) → c ≠ .uchar ∧ c ≠ .ushort) :
    Received E s t fa vp as fun n a f => ∀ var, (var = true ↔ Variadic vp n) → Arrives (E.fpConv .float .double) var a f := by
  refine received w hl ha hr hn fun n a h hval var hvar => ?_
  have : isVar vp n = var := by rw [Bool.eq_iff_iff, isVar_iff, hvar]
  rw [this]
  refine pass_arrives E var a hval (fun z hz' => hz z (hz' ▸ List.mem_of_getElem? h)) fun hv c v ha => hu n c v (hvar.mp hv) (ha ▸ h)

/-- C58, the values: whatever the types, arguments arrive in order with their values. -/
theorem C58_values_partial (E : Env) (s : St) (t : TId) (fa : Nat) (vp : Option Nat) (ret : Option CT) (es : List TId) (as : List Arg)
    (m : Nat) (w : WF s) (hl : LibCall E s t fa vp ret es) (ha : HasArgs E s es as m) (hr : Room s (m + 2)) (hn : as.length ≤ 32) :
    Received E s t fa vp as fun _ a f => ∀ c v, a = .int c v → ∃ c' reg, f = .int c' reg ∧ Carries reg v ∧ c.size ≤ c'.size := by
  refine received w hl ha hr hn fun n a _ _ c v hav => ?_
  subst hav
  have h := carries_encode v
  cases isVar vp n <;> cases c <;> exact ⟨_, _, rfl, h, by decide⟩

/-- C58, where it fails: with more than 32 arguments the program ends and the function is not called. -/
theorem C58_too_many (E : Env) (s : St) (t : TId) (fa : Nat) (vp : Option Nat) (ret : Option CT) (es : List TId) (as : List Arg)
    (m : Nat) (w : WF s) (hl : LibCall E s t fa vp ret es) (ha : HasArgs E s es as m) (hr : Room s (m + 2)) (hn : 32 < as.length) :
    ∃ s', Conv E (fun R => R.ev (some t)) s (.stop (.exit 1) s') ∧ s'.events = s.events := by
  obtain ⟨s', g, h⟩ := libCall_many w hl ha hr hn
  exact ⟨s', h, g.events⟩

/-- **C59**: an integer constant that fits the parameter arrives -/
def C59_statement : Prop :=
  ∀ (E : Env) (s : St) (t : TId) (fa : Nat) (vp : Option Nat) (ret : Option CT) (es : List TId) (as : List Arg) (m : Nat), WF s →
    LibCall E s t fa vp ret es → HasArgs E s es as m → Room s (m + 2) → as.length ≤ 32 →
    Received E s t fa vp as fun _ a f => ∀ z c, a = .const z → integral c → InRange c z → Reads c f z

theorem const_reads {z : Int} {c : CT} (hc : integral c) (hr : InRange c z) (hs : c.size ≤ 4 ∨ InRange .int z) :
    Converts c (CT.ulong.encode (CT.int.decode (CT.int.encode (mpzGetSi z)))) z := by
  have hl : -2 ^ 63 ≤ z ∧ z < 2 ^ 63 := by
    rcases hs with hs | hs
    · have h1 := hr.1
      have h2 := hr.2
      cases c <;> simp [CT.size] at hs <;> simp [lo, hi, signed, width] at h1 h2 <;> omega
    · have h1 := hs.1
      have h2 := hs.2
      simp [lo, hi, signed, width] at h1 h2
      omega
  rw [mpzGetSi_eq hl.1 hl.2]
  refine ⟨hr, ?_⟩
  obtain ⟨-, k, hk⟩ := carries_encode (CT.int.decode (CT.int.encode z))
  rcases hs with hs | hs
  · obtain ⟨-, j, hj⟩ := CT.decode_encode_converts (c := .int) (.inl (by decide)) z
    simp only [width] at hj
    have h3 : ((CT.ulong.encode (CT.int.decode (CT.int.encode z)) : Nat) : Int) = z + (-j - k * 2 ^ 32) * 2 ^ 32 := by
      generalize CT.int.decode (CT.int.encode z) = d at *
      generalize CT.ulong.encode d = r at *
      omega
    rw [h3]
    cases c <;> simp [CT.size] at hs <;> simp only [width]
    · exact ⟨(-j - k * 2 ^ 32) * 2 ^ 24, by omega⟩
    · exact ⟨(-j - k * 2 ^ 32) * 2 ^ 16, by omega⟩
    · exact ⟨-j - k * 2 ^ 32, by omega⟩
    · exact ⟨(-j - k * 2 ^ 32) * 2 ^ 24, by omega⟩
    · exact ⟨(-j - k * 2 ^ 32) * 2 ^ 16, by omega⟩
    · exact ⟨-j - k * 2 ^ 32, by omega⟩
    · simp [integral] at hc
  · rw [CT.decode_encode_of_inRange (.inl (by decide)) hs] at hk ⊢
    have h3 : ((CT.ulong.encode z : Nat) : Int) = z + (-k) * 2 ^ 64 := by
      generalize CT.ulong.encode z = r at *
      omega
    rw [h3]
    cases c <;> simp [integral] at hc <;> simp only [width]
    · exact ⟨-k * 2 ^ 56, by omega⟩
    · exact ⟨-k * 2 ^ 48, by omega⟩
    · exact ⟨-k * 2 ^ 32, by omega⟩
    · exact ⟨-k, by omega⟩
    · exact ⟨-k, by omega⟩
    · exact ⟨-k * 2 ^ 56, by omega⟩
    · exact ⟨-k * 2 ^ 48, by omega⟩
    · exact ⟨-k * 2 ^ 32, by omega⟩
    · exact ⟨-k, by omega⟩
    · exact ⟨-k, by omega⟩

/-- C59 for parameters of at most 32 bits, and for larger ones if the constant fits an `int`.
Missing: other constants for larger parameters, see `C59_large_never`. -/
theorem C59_fits_partial (E : Env) (s : St) (t : TId) (fa : Nat) (vp : Option Nat) (ret : Option CT) (es : List TId) (as : List Arg)
    (m : Nat) (w : WF s) (hl : LibCall E s t fa vp ret es) (ha : HasArgs E s es as m) (hr : Room s (m + 2)) (hn : as.length ≤ 32) :
    Received E s t fa vp as fun _ a f => ∀ z c, a = .const z → integral c → InRange c z → (c.size ≤ 4 ∨ InRange .int z) → Reads c f z := by
  refine received w hl ha hr hn fun n a _ _ z c hav hc hz hs => ?_
  subst hav
  exact ⟨.int, _, rfl, const_reads hc hz hs⟩

/-- C59, where it fails: a constant that fits a `long` parameter, or any other of 64
bits, but not an `int`, never arrives. -/
theorem C59_large_never (E : Env) (s : St) (t : TId) (fa : Nat) (vp : Option Nat) (ret : Option CT) (es : List TId) (as : List Arg)
    (m : Nat) (w : WF s) (hl : LibCall E s t fa vp ret es) (ha : HasArgs E s es as m) (hr : Room s (m + 2)) (hn : as.length ≤ 32) :
    Received E s t fa vp as fun _ a f => ∀ z c, a = .const z → integral c → InRange c z → c.size = 8 → InRange .long z → ¬ InRange .int z → ¬ Reads c f z := by
  refine received w hl ha hr hn fun n a _ _ z c hav hc hz hs hlong hni => ?_
  subst hav
  rintro ⟨c', reg, e, hconv⟩
  simp only [pass, FfiArg.int.injEq] at e
  obtain ⟨-, rfl⟩ := e
  have hd := CT.decode_inRange (c := .int) (.inl (by decide)) (CT.encode_lt .int (mpzGetSi z))
  obtain ⟨-, k, hk⟩ := carries_encode (CT.int.decode (CT.int.encode (mpzGetSi z)))
  obtain ⟨⟨h1, h2⟩, j, hj⟩ := hconv
  have h3 := hd.1
  have h4 := hd.2
  have h5 : ¬ (-2 ^ 31 ≤ z ∧ z < 2 ^ 31) := by
    intro h
    exact hni ⟨by simp [lo, signed, width]; omega, by simp [hi, signed, width]; omega⟩
  have h6 := hlong.2
  simp [lo, hi, signed, width] at h3 h4 h6
  obtain ⟨x, hx⟩ : ∃ x, x = mpzGetSi z := ⟨_, rfl⟩
  have hx2 : (0 ≤ z → x = z % 2 ^ 63) ∧ (z < 0 → x = -1 - ((-z - 1) % 2 ^ 63)) := by
    rw [hx]
    unfold mpzGetSi
    constructor
    · intro h; rw [if_pos h]
    · intro h; rw [if_neg (by omega)]
  obtain ⟨-, i, hi'⟩ := CT.decode_encode_converts (c := .int) (.inl (by decide)) (mpzGetSi z)
  rw [← hx] at hk hj hi' h3 h4
  generalize CT.int.decode (CT.int.encode x) = d at *
  generalize CT.ulong.encode d = r at *
  cases c <;> simp [CT.size] at hs <;> simp [integral] at hc <;> simp [lo, hi, signed, width] at h1 h2 hj hi' <;> omega

/-! ## Refutations and examples

`extern int f(char *, ...);` and the calls `f("%d", c)` for an `unsigned char c = 200` and
`f("%d", 2147483648)`. -/

def E58 : Env := { E0 with dlsym := fun _ => some 64 }

def prog58 : List Node :=
  [.ctype .uchar none, .lv (some 0) 4096 false 0, .ident "c", .ident "f", .str [37, 100], .variadic, .kw .char, .chain [6, 5], -- 0 … 7
   .ctype .int none, .fn (some 3) (some 7) (some 8) none, .chain [4, 2], .fnCall (some 3) (some 10), -- 8 … 11
   .integer 2147483648, .chain [4, 12], .fnCall (some 3) (some 13), .extFunc (some 9)] -- 12 … 15

def st58 : St := stOf prog58 [⟨"c", 2, some 1⟩, ⟨"f", 3, some 15⟩] [200, 0, 0, 0, 0, 0, 0, 0]

theorem room58 : Room st58 10 := ⟨by decide +kernel, by simp [st58, stOf], memOf_livelt _⟩

theorem call58 : LibCall E58 st58 11 64 (some 1) (some .int) [4, 2] :=
  ⟨3, 15, 3, "f", some 7, some 8, [6, 5], some 10, rfl, ident_conv (x := "f") rfl (by decide +kernel), rfl, rfl, rfl, .inr ⟨7, rfl, rfl⟩,
    ⟨by decide +kernel, by decide +kernel⟩, .inr ⟨10, rfl, rfl⟩, .type (c := .int) (e := none) rfl,
    .inr ⟨9, none, rfl, rfl, by decide⟩⟩

theorem call59 : LibCall E58 st58 14 64 (some 1) (some .int) [4, 12] :=
  ⟨3, 15, 3, "f", some 7, some 8, [6, 5], some 13, rfl, ident_conv (x := "f") rfl (by decide +kernel), rfl, rfl, rfl, .inr ⟨7, rfl, rfl⟩,
    ⟨by decide +kernel, by decide +kernel⟩, .inr ⟨13, rfl, rfl⟩, .type (c := .int) (e := none) rfl,
    .inr ⟨9, none, rfl, rfl, by decide⟩⟩

theorem holds58 : Holds st58 1 .uchar 200 :=
  ⟨0, 4096, ⟨⟨false, 0, rfl⟩, ⟨none, rfl⟩, .inl (by decide), by decide +kernel⟩, by decide +kernel⟩

theorem args58 : HasArgs E58 st58 [4, 2] [.str [37, 100], .int .uchar 200] 0 := by
  intro s0 g w _
  have h4 : s0.nodes 4 = some (.str [37, 100]) := g.nodes _ _ rfl
  refine ⟨[4, 1], s0, .cons (Conv.evNode h4 (Conv.const rfl)) (.cons (ident_conv (x := "c") (g.nodes 2 _ rfl) ?_) .nil), .refl _,
    by omega, .cons h4 (.cons (holds58.grow g) .nil)⟩
  rw [g.resolveGlobal]
  decide +kernel

theorem args59 : HasArgs E58 st58 [4, 12] [.str [37, 100], .const 2147483648] 0 := by
  intro s0 g w _
  have h4 : s0.nodes 4 = some (.str [37, 100]) := g.nodes _ _ rfl
  have h12 : s0.nodes 12 = some (.integer 2147483648) := g.nodes _ _ rfl
  exact ⟨[4, 12], s0, .cons (Conv.evNode h4 (Conv.const rfl)) (.cons (Conv.evNode h12 (Conv.const rfl)) .nil), .refl _,
    by omega, .cons h4 (.cons h12 .nil)⟩

/-- two accounts of the same call agree -/
theorem Received.both {E : Env} {s : St} {t : TId} {fa : Nat} {vp : Option Nat} {as : List Arg} {P Q : Nat → Arg → FfiArg → Prop}
    (h : Received E s t fa vp as P) (h' : Received E s t fa vp as Q) : Received E s t fa vp as fun n a f => P n a f ∧ Q n a f := by
  obtain ⟨r, s1, fs, h1, h2, h3, h4⟩ := h
  obtain ⟨r', s1', fs', h1', h2', h3', h4'⟩ := h'
  have := Conv.unique h1 h1'
  cases this
  rw [h2] at h2'
  have e : fs = fs' := by simpa using h2'
  subst e
  exact ⟨r, s1, fs, h1, h2, h3, fun n a f x y => ⟨h4 n a f x y, h4' n a f x y⟩⟩

/-- C58 is false: an `unsigned char` is passed as an `unsigned int`. -/
theorem C58_refuted : ¬ C58_statement := by
  intro h
  have h1 := h E58 st58 11 64 (some 1) (some .int) [4, 2] _ 0 (stOf_WF _ _ _) call58 args58 (room58.mono (by decide)) (by simp)
  have h2 := received (P := fun n a f => f = pass E58 (isVar (some 1) n) a) (stOf_WF _ _ _) call58 args58 (room58.mono (by decide))
    (by decide) fun _ _ _ _ => rfl
  obtain ⟨r, s', fs, _, _, h4, h5⟩ := h1.both h2
  have hlen : 1 < fs.length := by rw [h4]; decide
  obtain ⟨h6, h7⟩ := h5 1 (.int .uchar 200) fs[1] rfl (List.getElem?_eq_getElem hlen)
  have h8 := h6 true ⟨fun _ => ⟨1, rfl, Nat.le_refl _⟩, fun _ => rfl⟩
  rw [h7] at h8
  have : CT.uint = CT.int := h8.1
  cases this

/-- C59 is false: 2147483648 does not arrive at a `long` parameter. -/
theorem C59_refuted : ¬ C59_statement := by
  intro h
  have h1 := h E58 st58 14 64 (some 1) (some .int) [4, 12] _ 0 (stOf_WF _ _ _) call59 args59 (room58.mono (by decide)) (by decide)
  have h2 := C59_large_never E58 st58 14 64 (some 1) (some .int) [4, 12] _ 0 (stOf_WF _ _ _) call59 args59 (room58.mono (by decide))
    (by decide)
  obtain ⟨r, s', fs, _, _, h4, h5⟩ := h1.both h2
  have hlen : 1 < fs.length := by rw [h4]; decide
  obtain ⟨h6, h7⟩ := h5 1 (.const 2147483648) fs[1] rfl (List.getElem?_eq_getElem hlen)
  exact h7 _ .long rfl (by decide) (by decide) (by decide) (by decide) (by decide) (h6 _ .long rfl (by decide) (by decide))

/-- The call `f("%d", c)` passes the string and 200. -/
example : Received E58 st58 11 64 (some 1) [.str [37, 100], .int .uchar 200]
    fun _ a f => ∀ c v, a = .int c v → ∃ c' reg, f = .int c' reg ∧ Carries reg v ∧ c.size ≤ c'.size :=
  C58_values_partial E58 st58 11 64 (some 1) (some .int) [4, 2] _ 0 (stOf_WF _ _ _) call58 args58 (room58.mono (by decide)) (by decide)

/-! ## C66 -/

/-- the bytes a function returned, as a value of type `c` -/
def Returned (c : CT) (bs : List Byte) (v : Int) : Prop := Represents c (bs.take c.size) v

theorem storeBytes_take (m : Mem) : ∀ (bs : List Byte) (a n : Nat), n ≤ bs.length →
    bytesAt (m.storeBytes a bs) a n = bs.take n
  | _, _, 0, _ => by simp [bytesAt]
  | [], _, n + 1, h => by simp at h
  | b :: bs, a, n + 1, h => by
    have h1 : (m.storeBytes a (b :: bs)).byte a = b := by
      show ((m.setByte a b).storeBytes (a + 1) bs).byte a = b
      rw [Mem.storeBytes_byte_other _ _ _ _ (.inl (by omega))]
      simp [Mem.setByte]
    have h2 := storeBytes_take (m.setByte a b) bs (a + 1) n (by simpa using h)
    simp only [bytesAt, h1, List.take_succ_cons]
    exact congrArg _ h2

/-- **C66**: The library function is called with the program's memory; what it writes stays, and the
value of the call is the value it returns. -/
theorem C66_effect_and_value (E : Env) (s : St) (t : TId) (fa : Nat) (vp : Option Nat) (c : CT) (es : List TId) (as : List Arg) (m : Nat)
    (w : WF s) (hl : LibCall E s t fa vp (some c) es) (ha : HasArgs E s es as m) (hr : Room s (m + 2)) (hn : as.length ≤ 32)
    (hc : integral c ∨ c = .ptr) (he : SaneEnv E) (hb : ∀ fs mem, (E.extCall fa fs mem).2.length ≤ 16) :
    ∃ r s' fs mem, Evl E s (some t) (some r) s' ∧ s'.events = s.events ++ [⟨fa, fs, vp⟩] ∧
      (∀ x, s.mem.live x = true → mem.byte x = s.mem.byte x ∧ s'.mem.byte x = (E.extCall fa fs mem).1.byte x) ∧
      ∀ v, Returned c (E.extCall fa fs mem).2 v → Holds s' r c v := by
  obtain ⟨s1, v, τ, a, arr, sz, e, g, h1, h2, h3, h4⟩ := libCall_conv w hl ha hr hn
  refine ⟨v, _, passAll E vp 0 as, s1.mem, h4, by simp [resultSt, calledSt, g.events], fun x hx => ⟨g.byte x hx, ?_⟩, ?_⟩
  · refine Mem.storeBytes_byte_other _ _ _ _ ?_
    have hlen := hb (passAll E vp 0 as) s1.mem
    by_contra hcon
    have := (h3 x (by omega) (by omega)).2
    rw [hx] at this
    cases this
  · intro w' hw
    obtain ⟨hlive, -⟩ := he fa (passAll E vp 0 as) s1.mem
    have hlt : LvAt (resultSt E s1 fa (passAll E vp 0 as) vp a) v τ c a := by
      refine ⟨⟨arr, sz, h1⟩, ⟨e, h2⟩, hc, ?_⟩
      refine (Mem.ok_iff _ _ _).mpr fun x hx hx' => ?_
      show ((E.extCall fa _ s1.mem).1.storeBytes a _).live x = true
      rw [Mem.storeBytes_live]
      have : c.size ≤ 16 := by cases c <;> decide
      exact hlive x (h3 x hx (by omega)).1
    have hlen : c.size ≤ (E.extCall fa (passAll E vp 0 as) s1.mem).2.length := by
      have := hw.1
      rw [List.length_take, width_size hc |>.symm] at this
      omega
    refine (hlt.holds_iff w').mpr ?_
    show Represents c (bytesAt ((E.extCall fa _ s1.mem).1.storeBytes a _) a c.size) w'
    rw [storeBytes_take _ _ _ _ hlen]
    exact hw

/-- a function that stores 7 in `c` and returns 300 -/
def E66 : Env := { E58 with extCall := fun _ _ m => ((if m.live 4096 then m.setByte 4096 7 else m), [44, 1, 0, 0, 0, 0, 0, 0]) }

theorem E66_sane : SaneEnv E66 := by
  intro a args m
  simp only [E66]
  split
  · exact ⟨fun _ h => h, Nat.le_refl _, fun h => h⟩
  · exact ⟨fun _ h => h, Nat.le_refl _, fun h => h⟩

theorem call66 : LibCall E66 st58 11 64 (some 1) (some .int) [4, 2] :=
  ⟨3, 15, 3, "f", some 7, some 8, [6, 5], some 10, rfl, ident_conv (x := "f") rfl (by decide +kernel), rfl, rfl, rfl, .inr ⟨7, rfl, rfl⟩,
    ⟨by decide +kernel, by decide +kernel⟩, .inr ⟨10, rfl, rfl⟩, .type (c := .int) (e := none) rfl,
    .inr ⟨9, none, rfl, rfl, by decide⟩⟩

theorem args66 : HasArgs E66 st58 [4, 2] [.str [37, 100], .int .uchar 200] 0 := by
  intro s0 g w _
  have h4 : s0.nodes 4 = some (.str [37, 100]) := g.nodes _ _ rfl
  refine ⟨[4, 1], s0, .cons (Conv.evNode h4 (Conv.const rfl)) (.cons (ident_conv (x := "c") (g.nodes 2 _ rfl) ?_) .nil), .refl _,
    by omega, .cons h4 (.cons (holds58.grow g) .nil)⟩
  rw [g.resolveGlobal]
  decide +kernel

theorem returned66 : Returned .int [44, 1, 0, 0, 0, 0, 0, 0] 300 := ⟨by decide, by decide, 0, by decide⟩

/-- after `f("%d", c)` the value of the call is 300 -/
example : ∃ r s' fs mem, Evl E66 st58 (some 11) (some r) s' ∧ s'.events = [⟨64, fs, some 1⟩] ∧
    s'.mem.byte 4096 = (E66.extCall 64 fs mem).1.byte 4096 ∧ Holds s' r .int 300 := by
  obtain ⟨r, s', fs, mem, h1, h2, h3, h4⟩ := C66_effect_and_value E66 st58 11 64 (some 1) .int [4, 2] _ 0 (stOf_WF _ _ _) call66 args66
    (room58.mono (by decide)) (by decide) (.inl (by decide)) E66_sane fun _ _ => by simp [E66]
  exact ⟨r, s', fs, mem, h1, h2, (h3 4096 (by decide +kernel)).2, h4 _ returned66⟩

end Bic
