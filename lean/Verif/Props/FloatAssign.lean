import Verif.Props.PtrAssign
/-!
# C137: assignments to floating variables
-/

namespace Bic

/-- what stands on the right side of an assignment: an integer constant, a floating constant given by the bits of its `double`, or a variable
of an arithmetic type given by its type and bits -/
inductive Operand where
  | int (z : Int)
  | flt (b : Nat)
  | var (c : CT) (raw : Nat)

/-- the object `q` is this operand -/
inductive OperandAt (s : St) (q : TId) : Operand → Prop
  | int {z} : s.nodes q = some (.integer z) → -(2 ^ 63) ≤ z → z < 2 ^ 63 → OperandAt s q (.int z)
  | flt {b} : s.nodes q = some (.flt b) → OperandAt s q (.flt b)
  | var {τ c e a arr n} : s.nodes q = some (.lv (some τ) a arr n) → s.nodes τ = some (.ctype c e) → c.isInt = true ∨ c.isFp = true →
      s.mem.ok c.size a = true → OperandAt s q (.var c (s.mem.load c.size a))

/-- C: the bits of the operand converted to the floating type `dst` -/
def converted (E : Env) (dst : CT) : Operand → Nat
  | .int z => E.fpOfInt dst z
  | .flt b => if dst = .double then b else E.fpConv .double dst b
  | .var c raw => if c.isInt then E.fpOfInt dst (c.decode raw) else if c = dst then raw else E.fpConv c dst raw

/-- `t` is an assignment; its left side evaluates to the variable `x` of type `c` at `a`, then its right side to `q` -/
structure Assigns (E : Env) (s s2 : St) (t x q : TId) (c : CT) (a : Nat) : Prop where
  ev : ∃ l r s1, s.nodes t = some (.assign l r) ∧ Conv E (fun R => R.ev l) s (.ok (some x) s1) ∧ Conv E (fun R => R.ev r) s1 (.ok (some q) s2)
  lv : ∃ τ e arr n, s2.nodes x = some (.lv (some τ) a arr n) ∧ s2.nodes τ = some (.ctype c e)
  ok : s2.mem.ok c.size a = true

/-- `s'` is `s` with the bits `v` in the `n` bytes at `a` -/
structure Put (s s' : St) (n a v : Nat) : Prop where
  val : s'.mem.load n a = v % 256 ^ n
  other : ∀ b, b < a ∨ a + n ≤ b → s'.mem.byte b = s.mem.byte b
  nodes : s'.nodes = s.nodes
  ctxs : s'.ctxs = s.ctxs

/-- C137: an assignment to a variable of a floating type stores the value of the right side converted to that type, and changes nothing else. -/
def C137_statement : Prop :=
  ∀ (E : Env) (s s2 : St) (t x q : TId) (c : CT) (a : Nat) (v : Operand), Assigns E s s2 t x q c a → c.isFp = true → OperandAt s2 q v →
    ∃ s', Conv E (fun R => R.ev (some t)) s (.ok (some q) s') ∧ Put s2 s' c.size a (converted E c v)

theorem put_wr (s : St) (n a v : Nat) : Put s (wr s n a v) n a v where
  val := by rw [wr_mem, Mem.load_store]
  other b hb := by rw [wr_mem, Mem.store_byte_other _ _ _ _ _ hb]
  nodes := rfl
  ctxs := rfl

/-- the value `assign_float` reads -/
inductive FloatRead (E : Env) (s : St) (q : TId) : Nat → Prop
  | int {z} : s.nodes q = some (.integer z) → FloatRead E s q (E.fpOfInt .double (mpzGetSi z))
  | flt {b} : s.nodes q = some (.flt b) → FloatRead E s q b
  | var {ty a arr n} : s.nodes q = some (.lv ty a arr n) → s.mem.ok 8 a = true → FloatRead E s q (s.mem.load 8 a)

theorem assign_double {E : Env} {s s2 : St} {t x q : TId} {a v : Nat} (h : Assigns E s s2 t x q .double a) (hq : FloatRead E s2 q v) :
    Conv E (fun R => R.ev (some t)) s (.ok (some q) (wr s2 8 a v)) := by
  obtain ⟨l, r, s1, h1, h2, h3⟩ := h.ev
  obtain ⟨τ, e, arr, n, n1, n2⟩ := h.lv
  have hok : s2.mem.ok 8 a = true := h.ok
  refine Conv.evNode h1 (Conv.bind h2 (Conv.bind h3 (Conv.const ?_)))
  cases hq with
  | int hn => simp [node_apply n1, typeOf, nodeR, node_apply n2, CT.isInt, CT.isFloat, assignFloat, node_apply hn, lvFields, storeRaw_apply hok]
  | flt hn => simp [node_apply n1, typeOf, nodeR, node_apply n2, CT.isInt, CT.isFloat, assignFloat, node_apply hn, lvFields, storeRaw_apply hok]
  | var hn ho =>
    simp [node_apply n1, typeOf, nodeR, node_apply n2, CT.isInt, CT.isFloat, assignFloat, node_apply hn, lvFields, storeRaw_apply hok, loadRaw, ho]

theorem assign_single {E : Env} {s s2 : St} {t x q : TId} {a v : Nat} (h : Assigns E s s2 t x q .float a) (hq : FloatRead E s2 q v) :
    Conv E (fun R => R.ev (some t)) s (.ok (some q) (wr s2 4 a (E.fpConv .double .float v))) := by
  obtain ⟨l, r, s1, h1, h2, h3⟩ := h.ev
  obtain ⟨τ, e, arr, n, n1, n2⟩ := h.lv
  have hok : s2.mem.ok 4 a = true := h.ok
  refine Conv.evNode h1 (Conv.bind h2 (Conv.bind h3 (Conv.const ?_)))
  cases hq with
  | int hn => simp [node_apply n1, typeOf, nodeR, node_apply n2, CT.isInt, CT.isFloat, assignFloat, node_apply hn, lvFields, storeRaw_apply hok]
  | flt hn => simp [node_apply n1, typeOf, nodeR, node_apply n2, CT.isInt, CT.isFloat, assignFloat, node_apply hn, lvFields, storeRaw_apply hok]
  | var hn ho =>
    simp [node_apply n1, typeOf, nodeR, node_apply n2, CT.isInt, CT.isFloat, assignFloat, node_apply hn, lvFields, storeRaw_apply hok, loadRaw, ho]

/-- operands that are converted correctly: constants and variables of type `double`; an integer constant assigned to a `float` only where
rounding it to `double` first makes no difference -/
def GoodOperand (E : Env) (dst : CT) : Operand → Prop
  | .int z => dst = .float → E.fpConv .double .float (E.fpOfInt .double z) = E.fpOfInt .float z
  | .flt _ => True
  | .var c _ => c = .double

/-- C137 for `float` and `double`, with constants and variables of type `double`. Missing are variables of other types (`C137_variable`) and
`long double` (`C137_long_double`). -/
theorem C137_partial (E : Env) (s s2 : St) (t x q : TId) (c : CT) (a : Nat) (v : Operand) (h : Assigns E s s2 t x q c a)
    (hc : c = .float ∨ c = .double) (hq : OperandAt s2 q v) (hv : GoodOperand E c v) :
    ∃ s', Conv E (fun R => R.ev (some t)) s (.ok (some q) s') ∧ Put s2 s' c.size a (converted E c v) := by
  have key : ∃ w, FloatRead E s2 q w ∧ converted E c v = if c = .double then w else E.fpConv .double .float w := by
    cases hq with
    | @int z hn h1 h2 =>
      refine ⟨_, .int hn, ?_⟩
      rw [mpzGetSi_eq h1 h2]
      rcases hc with rfl | rfl
      · exact (hv rfl).symm
      · rfl
    | @flt b hn =>
      refine ⟨_, .flt hn, ?_⟩
      rcases hc with rfl | rfl <;> rfl
    | @var τ c' e a' arr n n1 n2 h1 h2 =>
      have hv : c' = .double := hv
      rw [hv] at h1 h2 ⊢
      refine ⟨_, .var n1 h2, ?_⟩
      rcases hc with rfl | rfl <;> rfl
  obtain ⟨w, h1, h2⟩ := key
  rw [h2]
  rcases hc with rfl | rfl
  · exact ⟨_, assign_single h h1, put_wr _ _ _ _⟩
  · exact ⟨_, assign_double h h1, put_wr _ _ _ _⟩

/-- C137, what happens with variables of any type: the 8 bytes at the address of the variable are taken for a `double`. -/
theorem C137_variable (E : Env) (s s2 : St) (t x q : TId) (c : CT) (a a' : Nat) (ty : Ref) (arr : Bool) (n : Nat) (h : Assigns E s s2 t x q c a)
    (hc : c = .float ∨ c = .double) (hq : s2.nodes q = some (.lv ty a' arr n)) (ho : s2.mem.ok 8 a' = true) :
    ∃ s', Conv E (fun R => R.ev (some t)) s (.ok (some q) s') ∧
      Put s2 s' c.size a (if c = .double then s2.mem.load 8 a' else E.fpConv .double .float (s2.mem.load 8 a')) := by
  rcases hc with rfl | rfl
  · exact ⟨_, assign_single h (.var hq ho), put_wr _ _ _ _⟩
  · exact ⟨_, assign_double h (.var hq ho), put_wr _ _ _ _⟩

/-- C137, `long double`: every assignment to such a variable is given up with an error. -/
theorem C137_long_double (E : Env) (s s2 : St) (t x q : TId) (a : Nat) (h : Assigns E s s2 t x q .longdouble a) :
    Conv E (fun R => R.ev (some t)) s (.stop (.die "Unknown assignment rvalue type.") s2) := by
  obtain ⟨l, r, s1, h1, h2, h3⟩ := h.ev
  obtain ⟨τ, e, arr, n, n1, n2⟩ := h.lv
  refine Conv.evNode h1 (Conv.bind h2 (Conv.bind h3 (Conv.const ?_)))
  simp [node_apply n1, typeOf, nodeR, node_apply n2, CT.isInt, CT.isFloat, die, stop]

/-- C137, the other direction: every assignment of a floating constant to a variable of an integer type is given up with an error. -/
theorem C137_to_integer (E : Env) (s s2 : St) (t x q : TId) (c : CT) (a b : Nat) (h : Assigns E s s2 t x q c a) (hc : c.isInt = true)
    (hq : s2.nodes q = some (.flt b)) : Conv E (fun R => R.ev (some t)) s (.stop (.die "unknown rvalue assignment to integer.") s2) := by
  obtain ⟨l, r, s1, h1, h2, h3⟩ := h.ev
  obtain ⟨τ, e, arr, n, n1, n2⟩ := h.lv
  refine Conv.evNode h1 (Conv.bind h2 (Conv.bind h3 (Conv.const ?_)))
  simp [node_apply n1, typeOf, nodeR, node_apply n2, hc, assignInteger, node_apply hq, die, stop]

/-- a world where the `double` of 5 is as in IEEE 754 -/
def E5 : Env := { E0 with fpOfInt := fun c v => if c = .double ∧ v = 5 then 0x4014000000000000 else 0 }

/-- `double d` at 4096 and `int i` at 4104 with the value 5; `d = i` (6), `d = 5` (8), `d = 5.0` (10), `i = 5.0` (11), `long double e` at 4112 -/
def stFloat : St :=
  stOf [.ctype .double none, .ctype .int none, .lv (some 0) 4096 false 0, .lv (some 1) 4104 false 0, .ident "d", .ident "i",
        .assign (some 4) (some 5), .integer 5, .assign (some 4) (some 7), .flt 0x4014000000000000, .assign (some 4) (some 9),
        .assign (some 5) (some 9), .ctype .longdouble none, .lv (some 12) 4112 false 0, .ident "e", .assign (some 14) (some 9)]
    [⟨"d", 4, some 2⟩, ⟨"i", 5, some 3⟩, ⟨"e", 14, some 13⟩] [0, 0, 0, 0, 0, 0, 0, 0, 5, 0, 0, 0, 0, 0, 0, 0, 0, 0, 0, 0, 0, 0, 0, 0, 0, 0, 0, 0, 0, 0, 0, 0]

theorem stFloat_assigns {t r q : TId} (ht : stFloat.nodes t = some (.assign (some 4) (some r)))
    (hr : Conv E5 (fun R => R.ev (some r)) stFloat (.ok (some q) stFloat)) : Assigns E5 stFloat stFloat t 2 q .double 4096 :=
  ⟨⟨_, _, stFloat, ht, ident_conv rfl rfl, hr⟩, ⟨0, none, false, 0, rfl, rfl⟩, by decide +kernel⟩

/-- C137 in full is false: `int i = 5; d = i` makes `d` the number with the bits 5. -/
theorem C137_refuted : ¬ C137_statement := by
  intro h
  have ha : Assigns E5 stFloat stFloat 6 2 3 .double 4096 := stFloat_assigns rfl (ident_conv rfl rfl)
  obtain ⟨s', h1, h2⟩ := h E5 stFloat stFloat 6 2 3 .double 4096 _ ha rfl
    (.var (q := 3) (τ := 1) (c := .int) (a := 4104) rfl rfl (.inl rfl) (by decide +kernel))
  obtain ⟨s'', h3, h4⟩ := C137_variable E5 stFloat stFloat 6 2 3 .double 4096 4104 _ _ _ ha (.inr rfl) rfl (by decide +kernel)
  have h5 := h1.unique h3
  injection h5 with _ h5
  have e1 := h2.val
  rw [h5, h4.val] at e1
  exact absurd e1 (by decide +kernel)

/-- `d = 5` -/
example : ∃ s', Conv E5 (fun R => R.ev (some 8)) stFloat (.ok (some 7) s') ∧ Put stFloat s' 8 4096 0x4014000000000000 :=
  C137_partial E5 stFloat stFloat 8 2 7 .double 4096 (.int 5) (stFloat_assigns rfl (Conv.evNode rfl (Conv.pure _))) (.inr rfl)
    (.int rfl (by decide) (by decide)) nofun

/-- `d = 5.0` -/
example : ∃ s', Conv E5 (fun R => R.ev (some 10)) stFloat (.ok (some 9) s') ∧ Put stFloat s' 8 4096 0x4014000000000000 :=
  C137_partial E5 stFloat stFloat 10 2 9 .double 4096 (.flt _) (stFloat_assigns rfl (Conv.evNode rfl (Conv.pure _))) (.inr rfl) (.flt rfl) trivial

/-- `i = 5.0` -/
example : Conv E5 (fun R => R.ev (some 11)) stFloat (.stop (.die "unknown rvalue assignment to integer.") stFloat) :=
  C137_to_integer E5 stFloat stFloat 11 3 9 .int 4104 _
    ⟨⟨_, _, stFloat, rfl, ident_conv rfl rfl, Conv.evNode (nd := .flt 0x4014000000000000) rfl (Conv.pure _)⟩, ⟨1, none, false, 0, rfl, rfl⟩, by decide +kernel⟩ rfl rfl

/-- `e = 5.0` -/
example : Conv E5 (fun R => R.ev (some 15)) stFloat (.stop (.die "Unknown assignment rvalue type.") stFloat) :=
  C137_long_double E5 stFloat stFloat 15 13 9 4112
    ⟨⟨_, _, stFloat, rfl, ident_conv rfl rfl, Conv.evNode (nd := .flt 0x4014000000000000) rfl (Conv.pure _)⟩, ⟨12, none, false, 0, rfl, rfl⟩, by decide +kernel⟩

end Bic
