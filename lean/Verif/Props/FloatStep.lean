import Verif.Props.FloatAssign
/-!
# C140: `++` and `--` on floating variables
-/

namespace Bic

/-- the tree steps its operand `e` by `d`, after its value is taken (`post`) or before -/
inductive StepNode : Node → Bool → Int → Ref → Prop
  | pInc {e} : StepNode (.pInc e) true 1 e
  | pDec {e} : StepNode (.pDec e) true (-1) e
  | inc {e} : StepNode (.inc e) false 1 e
  | dec {e} : StepNode (.dec e) false (-1) e

/-- `t` is a step; its operand evaluates to the variable `x` of the floating type `c` at `a` -/
structure StepsFloat (E : Env) (s s1 : St) (t : TId) (post : Bool) (d : Int) (c : CT) (a : Nat) : Prop where
  ev : ∃ nd e x, s.nodes t = some nd ∧ StepNode nd post d e ∧ Conv E (fun R => R.ev e) s (.ok (some x) s1) ∧
    ∃ τ el arr n, s1.nodes x = some (.lv (some τ) a arr n) ∧ s1.nodes τ = some (.ctype c el)
  fp : c.isFp = true
  ok : s1.mem.ok c.size a = true

/-- C140: `x++`, `x--`, `++x` and `--x` on a variable of a floating type have a value, and change the variable by one. -/
def C140_statement : Prop :=
  ∀ (E : Env) (s s1 : St) (t : TId) (post : Bool) (d : Int) (c : CT) (a : Nat), StepsFloat E s s1 t post d c a →
    ∃ v s', Conv E (fun R => R.ev (some t)) s (.ok v s') ∧ s'.mem.load c.size a = E.fpAdd c (s1.mem.load c.size a) d % 256 ^ c.size

theorem isFp_notInteger {c : CT} (h : c.isFp = true) : c.isInt = false ∧ c ≠ .ptr := by cases c <;> simp [CT.isFp] at h <;> decide

theorem floatLvalue {E : Env} {s s1 : St} {e : Ref} {x : TId} {ty : Ref} {a n : Nat} {arr : Bool} (h : Conv E (fun R => R.ev e) s (.ok (some x) s1))
    (hx : s1.nodes x = some (.lv ty a arr n)) : Conv E (fun R => evalLvalue R e) s (.ok x s1) := by
  refine Conv.bind h (Conv.const ?_)
  simp [node_apply hx]

theorem float_noInt {s : St} {x τ : TId} {el : Ref} {c : CT} {a n : Nat} {arr : Bool} (hc : c.isFp = true)
    (hx : s.nodes x = some (.lv (some τ) a arr n)) (hτ : s.nodes τ = some (.ctype c el)) :
    makeIntFromLV x s = .stop (.die "Could not create integer type from live var.") s := by
  simp [makeIntFromLV, lvFields, node_apply hx, typeOf, nodeR, node_apply hτ, isFp_notInteger hc, die, stop]

theorem float_add {E : Env} {s : St} {x τ : TId} {el : Ref} {c : CT} {a n : Nat} {arr : Bool} {d : Int} (hc : c.isFp = true)
    (hx : s.nodes x = some (.lv (some τ) a arr n)) (hτ : s.nodes τ = some (.ctype c el)) (ho : s.mem.ok c.size a = true) :
    liveVarAdd E x d s = .ok () (wr s c.size a (E.fpAdd c (s.mem.load c.size a) d)) := by
  simp [liveVarAdd, lvFields, node_apply hx, typeOf, nodeR, node_apply hτ, hc, loadRaw, ho, storeRaw_apply ho]

/-- C140, `x++` and `x--`: every such step is given up with an error, and nothing is changed. -/
theorem C140_post (E : Env) (s s1 : St) (t : TId) (d : Int) (c : CT) (a : Nat) (h : StepsFloat E s s1 t true d c a) :
    Conv E (fun R => R.ev (some t)) s (.stop (.die "Could not create integer type from live var.") s1) := by
  obtain ⟨nd, e, x, h1, h2, h3, τ, el, arr, n, h4, h5⟩ := h.ev
  have key : ∀ d, Conv E (fun R => evalPost E R d e) s (.stop (.die "Could not create integer type from live var.") s1) := fun d =>
    Conv.bind (floatLvalue h3 h4) (Conv.const (by rw [bind_apply, float_noInt h.fp h4 h5]))
  cases h2 <;> exact Conv.evNode h1 (key _)

/-- C140, `++x` and `--x`: the variable is changed by one, and nothing else, and then every such step is given up with an error: the part of
the statement about the variable holds, that about the value does not. -/
theorem C140_pre (E : Env) (s s1 : St) (t : TId) (d : Int) (c : CT) (a : Nat) (h : StepsFloat E s s1 t false d c a) :
    ∃ s', Conv E (fun R => R.ev (some t)) s (.stop (.die "Could not create integer type from live var.") s') ∧
      Put s1 s' c.size a (E.fpAdd c (s1.mem.load c.size a) d) := by
  obtain ⟨nd, e, x, h1, h2, h3, τ, el, arr, n, h4, h5⟩ := h.ev
  have key : ∀ d, Conv E (fun R => evalPre E R d e) s (.stop (.die "Could not create integer type from live var.")
      (wr s1 c.size a (E.fpAdd c (s1.mem.load c.size a) d))) := fun d =>
    Conv.bind (floatLvalue h3 h4) (Conv.const (by
      rw [bind_apply, float_add h.fp h4 h5 h.ok]
      exact float_noInt (s := wr s1 _ _ _) h.fp h4 h5))
  refine ⟨_, ?_, put_wr _ _ _ _⟩
  cases h2 <;> exact Conv.evNode h1 (key _)

/-- C140: no step of a floating variable ends normally. -/
theorem C140_never (E : Env) (s s1 : St) (t : TId) (post : Bool) (d : Int) (c : CT) (a : Nat) (h : StepsFloat E s s1 t post d c a) (v : Ref) (s' : St) :
    ¬ Conv E (fun R => R.ev (some t)) s (.ok v s') := by
  intro hk
  cases post with
  | true => exact nomatch hk.unique (C140_post E s s1 t d c a h)
  | false =>
    obtain ⟨s'', h1, _⟩ := C140_pre E s s1 t d c a h
    exact nomatch hk.unique h1

/-- a world where 5.0 + 1 is 6.0 -/
def E7 : Env := { E5 with fpAdd := fun _ b d => if b = 0x4014000000000000 ∧ d = 1 then 0x4018000000000000 else 0 }

/-- `double d = 5.0`; `d++` (3), `++d` (4) -/
def stFloatStep : St :=
  stOf [.ctype .double none, .lv (some 0) 4096 false 0, .ident "d", .pInc (some 2), .inc (some 2)]
    [⟨"d", 2, some 1⟩] [0, 0, 0, 0, 0, 0, 0x14, 0x40]

theorem stFloatStep_post : StepsFloat E7 stFloatStep stFloatStep 3 true 1 .double 4096 :=
  ⟨⟨_, _, 1, rfl, .pInc, ident_conv rfl rfl, 0, none, false, 0, rfl, rfl⟩, rfl, by decide +kernel⟩

theorem stFloatStep_pre : StepsFloat E7 stFloatStep stFloatStep 4 false 1 .double 4096 :=
  ⟨⟨_, _, 1, rfl, .inc, ident_conv rfl rfl, 0, none, false, 0, rfl, rfl⟩, rfl, by decide +kernel⟩

/-- C140 is false: `d++` is given up. -/
theorem C140_refuted : ¬ C140_statement := by
  intro h
  obtain ⟨v, s', h1, _⟩ := h _ _ _ _ _ _ _ _ stFloatStep_post
  exact C140_never _ _ _ _ _ _ _ _ stFloatStep_post v s' h1

/-- `d++` -/
example : Conv E7 (fun R => R.ev (some 3)) stFloatStep (.stop (.die "Could not create integer type from live var.") stFloatStep) :=
  C140_post _ _ _ _ _ _ _ stFloatStep_post

/-- `++d` makes `d` 6.0 -/
example : ∃ s', Conv E7 (fun R => R.ev (some 4)) stFloatStep (.stop (.die "Could not create integer type from live var.") s') ∧
    Put stFloatStep s' 8 4096 0x4018000000000000 := by
  obtain ⟨s', h1, h2⟩ := C140_pre _ _ _ _ _ _ _ stFloatStep_pre
  exact ⟨s', h1, h2⟩

end Bic
