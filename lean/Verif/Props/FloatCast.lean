import Verif.Props.FloatAssign
/-!
# C139: casts from and to floating types
-/

namespace Bic

/-- C: the bits of the operand converted to the arithmetic type `dst`; `none` where the conversion is undefined -/
def convertedTo (E : Env) (dst : CT) (v : Operand) : Option Nat :=
  if dst.isFp then some (converted E dst v)
  else match v with
    | .int z => some (dst.encode z)
    | .flt b => (E.fpToInt .double b dst).map dst.encode
    | .var c raw => if c.isInt then some (dst.encode (c.decode raw)) else (E.fpToInt c raw dst).map dst.encode

/-- converting a floating value to its own type leaves it as it is -/
def SameConv (E : Env) : Prop := ∀ (c : CT) (raw : Nat), E.fpConv c c raw = raw

/-- `t` is a cast; its operand evaluates to `q`, then its type to the arithmetic type `σ`, which is `c`; there is memory for one more variable -/
structure CastsTo (E : Env) (s s2 : St) (t q σ : TId) (c : CT) : Prop where
  ev : ∃ ty e s1, s.nodes t = some (.cast ty e) ∧ Conv E (fun R => R.ev e) s (.ok (some q) s1) ∧ Conv E (fun R => R.ev ty) s1 (.ok (some σ) s2)
  ty : ∃ el, s2.nodes σ = some (.ctype c el)
  arith : c.isInt = true ∨ c.isFp = true
  wf : WF s2
  room : Room s2 1

/-- `r` is a new variable of type `σ` with the `n` bytes `w`, and nothing that existed in `s` is changed in `s'` -/
structure MakesVar (s s' : St) (r σ : TId) (n w : Nat) : Prop where
  val : ∃ b, s'.nodes r = some (.lv (some σ) b false 0) ∧ s'.mem.ok n b = true ∧ s'.mem.load n b = w % 256 ^ n
  new : s.nodes r = none
  grow : Grow s s'

/-- C139: a cast to an arithmetic type makes a new variable of that type with the converted value. -/
def C139_statement : Prop :=
  ∀ (E : Env) (s s2 : St) (t q σ : TId) (c : CT) (v : Operand) (w : Nat), SameConv E → CastsTo E s s2 t q σ c → OperandAt s2 q v →
    convertedTo E c v = some w → ∃ r s', Conv E (fun R => R.ev (some t)) s (.ok (some r) s') ∧ MakesVar s2 s' r σ c.size w

theorem makes_newVar {s : St} {σ : TId} {n v : Nat} (w : WF s) (h : Room s 1) (hn : n ≤ 16) :
    MakesVar s (wr (newVar s (some σ)) n s.mem.brk v) s.next σ n v where
  val := ⟨s.mem.brk, newVar_self s _, by
    rw [wr_mem]; exact (Mem.ok_iff ..).mpr (fun x h1 h2 => by rw [Mem.store_live]; exact (Mem.ok_iff ..).mp (newVar_ok hn) x h1 h2),
    by rw [wr_mem, Mem.load_store]⟩
  new := w _ (Nat.le_refl _)
  grow := (newVar_grow w _).wr _ _ _ h.fresh

theorem cast_variable {E : Env} {s s2 : St} {t q σ τ : TId} {c d : CT} {a n : Nat} {arr : Bool} {el : Ref} (h : CastsTo E s s2 t q σ c)
    (hq : s2.nodes q = some (.lv (some τ) a arr n)) (hτ : s2.nodes τ = some (.ctype d el)) (ho : s2.mem.ok d.size a = true) {x : Nat}
    (hx : castVal E d c (s2.mem.load d.size a) = some (some x)) :
    Conv E (fun R => R.ev (some t)) s (.ok (some s2.next) (wr (newVar s2 (some σ)) c.size s2.mem.brk x)) := by
  obtain ⟨ty, e, s1, h1, h2, h3⟩ := h.ev
  obtain ⟨el', hσ⟩ := h.ty
  refine Conv.evNode h1 (Conv.bind h2 (Conv.bind h3 (Conv.const ?_)))
  simp [node_apply hq, peek_apply hτ, peek_apply hσ, loadRaw, ho, hx, makeLiveVar_apply _ h.room, lvFields,
    node_apply (newVar_self s2 _), storeRaw_apply (newVar_ok (ty := some σ) c.size_le)]

theorem cast_integer {E : Env} {s s2 : St} {t q σ : TId} {c : CT} {z : Int} (h : CastsTo E s s2 t q σ c) (hq : s2.nodes q = some (.integer z)) :
    Conv E (fun R => R.ev (some t)) s (.ok (some s2.next) (wr (newVar s2 (some σ)) c.size s2.mem.brk
      (if c.isFp then E.fpOfInt c (mpzGetSi z) else c.encode (mpzGetSi z)))) := by
  obtain ⟨ty, e, s1, h1, h2, h3⟩ := h.ev
  obtain ⟨el', hσ⟩ := h.ty
  have hq' := (newVar_grow h.wf (some σ)).nodes _ _ hq
  have hσ' := (newVar_grow h.wf (some σ)).nodes _ _ hσ
  refine Conv.evNode h1 (Conv.bind h2 (Conv.bind h3 (Conv.const ?_)))
  by_cases hc : c.isFp = true <;>
  simp [node_apply hq, makeLiveVar_apply _ h.room, assignInteger, nodeR, node_apply hq', lvFields, node_apply (newVar_self s2 _), typeOf,
    node_apply hσ', storeLong, hc, storeRaw_apply (newVar_ok (ty := some σ) c.size_le)]

theorem cast_float {E : Env} {s s2 : St} {t q σ : TId} {c : CT} {b : Nat} (h : CastsTo E s s2 t q σ c) (hq : s2.nodes q = some (.flt b))
    (hc : c = .float ∨ c = .double) :
    Conv E (fun R => R.ev (some t)) s (.ok (some s2.next) (wr (newVar s2 (some σ)) c.size s2.mem.brk
      (if c = .double then b else E.fpConv .double c b))) := by
  obtain ⟨ty, e, s1, h1, h2, h3⟩ := h.ev
  obtain ⟨el', hσ⟩ := h.ty
  have hq' := (newVar_grow h.wf (some σ)).nodes _ _ hq
  have hσ' := (newVar_grow h.wf (some σ)).nodes _ _ hσ
  refine Conv.evNode h1 (Conv.bind h2 (Conv.bind h3 (Conv.const ?_)))
  rcases hc with rfl | rfl
  · simp [node_apply hq, makeLiveVar_apply _ h.room, assignFloat, nodeR, node_apply hq', lvFields, node_apply (newVar_self s2 _), typeOf,
      node_apply hσ', storeRaw_apply (newVar_ok (n := 4) (s := s2) (ty := some σ) (by decide)), CT.size]
  · simp [node_apply hq, makeLiveVar_apply _ h.room, assignFloat, nodeR, node_apply hq', lvFields, node_apply (newVar_self s2 _), typeOf,
      node_apply hσ', storeRaw_apply (newVar_ok (n := 8) (s := s2) (ty := some σ) (by decide)), CT.size]

theorem isInt_notFp {c : CT} (h : c.isInt = true) : c.isFp = false := by cases c <;> simp [CT.isInt] at h <;> rfl
theorem isFp_notInt {c : CT} (h : c.isFp = true) : c.isInt = false := by cases c <;> simp [CT.isFp] at h <;> rfl

/-- C139 for variables, integer constants, and floating constants cast to `float` and `double`. Missing are floating constants cast to other
types (`C139_constant`). -/
theorem C139_partial (E : Env) (s s2 : St) (t q σ : TId) (c : CT) (v : Operand) (w : Nat) (hE : SameConv E) (h : CastsTo E s s2 t q σ c)
    (hq : OperandAt s2 q v) (hw : convertedTo E c v = some w) (hv : (∃ b, v = .flt b) → c = .float ∨ c = .double) :
    ∃ r s', Conv E (fun R => R.ev (some t)) s (.ok (some r) s') ∧ MakesVar s2 s' r σ c.size w := by
  cases hq with
  | @int z hn h1 h2 =>
    refine ⟨_, _, cast_integer h hn, ?_⟩
    have : (if c.isFp then E.fpOfInt c (mpzGetSi z) else c.encode (mpzGetSi z)) = w := by
      rw [mpzGetSi_eq h1 h2]
      by_cases hc : c.isFp = true <;> simpa [convertedTo, converted, hc] using hw
    rw [this]
    exact makes_newVar h.wf h.room c.size_le
  | @flt b hn =>
    have hc := hv ⟨b, rfl⟩
    refine ⟨_, _, cast_float h hn hc, ?_⟩
    have : (if c = .double then b else E.fpConv .double c b) = w := by
      rcases hc with rfl | rfl <;> simpa [convertedTo, converted, CT.isFp] using hw
    rw [this]
    exact makes_newVar h.wf h.room c.size_le
  | @var τ d e a arr n n1 n2 hd ho =>
    refine ⟨_, _, cast_variable h n1 n2 ho (x := w) ?_, makes_newVar h.wf h.room c.size_le⟩
    rcases h.arith with hc | hc
    · have hc' := isInt_notFp hc
      rcases hd with hd | hd
      · simpa [castVal, hd, hc', convertedTo] using hw
      · have hd' := isFp_notInt hd
        simp only [convertedTo, hc', hd', Bool.false_eq_true, if_false] at hw
        simp [castVal, hd', hd, hc, hw]
    · have hc' := isFp_notInt hc
      rcases hd with hd | hd
      · simpa [castVal, hd, hc, convertedTo, converted] using hw
      · have hd' := isFp_notInt hd
        simp only [convertedTo, hc, converted, hd', Bool.false_eq_true, if_false, if_true] at hw
        by_cases he : d = c
        · subst he
          simp only [if_true] at hw
          simp only [castVal, hd', hd, Bool.false_eq_true, if_false, if_true, hE d, hw]
        · simp only [he, if_false] at hw
          simp [castVal, hd', hd, hc, hc', hw]

/-- C139, what happens with floating constants cast to an integer type or `long double`: the cast is given up with an error. -/
theorem C139_constant (E : Env) (s s2 : St) (t q σ : TId) (c : CT) (b : Nat) (h : CastsTo E s s2 t q σ c) (hq : s2.nodes q = some (.flt b))
    (hc : c ≠ .float ∧ c ≠ .double) : ∃ s', Conv E (fun R => R.ev (some t)) s (.stop (.die "could not assign to non-float type") s') := by
  obtain ⟨ty, e, s1, h1, h2, h3⟩ := h.ev
  obtain ⟨el', hσ⟩ := h.ty
  have hq' := (newVar_grow h.wf (some σ)).nodes _ _ hq
  have hσ' := (newVar_grow h.wf (some σ)).nodes _ _ hσ
  refine ⟨newVar s2 (some σ), Conv.evNode h1 (Conv.bind h2 (Conv.bind h3 (Conv.const ?_)))⟩
  simp only [bind_apply, node_apply hq, makeLiveVar_apply _ h.room, assignFloat, nodeR, node_apply hq', lvFields, node_apply (newVar_self s2 _), typeOf,
    node_apply hσ', pure_apply]
  cases c <;> simp_all [die, stop]

/-- C139, values that do not fit: casting a floating variable to an integer type is undefined exactly where C says so. -/
theorem C139_range (E : Env) (s s2 : St) (t q σ τ : TId) (c d : CT) (a n : Nat) (arr : Bool) (el : Ref) (h : CastsTo E s s2 t q σ c)
    (hq : s2.nodes q = some (.lv (some τ) a arr n)) (hτ : s2.nodes τ = some (.ctype d el)) (hd : d.isFp = true) (ho : s2.mem.ok d.size a = true)
    (hE : SameConv E) :
    Conv E (fun R => R.ev (some t)) s (.stop (.ub "floating value out of range") s2) ↔ convertedTo E c (.var d (s2.mem.load d.size a)) = none := by
  have hd' := isFp_notInt hd
  constructor
  · intro hub
    cases hw : convertedTo E c (.var d (s2.mem.load d.size a)) with
    | none => rfl
    | some w =>
      obtain ⟨r, s', h1, _⟩ := C139_partial E s s2 t q σ c _ w hE h (.var hq hτ (.inr hd) ho) hw (fun ⟨_, h⟩ => nomatch h)
      exact nomatch h1.unique hub
  · intro hw
    have hc : c.isInt = true := h.arith.resolve_right fun hc => by simp [convertedTo, hc] at hw
    simp only [convertedTo, isInt_notFp hc, hd', Bool.false_eq_true, if_false] at hw
    obtain ⟨ty, e, s1, h1, h2, h3⟩ := h.ev
    obtain ⟨el', hσ⟩ := h.ty
    refine Conv.evNode h1 (Conv.bind h2 (Conv.bind h3 (Conv.const ?_)))
    simp [node_apply hq, peek_apply hτ, peek_apply hσ, loadRaw, ho, castVal, hd', hd, hc, hw, ub, stop]

/-- a world where floating values are converted to their own types without change, and the `double` 5.0 to the integer 5 -/
def E6 : Env := { E5 with fpConv := fun _ _ b => b, fpToInt := fun _ b _ => if b = 0x4014000000000000 then some 5 else none }

theorem E6_same : SameConv E6 := fun _ _ => rfl

/-- `double d = 5.0`, `int i`; `(int)d` (3), `(int)5.0` (6), `(double)5` (8) -/
def stFloatCast : St :=
  stOf [.ctype .double none, .lv (some 0) 4096 false 0, .ident "d", .cast (some 4) (some 2), .ctype .int none, .flt 0x4014000000000000,
        .cast (some 4) (some 5), .integer 5, .cast (some 0) (some 7), .lv (some 0) 4104 false 0, .ident "h", .cast (some 4) (some 10)]
    [⟨"d", 2, some 1⟩, ⟨"h", 10, some 9⟩] [0, 0, 0, 0, 0, 0, 0x14, 0x40, 0, 0, 0, 0, 0, 0, 0xf0, 0x7f]

theorem stFloatCast_to {t q σ e : TId} {c : CT} (ht : stFloatCast.nodes t = some (.cast (some σ) (some e)))
    (he : Conv E6 (fun R => R.ev (some e)) stFloatCast (.ok (some q) stFloatCast)) (hσ : stFloatCast.nodes σ = some (.ctype c none))
    (hc : c.isInt = true ∨ c.isFp = true) : CastsTo E6 stFloatCast stFloatCast t q σ c :=
  ⟨⟨_, _, _, ht, he, Conv.evNode hσ (Conv.pure _)⟩, ⟨_, hσ⟩, hc, stOf_WF _ _ _, ⟨by decide +kernel, by simp [stFloatCast, stOf], memOf_livelt _⟩⟩

/-- C139 in full is false: `(int)5.0` is given up. -/
theorem C139_refuted : ¬ C139_statement := by
  intro h
  have hc : CastsTo E6 stFloatCast stFloatCast 6 5 4 .int := stFloatCast_to rfl (Conv.evNode (nd := .flt 0x4014000000000000) rfl (Conv.pure _)) rfl (.inl rfl)
  obtain ⟨r, s', h1, _⟩ := h E6 _ _ _ _ _ _ _ _ E6_same hc (.flt rfl) rfl
  obtain ⟨s'', h2⟩ := C139_constant E6 _ _ _ _ _ _ _ hc rfl ⟨nofun, nofun⟩
  exact nomatch h1.unique h2

/-- `(int)d` is 5 -/
example : ∃ r s', Conv E6 (fun R => R.ev (some 3)) stFloatCast (.ok (some r) s') ∧ MakesVar stFloatCast s' r 4 4 5 :=
  C139_partial E6 _ _ _ 1 _ .int _ 5 E6_same (stFloatCast_to rfl (ident_conv rfl rfl) rfl (.inl rfl))
    (.var (τ := 0) (c := .double) (a := 4096) rfl rfl (.inr rfl) (by decide +kernel)) (by decide +kernel) nofun

/-- `(double)5` is 5.0 -/
example : ∃ r s', Conv E6 (fun R => R.ev (some 8)) stFloatCast (.ok (some r) s') ∧ MakesVar stFloatCast s' r 0 8 0x4014000000000000 :=
  C139_partial E6 _ _ _ 7 _ .double (.int 5) _ E6_same (stFloatCast_to rfl (Conv.evNode (nd := .integer 5) rfl (Conv.pure _)) rfl (.inr rfl))
    (.int rfl (by decide) (by decide)) rfl nofun

/-- `(int)h`, where `h` is infinite -/
example : Conv E6 (fun R => R.ev (some 11)) stFloatCast (.stop (.ub "floating value out of range") stFloatCast) :=
  (C139_range E6 _ _ _ 9 _ 0 .int .double 4104 _ _ _ (stFloatCast_to rfl (ident_conv rfl rfl) rfl (.inl rfl)) rfl rfl rfl (by decide +kernel)
    E6_same).mpr (by decide +kernel)

end Bic
