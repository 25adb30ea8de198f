import Verif.Proofs.Pointers
import Verif.Proofs.Calls
import Mathlib.Data.List.Forall2
/-!
# Calls of library functions
-/

namespace Bic
open Spec

/-- an argument of a call: an object or a constant of an integer or pointer type, a constant of any
size, a floating point number (by its bits), a string -/
inductive Arg where
  | int (c : CT) (v : Int)
  | const (z : Int)
  | fp (c : CT) (bits : Nat)
  | str (bs : List Byte)
deriving DecidableEq, Repr

/-- the object `r` is that argument -/
def ArgAt (s : St) (r : TId) : Arg → Prop
  | .int c v => Holds s r c v
  | .const z => s.nodes r = some (.integer z)
  | .fp c bits => (s.nodes r = some (.flt bits) ∧ c = .double) ∨
      ∃ τ a arr sz e, s.nodes r = some (.lv (some τ) a arr sz) ∧ s.nodes τ = some (.ctype c e) ∧ c.isFp = true ∧
        s.mem.ok c.size a = true ∧ s.mem.load c.size a = bits
  | .str bs => s.nodes r = some (.str bs)

theorem ArgAt.grow {s s' : St} {r : TId} {a : Arg} (h : ArgAt s r a) (g : Grow s s') : ArgAt s' r a := by
  cases a with
  | int c v => exact Holds.grow h g
  | const z => exact g.nodes _ _ h
  | str bs => exact g.nodes _ _ h
  | fp c bits =>
    rcases h with ⟨h, hc⟩ | ⟨τ, a, arr, sz, e, h1, h2, h3, h4, h5⟩
    · exact .inl ⟨g.nodes _ _ h, hc⟩
    · exact .inr ⟨τ, a, arr, sz, e, g.nodes _ _ h1, g.nodes _ _ h2, h3, g.ok h4, by rw [g.load h4]; exact h5⟩

/-- what `push_arg` makes of it -/
def pass (E : Env) (var : Bool) : Arg → FfiArg
  | .int c v =>
    match c, var with
    | .char, true | .short, true => .int .int (CT.ulong.encode v)
    | .uchar, true | .ushort, true => .int .uint (CT.ulong.encode v)
    | c, _ => .int c (CT.ulong.encode v)
  | .const z => .int .int (CT.ulong.encode (CT.int.decode (CT.int.encode (mpzGetSi z))))
  | .fp .float b => if var then .fp .double (E.fpConv .float .double b) else .fp .float b
  | .fp c b => .fp c b
  | .str bs => .str bs

theorem inRange_sub {c d : CT} {v : Int} (h : InRange c v) (hl : lo d ≤ lo c) (hh : hi c ≤ hi d) : InRange d v :=
  ⟨Int.le_trans hl h.1, Int.lt_of_lt_of_le h.2 hh⟩

theorem marshalArg_apply {E : Env} {s : St} {r : TId} {a : Arg} (var : Bool) (h : ArgAt s r a) :
    marshalArg E (some r) var s = .ok (pass E var a) s := by
  cases a with
  | int c v =>
    have hr := Holds.inRange h
    obtain ⟨τ, ad, hl, rfl⟩ := h
    obtain ⟨arr, sz, hlv⟩ := hl.lv
    obtain ⟨e, hty⟩ := hl.ty
    have h1 : marshalArg E (some r) var s = .ok (pushArg E c (s.mem.load c.size ad) var) s := by
      simp [marshalArg, nodeR, node_apply hlv, typeOf, node_apply hty, loadRaw, hl.ok]
    rw [h1]
    have key : ∀ d : CT, (integral d) → lo d ≤ lo c → hi c ≤ hi d →
        d.decode (d.encode (c.decode (s.mem.load c.size ad))) = c.decode (s.mem.load c.size ad) := by
      intro d hd h2 h3
      exact CT.decode_encode_of_inRange (.inl hd) (inRange_sub hr h2 h3)
    have hi := hl.int
    cases c <;> first
      | (simp [integral] at hi; done)
      | (cases var <;> first
          | rfl
          | (simp only [pushArg, pass, if_true, toReg]
             rw [key]
             · decide
             · decide
             · decide))
  | const z =>
    simp only [ArgAt] at h
    simp only [marshalArg, nodeR, bind_apply, node_apply h, pure_apply]
    cases var <;> rfl
  | str bs =>
    simp only [ArgAt] at h
    simp [marshalArg, nodeR, node_apply h, pass]
  | fp c bits =>
    rcases h with ⟨h, rfl⟩ | ⟨τ, ad, arr, sz, e, h1, h2, h3, h4, h5⟩
    · simp [marshalArg, nodeR, node_apply h, pass]
    · have h6 : marshalArg E (some r) var s = .ok (pushArg E c bits var) s := by
        simp [marshalArg, nodeR, node_apply h1, typeOf, node_apply h2, loadRaw, h4, h5]
      rw [h6]
      cases c <;> simp [CT.isFp] at h3 <;> cases var <;> rfl

/-- is the argument at this position a variadic one? -/
def isVar (vp : Option Nat) (n : Nat) : Bool :=
  match vp with
  | some p => decide (p ≤ n)
  | none => false

/-- the arguments as they are passed, from position `n` on -/
def passAll (E : Env) (vp : Option Nat) : Nat → List Arg → List FfiArg
  | _, [] => []
  | n, a :: as => pass E (isVar vp n) a :: passAll E vp (n + 1) as

theorem marshalArgs_apply {E : Env} {s : St} {vp : Option Nat} : ∀ {rs : List TId} {as : List Arg} (n : Nat),
    List.Forall₂ (ArgAt s) rs as → n + rs.length ≤ 32 →
    marshalArgs E vp n (rs.map some) s = .ok (passAll E vp n as) s := by
  intro rs as n h
  induction h generalizing n with
  | nil => intro _; rfl
  | @cons r a rs as h1 _ ih =>
    intro hn
    rw [List.length_cons] at hn
    simp only [List.map_cons, marshalArgs]
    have h2 := marshalArg_apply (E := E) (isVar vp n) h1
    have h3 := ih (n + 1) (by omega)
    have hne : n ≠ 32 := by omega
    cases vp with
    | none =>
      simp only [isVar] at h2
      simp [bind_apply, h2, hne, h3, passAll, isVar]
    | some p =>
      simp only [isVar] at h2
      simp [bind_apply, h2, hne, h3, passAll, isVar]

/-- more than 32 arguments end the program -/
theorem marshalArgs_many {E : Env} {s : St} {vp : Option Nat} : ∀ {rs : List TId} {as : List Arg} (n : Nat),
    List.Forall₂ (ArgAt s) rs as → n ≤ 32 → 32 < n + rs.length →
    marshalArgs E vp n (rs.map some) s = .stop (.exit 1) s := by
  intro rs as n h
  induction h generalizing n with
  | nil => intro h1 h2; simp at h2; omega
  | @cons r a rs as h1 _ ih =>
    intro hle hn
    rw [List.length_cons] at hn
    simp only [List.map_cons, marshalArgs]
    have h2 := marshalArg_apply (E := E) (isVar vp n) h1
    by_cases he : n = 32
    · subst he
      cases vp with
      | none =>
        simp only [isVar] at h2
        simp [bind_apply, h2, stop]
      | some p =>
        simp only [isVar] at h2
        simp [bind_apply, h2, stop]
    · have h3 := ih (n + 1) (by omega) (by omega)
      cases vp with
      | none =>
        simp only [isVar] at h2
        simp [bind_apply, h2, he, h3]
      | some p =>
        simp only [isVar] at h2
        simp [bind_apply, h2, he, h3]

/-- evaluating the argument expressions one after the other -/
inductive Evs (E : Env) : St → List TId → List TId → St → Prop
  | nil {s} : Evs E s [] [] s
  | cons {s s1 s' e r es rs} : Evl E s (some e) (some r) s1 → Evs E s1 es rs s' → Evs E s (e :: es) (r :: rs) s'

theorem Evs.conv {E : Env} {s s' : St} {es rs : List TId} (h : Evs E s es rs s') :
    Conv E (fun R => evalFnArgs R es) s (.ok (rs.map some) s') := by
  induction h with
  | nil => exact Conv.pure []
  | cons h1 _ ih =>
    unfold evalFnArgs
    exact Conv.bind h1 (Conv.bind ih (Conv.pure _))

/-- the trees of a list that may be NULL -/
def ListOf (nd : TId → Option Node) (l : Ref) (ts : List TId) : Prop :=
  (l = none ∧ ts = []) ∨ ∃ h, l = some h ∧ nd h = some (.chain ts)

theorem ListOf.elems {s : St} {l : Ref} {ts : List TId} (h : ListOf s.nodes l ts) : chainElems l s = .ok ts s := by
  rcases h with ⟨rfl, rfl⟩ | ⟨h, rfl, h1⟩
  · rfl
  · exact chainElems_apply h1

theorem ListOf.grow {s s' : St} {l : Ref} {ts : List TId} (h : ListOf s.nodes l ts) (g : Grow s s') : ListOf s'.nodes l ts := by
  rcases h with h | ⟨h, rfl, h1⟩
  · exact .inl h
  · exact .inr ⟨h, rfl, g.nodes _ _ h1⟩

/-- the position of the first `...` among the parameters -/
def VarPos (nd : TId → Option Node) (ds : List TId) (vp : Option Nat) : Prop :=
  (∀ d ∈ ds, (nd d).isSome) ∧ vp = ds.findIdx? fun d => decide (nd d = some .variadic)

theorem variadicPos_apply {s : St} : ∀ (ds : List TId) (n : Nat), (∀ d ∈ ds, (s.nodes d).isSome) →
    variadicPos n ds s = .ok ((ds.findIdx? fun d => decide (s.nodes d = some .variadic)).map (· + n)) s := by
  intro ds
  induction ds with
  | nil => intro n _; rfl
  | cons d ds ih =>
    intro n h
    have h1 := h d (by simp)
    obtain ⟨nd, hd⟩ := Option.isSome_iff_exists.mp h1
    have ih' := ih (n + 1) fun d hd => h d (by simp [hd])
    simp only [variadicPos, bind_apply, node_apply hd, List.findIdx?_cons, hd]
    by_cases hv : nd = .variadic
    · subst hv
      simp
    · have : decide (some nd = some Node.variadic) = false := by simp [hv]
      rw [this]
      simp only [Bool.false_eq_true, if_false, Option.map_map]
      rw [ih']
      congr 2
      funext x
      simp; omega

theorem VarPos.apply {s : St} {ds : List TId} {vp : Option Nat} (h : VarPos s.nodes ds vp) :
    variadicPos 0 ds s = .ok vp s := by
  rw [variadicPos_apply ds 0 h.1, h.2]
  simp

theorem VarPos.grow {s s' : St} {ds : List TId} {vp : Option Nat} (h : VarPos s.nodes ds vp) (g : Grow s s') : VarPos s'.nodes ds vp := by
  have key : ∀ d ∈ ds, s'.nodes d = s.nodes d := by
    intro d hd
    obtain ⟨n, hn⟩ := Option.isSome_iff_exists.mp (h.1 d hd)
    rw [hn, g.nodes _ _ hn]
  refine ⟨fun d hd => by rw [key d hd]; exact h.1 d hd, ?_⟩
  rw [h.2]
  clear h
  induction ds with
  | nil => rfl
  | cons d ds ih =>
    rw [List.findIdx?_cons, List.findIdx?_cons, key d (by simp), ih fun d hd => key d (by simp [hd])]

/-- the declared result: `void` or a type -/
inductive RetAt (s : St) : Ref → Option CT → Prop
  | void {ρ} : s.nodes ρ = some .void → RetAt s (some ρ) none
  | type {ρ c e} : s.nodes ρ = some (.ctype c e) → RetAt s (some ρ) (some c)

theorem RetAt.grow {s s' : St} {r : Ref} {c} (h : RetAt s r c) (g : Grow s s') : RetAt s' r c := by
  cases h with
  | void h => exact .void (g.nodes _ _ h)
  | type h => exact .type (g.nodes _ _ h)

/-- `t` is a call `f(es)` of the library function at `fa`: of a function declared without a body, or of
one declared `extern` -/
def LibCall (E : Env) (s : St) (t : TId) (fa : Nat) (vp : Option Nat) (ret : Option CT) (es : List TId) : Prop :=
  ∃ i f fd name params ρ ds ca, s.nodes t = some (.fnCall (some i) ca) ∧ Evl E s (some i) (some f) s ∧
    s.nodes fd = some (.ident name) ∧ E.dlsym name = some fa ∧ findClosure fa s.closures = none ∧
    ListOf s.nodes params ds ∧ VarPos s.nodes ds vp ∧ ListOf s.nodes ca es ∧ RetAt s ρ ret ∧
    (s.nodes f = some (.fn (some fd) params ρ none) ∨
     ∃ x stmts, s.nodes f = some (.extFunc (some x)) ∧ s.nodes x = some (.fn (some fd) params ρ stmts) ∧ fa < 2 ^ 64)

/-- the argument expressions have these values: evaluating them, in any state that has everything `s`
has, changes nothing and makes at most `m` variables -/
def HasArgs (E : Env) (s : St) (es : List TId) (as : List Arg) (m : Nat) : Prop :=
  ∀ s0, Grow s s0 → WF s0 → Room s0 m → ∃ rs s1, Evs E s0 es rs s1 ∧ Grow s0 s1 ∧ s1.mem.brk ≤ s0.mem.brk + 48 * m ∧
    List.Forall₂ (ArgAt s1) rs as

/-- the state after the library function has been called with `fs`, without a result … -/
def calledSt (E : Env) (s : St) (fa : Nat) (fs : List FfiArg) (vp : Option Nat) : St :=
  { s with mem := (E.extCall fa fs s.mem).1, events := s.events ++ [{ addr := fa, args := fs, variadic := vp }] }

/-- … and with one, stored at `a` -/
def resultSt (E : Env) (s : St) (fa : Nat) (fs : List FfiArg) (vp : Option Nat) (a : Nat) : St :=
  { calledSt E s fa fs vp with mem := (E.extCall fa fs s.mem).1.storeBytes a (E.extCall fa fs s.mem).2 }

theorem doExtCall_void {E : Env} {s : St} {fa : Nat} {rs : List TId} {as : List Arg} {vp : Option Nat}
    (ha : List.Forall₂ (ArgAt s) rs as) (hn : rs.length ≤ 32) (hf : findClosure fa s.closures = none) (R : Rec) :
    doExtCall E R fa (rs.map some) none vp s = .ok () (calledSt E s fa (passAll E vp 0 as) vp) := by
  simp only [doExtCall, bind_apply, marshalArgs_apply (vp := vp) 0 ha (by omega), get, hf, modify, pure_apply]
  rfl

theorem doExtCall_val {E : Env} {s : St} {fa : Nat} {rs : List TId} {as : List Arg} {vp : Option Nat} {v τ : TId} {a : Nat} {arr sz}
    {c : CT} {e : Ref} (hv : s.nodes v = some (.lv (some τ) a arr sz)) (hτ : s.nodes τ = some (.ctype c e))
    (ha : List.Forall₂ (ArgAt s) rs as) (hn : rs.length ≤ 32) (hf : findClosure fa s.closures = none) (R : Rec) :
    doExtCall E R fa (rs.map some) (some v) vp s = .ok () (resultSt E s fa (passAll E vp 0 as) vp a) := by
  simp only [doExtCall, bind_apply, marshalArgs_apply (vp := vp) 0 ha (by omega), lvFields, node_apply hv, typeOf, nodeR,
    node_apply hτ, get, hf, modify, pure_apply]
  simp only [node, hv]
  rfl

theorem doExtCall_many {E : Env} {s : St} {fa : Nat} {rs : List TId} {as : List Arg} {vp : Option Nat} {r : Ref}
    (ha : List.Forall₂ (ArgAt s) rs as) (hn : 32 < rs.length) (R : Rec) :
    doExtCall E R fa (rs.map some) r vp s = .stop (.exit 1) s := by
  simp only [doExtCall, bind_apply, marshalArgs_many (vp := vp) 0 ha (by omega) (by omega)]

theorem Forall2.imp_grow {s s' : St} {rs : List TId} {as : List Arg} (h : List.Forall₂ (ArgAt s) rs as) (g : Grow s s') :
    List.Forall₂ (ArgAt s') rs as := h.imp fun _ _ h => h.grow g

/-- the call happens, and how it ends -/
def Called (E : Env) (s : St) (t : TId) (fa : Nat) (vp : Option Nat) (as : List Arg) : Option CT → Prop
  | none => ∃ s1, Grow s s1 ∧ Evl E s (some t) none (calledSt E s1 fa (passAll E vp 0 as) vp)
  | some c => ∃ s1 v τ a arr sz e, Grow s s1 ∧ s1.nodes v = some (.lv (some τ) a arr sz) ∧ s1.nodes τ = some (.ctype c e) ∧
      (∀ x, a ≤ x → x < a + 16 → s1.mem.live x = true ∧ s.mem.live x = false) ∧
      Evl E s (some t) (some v) (resultSt E s1 fa (passAll E vp 0 as) vp a)

/-- making the object for the result -/
def mkRet (ρ : Ref) : M Ref := do
  match ← peek ρ with
  | some .void => pure none
  | _ => do pure (some (← makeLiveVar ρ))

theorem mkRet_void {s : St} {ρ : TId} (h : s.nodes ρ = some .void) : mkRet (some ρ) s = .ok none s := by
  simp [mkRet, peek_apply h]

theorem mkRet_type {s : St} {ρ : TId} {c e} (h : s.nodes ρ = some (.ctype c e)) (hr : Room s 1) :
    mkRet (some ρ) s = .ok (some s.next) (newVar s (some ρ)) := by
  simp [mkRet, peek_apply h, makeLiveVar_apply _ hr]

theorem Room.afterN {s s' : St} {m k : Nat} (h : Room s (m + k)) (g : Grow s s') (hb : s'.mem.brk ≤ s.mem.brk + 48 * m) : Room s' k :=
  ⟨by have := h.brk; omega, g.ctxs_ne h.ctxs, g.livelt h.livelt⟩

/-- the rest of the call of a function declared without a body -/
def tailA (E : Env) (R : Rec) (ρ : Ref) (fa : Nat) (vp : Option Nat) (rs : List Ref) : M Ref := do
  let r ← mkRet ρ
  doExtCall E R fa rs r vp
  pure r

theorem libCall_decl {E : Env} {s : St} {t i f fd : TId} {name : String} {fa : Nat} {params ρ ca : Ref} {ds es : List TId}
    {vp : Option Nat} {o : Out Ref} (ht : s.nodes t = some (.fnCall (some i) ca)) (hi : Evl E s (some i) (some f) s)
    (hfd : s.nodes fd = some (.ident name)) (hd : E.dlsym name = some fa) (hp : ListOf s.nodes params ds) (hv : VarPos s.nodes ds vp)
    (hc : ListOf s.nodes ca es) (hf : s.nodes f = some (.fn (some fd) params ρ none))
    (h : Conv E (fun R => evalFnArgs R es >>= tailA E R ρ fa vp) s o) : Conv E (fun R => R.ev (some t)) s o := by
  refine Conv.evNode ht ?_
  unfold evalNode evalFnCall
  refine Conv.bind hi (h.of_eq fun R => ?_)
  have h1 : idStr (some fd) s = .ok name s := by simp [idStr, nodeR, node_apply hfd]
  have h2 : callExtDecl E R (some fd) params ρ ca s = (evalFnArgs R es >>= tailA E R ρ fa vp) s := by
    unfold callExtDecl
    rw [bind_apply, h1]
    simp only [hd]
    rw [bind_apply, hp.elems]
    simp only
    rw [bind_apply, hv.apply]
    simp only
    rw [bind_apply, hc.elems]
    rfl
  simp [peek_apply hf, node_apply hf, h2]

/-- the rest of the call through a pointer -/
def tailB (E : Env) (R : Rec) (a : Nat) (r : Ref) (vp : Option Nat) (rs : List Ref) : M Ref := do
  let fa ← loadRaw 8 a
  doExtCall E R fa rs r vp
  pure r

/-- the pointer to an `extern` function -/
def ptrSt (s : St) (x : TId) (fa : Nat) : St := newVal (addNode s (.ctype .ptr (some x))) (some s.next) 8 fa

theorem ptrSt_grow {s : St} (w : WF s) (x : TId) (fa : Nat) {k} (h : Room s k) : Grow s (ptrSt s x fa) :=
  (addNode_ext w _).grow.trans (newVal_grow ((addNode_ext w _).wf w) _ _ _ (h.ext (addNode_ext w _)))

theorem ptrSt_room {s : St} (w : WF s) (x : TId) (fa : Nat) {k} (h : Room s (k + 1)) : Room (ptrSt s x fa) k :=
  newVal_room ((addNode_ext w _).wf w) _ _ _ (h.ext (addNode_ext w _))

theorem extFunc_conv {E : Env} {s : St} {f x fd : TId} {name : String} {fa : Nat} {params ρ stmts : Ref} (w : WF s) (hr : Room s 1)
    (hf : s.nodes f = some (.extFunc (some x))) (hx : s.nodes x = some (.fn (some fd) params ρ stmts))
    (hfd : s.nodes fd = some (.ident name)) (hd : E.dlsym name = some fa) :
    Conv E (fun R => R.ev (some f)) s (.ok (some (s.next + 1)) (ptrSt s x fa)) := by
  refine Conv.evNode hf ?_
  have x1 := addNode_ext w (.ctype .ptr (some x))
  have h1 : idStr (some fd) (addNode s (.ctype .ptr (some x))) = .ok name (addNode s (.ctype .ptr (some x))) := by
    simp [idStr, nodeR, node_apply (x1.nodes _ _ hfd)]
  have hself : (ptrSt s x fa).nodes (s.next + 1) = some (.lv (some s.next) s.mem.brk false 0) := newVal_self _ _ _ _
  have h2 : Conv E (fun R => R.ev (some (s.next + 1))) (ptrSt s x fa) (.ok (some (s.next + 1)) (ptrSt s x fa)) :=
    Conv.evNode hself (Conv.const rfl)
  refine h2.of_eq fun R => ?_
  show evalExtFunc E R f s = _
  unfold evalExtFunc
  rw [bind_apply, node_apply hf]
  simp only
  rw [bind_apply, mk_apply]
  simp only [nodeR]
  rw [bind_apply, node_apply (x1.nodes _ _ hx)]
  simp only
  rw [bind_apply, h1]
  simp only [hd]
  exact makeLiveVar_store (some s.next) (n := 8) (v := fa) (by decide) (hr.ext x1) (fun v => R.ev (some v))

theorem libCall_ext {E : Env} {s : St} {t i f fd x : TId} {name : String} {fa : Nat} {params ρ ca stmts : Ref} {ds es : List TId}
    {vp : Option Nat} {o : Out Ref} (w : WF s) (hr : Room s 1) (ht : s.nodes t = some (.fnCall (some i) ca))
    (hi : Evl E s (some i) (some f) s) (hfd : s.nodes fd = some (.ident name)) (hd : E.dlsym name = some fa)
    (hp : ListOf s.nodes params ds) (hv : VarPos s.nodes ds vp) (hc : ListOf s.nodes ca es)
    (hf : s.nodes f = some (.extFunc (some x))) (hx : s.nodes x = some (.fn (some fd) params ρ stmts)) {r : Ref} {s0 : St}
    (hret : mkRet ρ (ptrSt s x fa) = .ok r s0) (hg : Grow (ptrSt s x fa) s0)
    (h : Conv E (fun R => evalFnArgs R es >>= tailB E R s.mem.brk r vp) s0 o) : Conv E (fun R => R.ev (some t)) s o := by
  refine Conv.evNode ht ?_
  unfold evalNode evalFnCall
  refine Conv.bind hi ?_
  have g1 := ptrSt_grow w x fa hr
  have hself : (ptrSt s x fa).nodes (s.next + 1) = some (.lv (some s.next) s.mem.brk false 0) := newVal_self _ _ _ _
  have hty : (ptrSt s x fa).nodes s.next = some (.ctype .ptr (some x)) := by
    have := addNode_self s (.ctype .ptr (some x))
    exact (newVal_grow ((addNode_ext w _).wf w) _ _ _ (hr.ext (addNode_ext w _))).nodes _ _ this
  have h2 : ∀ R, callLive E R (s.next + 1) ca (ptrSt s x fa) = (evalFnArgs R es >>= tailB E R s.mem.brk r vp) s0 := by
    intro R
    unfold callLive
    rw [bind_apply]
    simp only [lvFields, bind_apply, node_apply hself, pure_apply]
    rw [peek_apply hty]
    simp only [bind_apply]
    rw [peek_apply (g1.nodes _ _ hx)]
    simp only [bind_apply, (hp.grow g1).elems, (hv.grow g1).apply]
    show (mkRet ρ >>= fun r => chainElems ca >>= fun l => evalFnArgs R l >>= fun as => loadRaw 8 s.mem.brk >>= fun fa =>
      doExtCall E R fa as r vp >>= fun _ => pure r) (ptrSt s x fa) = _
    rw [bind_apply, hret]
    simp only
    rw [bind_apply, ((hc.grow g1).grow hg).elems]
    rfl
  refine Conv.bind (a := some (s.next + 1)) (s' := ptrSt s x fa) ?_ ?_
  · refine (extFunc_conv w hr hf hx hfd hd).of_eq fun R => ?_
    simp [peek_apply hf]
  · refine h.of_eq fun R => ?_
    simp [node_apply hself, h2]

theorem Forall2.len {s : St} {rs : List TId} {as : List Arg} (h : List.Forall₂ (ArgAt s) rs as) : rs.length = as.length := h.length_eq

/-- a call with at most 32 arguments -/
theorem libCall_conv {E : Env} {s : St} {t : TId} {fa : Nat} {vp : Option Nat} {ret : Option CT} {es : List TId} {as : List Arg} {m : Nat}
    (w : WF s) (hl : LibCall E s t fa vp ret es) (ha : HasArgs E s es as m) (hr : Room s (m + 2)) (hn : as.length ≤ 32) :
    Called E s t fa vp as ret := by
  obtain ⟨i, f, fd, name, params, ρ, ds, ca, ht, hi, hfd, hd, hcl, hp, hv, hc, hret, hk⟩ := hl
  rcases hk with hf | ⟨x, stmts, hf, hx, h64⟩
  · obtain ⟨rs, s1, h1, g, hb, hargs⟩ := ha s (Grow.refl s) w (hr.mono (by omega))
    have r1 : Room s1 1 := Room.afterN (k := 1) (m := m) (hr.mono (by omega)) g hb
    have hcl1 : findClosure fa s1.closures = none := by rw [g.closures]; exact hcl
    have hlen := Forall2.len hargs
    have hret1 := hret.grow g
    cases hret1 with
    | @void ρ h =>
      refine ⟨s1, g, libCall_decl ht hi hfd hd hp hv hc hf (Conv.bind h1.conv (Conv.fixed fun R => ?_))⟩
      simp only [tailA, bind_apply, mkRet_void h, doExtCall_void hargs (by omega) hcl1, pure_apply]
    | @type ρ c e h =>
      have g2 := newVar_grow (g.wf w) (some ρ)
      refine ⟨newVar s1 (some ρ), s1.next, ρ, s1.mem.brk, false, 0, e, g.trans g2, newVar_self _ _, g2.nodes _ _ h, ?_,
        libCall_decl ht hi hfd hd hp hv hc hf (Conv.bind h1.conv (Conv.fixed fun R => ?_))⟩
      · intro y h3 h4
        refine ⟨by simp [newVar, h3, h4], ?_⟩
        cases hy : s.mem.live y with
        | false => rfl
        | true =>
          have := g.live y hy
          rw [r1.fresh y h3 h4] at this
          cases this
      · simp only [tailA, bind_apply, mkRet_type h r1, pure_apply]
        rw [doExtCall_val (newVar_self _ _) (g2.nodes _ _ h) (Forall2.imp_grow hargs g2) (by omega) (by rw [g2.closures]; exact hcl1)]
  · have g1 := ptrSt_grow w x fa hr
    have w1 := g1.wf w
    have r1 : Room (ptrSt s x fa) (m + 1) := ptrSt_room w x fa hr
    have hok : (ptrSt s x fa).mem.ok 8 s.mem.brk = true := newVal_ok (by decide)
    have hld : (ptrSt s x fa).mem.load 8 s.mem.brk = fa := by
      have h := newVal_load (addNode s (.ctype .ptr (some x))) (some s.next) 8 fa
      rw [Nat.mod_eq_of_lt (by simpa using h64)] at h
      exact h
    have hret1 := hret.grow g1
    cases hret1 with
    | @void ρ h =>
      obtain ⟨rs, s1, h1, g, hb, hargs⟩ := ha _ g1 w1 (r1.mono (by omega))
      have hlen := Forall2.len hargs
      have hcl1 : findClosure fa s1.closures = none := by rw [g.closures, g1.closures]; exact hcl
      refine ⟨s1, g1.trans g, libCall_ext w (hr.mono (by omega)) ht hi hfd hd hp hv hc hf hx (mkRet_void h) (Grow.refl _)
        (Conv.bind h1.conv (Conv.fixed fun R => ?_))⟩
      simp only [tailB, bind_apply, loadRaw_apply (g.ok hok), g.load hok, hld, doExtCall_void hargs (by omega) hcl1, pure_apply]
    | @type ρ c e h =>
      have g2 := newVar_grow w1 (some ρ)
      have r2 : Room (newVar (ptrSt s x fa) (some ρ)) m := r1.newVar w1 _
      obtain ⟨rs, s1, h1, g, hb, hargs⟩ := ha _ (g1.trans g2) (g2.wf w1) r2
      have hlen := Forall2.len hargs
      have g3 := g2.trans g
      have hcl1 : findClosure fa s1.closures = none := by rw [g3.closures, g1.closures]; exact hcl
      have hn1 := g.nodes _ _ (newVar_self (ptrSt s x fa) (some ρ))
      have hn2 := g3.nodes _ _ h
      refine ⟨s1, _, ρ, (ptrSt s x fa).mem.brk, false, 0, e, g1.trans g3, hn1, hn2, ?_,
        libCall_ext w (hr.mono (by omega)) ht hi hfd hd hp hv hc hf hx (mkRet_type h (r1.mono (by omega))) g2
        (Conv.bind h1.conv (Conv.fixed fun R => ?_))⟩
      · intro y h3 h4
        refine ⟨g.live y (by simp [newVar, h3, h4]), ?_⟩
        cases hy : s.mem.live y with
        | false => rfl
        | true =>
          have := g1.live y hy
          rw [r1.fresh y h3 h4] at this
          cases this
      · simp only [tailB, bind_apply, loadRaw_apply (g3.ok hok), g3.load hok, hld, pure_apply]
        rw [doExtCall_val hn1 hn2 hargs (by omega) hcl1]

/-- a call with more than 32 arguments -/
theorem libCall_many {E : Env} {s : St} {t : TId} {fa : Nat} {vp : Option Nat} {ret : Option CT} {es : List TId} {as : List Arg} {m : Nat}
    (w : WF s) (hl : LibCall E s t fa vp ret es) (ha : HasArgs E s es as m) (hr : Room s (m + 2)) (hn : 32 < as.length) :
    ∃ s', Grow s s' ∧ Conv E (fun R => R.ev (some t)) s (.stop (.exit 1) s') := by
  obtain ⟨i, f, fd, name, params, ρ, ds, ca, ht, hi, hfd, hd, hcl, hp, hv, hc, hret, hk⟩ := hl
  rcases hk with hf | ⟨x, stmts, hf, hx, h64⟩
  · obtain ⟨rs, s1, h1, g, hb, hargs⟩ := ha s (Grow.refl s) w (hr.mono (by omega))
    have r1 : Room s1 1 := Room.afterN (k := 1) (m := m) (hr.mono (by omega)) g hb
    have hlen := Forall2.len hargs
    have hret1 := hret.grow g
    cases hret1 with
    | @void ρ h =>
      refine ⟨s1, g, libCall_decl ht hi hfd hd hp hv hc hf (Conv.bind h1.conv (Conv.fixed fun R => ?_))⟩
      simp only [tailA, bind_apply, mkRet_void h, doExtCall_many hargs (show 32 < rs.length by omega)]
    | @type ρ c e h =>
      have g2 := newVar_grow (g.wf w) (some ρ)
      refine ⟨newVar s1 (some ρ), g.trans g2, libCall_decl ht hi hfd hd hp hv hc hf (Conv.bind h1.conv (Conv.fixed fun R => ?_))⟩
      simp only [tailA, bind_apply, mkRet_type h r1, doExtCall_many (Forall2.imp_grow hargs g2) (show 32 < rs.length by omega)]
  · have g1 := ptrSt_grow w x fa hr
    have w1 := g1.wf w
    have r1 : Room (ptrSt s x fa) (m + 1) := ptrSt_room w x fa hr
    have hok : (ptrSt s x fa).mem.ok 8 s.mem.brk = true := newVal_ok (by decide)
    have hret1 := hret.grow g1
    cases hret1 with
    | @void ρ h =>
      obtain ⟨rs, s1, h1, g, hb, hargs⟩ := ha _ g1 w1 (r1.mono (by omega))
      have hlen := Forall2.len hargs
      refine ⟨s1, g1.trans g, libCall_ext w (hr.mono (by omega)) ht hi hfd hd hp hv hc hf hx (mkRet_void h) (Grow.refl _)
        (Conv.bind h1.conv (Conv.fixed fun R => ?_))⟩
      simp only [tailB, bind_apply, loadRaw_apply (g.ok hok), doExtCall_many hargs (show 32 < rs.length by omega)]
    | @type ρ c e h =>
      have g2 := newVar_grow w1 (some ρ)
      have r2 : Room (newVar (ptrSt s x fa) (some ρ)) m := r1.newVar w1 _
      obtain ⟨rs, s1, h1, g, hb, hargs⟩ := ha _ (g1.trans g2) (g2.wf w1) r2
      have hlen := Forall2.len hargs
      have g3 := g2.trans g
      refine ⟨s1, g1.trans g3, libCall_ext w (hr.mono (by omega)) ht hi hfd hd hp hv hc hf hx (mkRet_type h (r1.mono (by omega))) g2
        (Conv.bind h1.conv (Conv.fixed fun R => ?_))⟩
      simp only [tailB, bind_apply, loadRaw_apply (g3.ok hok), doExtCall_many hargs (show 32 < rs.length by omega)]

end Bic
