import Verif.Proofs.Frames
import Verif.Props.Prog
/-!
# Function calls (C25-C30)

`CallTo E s t ps es b`: the tree `t` calls an interpreted function with the integer
parameters `ps` and the body `b` with the argument expressions `es`.
-/

namespace Bic
open Spec

namespace Spec

/-- What C says about a call: the arguments are evaluated in the scope of the call
(`loc`, inside the global scope `glob`), the body sees its parameters and the
globals.  `v` is the value returned, `glob'` are the globals afterwards, `n`
variables are created by the body. -/
def CallIs (L : Rules) (loc : Store) (glob : Frame) (ps : List (CT × String)) (es : List Expr) (p : Stmt) (v : Int)
    (glob' : Frame) (n : Nat) : Prop :=
  ∃ fr fr', Params L (loc ++ [glob]) ps es fr ∧ fr.names.Nodup ∧ Run L [fr, glob] p (.ret v) [fr', glob'] n

end Spec

/-- the names the body uses without declaring them are not declared locally in the
calling function -/
def NoCapture (ps : List (CT × String)) (p : Spec.Stmt) (loc : Store) : Prop :=
  ∀ x ∈ p.free, x ∈ ps.map (·.2) ∨ ∀ fr ∈ loc, x ∉ fr.names

/-- the call `t` gives `v` and leaves the variables as in `σ'` -/
def Gives (E : Env) (s : St) (t : TId) (v : Int) (σ' : Store) : Prop :=
  ∃ r s', Evl E s (some t) (some r) s' ∧ Denotes s' r v ∧ Rel s' σ'

theorem call_gives {E : Env} {s : St} {loc : Store} {glob glob' : Frame} {t : TId} {ps es b p v n m} (hs : Sane s)
    (g : Good s (loc ++ [glob]) (ps.length + (n + m))) (hc : CallTo E s t ps es b) (hr : SRep s.nodes (.body b) p)
    (hav : Avoid [] ps es) (hcl : NoCapture ps p loc) (h : CallIs okRules loc glob ps es p v glob' n) :
    ∃ r s', Evl E s (some t) (some r) s' ∧ Denotes s' r v ∧ Good s' (loc ++ [glob']) m ∧ Sane s' ∧ uids s' = uids s ∧
      KeptX s s' := by
  obtain ⟨fr, fr', hP, hnd, hrun⟩ := h
  obtain ⟨top', τ', e1, e2, _, e3⟩ := run_insert (loc := loc) hrun (top := [fr]) (τ := [glob]) rfl (by simp)
    fun x hx => (hcl x hx).imp (fun h => ⟨fr, by simp, by rw [params_names hP]; exact h⟩) id
  cases e2 with
  | cons _ e2 =>
    cases e2
    cases e1
    exact call_conv hs g hc hP hav hnd hr e3

/-! ## C25 -/

/-- **C25**: the body of a function sees its parameters, its own variables and the
globals, wherever it is called -/
def C25_statement : Prop :=
  ∀ (E : Env) (s : St) (loc : Store) (glob glob' : Frame) (t : TId) (ps : List (CT × String)) (es : List Expr) (b : Ref)
    (p : Spec.Stmt) (v : Int) (n : Nat), Sane s → Good s (loc ++ [glob]) (ps.length + n) →
    CallTo E s t ps es b → SRep s.nodes (.body b) p → Avoid [] ps es →
    CallIs okRules loc glob ps es p v glob' n → Gives E s t v (loc ++ [glob'])

/-- C25 for the callers none of whose local variables has the name of a free variable
of the function (`NoCapture`).  Missing: the others; there bic takes the variable of
the caller. -/
theorem C25_globals_partial {E : Env} {s : St} {loc : Store} {glob glob' : Frame} {t : TId} {ps es b p v n} (hs : Sane s)
    (g : Good s (loc ++ [glob]) (ps.length + n)) (hc : CallTo E s t ps es b) (hr : SRep s.nodes (.body b) p)
    (hav : Avoid [] ps es) (hcl : NoCapture ps p loc) (h : CallIs okRules loc glob ps es p v glob' n) :
    Gives E s t v (loc ++ [glob']) := by
  obtain ⟨r, s', h1, h2, h3, _⟩ := call_gives (m := 0) hs g hc hr hav hcl h
  exact ⟨r, s', h1, h2, h3.rel⟩

/-- … and the call has no other value -/
theorem Gives.unique {E : Env} {s : St} {t : TId} {v w : Int} {σ : Store} (h : Gives E s t v σ) (n : Nat)
    (hw : outVal ((run E n).ev (some t) s) = some w) : v = w := by
  obtain ⟨r, s', h1, h2, _⟩ := h
  have hne : (run E n).ev (some t) s ≠ .fuel := by
    intro hf; rw [hf] at hw; cases hw
  have := Conv.unique h1 (Conv.of_ev n rfl hne)
  rw [← this, outVal_denotes h2] at hw
  exact Option.some.inj hw

/-! `int x = 1; int f(int a) { return x + a; }`, called as `f(2)` from a function with
a local variable. -/

/-- a state in which a function has been called -/
def stIn (l : List Node) (loc glob : List Binding) (bs : List Byte) : St :=
  { stOf l glob bs with ctxs := [{ ctx1 loc with uid := 2, name := "g", isFn := true }, ctx1 glob], nextUid := 3 }

theorem stIn_Sane (l loc glob bs) : Sane (stIn l loc glob bs) where
  inv := ⟨stOf_WF l glob bs, ⟨Nat.lt_succ_self 2, Nat.lt_succ_self 1, trivial⟩, by
    intro c hc
    simp [stIn] at hc
    rcases hc with rfl | rfl <;> exact ⟨fun b hb => by simp [ctx1] at hb, fun b hb => by simp [ctx1] at hb⟩⟩
  flags c hc := by
    simp [stIn] at hc
    rcases hc with rfl | rfl <;> rfl
  ne := by simp [stIn]

/-- the local variable is called `x` -/
def prog25 (x : String) : List Node :=
  [.ctype .int none, .lv (some 0) 4096 false 0, .lv (some 0) 4104 false 0, .ident "x", .ident "a", .kw .int, .chain [5], -- 0 … 6
   .decl (some 6) (some 4) 0, .chain [7], .bin .add (some 3) (some 4), .ret (some 9), .chain [10], .ident "f", -- 7 … 12
   .fn (some 12) (some 8) none (some 11), .integer 2, .chain [14], .fnCall (some 12) (some 15), .ident x]

def st25 (x : String) : St :=
  stIn (prog25 x) [⟨x, 17, some 2⟩] [⟨"x", 3, some 1⟩, ⟨"f", 12, some 13⟩] [1, 0, 0, 0, 0, 0, 0, 0, 7, 0, 0, 0, 0, 0, 0, 0]

def loc25 (x : String) : Store := [[(x, some ⟨.int, some 7⟩)]]
def glob25 : Frame := [("x", some ⟨.int, some 1⟩), ("f", none)]

theorem good25 (x : String) : Good (st25 x) (loc25 x ++ [glob25]) 10 where
  wf := (stIn_Sane _ _ _ _).inv.wf
  flags := (stIn_Sane _ _ _ _).flags
  room := ⟨by show (memOf _).brk + 48 * 10 < _; decide +kernel, by simp [st25, stIn], memOf_livelt _⟩
  rel := ⟨[4104] ++ ([4096] ++ []), .cons (.var ⟨⟨0, ⟨false, 0, rfl⟩, ⟨none, rfl⟩, .inl (by decide), by
      show (memOf _).ok _ _ = _; decide +kernel⟩, by decide, by show (memOf _).ok _ _ = _; decide +kernel,
      by intro w hw; cases hw; show _ = CT.int.decode ((memOf _).load _ _); decide +kernel⟩ .nil)
    (.cons (.var ⟨⟨0, ⟨false, 0, rfl⟩, ⟨none, rfl⟩, .inl (by decide), by
      show (memOf _).ok _ _ = _; decide +kernel⟩, by decide, by show (memOf _).ok _ _ = _; decide +kernel,
      by intro w hw; cases hw; show _ = CT.int.decode ((memOf _).load _ _); decide +kernel⟩ (.other .nil)) .nil), by simp [Apart]⟩

def body25 : Spec.Stmt := .seq (.ret (.bin .add (.var "x") (.var "a"))) .skip

theorem rep25 (x : String) : SRep (st25 x).nodes (.body (some 11)) body25 :=
  .braces rfl (.cons (.ret rfl (.bin (o := .add) (l := 3) (r := 4) rfl (.var rfl) (.var rfl))) .nil)

theorem call25 (x : String) (hx : x ≠ "f") : CallTo E0 (st25 x) 16 [(.int, "a")] [.lit 2] (some 11) := by
  refine ⟨12, 13, 12, "f", some 8, some 15, none, rfl, ident_conv (x := "f") rfl ?_, rfl, rfl, by simp, .inr ⟨8, 15, [7], [14], rfl, rfl, rfl, rfl,
    .cons rfl ⟨[5], [.int], rfl, .cons rfl .nil, by decide, by decide⟩ rfl .nil, .cons (.lit rfl) .nil⟩⟩
  simp [st25, stIn, resolveGlobal, findInChain, findId, Ctx.map, ctx1, hx]

theorem rd {v : Int} (h : InRange .long v) : okRules.read v := h

theorem callIs25 (x : String) : CallIs okRules (loc25 x) glob25 [(.int, "a")] [.lit 2] body25 3 glob25 0 :=
  ⟨[("a", some ⟨.int, some 2⟩)], [("a", some ⟨.int, some 2⟩)],
    .cons (v := 2) (by decide) (.lit 2) (.inl ⟨rfl, .inl (by decide)⟩) (conv_self (by decide)) .nil, by simp [Frame.names],
    .stop (.ret (.bin (.var ⟨.int, rfl, rd (by decide)⟩) (.var ⟨.int, rfl, rd (by decide)⟩) ⟨rfl, trivial⟩)) nofun⟩

/-- the local variable is `a`, like the parameter -/
example : Gives E0 (st25 "a") 16 3 (loc25 "a" ++ [glob25]) :=
  C25_globals_partial (n := 0) (stIn_Sane _ _ _ _) ((good25 "a").mono (by simp)) (call25 "a" (by decide)) (rep25 "a")
    (by simp [Avoid, Expr.uses]) (by simp [NoCapture, body25, Stmt.free, Expr.uses, Stmt.binds, loc25, Frame.names]) (callIs25 "a")

/-- C25 in full is false: when the caller has a local `x`, `f` takes that one. -/
theorem C25_refuted : ¬ C25_statement := by
  intro h
  have hg := h E0 (st25 "x") (loc25 "x") glob25 glob25 16 [(.int, "a")] [.lit 2] (some 11) body25 3 0 (stIn_Sane _ _ _ _)
    ((good25 "x").mono (by simp)) (call25 "x" (by decide)) (rep25 "x") (by simp [Avoid, Expr.uses]) (callIs25 "x")
  have : (3 : Int) = 9 := hg.unique 40 (by decide +kernel)
  omega

/-! ## C26 -/

/-- **C26**: arguments mean what they mean in the scope of the call -/
def C26_statement : Prop :=
  ∀ (E : Env) (s : St) (loc : Store) (glob glob' : Frame) (t : TId) (ps : List (CT × String)) (es : List Expr) (b : Ref)
    (p : Spec.Stmt) (v : Int) (n : Nat), Sane s → Good s (loc ++ [glob]) (ps.length + n) →
    CallTo E s t ps es b → SRep s.nodes (.body b) p → NoCapture ps p loc →
    CallIs okRules loc glob ps es p v glob' n → Gives E s t v (loc ++ [glob'])

/-- C26 for arguments that do not use the names of earlier parameters (`Avoid`); an
argument may use the name of its own parameter or of a later one.  Missing: the
others; there bic takes the parameter. -/
theorem C26_arguments_partial {E : Env} {s : St} {loc : Store} {glob glob' : Frame} {t : TId} {ps es b p v n} (hs : Sane s)
    (g : Good s (loc ++ [glob]) (ps.length + n)) (hc : CallTo E s t ps es b) (hr : SRep s.nodes (.body b) p)
    (hav : Avoid [] ps es) (hcl : NoCapture ps p loc) (h : CallIs okRules loc glob ps es p v glob' n) :
    Gives E s t v (loc ++ [glob']) := C25_globals_partial hs g hc hr hav hcl h

/-! `int f(int a, int b) { return b; }`, called as `f(1, y)`, where `y` is a variable
with the value 7. -/

def prog26 (y : String) : List Node :=
  [.ctype .int none, .lv (some 0) 4096 false 0, .ident y, .ident "a", .ident "b", .kw .int, .chain [5], -- 0 … 6
   .decl (some 6) (some 3) 0, .decl (some 6) (some 4) 0, .chain [7, 8], .ident "b", .ret (some 10), .chain [11], -- 7 … 12
   .ident "f", .fn (some 13) (some 9) none (some 12), .integer 1, .chain [15, 2], .fnCall (some 13) (some 16)]

def st26 (y : String) : St := stOf (prog26 y) [⟨y, 2, some 1⟩, ⟨"f", 13, some 14⟩] [7, 0, 0, 0, 0, 0, 0, 0]

def glob26 (y : String) : Frame := [(y, some ⟨.int, some 7⟩), ("f", none)]

theorem good26 (y : String) : Good (st26 y) [glob26 y] 10 where
  wf := stOf_WF _ _ _
  flags := (stOf_Sane _ _ _).flags
  room := ⟨by show (memOf _).brk + 48 * 10 < _; decide +kernel, by simp [st26, stOf], memOf_livelt _⟩
  rel := ⟨[4096] ++ [], .cons (.var ⟨⟨0, ⟨false, 0, rfl⟩, ⟨none, rfl⟩, .inl (by decide), by
      show (memOf _).ok _ _ = _; decide +kernel⟩, by decide, by show (memOf _).ok _ _ = _; decide +kernel,
      by intro w hw; cases hw; show _ = CT.int.decode ((memOf _).load _ _); decide +kernel⟩ (.other .nil)) .nil, by simp [Apart]⟩

def body26 : Spec.Stmt := .seq (.ret (.var "b")) .skip

theorem rep26 (y : String) : SRep (st26 y).nodes (.body (some 12)) body26 :=
  .braces rfl (.cons (.ret rfl (.var rfl)) .nil)

theorem call26 (y : String) (hy : y ≠ "f") :
    CallTo E0 (st26 y) 17 [(.int, "a"), (.int, "b")] [.lit 1, .var y] (some 12) := by
  have ts : TypeSpecs (st26 y).nodes 6 .int := ⟨[5], [.int], rfl, .cons rfl .nil, by decide, by decide⟩
  refine ⟨13, 14, 13, "f", some 9, some 16, none, rfl, ident_conv (x := "f") rfl ?_, rfl, rfl, by simp, .inr ⟨9, 16, [7, 8], [15, 2], rfl, rfl,
    rfl, rfl, .cons rfl ts rfl (.cons rfl ts rfl .nil), .cons (.lit rfl) (.cons (.var rfl) .nil)⟩⟩
  simp [st26, stOf, resolveGlobal, findInChain, findId, Ctx.map, ctx1, hy]

theorem callIs26 (y : String) :
    CallIs okRules [] (glob26 y) [(.int, "a"), (.int, "b")] [.lit 1, .var y] body26 7 (glob26 y) 0 := by
  have hy : Store.Has ([] ++ [glob26 y]) y .int (some 7) := by simp [Store.Has, Store.find, glob26, Frame.find]
  exact ⟨[("a", some ⟨.int, some 1⟩), ("b", some ⟨.int, some 7⟩)], [("a", some ⟨.int, some 1⟩), ("b", some ⟨.int, some 7⟩)],
    .cons (v := 1) (by decide) (.lit 1) (.inl ⟨rfl, .inl (by decide)⟩) (conv_self (by decide))
      (.cons (v := 7) (by decide) (.var ⟨.int, hy, rd (by decide)⟩) (.inr ⟨y, .int, rfl, hy, by decide⟩) (conv_self (by decide)) .nil),
    by simp [Frame.names], .stop (.ret (.var ⟨.int, rfl, rd (by decide)⟩)) nofun⟩

/-- the variable is called `b`, like the parameter it is passed for -/
example : Gives E0 (st26 "b") 17 7 [glob26 "b"] :=
  C26_arguments_partial (loc := []) (n := 0) (stOf_Sane _ _ _) ((good26 "b").mono (by simp)) (call26 "b" (by decide)) (rep26 "b")
    (by simp [Avoid, Expr.uses]) (by simp [NoCapture]) (callIs26 "b")

/-- C26 in full is false: when the variable is called `a`, `f(1, a)` is 1. -/
theorem C26_refuted : ¬ C26_statement := by
  intro h
  have hg := h E0 (st26 "a") [] (glob26 "a") (glob26 "a") 17 [(.int, "a"), (.int, "b")] [.lit 1, .var "a"] (some 12) body26 7 0
    (stOf_Sane _ _ _) ((good26 "a").mono (by simp)) (call26 "a" (by decide)) (rep26 "a") (by simp [NoCapture]) (callIs26 "a")
  have : (7 : Int) = 1 := hg.unique 40 (by decide +kernel)
  omega

/-! ## C27 -/

/-- C27: a function that assigns to nothing but its parameters and its own variables
leaves every variable of every open scope of its caller as it is, whether it returns
a value or not.  Missing: bodies and arguments outside `okRules` (see C34). -/
theorem C27_by_value_partial {E : Env} {s : St} {σ σ' : Store} {t : TId} {ps es b fr p f n} (hs : Sane s)
    (g : Good s σ (ps.length + n)) (hc : CallTo E s t ps es b) (hP : Params okRules σ ps es fr) (hav : Avoid [] ps es)
    (hnd : fr.names.Nodup) (hr : SRep s.nodes (.body b) p) (hw : ∀ x ∈ p.writes, x ∈ ps.map (·.2))
    (hrun : Run okRules (fr :: σ) p f σ' n) : ∃ r s', Evl E s (some t) r s' ∧ Rel s' σ := by
  obtain ⟨top', rfl, h2, _⟩ := run_inside (fun _ => rfl) hrun (top := [fr]) (τ := σ) rfl (by simp)
    fun x hx => ⟨fr, by simp, by rw [params_names hP]; exact hw x hx⟩
  cases h2 with
  | @cons _ fr' _ _ _ h2 =>
  cases h2
  cases f with
  | next =>
    obtain ⟨s', h1, h2, _⟩ := call_end (m := 0) hs g hc hP hav hnd hr hrun
    exact ⟨none, s', h1, h2.rel⟩
  | ret v =>
    obtain ⟨r, s', h1, _, h2, _⟩ := call_conv (m := 0) hs g hc hP hav hnd hr hrun
    exact ⟨some r, s', h1, h2.rel⟩
  | left =>
    obtain ⟨s', h1, h2, _⟩ := call_left (m := 0) hs g hc hP hav hnd hr hrun
    exact ⟨none, s', h1, h2.rel⟩

/-- `int f(int a) { a = a + 1; a++; }`, called as `f(a)` -/
def prog27 : List Node :=
  [.ctype .int none, .lv (some 0) 4096 false 0, .ident "a", .ident "a", .kw .int, .chain [4], .decl (some 5) (some 3) 0, .chain [6], -- 0 … 7
   .integer 1, .bin .add (some 2) (some 8), .assign (some 2) (some 9), .pInc (some 2), .chain [10, 11], .ident "f", -- 8 … 13
   .fn (some 13) (some 7) none (some 12), .chain [2], .fnCall (some 13) (some 15)]

def st27 : St := stOf prog27 [⟨"a", 2, some 1⟩, ⟨"f", 13, some 14⟩] [7, 0, 0, 0, 0, 0, 0, 0]

def glob27 : Frame := [("a", some ⟨.int, some 7⟩), ("f", none)]

theorem good27 : Good st27 [glob27] 10 where
  wf := stOf_WF _ _ _
  flags := (stOf_Sane _ _ _).flags
  room := ⟨by decide +kernel, by simp [st27, stOf], memOf_livelt _⟩
  rel := ⟨[4096] ++ [], .cons (.var ⟨⟨0, ⟨false, 0, rfl⟩, ⟨none, rfl⟩, .inl (by decide), by decide +kernel⟩, by decide, by decide +kernel,
    by intro w hw; cases hw; decide +kernel⟩ (.other .nil)) .nil, by simp [Apart]⟩

example : ∃ r s', Evl E0 st27 (some 16) r s' ∧ Rel s' [glob27] := by
  have hy : Store.Has [glob27] "a" .int (some 7) := rfl
  have w1 : Store.write "a" 8 [[("a", some ⟨.int, some 7⟩)], glob27] = [[("a", some ⟨.int, some 8⟩)], glob27] := by decide
  refine C27_by_value_partial (n := 0) (ps := [(.int, "a")]) (es := [.var "a"]) (fr := [("a", some ⟨.int, some 7⟩)])
    (p := .seq (.act (.set "a" (.bin .add (.var "a") (.lit 1)))) (.seq (.act (.step "a" 1)) .skip)) (b := some 12) (f := .next)
    (stOf_Sane _ _ _) (good27.mono (by simp)) ⟨13, 14, 13, "f", some 7, some 15, none, rfl, ident_conv (x := "f") rfl (by decide +kernel), rfl, rfl, by simp,
      .inr ⟨7, 15, [6], [2], rfl, rfl, rfl, rfl, .cons rfl ⟨[4], [.int], rfl, .cons rfl .nil, by decide, by decide⟩ rfl .nil,
        .cons (.var rfl) .nil⟩⟩
    (.cons (v := 7) (by decide) (.var ⟨.int, hy, rd (by decide)⟩) (.inr ⟨"a", .int, rfl, hy, by decide⟩) (conv_self (by decide)) .nil)
    (by simp [Avoid, Expr.uses]) (by simp [Frame.names])
    (.braces rfl (.cons (.act (.set .self rfl rfl (.bin (o := .add) (l := 2) (r := 8) rfl (.var rfl) (.lit rfl))) rfl rfl)
      (.cons (.act (.step .self rfl (.inl ⟨rfl, rfl⟩) rfl) rfl rfl) .nil)))
    (by simp [Stmt.writes, Act.target, Stmt.binds])
    (.seq (n := 0) (m := 0) (.act (.set (c := .int) (u := some 7) (v := 8) (w := 8) rfl
      (.bin (.var ⟨.int, rfl, rd (by decide)⟩) (.lit 1) ⟨rfl, trivial⟩) (.inl ⟨rfl, .inl (by decide)⟩) (conv_self (by decide))))
      (.seq (n := 0) (m := 0) (.act (.step (c := .int) (v := 8) (w := 9) (by rw [w1]; rfl) (conv_self (by decide)))) .skip))

/-! ## C28 -/

/-- the number of parameters or arguments in a list that may be NULL -/
def Count (nd : TId → Option Node) (l : Ref) (n : Nat) : Prop :=
  (l = none ∧ n = 0) ∨ ∃ h ts, l = some h ∧ nd h = some (.chain ts) ∧ ts.length = n

/-- the call ends with an error message before anything has been executed -/
def Rejected (E : Env) (s : St) (t : TId) : Prop :=
  ∃ msg s', Conv E (fun R => R.ev (some t)) s (.stop (.die msg) s') ∧ s'.nodes = s.nodes ∧ s'.mem = s.mem ∧ s'.events = s.events

/-- **C28**: a call with the wrong number of arguments is rejected -/
def C28_statement : Prop :=
  ∀ (E : Env) (s : St) (t i f fd : TId) (name : String) (args callArgs ret stmts : Ref) (n m : Nat),
    s.nodes t = some (.fnCall (some i) callArgs) → Evl E s (some i) (some f) s → s.nodes f = some (.fn (some fd) args ret stmts) →
    s.nodes fd = some (.ident name) → stmts ≠ none → Count s.nodes args n → Count s.nodes callArgs m → m ≠ n → Rejected E s t

/-- C28 for functions with at least one parameter, called with any other number of
arguments.  Missing: functions declared without parameters, which bic lets have any
number of arguments. -/
theorem C28_count_partial (E : Env) (s : St) (t i f fd : TId) (name : String) (args callArgs ret stmts : Ref) (n m : Nat)
    (ht : s.nodes t = some (.fnCall (some i) callArgs)) (hi : Evl E s (some i) (some f) s)
    (hf : s.nodes f = some (.fn (some fd) args ret stmts)) (hfd : s.nodes fd = some (.ident name)) (hst : stmts ≠ none)
    (hn : Count s.nodes args n) (hm : Count s.nodes callArgs m) (hne : m ≠ n) (hpos : 0 < n) : Rejected E s t := by
  rcases hn with ⟨_, rfl⟩ | ⟨ad, ds, rfl, h1, h2⟩
  · omega
  refine ⟨"Invalid number of parameters to function", enterFn s name, fnCall_conv ht hi hf hst (Conv.fixed fun R => ?_), rfl, rfl, rfl⟩
  have hc : ∃ vs, chainElems callArgs (enterFn s name) = .ok vs (enterFn s name) ∧ vs.length = m := by
    rcases hm with ⟨rfl, rfl⟩ | ⟨ca, vs, rfl, h3, h4⟩
    · exact ⟨[], rfl, rfl⟩
    · exact ⟨vs, chainElems_apply h3, h4⟩
  obtain ⟨vs, h3, h4⟩ := hc
  have h5 : chainElems (some ad) (enterFn s name) = .ok ds (enterFn s name) := chainElems_apply h1
  have h6 : idStr (some fd) s = .ok name s := by simp [idStr, nodeR, node_apply hfd]
  unfold callUser
  rw [bind_apply, h6]
  show (do
      match some ad with
      | some _ => do
        let ds ← chainElems (some ad)
        let vs ← chainElems callArgs
        if vs.length ≠ ds.length then die "Invalid number of parameters to function" else bindParams R ds vs
      | none => pure ()
      let jmp := (← curCtx).uid
      let r ← runBody R jmp s.nextUid stmts
      popCtx
      pure r : M Ref) (enterFn s name) = _
  simp only [bind_apply, h5, h3]
  rw [if_pos (by omega)]
  rfl

/-- a function of one parameter called with three arguments -/
example : Rejected E0 (stOf [.ident "f", .ident "a", .kw .int, .chain [2], .decl (some 3) (some 1) 0, .chain [4], .integer 7, .ret (some 6),
    .chain [7], .fn (some 0) (some 5) none (some 8), .chain [6, 6, 6], .fnCall (some 0) (some 10)] [⟨"f", 0, some 9⟩] []) 11 :=
  C28_count_partial E0 _ 11 0 9 0 "f" (some 5) (some 10) none (some 8) 1 3 rfl (ident_conv (x := "f") rfl (by decide +kernel)) rfl rfl (by simp)
    (.inr ⟨5, [4], rfl, rfl, rfl⟩) (.inr ⟨10, [6, 6, 6], rfl, rfl, rfl⟩) (by decide) (by decide)

/-- C28 in full is false: `f(7)` for `int f() { return 7; }` returns 7. -/
theorem C28_refuted : ¬ C28_statement := by
  intro h
  obtain ⟨msg, s', h1, _⟩ := h E0 (stOf [.ident "f", .integer 7, .ret (some 1), .chain [2], .fn (some 0) none none (some 3), .chain [1],
    .fnCall (some 0) (some 5)] [⟨"f", 0, some 4⟩] []) 6 0 4 0 "f" none (some 5) none (some 3) 0 1 rfl
    (ident_conv (x := "f") rfl (by decide +kernel)) rfl rfl (by simp) (.inl ⟨rfl, rfl⟩) (.inr ⟨5, [1], rfl, rfl, rfl⟩) (by decide)
  have := Conv.unique h1 (Conv.computed 20 (by decide +kernel))
  cases this

/-! ## C29 -/

/-- **C29**: a call gives the value of the return expression evaluated in that call,
after any history `s0 … s`; the program is that of `s0` -/
def C29_statement : Prop :=
  ∀ (E : Env) (s0 s : St) (loc : Store) (glob glob' : Frame) (t : TId) (ps : List (CT × String)) (es : List Expr) (b : Ref)
    (p : Spec.Stmt) (v : Int) (n : Nat), Sane s0 → Reach E s0 s → Sane s → Good s (loc ++ [glob]) (ps.length + n) →
    CallTo E s t ps es b → SRep s0.nodes (.body b) p → Avoid [] ps es → NoCapture ps p loc →
    CallIs okRules loc glob ps es p v glob' n → Gives E s t v (loc ++ [glob'])

/-- As long as the `return` statements of the function are as parsed (`SRep s.nodes`),
a call gives the value of the return expression evaluated in that call.  Missing
from C29: calls after the first one that executed the same `return` statement. -/
theorem C29_first_partial {E : Env} {s : St} {loc : Store} {glob glob' : Frame} {t : TId} {ps es b p v n} (hs : Sane s)
    (g : Good s (loc ++ [glob]) (ps.length + n)) (hc : CallTo E s t ps es b) (hr : SRep s.nodes (.body b) p)
    (hav : Avoid [] ps es) (hcl : NoCapture ps p loc) (h : CallIs okRules loc glob ps es p v glob' n) :
    Gives E s t v (loc ++ [glob']) := by
  obtain ⟨r, s', h1, h2, h3, _⟩ := call_gives (m := 0) hs g hc hr hav hcl h
  exact ⟨r, s', h1, h2, h3.rel⟩

/-! The program `int x = 1; int f(int a) { x++; return x + a; }` and the call `f(x)`. -/

def prog29 : List Node :=
  [.ctype .int none, .lv (some 0) 4096 false 0, .ident "x", .ident "a", .kw .int, .chain [4], -- 0 … 5
   .decl (some 5) (some 3) 0, .chain [6], .pInc (some 2), .bin .add (some 2) (some 3), .ret (some 9), -- 6 … 10
   .chain [8, 10], .ident "f", .fn (some 12) (some 7) none (some 11), .chain [2], .fnCall (some 12) (some 14)]

def st29 : St := stOf prog29 [⟨"x", 2, some 1⟩, ⟨"f", 12, some 13⟩] [1, 0, 0, 0, 0, 0, 0, 0]

def glob29 (v : Int) : Frame := [("x", some ⟨.int, some v⟩), ("f", none)]

def body29 : Spec.Stmt := .seq (.act (.step "x" 1)) (.seq (.ret (.bin .add (.var "x") (.var "a"))) .skip)

theorem good29 : Good st29 [glob29 1] 10 where
  wf := stOf_WF _ _ _
  flags := (stOf_Sane _ _ _).flags
  room := ⟨by decide +kernel, by simp [st29, stOf], memOf_livelt _⟩
  rel := ⟨[4096] ++ [], .cons (.var ⟨⟨0, ⟨false, 0, rfl⟩, ⟨none, rfl⟩, .inl (by decide), by decide +kernel⟩, by decide, by decide +kernel,
    by intro w hw; cases hw; decide +kernel⟩ (.other .nil)) .nil, by simp [Apart]⟩

theorem sane29 : Sane st29 := stOf_Sane _ _ _

theorem rep29 : SRep st29.nodes (.body (some 11)) body29 :=
  .braces rfl (.cons (.act (.step .self rfl (.inl ⟨rfl, rfl⟩) rfl) rfl rfl)
    (.cons (.ret rfl (.bin (o := .add) (l := 2) (r := 3) rfl (.var rfl) (.var rfl))) .nil))

theorem call29 (nd : TId → Option Node) (h : ∀ t n, st29.nodes t = some n → (∀ e, n ≠ .ret e) → nd t = some n) (s : St)
    (hn : s.nodes = nd) (hr : resolveGlobal "f" .normal s = some 13) : CallTo E0 s 15 [(.int, "a")] [.var "x"] (some 11) := by
  subst hn
  refine ⟨12, 13, 12, "f", some 7, some 14, none, h _ _ rfl (by simp), ident_conv (h 12 _ rfl (by simp)) hr,
    h _ _ rfl (by simp), h 12 _ rfl (by simp), by simp, .inr ⟨7, 14, [6], [2], rfl, rfl, h _ _ rfl (by simp), h _ _ rfl (by simp),
    .cons (h _ _ rfl (by simp)) ⟨[4], [.int], h 5 _ rfl (by simp), .cons (h 4 _ rfl (by simp)) .nil, by decide, by decide⟩
      (h 3 _ rfl (by simp)) .nil, .cons (.var (h 2 _ rfl (by simp))) .nil⟩⟩

theorem callIs29 {v : Int} (h1 : 0 ≤ v) (h2 : v ≤ 2) :
    CallIs okRules [] (glob29 v) [(.int, "a")] [.var "x"] body29 (v + 1 + v) (glob29 (v + 1)) 0 := by
  have r1 : InRange .int v := ⟨by simp [lo, width, signed]; omega, by simp [hi, width, signed]; omega⟩
  have r2 : InRange .int (v + 1) := ⟨by simp [lo, width, signed]; omega, by simp [hi, width, signed]; omega⟩
  have r3 : InRange .long v := ⟨by simp [lo, width, signed]; omega, by simp [hi, width, signed]; omega⟩
  have r4 : InRange .long (v + 1) := ⟨by simp [lo, width, signed]; omega, by simp [hi, width, signed]; omega⟩
  refine ⟨[("a", some ⟨.int, some v⟩)], [("a", some ⟨.int, some v⟩)],
    .cons (v := v) (by decide) (.var ⟨.int, rfl, r3⟩) (.inr ⟨"x", .int, rfl, rfl, by decide⟩) (conv_self r1) .nil, by simp [Frame.names], ?_⟩
  refine .seq (n := 0) (m := 0) (.act (.step (c := .int) (v := v) (w := v + 1) rfl (conv_self r2))) (.stop (.ret
    (.bin (.var ⟨.int, rfl, r4⟩) (.var ⟨.int, rfl, r3⟩) ⟨rfl, trivial⟩)) nofun)

/-- the first call gives 3 -/
example : Gives E0 st29 15 3 [glob29 2] :=
  C29_first_partial (loc := []) (glob := glob29 1) (ps := [(.int, "a")]) (n := 0) sane29 (good29.mono (by simp)) (call29 _ (fun _ _ h _ => h) st29 rfl (by decide +kernel)) rep29
    (by simp [Avoid]) (by simp [NoCapture]) (callIs29 (v := 1) (by omega) (by omega))

/-- C29 in full is false: the second call gives 3 again, not 5. -/
theorem C29_refuted : ¬ C29_statement := by
  intro h
  have hok : isOk ((run E0 40).ev (some 15) st29) = true := by decide +kernel
  obtain ⟨r, s', h1, h2, h3, h4, h5, h6⟩ := call_gives (loc := []) (glob := glob29 1) (ps := [(.int, "a")]) (n := 0) (m := 5) sane29 (good29.mono (by simp))
    (call29 _ (fun _ _ h _ => h) st29 rfl (by decide +kernel)) rep29 (by simp [Avoid]) (by simp [NoCapture]) (callIs29 (v := 1) (by omega) (by omega))
  have e : s' = evTo 40 15 st29 := evTo_unique 40 hok h1
  have hg := h E0 st29 s' [] (glob29 2) (glob29 3) 15 [(.int, "a")] [.var "x"] (some 11) body29 5 0 (stOf_Sane _ _ _)
    (.stmt .start h1) h4 (h3.mono (by simp)) (call29 _ h6 s' rfl (by rw [e]; decide +kernel)) rep29 (by simp [Avoid])
    (by simp [NoCapture]) (callIs29 (v := 2) (by omega) (by omega))
  have : (5 : Int) = 3 := hg.unique 40 (by rw [e]; decide +kernel)
  omega

/-! ## C30 -/

/-- statements without `break`, with unbraced `return`s and conditions of any value -/
def retLang : Lang := ⟨cTruth, False, fun _ => True, True, False⟩

/-- the call ends with the object `r` in the state `s'` of its `return` statement: the
memory and the outputs are those of `s'`, the scopes are those of the caller -/
def EndsAt (E : Env) (s : St) (t : TId) (r : Ref) (s' : St) : Prop :=
  ∃ s'', Evl E s (some t) r s'' ∧ s''.mem = s'.mem ∧ s''.events = s'.events ∧ CtxsEvol s.ctxs s''.ctxs

/-- **C30**: when the body of a called function executes a `return` statement, the call
ends there -/
def C30_statement : Prop :=
  ∀ (E : Env) (s s1 s' : St) (t i f fd : TId) (name : String) (args callArgs ret stmts r : Ref), Sane s →
    s.nodes t = some (.fnCall (some i) callArgs) → Evl E s (some i) (some f) s → s.nodes f = some (.fn (some fd) args ret stmts) →
    s.nodes fd = some (.ident name) → stmts ≠ none → Bound E (enterFn s name) args callArgs s1 →
    Exec retLang (Evt E) (CondIs E) s1 (.body stmts) (.ret r) s' → EndsAt E s t r s'

/-- C30 for `return` statements that stand in braces, at any depth of nested `if`s and
loops.  Missing: an unbraced `return` as body of an `if` or a loop, which bic
evaluates without returning. -/
theorem C30_return_partial (E : Env) (s s1 s' : St) (t i f fd : TId) (name : String) (args callArgs ret stmts r : Ref) (hs : Sane s)
    (ht : s.nodes t = some (.fnCall (some i) callArgs)) (hi : Evl E s (some i) (some f) s)
    (hf : s.nodes f = some (.fn (some fd) args ret stmts)) (hfd : s.nodes fd = some (.ident name)) (hst : stmts ≠ none)
    (hb : Bound E (enterFn s name) args callArgs s1) (hx : Exec okLang (Evt E) (CondIs E) s1 (.body stmts) (.ret r) s') :
    EndsAt E s t r s' := by
  obtain ⟨s'', _, _, h1, _, _, _, _, h2, h3, _, h4, _⟩ := callUser_return (stable_any E) hs hfd hb hx
  exact ⟨s'', fnCall_conv ht hi hf hst h1, h2, h3, h4⟩

/-- … and if the body ends without `return`, the call has no value -/
theorem C30_end (E : Env) (s s1 s' : St) (t i f fd : TId) (name : String) (args callArgs ret stmts : Ref) (hs : Sane s)
    (ht : s.nodes t = some (.fnCall (some i) callArgs)) (hi : Evl E s (some i) (some f) s)
    (hf : s.nodes f = some (.fn (some fd) args ret stmts)) (hfd : s.nodes fd = some (.ident name)) (hst : stmts ≠ none)
    (hb : Bound E (enterFn s name) args callArgs s1) (hx : Exec okLang (Evt E) (CondIs E) s1 (.body stmts) .next s') :
    EndsAt E s t none s' := by
  obtain ⟨h1, h2⟩ := callUser_end hs hfd hb hx
  have h3 : Evl E s (some t) none (leave s') := fnCall_conv ht hi hf hst h1
  exact ⟨leave s', h3, rfl, rfl, h2⟩

/-- `int f() { if (1) { if (1) { return 5; } } return 6; }` -/
def st30 (braced : Bool) : St :=
  stOf [.ident "f", .integer 1, .integer 5, .ret (some 2), .chain [3], .ifS (some 1) (some (if braced then 4 else 3)) none, -- 0 … 5
    .chain [5], .ifS (some 1) (some 6) none, .integer 6, .ret (some 8), .chain [7, 9], .fn (some 0) none none (some 10),
    .fnCall (some 0) none] [⟨"f", 0, some 11⟩] []

def st30a (b : Bool) : St := enter (enter (enterFn (st30 b) "f") "If statement") "If statement"

theorem one_is (s : St) (ht : s.nodes 1 = some (.integer 1)) (hf : ∀ c ∈ s.ctxs, c.shouldBreak = false) : CondIs E0 s 1 1 s :=
  ⟨1, s, int_tidy ht hf, .inl ⟨ht, rfl⟩⟩

theorem exec30 (L : Lang) (b : Bool) (hr : ∀ e, L.ret e) (h1 : L.truth 1 true) (hb : b = false → L.single) :
    Exec L (Evt E0) (CondIs E0) (enterFn (st30 b) "f") (.body (some 10)) (.ret (some 2)) (st30a b) := by
  have h0 : Sane (enterFn (st30 b) "f") := Sane.enterFn (stOf_Sane _ _ _) _
  have hi := h0.enter "If statement"
  have hii := hi.enter "If statement"
  have hret : Exec L (Evt E0) (CondIs E0) (st30a b) (.stmt 3) (.ret (some 2)) (st30a b) :=
    .ret (hr _) rfl (int_tidy rfl hii.flags)
  have hin : Exec L (Evt E0) (CondIs E0) (st30a b) (.body (some (if b then 4 else 3))) (.ret (some 2)) (st30a b) := by
    cases b
    · exact .single rfl rfl (fun _ => hb rfl) hret
    · exact .braces rfl (.jump (by simp) hret)
  exact .braces rfl (.jump (by simp) (.cond (s1 := enterFn (st30 b) "f") (v := 1) (b := true) rfl (one_is _ rfl h0.flags) h1
    (.braces rfl (.jump (by simp) (.cond (s1 := enter (enterFn (st30 b) "f") "If statement") (v := 1) (b := true) rfl
      (one_is _ rfl hi.flags) h1 hin)))))

example : EndsAt E0 (st30 true) 12 (some 2) (st30a true) :=
  C30_return_partial E0 _ _ _ 12 0 11 0 "f" none none none (some 10) (some 2) (stOf_Sane _ _ _) rfl
    (ident_conv (x := "f") rfl (by decide +kernel)) rfl rfl (by simp) (.inl ⟨rfl, rfl⟩) (exec30 okLang true (fun _ => trivial) okTruth_one nofun)

/-- C30 in full is false: without the braces around `return 5;` the call gives 6. -/
theorem C30_refuted : ¬ C30_statement := by
  intro h
  obtain ⟨s'', h1, _⟩ := h E0 (st30 false) _ _ 12 0 11 0 "f" none none none (some 10) (some 2) (stOf_Sane _ _ _) rfl
    (ident_conv (x := "f") rfl (by decide +kernel)) rfl rfl (by simp) (.inl ⟨rfl, rfl⟩)
    (exec30 retLang false (fun _ => trivial) (by simp [retLang, cTruth]) fun _ => trivial)
  have h2 := Conv.unique h1 (Conv.computed 40 (by decide +kernel))
  have : some 2 = outRef ((run E0 40).ev (some 12) (st30 false)) := (Out.ok.inj h2).1
  exact absurd this (by decide +kernel)

end Bic
