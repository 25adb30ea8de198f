import Verif.Proofs.FnPtr
import Verif.Props.Calls
/-!
# C114: calls through pointers to functions
-/

namespace Bic
open Spec

/-- what C says of a call through a pointer to the function with the parameters `ps` and the body `p`:
the parameters get the arguments, converted to their types, and the body runs with
them and the global variables -/
def PtrCallIs (glob : Frame) (ps : List (CT × String)) (as : List Arg) (p : Spec.Stmt) (fin : End) (glob' : Frame) (n : Nat) : Prop :=
  ∃ fr fr', PtrParams ps as fr ∧ fr.names.Nodup ∧ Run okRules [fr, glob] p fin [fr', glob'] n

/-- the call has the value of the `return` statement, converted to the type of the function -/
def ReturnsTo (s' : St) : Option CT → End → Ref → Prop
  | some c, .ret v, r => ∃ q w, r = some q ∧ Converts c v w ∧ Holds s' q c w
  | _, _, _ => True

/-- `t` is a call with the arguments `as` through a pointer to the interpreted function `f`,
which has the parameters `ps`, the result type `ret` and the body `b` -/
def CallsPtr (E : Env) (s : St) (t f : TId) (ps : List (CT × String)) (ret : Option CT) (b : Ref) (as : List Arg) (k : Nat) : Prop :=
  ∃ i x ca es fa, s.nodes t = some (.fnCall (some i) ca) ∧ Evl E s (some i) (some x) s ∧ FnPtrAt s x ret fa ∧ EntryOf s fa f ps ∧
    FnIs s.nodes f ps b ∧ ListOf s.nodes ca es ∧ HasArgs E s es as k

/-- **C114**: a call through a pointer to a function does what a call of the function does: it has the
same effect and the same value -/
def C114_statement : Prop :=
  ∀ (E : Env) (s : St) (loc : Store) (glob glob' : Frame) (t f : TId) (ps : List (CT × String)) (ret : Option CT) (b : Ref)
    (as : List Arg) (p : Spec.Stmt) (fin : End) (k n : Nat), Sane s → Good s (loc ++ [glob]) (1 + k + ps.length + (ps.length + n)) →
    CallsPtr E s t f ps ret b as k → (∀ c, ret = some c → integral c) → as.length ≤ 32 → SRep s.nodes (.body b) p → NoCapture ps p loc →
    PtrCallIs glob ps as p fin glob' n → Comes fin →
    ∃ r s', Evl E s (some t) r s' ∧ Rel s' (loc ++ [glob']) ∧ ReturnsTo s' ret fin r

theorem ptrParams_names {ps as fr} (h : PtrParams ps as fr) : fr.names = ps.map (·.2) := by
  induction h with
  | nil => rfl
  | cons _ _ _ ih => simp only [Frame.names, List.map_cons] at ih ⊢; rw [ih]

/-- C114 for the effect: the arguments arrive converted, the body runs once, the variables are
afterwards as C says, and the result is an object of the type of the function.  Missing: the
value, which bic drops, and the callers with a local variable that has the name of
a free variable of the function (C25). -/
theorem C114_effect_partial {E : Env} {s : St} {loc : Store} {glob glob' : Frame} {t f : TId} {ps : List (CT × String)} {ret : Option CT}
    {b : Ref} {as : List Arg} {p : Spec.Stmt} {fin : End} {k n m : Nat} (hs : Sane s)
    (g : Good s (loc ++ [glob]) (1 + k + ps.length + (ps.length + (n + m)))) (hc : CallsPtr E s t f ps ret b as k) (hn : as.length ≤ 32)
    (hr : SRep s.nodes (.body b) p) (hcl : NoCapture ps p loc) (h : PtrCallIs glob ps as p fin glob' n) (hfin : Comes fin) :
    ∃ r s', Evl E s (some t) r s' ∧ Good s' (loc ++ [glob']) m ∧ Sane s' ∧ uids s' = uids s ∧ ResultAt s s' ret r := by
  obtain ⟨i, x, ca, es, fa, c1, c2, c3, c4, c5, c6, c7⟩ := hc
  obtain ⟨fr, fr', hP, hnd, hrun⟩ := h
  obtain ⟨top', τ', e1, e2, _, e3⟩ := run_insert (loc := loc) hrun (top := [fr]) (τ := [glob]) rfl (by simp)
    fun x hx => (hcl x hx).imp (fun h => ⟨fr, by simp, by rw [ptrParams_names hP]; exact h⟩) id
  cases e2 with
  | cons _ e2 =>
    cases e2
    cases e1
    obtain ⟨r, s', z1, z2, z3, z4, _, z6⟩ := ptrCall (m := m) hs g c1 c2 c3 c4 c5 c6 c7 hP hn hnd hr e3 hfin
    exact ⟨r, s', z1, z2, z3, z4, z6⟩

/-- **C114**, the pointers: `&f` is a pointer to `f`, `f` can be called through it, nothing else changes and
the pointers made before stay pointers to their functions -/
theorem C114_address {E : Env} {s : St} {σ : Store} {t i f : TId} {b : Ref} {ps : List (CT × String)} {ret : Option CT} {m : Nat} (hs : Sane s)
    (g : Good s σ (2 + m)) (ht : s.nodes t = some (.addr (some i))) (hi : Evl E s (some i) (some f) s) (hf : FnIs s.nodes f ps b)
    (hr : FnRet s f ret) (hn : ps.length < 32) :
    ∃ v s' fa, Evl E s (some t) (some v) s' ∧ FnPtrAt s' v ret fa ∧ EntryOf s' fa f ps ∧ Good s' σ m ∧ Sane s' ∧ Kept s s' ∧
      uids s' = uids s ∧ s.mem.brk ≤ fa ∧ ∀ fa' f' ps', fa' < s.mem.brk → EntryOf s fa' f' ps' → EntryOf s' fa' f' ps' :=
  addr_fn hs g ht hi hf hr hn

/-! `int g = 1; int f(int a) { g = a; return a; } int (*p)(int) = &f;` and the call `p(5)` -/

def prog114 : List Node :=
  [.ctype .int none, .lv (some 0) 4096 false 0, .ident "g", .ident "a", .kw .int, .chain [4], .decl (some 5) (some 3) 0, .chain [6], -- 0 … 7
   .assign (some 2) (some 3), .ret (some 3), .chain [8, 9], .ident "f", .fn (some 11) (some 7) (some 0) (some 10), -- 8 … 12
   .ctype .ptr (some 12), .lv (some 13) 4104 false 0, .ident "p", .chain [0], .closure (some 16) (some 0) (some 12), -- 13 … 17
   .integer 5, .chain [18], .fnCall (some 15) (some 19), .addr (some 11)] -- 18 … 21

def st114 : St :=
  withClosures (stOf prog114 [⟨"g", 2, some 1⟩, ⟨"f", 11, some 12⟩, ⟨"p", 15, some 14⟩] [1, 0, 0, 0, 0, 0, 0, 0, 64, 0, 0, 0, 0, 0, 0, 0]) [(64, 17)]

def glob114 (v : Int) : Frame := [("g", some ⟨.int, some v⟩), ("f", none), ("p", none)]

theorem sane114 : Sane st114 := (stOf_Sane _ _ _).withClosures _

theorem good114 : Good st114 [glob114 1] 10 where
  wf := sane114.inv.wf
  flags := sane114.flags
  room := ⟨by decide +kernel, by simp [st114, withClosures, stOf], memOf_livelt _⟩
  rel := ⟨[4096] ++ [], .cons (.var ⟨⟨0, ⟨false, 0, rfl⟩, ⟨none, rfl⟩, .inl (by decide), by decide +kernel⟩, by decide, by decide +kernel,
    by intro w hw; cases hw; decide +kernel⟩ (.other (.other .nil))) .nil, by simp [Apart]⟩

theorem fn114 : FnIs st114.nodes 12 [(.int, "a")] (some 10) :=
  ⟨11, "f", some 7, some 0, rfl, rfl, by simp, .inr ⟨7, [6], rfl, rfl, .cons rfl ⟨[4], [.int], rfl, .cons rfl .nil, by decide, by decide⟩ rfl .nil⟩⟩

theorem args114 : HasArgs E0 st114 [18] [.const 5] 0 := by
  intro s0 g w _
  have h18 : s0.nodes 18 = some (.integer 5) := g.nodes _ _ rfl
  exact ⟨[18], s0, .cons (Conv.evNode h18 (Conv.const rfl)) .nil, .refl _, by omega, .cons h18 .nil⟩

theorem calls114 : CallsPtr E0 st114 20 12 [(.int, "a")] (some .int) (some 10) [.const 5] 0 :=
  ⟨15, 14, some 19, [18], 64, rfl, ident_conv (x := "p") rfl (by decide +kernel),
    ⟨13, 4104, false, 0, 12, some 11, some 7, some 0, some 10, [6], rfl, rfl, rfl, .inr ⟨7, rfl, rfl⟩, ⟨by decide +kernel, by decide +kernel⟩,
      .type (e := none) rfl, by decide +kernel, by decide +kernel⟩,
    ⟨17, 16, [0], some 0, rfl, rfl, rfl, .cons (e := none) rfl .nil⟩, fn114, .inr ⟨19, rfl, rfl⟩, args114⟩

def body114 : Spec.Stmt := .seq (.act (.set "g" (.var "a"))) (.seq (.ret (.var "a")) .skip)

theorem rep114 : SRep st114.nodes (.body (some 10)) body114 :=
  .braces rfl (.cons (.act (.set .self rfl rfl (.var rfl)) rfl rfl) (.cons (.ret rfl (.var rfl)) .nil))

theorem callIs114 : PtrCallIs (glob114 1) [(.int, "a")] [.const 5] body114 (.ret 5) (glob114 5) 0 :=
  ⟨[("a", some ⟨.int, some 5⟩)], [("a", some ⟨.int, some 5⟩)], .cons (by decide) ⟨by decide, conv_self (by decide)⟩ .nil, by simp [Frame.names],
    .seq (n := 0) (m := 0) (.act (.set (c := .int) (u := some 1) (v := 5) (w := 5) rfl (.var ⟨.int, rfl, rd (by decide)⟩)
      (.inr ⟨"a", .int, rfl, rfl, by decide⟩) (conv_self (by decide)))) (.stop (.ret (.var ⟨.int, rfl, rd (by decide)⟩)) nofun)⟩

theorem noCapture114 : NoCapture [(.int, "a")] body114 [] := by simp [NoCapture]

/-- the function has run: `g` is 5 -/
example : ∃ r s', Evl E0 st114 (some 20) r s' ∧ Good s' [glob114 5] 3 ∧ Sane s' ∧ uids s' = uids st114 ∧ ResultAt st114 s' (some .int) r :=
  C114_effect_partial (loc := []) (n := 0) (m := 3) sane114 (good114.mono (by simp)) calls114 (by simp) rep114 noCapture114 callIs114 .ret

/-- `&f` -/
example : ∃ v s' fa, Evl E0 st114 (some 21) (some v) s' ∧ FnPtrAt s' v (some .int) fa ∧ EntryOf s' fa 12 [(.int, "a")] ∧ 64 ≠ fa ∧
    EntryOf s' 64 12 [(.int, "a")] := by
  obtain ⟨v, s', fa, h1, h2, h3, -, -, -, -, h4, h5⟩ := C114_address (m := 0) (t := 21) sane114 (good114.mono (by omega)) (i := 11) rfl
    (ident_conv (x := "f") rfl (by decide +kernel)) fn114 ⟨_, _, some 0, _, rfl, .type (c := .int) (e := none) rfl⟩ (by decide)
  have hb : 64 < st114.mem.brk := by decide +kernel
  exact ⟨v, s', fa, h1, h2, h3, by omega, h5 _ _ _ hb ⟨17, 16, [0], some 0, rfl, rfl, rfl, .cons (e := none) rfl .nil⟩⟩

/-- C114 in full is false: `p(5)` is not 5. -/
theorem C114_refuted : ¬ C114_statement := by
  intro h
  obtain ⟨r, s', h1, h2, h3⟩ := h E0 st114 [] (glob114 1) (glob114 5) 20 12 [(.int, "a")] (some .int) (some 10) [.const 5] body114 (.ret 5) 0 0
    sane114 (good114.mono (by simp)) calls114 (by rintro c ⟨⟩; decide) (by simp) rep114 noCapture114 callIs114 .ret
  obtain ⟨q, w, rfl, hw, hq⟩ := h3
  have e : w = 5 := Converts.unique (c := .int) (.inl (by decide)) hw (conv_self (by decide))
  subst e
  have hd : Denotes s' q 5 := .inr ⟨.int, 5, hq, by decide⟩
  have : (5 : Int) = 0 := Gives.unique (σ := [glob114 5]) (E := E0) (s := st114) (t := 20) ⟨q, s', h1, hd, h2⟩ 40 (by decide +kernel)
  omega

end Bic
