import Verif.Props.ExtCall
import Verif.Proofs.Library

/-!
# C125: `__builtin___strcpy_chk` and `__builtin___strcat_chk`

Headers compiled with `_FORTIFY_SOURCE` turn `strcpy(d, s)` into `__builtin___strcpy_chk(d, s, n)`.  bic's builtins
(evaluate.c:2774-2826) turn it back: they take the third argument off the call, for good, and evaluate a call of `strcpy`, looked up
by its name where the call stands.
-/

namespace Bic
open Spec

/-- `t` is a call of the builtin for `target` with the arguments `es` -/
structure BuiltinCall (E : Env) (s : St) (t ch : TId) (target : String) (es : List TId) : Prop where
  call : ∃ i p, s.nodes t = some (.fnCall (some i) (some ch)) ∧ Evl E s (some i) (some p) s ∧ s.nodes p = some (.builtin target)
  args : s.nodes ch = some (.chain es)

/-- the name stands for a library function at `fa` that returns a `c` -/
def LibName (E : Env) (s : St) (name : String) (fa : Nat) (c : CT) : Prop :=
  ∃ f fd params ρ ds, resolveGlobal name .normal s = some f ∧ s.nodes fd = some (.ident name) ∧ E.dlsym name = some fa ∧
    findClosure fa s.closures = none ∧ ListOf s.nodes params ds ∧ VarPos s.nodes ds none ∧ RetAt s ρ (some c) ∧
    (s.nodes f = some (.fn (some fd) params ρ none) ∨
     ∃ x stmts, s.nodes f = some (.extFunc (some x)) ∧ s.nodes x = some (.fn (some fd) params ρ stmts) ∧ fa < 2 ^ 64)

/-- the arguments without the third -/
def shortened (es : List TId) : List TId := es.take 2 ++ es.drop 3

/-- the state with the arguments of the call shortened -/
def shorten (s : St) (ch : TId) (es : List TId) : St :=
  { s with nodes := fun x => if x = ch then some (.chain (shortened es)) else s.nodes x }

/-- the call the builtin makes -/
def builtinSt (s : St) (ch : TId) (target : String) (es : List TId) : St :=
  addNode (addNode (shorten s ch es) (.ident target)) (.fnCall (some s.next) (some ch))

theorem shorten_wf {s : St} {ch : TId} {es : List TId} (w : WF s) (h : s.nodes ch = some (.chain es)) : WF (shorten s ch es) := by
  intro x hx
  have : x ≠ ch := fun e => absurd (w.lt h) (Nat.not_lt.mpr (e ▸ hx))
  show (if x = ch then _ else s.nodes x) = none
  rw [if_neg this]
  exact w x hx

theorem builtin_conv {E : Env} {s : St} {t ch : TId} {target : String} {es : List TId} {o : Out Ref} (w : WF s) (h : BuiltinCall E s t ch target es)
    (hc : Conv E (fun R => R.ev (some (s.next + 1))) (builtinSt s ch target es) o) : Conv E (fun R => R.ev (some t)) s o := by
  obtain ⟨i, p, h1, h2, h3⟩ := h.call
  refine Conv.evNode h1 (Conv.bind h2 ?_)
  refine hc.of_eq fun R => ?_
  have hn : s.next ≠ ch := fun e => Nat.lt_irrefl _ (e ▸ w.lt h.args : s.next < s.next)
  have ha : (addNode s (.ident target)).nodes ch = some (.chain es) := (addNode_ext w _).nodes _ _ h.args
  have e : addNode { addNode s (.ident target) with nodes := fun x => if x = ch then some (.chain (shortened es)) else (addNode s (.ident target)).nodes x }
      (.fnCall (some s.next) (some ch)) = builtinSt s ch target es := by
    unfold builtinSt
    congr 1
    simp only [addNode, shorten]
    congr 1
    funext x
    by_cases h1 : x = ch
    · subst h1; simp [Ne.symm hn]
    · simp [h1]
  simp only [bind_apply, peek_apply h3, pure_apply, node_apply h3, callBuiltin, mk_apply, node_apply ha, setNode, modify]
  show R.ev (some _) _ = R.ev (some _) _
  rw [← e]
  rfl

/-- **C125**, the full statement: a call of `__builtin___strcpy_chk` or `__builtin___strcat_chk` with three arguments calls the library
function with the first two -/
def C125_statement : Prop :=
  ∀ (E : Env) (s : St) (t ch a b n : TId) (target : String) (fa : Nat) (as : List Arg) (m : Nat), WF s → BuiltinCall E s t ch target [a, b, n] →
    E.dlsym target = some fa → findClosure fa s.closures = none → HasArgs E (shorten s ch [a, b, n]) [a, b] as m → Room s (m + 2) →
    ∃ r s' fs, Evl E s (some t) r s' ∧ s'.events = s.events ++ [⟨fa, fs, none⟩]

theorem builtinSt_grow {s : St} {ch : TId} {target : String} {es : List TId} (w : WF (shorten s ch es)) :
    Grow (shorten s ch es) (builtinSt s ch target es) :=
  ((addNode_ext w _).trans (addNode_ext ((addNode_ext w _).wf w) _)).grow

theorem builtin_lib {E : Env} {s : St} {t ch : TId} {target : String} {es : List TId} {fa : Nat} {c : CT} (w : WF s)
    (h : BuiltinCall E s t ch target es) (hf : LibName E (shorten s ch es) target fa c) :
    LibCall E (builtinSt s ch target es) (s.next + 1) fa none (some c) (shortened es) := by
  have w1 := shorten_wf w h.args
  have g := builtinSt_grow (target := target) w1
  obtain ⟨f, fd, params, ρ, ds, h1, h2, h3, h4, h5, h6, h7, h8⟩ := hf
  refine ⟨s.next, f, fd, target, params, ρ, ds, some ch, addNode_self _ _, ?_, g.nodes _ _ h2, h3, h4, h5.mono g.nodes, ?_,
    .inr ⟨ch, rfl, g.nodes _ _ (by simp [shorten])⟩, h7.grow g, ?_⟩
  · refine ident_conv (x := target) ((addNode_ext ((addNode_ext w1 _).wf w1) _).nodes _ _ (addNode_self _ _)) ?_
    rw [g.resolveGlobal]; exact h1
  · exact (h6.fixed.mono g.nodes).varPos
  · rcases h8 with h8 | ⟨x, st, h8, h9, h10⟩
    · exact .inl (g.nodes _ _ h8)
    · exact .inr ⟨x, st, g.nodes _ _ h8, g.nodes _ _ h9, h10⟩

/-- **C125**, the part that holds: if the name `strcpy` (or `strcat`) stands for a declared library function where the call stands, the
function is called with the values of the other arguments, its effect on the memory is the effect of the call, its value the value of
the call, and the third argument is gone from the call -/
theorem C125_partial (E : Env) (s : St) (t ch : TId) (target : String) (es : List TId) (fa : Nat) (as : List Arg) (m : Nat) (w : WF s)
    (h : BuiltinCall E s t ch target es) (hf : LibName E (shorten s ch es) target fa .ptr) (ha : HasArgs E (shorten s ch es) (shortened es) as m)
    (hr : Room s (m + 2)) (hn : as.length ≤ 32) (hz : ∀ z, .const z ∈ as → InRange .int z) (he : SaneEnv E)
    (hb : ∀ fs mem, (E.extCall fa fs mem).2.length ≤ 16) :
    ∃ r s' fs mem, Evl E s (some t) (some r) s' ∧ s'.events = s.events ++ [⟨fa, fs, none⟩] ∧ fs.length = as.length ∧
      (∀ (n : Nat) a f, as[n]? = some a → fs[n]? = some f → Arrives (E.fpConv .float .double) false a f) ∧
      (∀ x, s.mem.live x = true → mem.byte x = s.mem.byte x ∧ s'.mem.byte x = (E.extCall fa fs mem).1.byte x) ∧
      (∀ v, Returned .ptr (E.extCall fa fs mem).2 v → Holds s' r .ptr v) ∧
      s'.nodes ch = some (.chain (shortened es)) := by
  have w1 := shorten_wf w h.args
  have g := builtinSt_grow (target := target) w1
  have w2 := g.wf w1
  have hl := builtin_lib w h hf
  have ha2 : HasArgs E (builtinSt s ch target es) (shortened es) as m := fun s0 g0 => ha s0 (g.trans g0)
  have hr2 : Room (builtinSt s ch target es) (m + 2) := ⟨hr.brk, hr.ctxs, hr.livelt⟩
  obtain ⟨r, s', fs, mem, e1, e2, e3, e4⟩ := C66_effect_and_value E _ _ fa none .ptr _ as m w2 hl ha2 hr2 hn (.inr rfl) he hb
  obtain ⟨r', s'', fs', f1, f2, f3, f4⟩ := C58_promoted_partial E _ _ fa none (some .ptr) _ as m w2 hl ha2 hr2 hn hz
    (fun n c v hv => by obtain ⟨p, hp, _⟩ := hv; cases hp)
  obtain ⟨rfl, rfl⟩ : r' = some r ∧ s'' = s' := by simpa using Conv.unique f1 e1
  obtain rfl : fs' = fs := by rw [e2] at f2; simpa using f2.symm
  refine ⟨r, s'', fs', mem, builtin_conv w h e1, e2, f3, fun n a f h1 h2 => f4 n a f h1 h2 false ⟨(fun h => by cases h), (fun h => by obtain ⟨p, hp, _⟩ := h; cases hp)⟩, e3, e4, ?_⟩
  obtain ⟨s1, v, τ, a, arr, sz, e, g1, _, _, _, h4⟩ := libCall_conv w2 hl ha2 hr2 hn
  obtain ⟨rfl, rfl⟩ : v = r ∧ _ = s'' := by simpa using Conv.unique h4 e1
  exact g1.nodes _ _ (g.nodes _ _ (by simp [shorten]))

/-- … so that the same call, executed again, does the same: of the two arguments left of three none is dropped, and the hypotheses of
`C125_partial` are about the state itself -/
theorem C125_repeated (s : St) (ch : TId) (es : List TId) (h : es.length ≤ 3) (hc : s.nodes ch = some (.chain (shortened es))) :
    shortened (shortened es) = shortened es ∧ shorten s ch (shortened es) = s := by
  have e : shortened (shortened es) = shortened es := by
    match es, h with
    | [], _ | [_], _ | [_, _], _ | [_, _, _], _ => rfl
  refine ⟨e, ?_⟩
  unfold shorten
  rw [e]
  cases s
  congr 1
  funext x
  split
  · rename_i hx; subst hx; exact hc.symm
  · rfl

/-- where the name is not declared the program ends with an error, whatever the library has -/
theorem C125_undeclared (E : Env) (s : St) (t ch : TId) (target : String) (es : List TId) (w : WF s) (h : BuiltinCall E s t ch target es)
    (hx : resolveGlobal target .normal s = none) :
    ∃ s', Conv E (fun R => R.ev (some t)) s (.stop (.die "Could not resolve identifier") s') := by
  have w1 := shorten_wf w h.args
  refine ⟨builtinSt s ch target es, builtin_conv w h (Conv.evNode (addNode_self _ _) ?_)⟩
  have hi : (builtinSt s ch target es).nodes s.next = some (.ident target) :=
    (addNode_ext ((addNode_ext w1 _).wf w1) _).nodes _ _ (addNode_self _ _)
  refine Conv.bind_stop (Conv.evNode hi (Conv.const ?_))
  have hx' : resolveGlobal target .normal (builtinSt s ch target es) = none := hx
  simp [resolveIdG, idStr, nodeR, node_apply hi, get, hx', die, stop]

/-- `char *strcpy(); __builtin___strcpy_chk(p, "h", 5)` for a `char *p` -/
def nodes125 : List Node :=
  [.builtin "strcpy", .ident "__builtin___strcpy_chk", .ident "strcpy", .ctype .char none, .ctype .ptr (some 3),
   .fn (some 2) none (some 4) none, .ident "p", .lv (some 4) 4096 false 0, .str [104], .integer 5, .chain [6, 8, 9], .fnCall (some 1) (some 10)]

def st125 : St := stOf nodes125 [⟨"__builtin___strcpy_chk", 1, some 0⟩, ⟨"strcpy", 2, some 5⟩, ⟨"p", 6, some 7⟩] [0, 32, 0, 0, 0, 0, 0, 0]

/-- the same without the declaration -/
def st125u : St := stOf nodes125 [⟨"__builtin___strcpy_chk", 1, some 0⟩, ⟨"p", 6, some 7⟩] [0, 32, 0, 0, 0, 0, 0, 0]

/-- a library whose functions return 8192 -/
def E125 : Env := { E58 with extCall := fun _ _ m => (m, [0, 32, 0, 0, 0, 0, 0, 0]) }

theorem st125_wf : WF st125 := stOf_WF _ _ _
theorem st125u_wf : WF st125u := stOf_WF _ _ _

theorem call125 : BuiltinCall E125 st125 11 10 "strcpy" [6, 8, 9] :=
  ⟨⟨1, 0, rfl, ident_conv (x := "__builtin___strcpy_chk") rfl (by decide +kernel), rfl⟩, rfl⟩

theorem call125u : BuiltinCall E125 st125u 11 10 "strcpy" [6, 8, 9] :=
  ⟨⟨1, 0, rfl, ident_conv (x := "__builtin___strcpy_chk") rfl (by decide +kernel), rfl⟩, rfl⟩

theorem lib125 : LibName E125 (shorten st125 10 [6, 8, 9]) "strcpy" 64 .ptr :=
  ⟨5, 2, none, some 4, [], by decide +kernel, rfl, rfl, rfl, .inl ⟨rfl, rfl⟩, ⟨by simp, rfl⟩, .type (e := some 3) rfl, .inl rfl⟩

theorem args125 (s : St) (h6 : s.nodes 6 = some (.ident "p")) (h8 : s.nodes 8 = some (.str [104])) (hr : resolveGlobal "p" .normal s = some 7)
    (hv : Holds s 7 .ptr 8192) : HasArgs E125 s [6, 8] [.int .ptr 8192, .str [104]] 0 := by
  intro s0 g w _
  refine ⟨[7, 8], s0, .cons (ident_conv (x := "p") (g.nodes 6 _ h6) ?_) (.cons (Conv.evNode (g.nodes _ _ h8) (Conv.const rfl)) .nil), .refl _,
    by omega, .cons (hv.grow g) (.cons (g.nodes _ _ h8) .nil)⟩
  rw [g.resolveGlobal]
  exact hr

theorem holds125 : Holds (shorten st125 10 [6, 8, 9]) 7 .ptr 8192 :=
  ⟨4, 4096, ⟨⟨false, 0, rfl⟩, ⟨some 3, rfl⟩, .inr rfl, by decide +kernel⟩, by decide +kernel⟩

theorem holds125u : Holds (shorten st125u 10 [6, 8, 9]) 7 .ptr 8192 :=
  ⟨4, 4096, ⟨⟨false, 0, rfl⟩, ⟨some 3, rfl⟩, .inr rfl, by decide +kernel⟩, by decide +kernel⟩

theorem room125 : Room st125 2 := ⟨by decide +kernel, by simp [st125, stOf], memOf_livelt _⟩
theorem room125u : Room st125u 2 := ⟨by decide +kernel, by simp [st125u, stOf], memOf_livelt _⟩

/-- the call is made, once, and its value is what the library returned -/
example : ∃ r s' fs, Evl E125 st125 (some 11) (some r) s' ∧ s'.events = [⟨64, fs, none⟩] ∧ fs.length = 2 ∧ Holds s' r .ptr 8192 := by
  obtain ⟨r, s', fs, mem, h1, h2, h3, _, _, h6, _⟩ := C125_partial E125 st125 11 10 "strcpy" [6, 8, 9] 64 [.int .ptr 8192, .str [104]] 0
    st125_wf call125 lib125 (args125 _ rfl rfl (by decide +kernel) holds125) room125 (by decide)
    (by intro z hz; simp at hz) (fun a args m => ⟨fun _ h => h, Nat.le_refl _, fun h => h⟩) (fun _ _ => by simp [E125])
  exact ⟨r, s', fs, h1, h2, h3, h6 8192 (show Returned .ptr [0, 32, 0, 0, 0, 0, 0, 0] 8192 from ⟨by decide, by decide, 0, by decide⟩)⟩

theorem C125_refuted : ¬ C125_statement := by
  intro h
  obtain ⟨r, s', fs, h1, _⟩ := h E125 st125u 11 10 6 8 9 "strcpy" 64 [.int .ptr 8192, .str [104]] 0 st125u_wf call125u rfl rfl
    (args125 _ rfl rfl (by decide +kernel) holds125u) room125u
  obtain ⟨s'', h2⟩ := C125_undeclared E125 st125u 11 10 "strcpy" [6, 8, 9] st125u_wf call125u (by decide +kernel)
  have := Conv.unique h1 h2
  cases this

end Bic
