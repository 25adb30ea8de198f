import Verif.Proofs.Witness
import Verif.Proofs.Decl
/-!
# C22–C24, C63: names, scopes, objects
-/

namespace Bic

/-! ## C22 -/

/-- the names and objects of a scope, in order of declaration -/
abbrev Scope := List (String × Ref)

/-- `x` denotes `o` in the stack of scopes (innermost first): some scope declares
`x` as `o`, and neither an earlier declaration of that scope nor any scope further
inside declares `x`. -/
inductive Innermost (x : String) (o : TId) : List Scope → Prop
  | here (l1 l2 rest) : (∀ p ∈ l1, p.1 ≠ x) → Innermost x o ((l1 ++ (x, some o) :: l2) :: rest)
  | outer (l rest) : (∀ p ∈ l, p.1 ≠ x) → Innermost x o rest → Innermost x o (l :: rest)

/-- no scope declares `x` -/
def Undeclared (x : String) (st : List Scope) : Prop := ∀ sc ∈ st, ∀ p ∈ sc, p.1 ≠ x

def scopeOf (c : Ctx) : Scope := c.ids.map fun b => (b.name, b.val)

/-- the stack of scopes of a state: the open contexts, then the included headers -/
def scopes (s : St) : List Scope := s.ctxs.map scopeOf ++ s.includeCtx.toList.map scopeOf

theorem findId_none {x : String} {l : List Binding} (h : ∀ b ∈ l, b.name ≠ x) : findId x l = none := by
  induction l with
  | nil => rfl
  | cons b l ih =>
    rw [findId, if_neg (h b List.mem_cons_self), ih fun c hc => h c (List.mem_cons_of_mem _ hc)]

theorem findId_here {x : String} {o : TId} {l : List Binding} {l1 l2 : Scope}
    (e : l.map (fun b => (b.name, b.val)) = l1 ++ (x, some o) :: l2) (h : ∀ p ∈ l1, p.1 ≠ x) :
    findId x l = some o := by
  induction l1 generalizing l with
  | nil =>
    cases l with
    | nil => cases e
    | cons b l =>
      simp only [List.map_cons, List.nil_append, List.cons.injEq, Prod.mk.injEq] at e
      rw [findId, if_pos e.1.1, e.1.2]
  | cons p l1 ih =>
    cases l with
    | nil => cases e
    | cons b l =>
      simp only [List.map_cons, List.cons_append, List.cons.injEq] at e
      have hb : b.name ≠ x := by
        have := h p List.mem_cons_self
        rw [← e.1] at this; exact this
      rw [findId, if_neg hb]
      exact ih e.2 fun q hq => h q (List.mem_cons_of_mem _ hq)

theorem findInChain_innermost {x : String} {o : TId} {sc : List Scope} (h : Innermost x o sc) :
    ∀ l : List Ctx, l.map scopeOf = sc → findInChain x .normal l = some o := by
  induction h with
  | here l1 l2 rest hl =>
    intro l e
    cases l with
    | nil => cases e
    | cons c l =>
      simp only [List.map_cons, List.cons.injEq] at e
      simp only [findInChain, Ctx.map, findId_here e.1 hl]
  | outer l' rest hl _ ih =>
    intro l e
    cases l with
    | nil => cases e
    | cons c l =>
      simp only [List.map_cons, List.cons.injEq] at e
      have : findId x c.ids = none := findId_none fun b hb => by
        have := hl (b.name, b.val) (by rw [← e.1]; exact List.mem_map.mpr ⟨b, hb, rfl⟩)
        exact this
      simp only [findInChain, Ctx.map, this]
      exact ih l e.2

theorem findInChain_append (x ns) (l l' : List Ctx) :
    findInChain x ns (l ++ l') = match findInChain x ns l with
      | some t => some t
      | none => findInChain x ns l' := by
  induction l with
  | nil => rfl
  | cons c l ih =>
    simp only [List.cons_append, findInChain]
    cases findId x (c.map ns) with
    | some t => rfl
    | none => exact ih

theorem resolveGlobal_eq (x ns) (s : St) :
    resolveGlobal x ns s = findInChain x ns (s.ctxs ++ s.includeCtx.toList) := by
  rw [findInChain_append]
  unfold resolveGlobal
  cases findInChain x ns s.ctxs with
  | some t => rfl
  | none =>
    cases s.includeCtx with
    | none => rfl
    | some c =>
      simp only [Option.toList, findInChain]
      cases findId x (c.map ns) <;> rfl

/-- C22: an identifier evaluates to its innermost declaration, without changing
anything. -/
theorem C22_innermost (E : Env) (s : St) (t o : TId) (x : String) (ht : s.nodes t = some (.ident x))
    (h : Innermost x o (scopes s)) : Conv E (fun R => R.ev (some t)) s (.ok (some o) s) := by
  refine ident_conv ht ?_
  rw [resolveGlobal_eq]
  exact findInChain_innermost h _ (by simp [scopes])

/-- C22: with no declaration anywhere the evaluation is given up. -/
theorem C22_undeclared (E : Env) (s : St) (t : TId) (x : String) (ht : s.nodes t = some (.ident x))
    (h : Undeclared x (scopes s)) :
    Conv E (fun R => R.ev (some t)) s (.stop (.die "Could not resolve identifier") s) := by
  refine Conv.evNode ht (Conv.const ?_)
  have : resolveGlobal x .normal s = none := by
    rw [resolveGlobal_eq]
    have : ∀ l : List Ctx, Undeclared x (l.map scopeOf) → findInChain x .normal l = none := by
      intro l
      induction l with
      | nil => intro _; rfl
      | cons c l ih =>
        intro hu
        have h1 : findId x c.ids = none := findId_none fun b hb =>
          hu (scopeOf c) (by simp) (b.name, b.val) (List.mem_map.mpr ⟨b, hb, rfl⟩)
        simp only [findInChain, Ctx.map, h1]
        exact ih fun sc hsc => hu sc (by simp only [List.map_cons, List.mem_cons]; exact .inr hsc)
    exact this _ (by simpa [scopes] using h)
  simp [resolveIdG, idStr, nodeR, node_apply ht, get, this, die, stop]

/-- a stack of two scopes both declaring `x`, the outer one also `y` -/
def stScopes : St :=
  { stOf [.ident "x", .integer 5, .integer 7, .ident "y", .ident "z"] [⟨"x", 0, some 1⟩] [] with
    ctxs := [ctx1 [⟨"x", 0, some 1⟩], ctx1 [⟨"y", 3, some 1⟩, ⟨"x", 0, some 2⟩]] }

example : Conv E0 (fun R => R.ev (some 0)) stScopes (.ok (some 1) stScopes) :=
  C22_innermost E0 stScopes 0 1 "x" rfl (.here [] [] _ (by simp))

example : Conv E0 (fun R => R.ev (some 3)) stScopes (.ok (some 1) stScopes) :=
  C22_innermost E0 stScopes 3 1 "y" rfl (.outer [("x", some 1)] _ (by simp) (.here [] [("x", some 2)] _ (by simp)))

example : Conv E0 (fun R => R.ev (some 4)) stScopes (.stop (.die "Could not resolve identifier") stScopes) :=
  C22_undeclared E0 stScopes 4 "z" rfl (by
    simp [Undeclared, scopes, stScopes, scopeOf, ctx1, stOf]
    rintro a b (⟨rfl, _⟩ | ⟨rfl, _⟩) <;> decide)

/-! ## C23 -/

/-- the declarations of `x` in a scope -/
def declsOf (x : String) (c : Ctx) : List Binding := c.ids.filter fun b => b.name = x

/-- the `i`-th scope from the bottom of the stack -/
def fromBottom (l : List Ctx) (i : Nat) : Option Ctx := l.reverse[i]?

theorem CtxsEvol.reverse_get {a b : List Ctx} (h : CtxsEvol a b) {i : Nat} {c : Ctx}
    (hc : a.reverse[i]? = some c) : ∃ c', b.reverse[i]? = some c' ∧ CtxEvol c c' := by
  induction h generalizing i with
  | nil => simp at hc
  | @cons c1 c2 l l' h1 h2 ih =>
    simp only [List.reverse_cons] at hc ⊢
    have hlen : l.reverse.length = l'.reverse.length := by simp [h2.length]
    by_cases hi : i < l.reverse.length
    · rw [List.getElem?_append_left hi] at hc
      rw [List.getElem?_append_left (by omega)]
      exact ih hc
    · rw [List.getElem?_append_right (by omega)] at hc ⊢
      rw [← hlen]
      cases hk : i - l.reverse.length with
      | zero => rw [hk] at hc; simp at hc; subst hc; exact ⟨c2, by simp, h1⟩
      | succ k => rw [hk] at hc; simp at hc

/-- C23: whatever is evaluated, however it ends: every scope that was open is still
open at the same depth, a name declared in it denotes the same object, and it has
not been declared again in that scope. -/
theorem C23_kept (E : Env) (n : Nat) (t : Ref) (s s' : St) (hi : Inv s)
    (h : (∃ r, (run E n).ev t s = .ok r s') ∨ ∃ w, (run E n).ev t s = .stop w s')
    (i : Nat) (c : Ctx) (hc : fromBottom s.ctxs i = some c) (x : String) (o : TId)
    (hx : findId x c.ids = some o) :
    ∃ c', fromBottom s'.ctxs i = some c' ∧ c'.uid = c.uid ∧ findId x c'.ids = some o ∧
      declsOf x c' = declsOf x c := by
  have hev : ∃ ok, Evol E ok s s' := by
    have := (run_pres E n).ev t s hi
    rcases h with ⟨r, h⟩ | ⟨w, h⟩ <;> rw [h] at this
    · exact ⟨_, this⟩
    · exact ⟨_, this⟩
  obtain ⟨ok, hev⟩ := hev
  obtain ⟨top, rest, e, hr, _⟩ := hev.ctxs
  obtain ⟨c', hc', he⟩ := hr.reverse_get hc
  have hlt : i < rest.reverse.length := by
    rw [List.getElem?_eq_some_iff] at hc'; exact hc'.1
  refine ⟨c', ?_, he.uid, ?_, ?_⟩
  · unfold fromBottom
    rw [e, List.reverse_append, List.getElem?_append_left hlt]; exact hc'
  · obtain ⟨add, ha, _⟩ := he.ids
    rw [ha]; exact findId_append add hx
  · obtain ⟨add, ha, hn⟩ := he.ids
    unfold declsOf
    rw [ha, List.filter_append]
    have : add.filter (fun b => b.name = x) = [] := by
      rw [List.filter_eq_nil_iff]
      intro b hb hbx
      have hbx' : b.name = x := by simpa using hbx
      have := hn b hb
      rw [hbx', hx] at this; cases this
    rw [this, List.append_nil]

/-- `d` is the declarator `x` or `x = …` -/
inductive DeclaresVar (nd : TId → Option Node) (x : String) : TId → Prop
  | plain {d} : nd d = some (.ident x) → DeclaresVar nd x d
  | init {d l r} : nd d = some (.assign (some l) r) → nd l = some (.ident x) → DeclaresVar nd x d

theorem redeclare_ident (E : Env) {s : St} {d τ : TId} {x : String} {k : CT} {e : Ref} {o : TId} (w : WF s)
    (hd : s.nodes d = some (.ident x)) (hτ : s.nodes τ = some (.ctype k e)) (hroom : Room s 1)
    (hx : resolveCurrent x .normal s = some o) :
    ∃ s', Conv E (fun R => R.handleDecl (some d) (some τ)) s
      (.stop (.die "Attempted to map already existing identifier") s') := by
  refine ⟨newVar s (some τ), Conv.handleDecl ?_⟩
  unfold handleDeclStep
  refine Conv.bind (a := (some d, some τ)) (s' := s) (Conv.resolvePtr ?_) (Conv.fixed fun R => ?_)
  · exact Conv.fixed fun R => by simp [resolvePtrStep, peek_apply hd]
  · have hd' := (newVar_grow w (some τ)).nodes _ _ hd
    have hx' : resolveCurrent x .normal (newVar s (some τ)) = some o := by
      rw [resolveCurrent_newVar]; exact hx
    simp [node_apply hτ, handleDeclSwitch, nodeR, node_apply hd, makeAndMapLiveVar, peek_apply hτ,
      makeLiveVar_apply _ hroom, mapIdentifier, resolveIdC, idStr, node_apply hd', get, hx', die, stop]

/-- C23, rejection: a declaration `T x, …;` or `T x = e, …;` with a type `T` given
by keywords is given up with an error when the current scope declares `x`. -/
theorem C23_redeclare (E : Env) (s : St) (t specs decls d : TId) (rest : List TId) (off : Nat) (x : String)
    (o : TId) (k : CT) (c : Ctx) (cs : List Ctx) (w : WF s) (hroom : Room s 1)
    (ht : s.nodes t = some (.decl (some specs) (some decls) off)) (hs : TypeSpecs s.nodes specs k)
    (hd : s.nodes decls = some (.chain (d :: rest))) (hdx : DeclaresVar s.nodes x d)
    (hc : s.ctxs = c :: cs) (hx : findId x c.ids = some o) :
    ∃ s', Conv E (fun R => R.ev (some t)) s
      (.stop (.die "Attempted to map already existing identifier") s') := by
  have hext := addNode_ext w (.ctype k none)
  generalize hs1 : addNode s (.ctype k none) = s1 at hext
  have hτ : s1.nodes s.next = some (.ctype k none) := by rw [← hs1]; exact addNode_self s _
  have w1 := hext.wf w
  have hroom1 := hroom.ext hext
  have hx1 : resolveCurrent x .normal s1 = some o := by
    unfold resolveCurrent; rw [hext.ctxs, hc]; exact hx
  have hdecl : ∃ s', Conv E (fun R => R.handleDecl (some d) (some s.next)) s1
      (.stop (.die "Attempted to map already existing identifier") s') := by
    cases hdx with
    | plain h => exact redeclare_ident E w1 (hext.nodes _ _ h) hτ hroom1 hx1
    | @init l r h hl =>
      obtain ⟨s', h'⟩ := redeclare_ident E w1 (hext.nodes _ _ hl) hτ hroom1 hx1
      refine ⟨s', Conv.handleDecl ?_⟩
      unfold handleDeclStep
      have h1 := hext.nodes _ _ h
      refine Conv.bind (a := (some d, some s.next)) (s' := s1) (Conv.resolvePtr
        (Conv.fixed fun R => by simp [resolvePtrStep, peek_apply h1])) ?_
      have h2 := Conv.bind_stop (g := fun R l' => (do
        match ← node d with
            | .assign _ r' => setNode d (.assign l' r')
            | _ => setNode d (.assign l' r)
            let _ ← R.ev (some d)
            pure l' : M Ref)) h'
      refine h2.congr fun R => ?_
      simp only [bind_apply, node_apply hτ, handleDeclSwitch, nodeR, node_apply h1]
      rfl
  obtain ⟨s', h'⟩ := hdecl
  refine ⟨s', evalDecl_conv w ht hs ?_⟩
  rw [hs1]
  have h2 := Conv.bind_stop (g := fun R r => forEachLast (fun t => R.handleDecl (some t) (some s.next)) r rest) h'
  refine h2.congr fun R => ?_
  simp [eachDecl, peek_apply (hext.nodes _ _ hd), forEachLast]

/-- `int x; … int x = 5;` -/
def stRedecl : St :=
  stOf [.ident "x", .ctype .int none, .lv (some 1) 4096 false 0, .kw .int, .chain [3], .integer 5,
        .assign (some 0) (some 5), .chain [6], .decl (some 4) (some 7) 0] [⟨"x", 0, some 2⟩] [1, 0, 0, 0]

example : ∃ s', Conv E0 (fun R => R.ev (some 8)) stRedecl
    (.stop (.die "Attempted to map already existing identifier") s') :=
  C23_redeclare E0 stRedecl 8 4 7 6 [] 0 "x" 2 .int _ [] (stOf_WF _ _ _)
    ⟨by decide +kernel, by simp [stRedecl, stOf], memOf_livelt _⟩ rfl
    ⟨[3], [.int], rfl, .cons rfl .nil, by decide, by decide⟩ rfl (.init (l := 0) (r := some 5) rfl rfl) rfl rfl

/-- the hypotheses of `C23_kept` are met by the same program: after the failed
declaration `x` is what it was -/
example : ∃ c', fromBottom (outSt stRedecl ((run E0 20).ev (some 8) stRedecl)).ctxs 0 = some c' ∧ c'.uid = 1 ∧
    findId "x" c'.ids = some 2 ∧ declsOf "x" c' = [⟨"x", 0, some 2⟩] :=
  C23_kept E0 20 (some 8) stRedecl _ (stOf_Inv _ _ _) (.inr ⟨.die "Attempted to map already existing identifier", by
    obtain ⟨s', h⟩ := C23_redeclare E0 stRedecl 8 4 7 6 [] 0 "x" 2 .int _ [] (stOf_WF _ _ _)
      ⟨by decide +kernel, by simp [stRedecl, stOf], memOf_livelt _⟩ rfl
      ⟨[3], [.int], rfl, .cons rfl .nil, by decide, by decide⟩ rfl (.init (l := 0) (r := some 5) rfl rfl) rfl rfl
    have hne : (run E0 20).ev (some 8) stRedecl ≠ .fuel := by
      intro hf
      have : isFuel ((run E0 20).ev (some 8) stRedecl) = false := by decide +kernel
      rw [hf] at this; cases this
    rw [Conv.unique (Conv.of_ev 20 rfl hne) h]; rfl⟩) 0 (ctx1 [⟨"x", 0, some 2⟩]) rfl "x" 2 rfl

/-! ## C24 -/

/-- C24 in full: whatever is evaluated, if it ends normally the same scopes are
open, in the same order -/
def C24_statement : Prop :=
  ∀ (E : Env) (t r : Ref) (s s' : St), Inv s → Conv E (fun R => R.ev t) s (.ok r s') →
    s'.ctxs.map Ctx.uid = s.ctxs.map Ctx.uid

theorem CtxsEvol.uids {a b : List Ctx} (h : CtxsEvol a b) : b.map Ctx.uid = a.map Ctx.uid := by
  induction h with
  | nil => rfl
  | cons h1 _ ih => simp [h1.uid, ih]

/-- C24 for programs without `break`: every statement, loop and function call leaves
the stack of scopes as it found it. -/
theorem C24_restored_partial (E : Env) (t r : Ref) (s s' : St) (hi : Inv s) (hb : NoBrk s)
    (h : Conv E (fun R => R.ev t) s (.ok r s')) : s'.ctxs.map Ctx.uid = s.ctxs.map Ctx.uid := by
  obtain ⟨top, rest, e, hr, ht⟩ := (h.evol hi).ctxs
  rw [e, ht rfl hb, List.nil_append]
  exact hr.uids

/-- for all programs: no scope that was open is closed -/
theorem C24_kept_partial (E : Env) (t r : Ref) (s s' : St) (hi : Inv s)
    (h : Conv E (fun R => R.ev t) s (.ok r s')) : s.ctxs.map Ctx.uid <:+ s'.ctxs.map Ctx.uid := by
  obtain ⟨top, rest, e, hr, _⟩ := (h.evol hi).ctxs
  rw [e, List.map_append, hr.uids]
  exact List.suffix_append _ _

/-- `if (1) x = 5;` -/
def stIf : St :=
  stOf [.ident "x", .ctype .int none, .lv (some 1) 4096 false 0, .integer 5, .assign (some 0) (some 3), .integer 1,
        .ifS (some 5) (some 4) none] [⟨"x", 0, some 2⟩] [1, 0, 0, 0]

example : (outSt stIf ((run E0 20).ev (some 6) stIf)).ctxs.map Ctx.uid = [1] :=
  C24_restored_partial E0 (some 6) _ stIf _ (stOf_Inv _ _ _)
    ⟨fun t ht => by
        have : t < 7 := (stOf_WF _ _ _).lt ht
        have : ∀ t < 7, stIf.nodes t ≠ some .brk := by decide
        exact absurd ht (this t (by assumption)),
      fun c hc => by obtain rfl : c = ctx1 _ := by simpa [stIf, stOf] using hc
                     rfl⟩
    (Conv.computed 20 (by decide +kernel))

/-- `while (1) break;` -/
def stBreak : St := stOf [.integer 1, .brk, .whileS (some 0) (some 1)] [] []

/-- C24 in full is false: after `while (1) break;` the scope of the loop is still
open. -/
theorem C24_refuted : ¬ C24_statement := by
  intro h
  have := h E0 (some 2) _ stBreak _ (stOf_Inv _ _ _) (Conv.computed 20 (by decide +kernel))
  exact absurd this (by decide +kernel)

/-! ## C63 -/

/-- C63: whatever is evaluated, however it ends, a variable that existed still is at
its address and has its type. -/
theorem C63_objects (E : Env) (n : Nat) (t : Ref) (s s' : St) (hi : Inv s)
    (h : (∃ r, (run E n).ev t s = .ok r s') ∨ ∃ w, (run E n).ev t s = .stop w s') (x : TId) :
    (∀ ty a arr sz, s.nodes x = some (.lv ty a arr sz) → s'.nodes x = some (.lv ty a arr sz)) ∧
    (∀ d ms a, s.nodes x = some (.lcomp d ms a) → s'.nodes x = some (.lcomp d ms a)) ∧
    (∀ c e, s.nodes x = some (.ctype c e) → s'.nodes x = some (.ctype c e)) ∧
    (SaneEnv E → ∀ b, s.mem.live b = true → s'.mem.live b = true) := by
  have hev : ∃ ok, Evol E ok s s' := by
    have := (run_pres E n).ev t s hi
    rcases h with ⟨r, h⟩ | ⟨w, h⟩ <;> rw [h] at this
    · exact ⟨_, this⟩
    · exact ⟨_, this⟩
  obtain ⟨ok, hev⟩ := hev
  have key : ∀ nd, s.nodes x = some nd → mutKey nd = none → s'.nodes x = some nd := by
    intro nd h1 h2
    obtain ⟨n', h3, h4⟩ := hev.nodes x nd h1
    rcases h4 with rfl | ⟨_, h5⟩
    · exact h3
    · exact absurd h2 h5
  exact ⟨fun _ _ _ _ h => key _ h rfl, fun _ _ _ h => key _ h rfl, fun _ _ h => key _ h rfl,
    fun hs => (hev.mem hs).1⟩

example : (outSt stIf ((run E0 20).ev (some 6) stIf)).nodes 2 = some (.lv (some 1) 4096 false 0) :=
  (C63_objects E0 20 (some 6) stIf _ (stOf_Inv _ _ _) (.inl ⟨outRef ((run E0 20).ev (some 6) stIf), by
    have hk : isOk ((run E0 20).ev (some 6) stIf) = true := by decide +kernel
    revert hk
    cases (run E0 20).ev (some 6) stIf <;> simp [isOk, outRef, outSt]⟩) 2).1 _ _ _ _ rfl

end Bic
