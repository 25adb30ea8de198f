import Verif.Props.Enum
import Verif.Proofs.Structs
import Verif.Props.ExtCall
/-!
# C115: variables declared with `extern`
-/

namespace Bic
open Spec

/-- the declarator `d` is `x` with `n` stars -/
inductive StarDecl (nd : TId → Option Node) : TId → Nat → TId → String → Prop
  | name {d x} : nd d = some (.ident x) → StarDecl nd d 0 d x
  | star {d e n i x} : nd d = some (.pointer (some e)) → StarDecl nd e n i x → StarDecl nd d (n + 1) i x

theorem StarDecl.ident {nd : TId → Option Node} {d n i x} (h : StarDecl nd d n i x) : nd i = some (.ident x) := by
  induction h with
  | name h => exact h
  | star _ _ ih => exact ih

/-- `τ` is the type `k` with `n` stars -/
inductive StarType (nd : TId → Option Node) : TId → CT → Nat → Prop
  | base {τ k} : nd τ = some (.ctype k none) → StarType nd τ k 0
  | star {τ τ' k n} : nd τ = some (.ctype .ptr (some τ')) → StarType nd τ' k n → StarType nd τ k (n + 1)

theorem StarType.mono {nd nd' : TId → Option Node} (h : ∀ t n, nd t = some n → nd' t = some n) {τ k n} (r : StarType nd τ k n) : StarType nd' τ k n := by
  induction r with
  | base h1 => exact .base (h _ _ h1)
  | star h1 _ ih => exact .star (h _ _ h1) ih

/-- what `TYPE` of the type `k` with `n` stars is -/
def tagOf (k : CT) (n : Nat) : CT := if n = 0 then k else .ptr

theorem StarType.tag {nd : TId → Option Node} {τ k n} (h : StarType nd τ k n) : ∃ e, nd τ = some (.ctype (tagOf k n) e) := by
  cases h with
  | base h => exact ⟨_, h⟩
  | star h _ => exact ⟨_, h⟩

theorem stars_conv {E : Env} {nd0 : TId → Option Node} {d i : TId} {n : Nat} {x : String} (h : StarDecl nd0 d n i x) :
    ∀ {s : St} {τ : TId} {k : CT} {m : Nat}, (∀ t n, nd0 t = some n → s.nodes t = some n) → WF s → StarType s.nodes τ k m →
    ∃ τ' s', Conv E (fun R => R.resolvePtr (some d) (some τ)) s (.ok (some i, some τ') s') ∧ Ext s s' ∧ StarType s'.nodes τ' k (m + n) := by
  induction h with
  | @name d x h =>
    intro s τ k m hs w hτ
    exact ⟨τ, s, Conv.resolvePtr (Conv.fixed fun R => by simp [resolvePtrStep, peek_apply (hs _ _ h)]), Ext.refl s, hτ⟩
  | @star d e n i x h _ ih =>
    intro s τ k m hs w hτ
    have x1 := addNode_ext w (.ctype .ptr (some τ))
    obtain ⟨τ', s', c, x2, h2⟩ := ih (s := addNode s (.ctype .ptr (some τ))) (τ := s.next) (k := k) (m := m + 1)
      (fun t n h => x1.nodes t n (hs t n h)) (x1.wf w) (.star (addNode_self s _) (hτ.mono x1.nodes))
    refine ⟨τ', s', Conv.resolvePtr (Conv.of_eq c fun R => ?_), x1.trans x2, ?_⟩
    · simp [resolvePtrStep, peek_apply (hs _ _ h), mk_apply]
    · rw [show m + (n + 1) = m + 1 + n by omega]; exact h2

/-- `t` is the declaration `extern T *…*x;` with the type `k` and `n` stars; `i` is the identifier `x` -/
def ExtDecl (s : St) (t i : TId) (x : String) (k : CT) (n : Nat) : Prop :=
  ∃ specs ds d off l ks, s.nodes t = some (.decl (some specs) (some ds) off) ∧ s.nodes specs = some (.chain l) ∧ KwChain s.nodes l ks ∧
    .extern ∈ ks ∧ .typedef ∉ ks ∧ resolveKws 0 ks = some (.c k) ∧ OneDecl s.nodes ds d ∧ StarDecl s.nodes d n i x

theorem chainHasKw_mem {s : St} {l ks} (h : KwChain s.nodes l ks) (k : Kw) (hk : k ∈ ks) : chainHasKw k l s = .ok true s := by
  induction h with
  | nil => cases hk
  | @cons t l k' ks h1 _ ih =>
    by_cases e : k' = k
    · simp [chainHasKw, node_apply h1, e]
    · simp only [List.mem_cons, Ne.symm e, false_or] at hk
      simp [chainHasKw, node_apply h1, e, ih hk]

/-- `handle_extern_decl` for the identifier `i` named `x` and the type `τ` -/
def externTail (E : Env) (x : String) (i τ : TId) : M Ref := do
  match resolveCurrent x .normal (← get) with
  | some p => do
    let (pty, _) ← lvFields p
    if ← sameTypeTag pty (some τ) then pure (some i)
    else die "Attempted to redeclare with a different type"
  | none => do
    let a ← resolveSymbol E (some i)
    let t ← mk (.lv (some τ) a false 0)
    mapIdentifier (some i) (some t)
    pure (some i)

/-- an `extern` declaration comes down to its identifier -/
theorem extern_conv {E : Env} {s : St} {t i : TId} {x : String} {k : CT} {n : Nat} (w : WF s) (h : ExtDecl s t i x k n) :
    ∃ s1 τ, Ext s s1 ∧ StarType s1.nodes τ k n ∧ s1.nodes i = some (.ident x) ∧ Conv E (fun R => R.ev (some t)) s (externTail E x i τ s1) := by
  obtain ⟨specs, ds, d, off, l, ks, h1, h2, h3, h4, h5, h6, h7, h8⟩ := h
  have x1 := addNode_ext w (.ctype k none)
  obtain ⟨τ, s1, c1, x2, h9⟩ := stars_conv (E := E) h8 (s := addNode s (.ctype k none)) (τ := s.next) (k := k) (m := 0) x1.nodes (x1.wf w)
    (.base (addNode_self _ _))
  have hx := x1.trans x2
  have hi := hx.nodes _ _ h8.ident
  refine ⟨s1, τ, hx, by simpa using h9, hi, Conv.evNode h1 ?_⟩
  have hd : Conv E (fun R => handleExternDecl E R (some s.next) (some d)) (addNode s (.ctype k none)) (externTail E x i τ s1) := by
    unfold handleExternDecl
    refine Conv.bind c1 (Conv.fixed fun R => ?_)
    simp only [externTail, bind_apply, peek_apply hi, resolveIdC, idStr, nodeR, node_apply hi, get, pure_apply]
    cases resolveCurrent x .normal s1 <;> rfl
  have hspec : resolveSpecs (some specs) s = .ok (some s.next) (addNode s (.ctype k none)) := by
    have := resolveSpecsLoop_kw h3 0
    rw [h6] at this
    simp [resolveSpecs, chainElems_apply h2, this]
  have hkw1 := chainHasKw_apply (h3.mono x1.nodes) .typedef h5
  have hkw2 := chainHasKw_mem (h3.mono x1.nodes) .extern h4
  refine hd.of_eq fun R => ?_
  show evalDecl E R t (some specs) (some ds) s = _
  have e1 : evalDecl E R t (some specs) (some ds) s = eachDecl (handleExternDecl E R (some s.next)) (some ds) (addNode s (.ctype k none)) := by
    simp [evalDecl, hspec, peek_apply (addNode_self s _), chainElems_apply (x1.nodes _ _ h2), hkw1, hkw2]
  rw [e1]
  rcases h7 with rfl | h7
  · cases h8 with
    | name h => simp only [eachDecl, bind_apply, peek_apply (x1.nodes _ _ h)]
    | star h _ => simp only [eachDecl, bind_apply, peek_apply (x1.nodes _ _ h)]
  · simp only [eachDecl, bind_apply, peek_apply (x1.nodes _ _ h7), forEachLast]
    cases handleExternDecl E R (some s.next) (some d) (addNode s (.ctype k none)) <;> rfl

/-- the run ends with the message, and no variable has changed -/
def DiesWith (E : Env) (s : St) (t : TId) (msg : String) : Prop :=
  ∃ s', Conv E (fun R => R.ev (some t)) s (.stop (.die msg) s') ∧ s'.mem = s.mem ∧ s'.ctxs = s.ctxs

/-- `x` is a global variable `v` of the type `k` with `n` stars, not hidden by another one -/
def IsGlobal (s : St) (x : String) (v : TId) (k : CT) (n : Nat) : Prop :=
  ∃ inner g τ a arr sz, s.ctxs = inner ++ [g] ∧ (∀ c ∈ inner, ∀ b ∈ c.ids, b.name ≠ x) ∧ findId x g.ids = some v ∧
    s.nodes v = some (.lv (some τ) a arr sz) ∧ StarType s.nodes τ k n

/-- **C115**: `extern T x;` refers to the global variable `x` if it has the type `T`, anything else is an error -/
def C115_statement : Prop :=
  ∀ (E : Env) (s : St) (t i v : TId) (x : String) (k k' : CT) (n n' : Nat), WF s → ExtDecl s t i x k n → IsGlobal s x v k' n' →
    (k = k' → n = n' → ∃ s', Evl E s (some t) (some i) s' ∧ resolveGlobal x .normal s' = some v) ∧
    (¬ (k = k' ∧ n = n') → ∃ msg, DiesWith E s t msg)

/-- `x` is declared in the innermost scope as the variable `v` of the type `k` with `n` stars -/
def IsHere (s : St) (x : String) (v : TId) (k : CT) (n : Nat) : Prop :=
  ∃ τ a arr sz, resolveCurrent x .normal s = some v ∧ s.nodes v = some (.lv (some τ) a arr sz) ∧ StarType s.nodes τ k n

theorem sameTypeTag_apply {s : St} {τ τ' : TId} {k k' : CT} {n n' : Nat} (h : StarType s.nodes τ k n) (h' : StarType s.nodes τ' k' n') :
    sameTypeTag (some τ) (some τ') s = .ok (tagOf k n == tagOf k' n') s := by
  obtain ⟨e, h1⟩ := h.tag
  obtain ⟨e', h2⟩ := h'.tag
  simp [sameTypeTag, nodeR, node_apply h1, node_apply h2]

/-- **C115**, again: where `x` is declared in the innermost scope with a type that has the same `TYPE`,
the declaration changes no variable and no name … -/
theorem C115_again {E : Env} {s : St} {t i v : TId} {x : String} {k k' : CT} {n n' : Nat} (w : WF s) (h : ExtDecl s t i x k n)
    (hv : IsHere s x v k' n') (ht : tagOf k n = tagOf k' n') : ∃ s', Evl E s (some t) (some i) s' ∧ Ext s s' := by
  obtain ⟨τ', a, arr, sz, v1, v2, v3⟩ := hv
  obtain ⟨s1, τ, x1, hτ, hi, hc⟩ := extern_conv (E := E) w h
  refine ⟨s1, ?_, x1⟩
  have hr : resolveCurrent x .normal s1 = some v := by unfold resolveCurrent at v1 ⊢; rw [x1.ctxs]; exact v1
  have : externTail E x i τ s1 = .ok (some i) s1 := by
    simp only [externTail, bind_apply, get, hr, lvFields, node_apply (x1.nodes _ _ v2), pure_apply, sameTypeTag_apply (v3.mono x1.nodes) hτ, ht,
      beq_self_eq_true, if_true]
  rw [this] at hc
  exact hc

/-- … and otherwise the run ends -/
theorem C115_clash {E : Env} {s : St} {t i v : TId} {x : String} {k k' : CT} {n n' : Nat} (w : WF s) (h : ExtDecl s t i x k n)
    (hv : IsHere s x v k' n') (ht : tagOf k n ≠ tagOf k' n') : DiesWith E s t "Attempted to redeclare with a different type" := by
  obtain ⟨τ', a, arr, sz, v1, v2, v3⟩ := hv
  obtain ⟨s1, τ, x1, hτ, hi, hc⟩ := extern_conv (E := E) w h
  refine ⟨s1, ?_, x1.mem, x1.ctxs⟩
  have hr : resolveCurrent x .normal s1 = some v := by unfold resolveCurrent at v1 ⊢; rw [x1.ctxs]; exact v1
  have hb : (tagOf k' n' == tagOf k n) = false := by simpa using Ne.symm ht
  have : externTail E x i τ s1 = .stop (.die "Attempted to redeclare with a different type") s1 := by
    simp only [externTail, bind_apply, get, hr, lvFields, node_apply (x1.nodes _ _ v2), pure_apply, sameTypeTag_apply (v3.mono x1.nodes) hτ, hb,
      Bool.false_eq_true, if_false]
    rfl
  rw [this] at hc
  exact hc

/-- **C115**, the objects of libraries: if `x` is not declared in the innermost scope, it becomes the object at the
address of the symbol `x`, with the type of the declaration; no memory and no other name changes -/
theorem C115_library {E : Env} {s : St} {t i : TId} {x : String} {k : CT} {n a : Nat} (w : WF s) (hne : s.ctxs ≠ []) (h : ExtDecl s t i x k n)
    (hf : Fresh s x) (ha : E.dlsym x = some a) :
    ∃ v τ s', Evl E s (some t) (some i) s' ∧ resolveGlobal x .normal s' = some v ∧ s'.nodes v = some (.lv (some τ) a false 0) ∧
      StarType s'.nodes τ k n ∧ s'.mem = s.mem ∧ Kept s s' ∧ ∀ y, y ≠ x → resolveGlobal y .normal s' = resolveGlobal y .normal s := by
  obtain ⟨s1, τ, x1, hτ, hi, hc⟩ := extern_conv (E := E) w h
  have hf1 : Fresh s1 x := by intro c cs e; exact hf c cs (by rw [← x1.ctxs]; exact e)
  have x2 := addNode_ext (x1.wf w) (.lv (some τ) a false 0)
  have hf2 : Fresh (addNode s1 (.lv (some τ) a false 0)) x := hf1
  have hne1 : s1.ctxs ≠ [] := by rw [x1.ctxs]; exact hne
  have : externTail E x i τ s1 = .ok (some i) (bindSt (addNode s1 (.lv (some τ) a false 0)) ⟨x, i, some s1.next⟩) := by
    simp only [externTail, bind_apply, get, hf1.resolve, resolveSymbol, nodeR, node_apply hi, ha, pure_apply, mk_apply,
      mapIdentifier_apply (x2.nodes _ _ hi) hne1 hf2.resolve]
  rw [this] at hc
  refine ⟨s1.next, τ, _, hc, resolveGlobal_bind hf2 hne1, addNode_self _ _, hτ.mono x2.nodes, ?_, fun t n h => x2.nodes _ _ (x1.nodes _ _ h), fun y hy => ?_⟩
  · exact x1.mem
  · rw [resolveGlobal_other hy, x2.resolveGlobal, x1.resolveGlobal]

/-- **C115**, the others: if no library has an `x` and it is not declared in the innermost scope, the run
ends, whatever `x` is outside -/
theorem C115_unlinked {E : Env} {s : St} {t i : TId} {x : String} {k : CT} {n : Nat} (w : WF s) (h : ExtDecl s t i x k n)
    (hf : Fresh s x) (ha : E.dlsym x = none) : DiesWith E s t "Could not resolve extern symbol" := by
  obtain ⟨s1, τ, x1, hτ, hi, hc⟩ := extern_conv (E := E) w h
  have hf1 : Fresh s1 x := by intro c cs e; exact hf c cs (by rw [← x1.ctxs]; exact e)
  refine ⟨s1, ?_, x1.mem, x1.ctxs⟩
  have : externTail E x i τ s1 = .stop (.die "Could not resolve extern symbol") s1 := by
    simp only [externTail, bind_apply, get, hf1.resolve, resolveSymbol, nodeR, node_apply hi, ha]
    rfl
  rw [this] at hc
  exact hc

/-- C115 for declarations outside of functions and blocks and types of which at most one is a pointer.
Missing: the declarations in blocks and functions, where bic only looks for symbols of libraries
(`C115_unlinked`), and two pointers, which bic takes for the same type (`C115_again`). -/
theorem C115_global_partial {E : Env} {s : St} {t i v : TId} {x : String} {k k' : CT} {n n' : Nat} (w : WF s) (h : ExtDecl s t i x k n)
    (hv : IsGlobal s x v k' n') (h1 : s.ctxs.length = 1) (hp : n = 0 ∨ n' = 0) (hk : k ≠ .ptr) (hk' : k' ≠ .ptr) :
    (k = k' → n = n' → ∃ s', Evl E s (some t) (some i) s' ∧ resolveGlobal x .normal s' = some v) ∧
    (¬ (k = k' ∧ n = n') → ∃ msg, DiesWith E s t msg) := by
  obtain ⟨inner, g, τ, a, arr, sz, e1, e2, e3, e4, e5⟩ := hv
  have e0 : inner = [] := by
    rw [e1] at h1
    simp at h1
    exact h1
  subst e0
  have hx : IsHere s x v k' n' := ⟨τ, a, arr, sz, by simp [resolveCurrent, e1, Ctx.map, e3], e4, e5⟩
  constructor
  · rintro rfl rfl
    obtain ⟨s', c1, c2⟩ := C115_again (E := E) w h hx rfl
    refine ⟨s', c1, ?_⟩
    rw [c2.resolveGlobal]
    simp [resolveGlobal, e1, findInChain, Ctx.map, e3]
  · intro hne
    refine ⟨_, C115_clash w h hx ?_⟩
    unfold tagOf
    rcases hp with rfl | rfl
    · by_cases hn : n' = 0
      · subst hn
        simpa using hne
      · simp [hn, hk]
    · by_cases hn : n = 0
      · subst hn
        simpa using hne
      · simp [hn, Ne.symm hk']

/-! `int x;` in a script, and `extern int x;`, `extern char x;` and `extern int *x;` in the outermost scope and in a block;
`int *p;` and `extern char *p;`; `extern char **environ;` -/

def prog115 : List Node :=
  [.ctype .int none, .lv (some 0) 4096 false 0, .ident "x", .kw .extern, .kw .int, .chain [3, 4], .decl (some 5) (some 2) 0, -- 0 … 6
   .kw .char, .chain [3, 7], .decl (some 8) (some 2) 0, .ident "environ", .pointer (some 10), .pointer (some 11), .chain [12], -- 7 … 13
   .decl (some 8) (some 13) 0, .ctype .ptr (some 0), .lv (some 15) 4096 false 0, .ident "p", .pointer (some 17), .decl (some 8) (some 18) 0] -- 14 … 19

def st115 : St := stOf prog115 [⟨"x", 2, some 1⟩, ⟨"p", 17, some 16⟩] [7, 0, 0, 0, 0, 0, 0, 0]

theorem decl115 : ExtDecl st115 6 2 "x" .int 0 :=
  ⟨5, 2, 2, 0, [3, 4], [.extern, .int], rfl, rfl, .cons rfl (.cons rfl .nil), by decide, by decide, by decide, .inl rfl, .name rfl⟩

theorem char115 : ExtDecl st115 9 2 "x" .char 0 :=
  ⟨8, 2, 2, 0, [3, 7], [.extern, .char], rfl, rfl, .cons rfl (.cons rfl .nil), by decide, by decide, by decide, .inl rfl, .name rfl⟩

theorem env115 : ExtDecl st115 14 10 "environ" .char 2 :=
  ⟨8, 13, 12, 0, [3, 7], [.extern, .char], rfl, rfl, .cons rfl (.cons rfl .nil), by decide, by decide, by decide, .inr rfl,
    .star rfl (.star rfl (.name rfl))⟩

theorem global115 : IsGlobal st115 "x" 1 .int 0 :=
  ⟨[], ctx1 [⟨"x", 2, some 1⟩, ⟨"p", 17, some 16⟩], 0, 4096, false, 0, rfl, nofun, rfl, rfl, .base rfl⟩

example : ∃ s', Evl E0 st115 (some 6) (some 2) s' ∧ resolveGlobal "x" .normal s' = some 1 :=
  (C115_global_partial (stOf_WF _ _ _) decl115 global115 rfl (.inl rfl) (by decide) (by decide)).1 rfl rfl

example : ∃ msg, DiesWith E0 st115 9 msg :=
  (C115_global_partial (stOf_WF _ _ _) char115 global115 rfl (.inl rfl) (by decide) (by decide)).2 (by simp)

example := C115_library (E := E58) (s := st115) (a := 64) (stOf_WF _ _ _) (by simp [st115, stOf]) env115
  (by intro c cs e b hb; simp [st115, stOf] at e; rw [← e.1] at hb; simp [ctx1] at hb; rcases hb with rfl | rfl <;> decide) rfl

/-- `extern char *p;` after `int *p;` -/
example : ∃ s', Evl E0 st115 (some 19) (some 17) s' ∧ Ext st115 s' :=
  C115_again (k := .char) (n := 1) (k' := .int) (n' := 1) (v := 16) (x := "p") (stOf_WF _ _ _)
    ⟨8, 18, 18, 0, [3, 7], [.extern, .char], rfl, rfl, .cons rfl (.cons rfl .nil), by decide, by decide, by decide, .inl rfl, .star rfl (.name rfl)⟩
    ⟨15, 4096, false, 0, rfl, rfl, .star rfl (.base rfl)⟩ rfl

/-- a block in which `x` is not declared -/
def in115 : St := pushSt st115 "Block"

/-- C115 in full is false: in a block the global variable is not found. -/
theorem C115_refuted : ¬ C115_statement := by
  intro h
  have w0 : WF st115 := stOf_WF _ _ _
  have hw : WF in115 := w0
  have hd : ExtDecl in115 6 2 "x" .int 0 := decl115
  obtain ⟨s', h1, _⟩ := (h { E0 with dlsym := fun _ => none } in115 6 2 1 "x" .int .int 0 0 hw hd
    ⟨[⟨2, "Block", [], [], [], [], none, false, false⟩], ctx1 [⟨"x", 2, some 1⟩, ⟨"p", 17, some 16⟩], 0, 4096, false, 0, rfl, by simp, rfl, rfl, .base rfl⟩).1 rfl rfl
  obtain ⟨s2, h2, _⟩ := C115_unlinked (E := { E0 with dlsym := fun _ => none }) hw hd (by intro c cs e b hb; cases e; cases hb) rfl
  have := Conv.unique h1 h2
  cases this

end Bic
