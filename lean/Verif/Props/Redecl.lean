import Verif.Props.Static
import Verif.Props.Prog
import Verif.Proofs.Structs
/-!
# C36: executing a declaration again
-/

namespace Bic
open Spec

/-! ## Types of variables, independently of tree objects -/

namespace Spec

/-- the types of scalar variables: a basic type, pointers -/
inductive Ty where
  | basic (c : CT)
  | ptr (t : Ty)
deriving DecidableEq, Repr

end Spec

/-- the type object `τ` stands for the type -/
inductive TypeIs (nd : TId → Option Node) : TId → Ty → Prop
  | basic {τ c} : c ≠ .ptr → nd τ = some (.ctype c none) → TypeIs nd τ (.basic c)
  | ptr {τ e T} : nd τ = some (.ctype .ptr (some e)) → TypeIs nd e T → TypeIs nd τ (.ptr T)

theorem TypeIs.mono {nd nd' : TId → Option Node} (h : ∀ t n, nd t = some n → nd' t = some n) {τ T} (hk : TypeIs nd τ T) :
    TypeIs nd' τ T := by
  induction hk with
  | basic h0 h1 => exact .basic h0 (h _ _ h1)
  | ptr h1 _ ih => exact .ptr (h _ _ h1) ih

theorem TypeIs.unique {nd : TId → Option Node} {τ T T'} (h : TypeIs nd τ T) (h' : TypeIs nd τ T') : T = T' := by
  induction h generalizing T' with
  | basic h0 h1 =>
    cases h' with
    | basic _ h2 => rw [h1] at h2; cases h2; rfl
    | ptr h2 _ => rw [h1] at h2; cases h2
  | ptr h1 _ ih =>
    cases h' with
    | basic _ h2 => rw [h1] at h2; cases h2
    | ptr h2 h3 => rw [h1] at h2; cases h2; rw [ih h3]

/-- the object is a variable of the type -/
def HasType (s : St) (o : TId) (T : Ty) : Prop :=
  ∃ τ a, s.nodes o = some (.lv (some τ) a false 0) ∧ TypeIs s.nodes τ T

/-- **C36.** A declaration is executed; later, in a scope that does not declare the
names, it is executed again.  Every scalar variable it declared the first time has
the same type the second time. -/
def C36_statement : Prop :=
  ∀ (E : Env) (s s1 s2 s3 : St) (t specs ds : TId) (off : Nat) (r q : Ref), Sane s →
    s.nodes t = some (.decl (some specs) (some ds) off) →
    Evl E s (some t) r s1 → s1.ctxs.length = s.ctxs.length → Later E s1 s2 → s2.ctxs ≠ [] →
    (∀ x, DeclaredHere s1 x → ¬ DeclaredHere s x → ¬ DeclaredHere s2 x) →
    Evl E s2 (some t) q s3 →
    ∀ x o T, DeclaredHere s1 x → ¬ DeclaredHere s x → objectHere s1 x = some o → HasType s1 o T →
      ∃ o', objectHere s3 x = some o' ∧ HasType s3 o' T

/-! ## Declarators without initialisers -/

/-- the declarator `d` declares `x` with type `T'` when the specifiers give `T` -/
inductive Declarator (nd : TId → Option Node) : TId → Ty → String → Ty → Prop
  | ident {d T x} : nd d = some (.ident x) → Declarator nd d T x T
  | ptr {d e T x T'} : nd d = some (.pointer (some e)) → Declarator nd e (.ptr T) x T' → Declarator nd d T x T'

theorem Declarator.mono {nd nd' : TId → Option Node} (h : ∀ t n, nd t = some n → nd' t = some n) {d T x T'}
    (hk : Declarator nd d T x T') : Declarator nd' d T x T' := by
  induction hk with
  | ident h1 => exact .ident (h _ _ h1)
  | ptr h1 _ ih => exact .ptr (h _ _ h1) ih

theorem resolvePtr_type {E : Env} {nd0 : TId → Option Node} {d : TId} {T T' : Ty} {x} (hm : Declarator nd0 d T x T') :
    ∀ {s : St} {τ : TId}, (∀ t n, nd0 t = some n → s.nodes t = some n) → WF s → TypeIs s.nodes τ T →
    ∃ d' τ' s', Conv E (fun R => R.resolvePtr (some d) (some τ)) s (.ok (some d', some τ') s') ∧
      Ext s s' ∧ TypeIs s'.nodes τ' T' ∧ s'.nodes d' = some (.ident x) := by
  induction hm with
  | @ident d T x h =>
    intro s τ hs w hτ
    exact ⟨d, τ, s, Conv.resolvePtr (Conv.fixed fun R => by simp [resolvePtrStep, peek_apply (hs _ _ h)]),
      Ext.refl s, hτ, hs _ _ h⟩
  | @ptr d e0 T x T' h _ ih =>
    intro s τ hs w hτ
    have x1 := addNode_ext w (.ctype .ptr (some τ))
    obtain ⟨d', τ', s', c, x2, h2, h3⟩ := ih (s := addNode s (.ctype .ptr (some τ))) (τ := s.next)
      (fun t n h => x1.nodes t n (hs t n h)) (x1.wf w) (.ptr (addNode_self s _) (hτ.mono x1.nodes))
    refine ⟨d', τ', s', Conv.resolvePtr (Conv.of_eq c fun R => ?_), x1.trans x2, h2, h3⟩
    simp [resolvePtrStep, peek_apply (hs _ _ h), mk_apply]

/-- the tree of a declaration `T **x;` of a variable without initialiser -/
structure PlainDecl (nd : TId → Option Node) (t : TId) (x : String) (T : Ty) : Prop where
  tree : ∃ specs d off k, nd t = some (.decl (some specs) (some d) off) ∧ TypeSpecs nd specs k ∧ k ≠ .ptr ∧
    (Declarator nd d (.basic k) x T ∨ ∃ d', nd d = some (.chain [d']) ∧ Declarator nd d' (.basic k) x T)

theorem PlainDecl.mono {nd nd' : TId → Option Node} (h : ∀ t n, nd t = some n → nd' t = some n) {t x T}
    (hd : PlainDecl nd t x T) : PlainDecl nd' t x T := by
  obtain ⟨specs, d, off, k, h1, h2, h3, h4⟩ := hd.tree
  refine ⟨specs, d, off, k, h _ _ h1, h2.mono h, h3, ?_⟩
  rcases h4 with h4 | ⟨d', h4, h5⟩
  · exact .inl (h4.mono h)
  · exact .inr ⟨d', h _ _ h4, h5.mono h⟩

theorem Declarator.notChain {nd : TId → Option Node} {d T x T'} (h : Declarator nd d T x T') :
    ∃ n, nd d = some n ∧ ∀ l, n ≠ .chain l := by
  cases h <;> exact ⟨_, by assumption, by intros; simp⟩

/-- **C36, part.** Declarations of scalar variables and pointers of any depth, without
initialiser: whenever the declaration is executed – the first time, or the second
after any history – the variable it declares has the type the declaration says, and
the execution leaves the tree as it is. -/
theorem C36_plain_partial (E : Env) (s : St) (t : TId) (x : String) (T : Ty) (w : WF s) (hd : PlainDecl s.nodes t x T)
    (hx : ¬ DeclaredHere s x) (hroom : Room s 1) :
    ∃ r s' o, Evl E s (some t) r s' ∧ DeclaredHere s' x ∧ objectHere s' x = some o ∧ HasType s' o T ∧
      (∀ u n, s.nodes u = some n → s'.nodes u = some n) ∧ s'.ctxs.length = s.ctxs.length := by
  obtain ⟨specs, d0, off, k, h1, h2, h3, h4⟩ := hd.tree
  have x1 := addNode_ext w (.ctype k none)
  have w1 := x1.wf w
  obtain ⟨d, hdd, hwrap⟩ : ∃ d, Declarator s.nodes d (.basic k) x T ∧
      ∀ o, Conv E (fun R => R.handleDecl (some d) (some s.next)) (addNode s (.ctype k none)) o →
        Conv E (fun R => eachDecl (fun d => R.handleDecl d (some s.next)) (some d0)) (addNode s (.ctype k none)) o := by
    rcases h4 with h4 | ⟨d', h4, h5⟩
    · refine ⟨d0, h4, fun o h => h.of_eq fun R => ?_⟩
      obtain ⟨n, hn, hl⟩ := h4.notChain
      simp only [eachDecl, bind_apply, peek_apply (x1.nodes _ _ hn)]
      cases n <;> first | rfl | exact absurd rfl (hl _)
    · refine ⟨d', h5, fun o h => ?_⟩
      refine h.of_eq fun R => ?_
      simp only [eachDecl, bind_apply, peek_apply (x1.nodes _ _ h4), forEachLast]
      cases R.handleDecl (some d') (some s.next) (addNode s (.ctype k none)) <;> rfl
  obtain ⟨d', τ', s2, c2, x2, h5, h6⟩ := resolvePtr_type (E := E) (hdd.mono x1.nodes) (fun _ _ h => h) w1
    (.basic h3 (addNode_self s _))
  have w2 := x2.wf w1
  have x12 := x1.trans x2
  have hloc : ∀ b ∈ localIds s, b.name ≠ x := fun b hb hn => hx ⟨b, hb, hn⟩
  have hx0 : resolveCurrent x .normal s = none := by
    unfold resolveCurrent
    unfold localIds at hloc
    cases hc : s.ctxs with
    | nil => rfl
    | cons c cs =>
      rw [hc] at hloc
      exact findId_absent hloc
  have hx2 : resolveCurrent x .normal s2 = none := by rw [x12.grow.resolveCurrent]; exact hx0
  obtain ⟨k', e', hτ'⟩ : ∃ k' e', s2.nodes τ' = some (.ctype k' e') := by
    cases h5 with
    | basic _ h => exact ⟨_, _, h⟩
    | ptr h _ => exact ⟨_, _, h⟩
  have hr2 : Room s2 1 := ⟨by rw [x12.mem]; exact hroom.brk, x12.grow.ctxs_ne hroom.ctxs, x12.grow.livelt hroom.livelt⟩
  have hid := handleDecl_ident_conv (E := E) w2 h6 hτ' hr2 hx2
  have g2 := newVar_grow w2 (some τ')
  have hc2 : (newVar s2 (some τ')).ctxs ≠ [] := g2.ctxs_ne hr2.ctxs
  refine ⟨some d', _, s2.next, evalDecl_conv w h1 h2 (hwrap _ (handleDecl_ptr_conv c2 ⟨_, h6, by intros; simp⟩ hid)), ?_⟩
  have hl2 : localIds (declSt s2 τ' d' x) = localIds s ++ [⟨x, d', some s2.next⟩] := by
    have hcx := x12.ctxs
    unfold localIds declSt
    show (match bindCur _ (bump _ s2.ctxs) with | c :: _ => c.ids | [] => []) = _
    rw [hcx]
    cases hs : s.ctxs with
    | nil => exact absurd hs hroom.ctxs
    | cons c cs => rfl
  refine ⟨⟨⟨x, d', some s2.next⟩, by rw [hl2]; simp, rfl⟩, ?_, ⟨τ', s2.mem.brk, newVar_self _ _, h5.mono g2.nodes⟩, ?_, ?_⟩
  · unfold objectHere
    rw [hl2, findId_undeclared hx]
    simp [findId]
  · exact fun u n hn => g2.nodes _ _ (x12.nodes _ _ hn)
  · show (bindCur _ (bump _ s2.ctxs)).length = _
    rw [x12.ctxs]
    cases s.ctxs <;> rfl

/-! ## Declarations of integers with initialisers -/

/-- **C36, part.** Declarations of integer variables, with or without initialisers:
whenever the declaration is executed the variables have the type it says, and the
execution leaves the tree as it is, so that this holds again the next time.  (`σ` and
`σ'` are the variables before and after, `Spec.Declares` says that those declared
have the type `c`.) -/
theorem C36_init_partial (E : Env) (s : St) (σ σ' : Store) (m off : Nat) (t specs decls : TId) (c : CT) (ds) (hc : integral c)
    (ht : s.nodes t = some (.decl (some specs) (some decls) off)) (hs : TypeSpecs s.nodes specs c)
    (hd : DeclsRep s.nodes decls ds) (h : Declares okRules c σ ds σ') (g : Good s σ (ds.length + m)) :
    ∃ r s', Evt E s (some t) r s' ∧ Good s' σ' m ∧ (∀ u n, s.nodes u = some n → s'.nodes u = some n) := by
  obtain ⟨r, s', h1, h2, h3, -⟩ := decl_conv (E := E) hc ht hs hd h g
  exact ⟨r, s', h1, h2, h3⟩

/-! ## Pointers with initialisers -/

def bsRedecl : List Binding := [⟨"y", 5, some 8⟩]

/-- `int *p = &y;` -/
def stPtrInit : St :=
  stOf [.kw .int, .chain [0], .ident "p", .pointer (some 2), .void, .ident "y", .addr (some 5), .ctype .int none,
    .lv (some 7) 4096 false 0, .assign (some 3) (some 6), .chain [9], .decl (some 1) (some 10) 0] bsRedecl [5, 0, 0, 0, 0, 0, 0, 0]

/-- … executed once … -/
def stPtrInit1 : St := evTo 20 11 stPtrInit
/-- … and the scope left and entered again -/
def stPtrInit2 : St := { stPtrInit1 with ctxs := [ctx1 bsRedecl], nextUid := 2 }

theorem stPtrInit_first : Evl E0 stPtrInit (some 11) (some 2) stPtrInit1 :=
  evTo_conv 20 11 stPtrInit _ (by decide +kernel) (by decide +kernel)
theorem stPtrInit_again : Evl E0 stPtrInit2 (some 11) (some 2) (evTo 20 11 stPtrInit2) :=
  evTo_conv 20 11 stPtrInit2 _ (by decide +kernel) (by decide +kernel)

theorem stPtrInit_here : localIds stPtrInit = bsRedecl := by decide +kernel
theorem stPtrInit2_here : localIds stPtrInit2 = bsRedecl := by rfl
theorem stPtrInit_later : Later E0 stPtrInit1 stPtrInit2 :=
  .scopes _ _ .start ((Conv.evol stPtrInit_first (stOf_Inv _ _ _)).inv.fresh bsRedecl)
theorem stPtrInit_type : HasType stPtrInit1 14 (.ptr (.basic .int)) :=
  ⟨13, 4128, by decide +kernel, .ptr (e := 12) (by decide +kernel) (.basic (by decide) (by decide +kernel))⟩
theorem stPtrInit_declares : DeclaredHere stPtrInit1 "p" := ⟨⟨"p", 2, some 14⟩, by decide +kernel, rfl⟩
theorem stPtrInit_object : objectHere stPtrInit1 "p" = some 14 := by decide +kernel
theorem stPtrInit_len : stPtrInit1.ctxs.length = stPtrInit.ctxs.length := by decide +kernel
theorem stPtrInit_tree : stPtrInit.nodes 11 = some (.decl (some 1) (some 10) 0) := by decide +kernel
theorem stPtrInit_sane : Sane stPtrInit := stOf_Sane _ _ _
theorem stPtrInit_not : ¬ DeclaredHere stPtrInit "p" := by
  rintro ⟨b, hb, hn⟩
  rw [stPtrInit_here] at hb
  rw [List.mem_singleton.mp hb] at hn
  exact absurd hn (by decide)
theorem stPtrInit_out : ∀ x, DeclaredHere stPtrInit1 x → ¬ DeclaredHere stPtrInit x → ¬ DeclaredHere stPtrInit2 x := by
  rintro x - hno ⟨b, hb, hn⟩
  rw [stPtrInit2_here] at hb
  exact hno ⟨b, by rw [stPtrInit_here]; exact hb, hn⟩
theorem stPtrInit_ne : stPtrInit2.ctxs ≠ [] := List.cons_ne_nil _ _

/-- the second time `int *p = &y;` declares an `int` -/
theorem C36_refuted : ¬ C36_statement := by
  intro h
  obtain ⟨o', h1, τ, a, h2, h3⟩ := h E0 stPtrInit stPtrInit1 stPtrInit2 _ 11 1 10 0 _ _ stPtrInit_sane stPtrInit_tree stPtrInit_first
    stPtrInit_len stPtrInit_later stPtrInit_ne stPtrInit_out stPtrInit_again "p" 14 (.ptr (.basic .int))
    stPtrInit_declares stPtrInit_not stPtrInit_object stPtrInit_type
  have e1 : objectHere (evTo 20 11 stPtrInit2) "p" = some 18 := by decide +kernel
  rw [e1] at h1
  cases h1
  have e2 : (evTo 20 11 stPtrInit2).nodes 18 = some (.lv (some 17) 4224 false 0) := by decide +kernel
  rw [e2] at h2
  cases h2
  have e3 : (evTo 20 11 stPtrInit2).nodes 17 = some (.ctype .int none) := by decide +kernel
  exact absurd (h3.unique (.basic (by decide) e3)) (by simp)

/-- `int **p;` -/
def stPtrPlain : St :=
  stOf [.kw .int, .chain [0], .ident "p", .pointer (some 2), .pointer (some 3), .chain [4], .decl (some 1) (some 5) 0] [] []

example : PlainDecl stPtrPlain.nodes 6 "p" (.ptr (.ptr (.basic .int))) :=
  ⟨1, 5, 0, .int, rfl, ⟨[0], [.int], rfl, .cons rfl .nil, by decide, by decide +kernel⟩, by decide,
    .inr ⟨4, rfl, .ptr rfl (.ptr rfl (.ident rfl))⟩⟩

end Bic
