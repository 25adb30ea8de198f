import Verif.Proofs.Passing
/-!
# Structured integer programs
-/

namespace Bic
open Spec

/-! ## Statements -/

/-- the arguments of a call as they are parsed -/
def CallArgs (nd : TId → Option Node) (ca : Ref) (es : List Expr) : Prop :=
  (ca = none ∧ es = []) ∨ ∃ c as, ca = some c ∧ nd c = some (.chain as) ∧ es ≠ [] ∧ ArgsRep nd as es

theorem CallArgs.mono {nd nd' : TId → Option Node} (h : ∀ t n, nd t = some n → nd' t = some n) {ca es} (r : CallArgs nd ca es) :
    CallArgs nd' ca es := by
  rcases r with r | ⟨c, as, h1, h2, h3, h4⟩
  · exact .inl r
  · exact .inr ⟨c, as, h1, h _ _ h2, h3, h4.mono h⟩

/-- the syntax tree of a program -/
inductive SRep (nd : TId → Option Node) : Code → Spec.Stmt → Prop
  | act {t n a} : ActRep nd t a → nd t = some n → isControl n = false → SRep nd (.stmt t) (.act a)
  | decl {t specs decls off c ds} : nd t = some (.decl (some specs) (some decls) off) → TypeSpecs nd specs c →
      DeclsRep nd decls ds → SRep nd (.stmt t) (.decl c ds)
  | empty {t} : nd t = some .empty → SRep nd (.stmt t) .skip
  | cond {t c x y e a b} : nd t = some (.ifS (some c) x y) → ERep nd c e → SRep nd (.body x) a → SRep nd (.body y) b →
      SRep nd (.stmt t) (.cond e a b)
  | whileS {t c b e p} : nd t = some (.whileS (some c) b) → SRep nd (.loop c none b) (.rounds e none p) →
      SRep nd (.stmt t) (.whileS e p)
  | forS {t i n c a b ai e aa p} : nd t = some (.forS (some i) (some c) (some a) b) → ActRep nd i ai →
      nd i = some n → isDecl n = false → SRep nd (.loop c (some (some a)) b) (.rounds e (some aa) p) →
      SRep nd (.stmt t) (.forS ai e aa p)
  | loop {c b e p} : ERep nd c e → SRep nd (.body b) p → SRep nd (.loop c none b) (.rounds e none p)
  | loopFor {c a b e aa p} : ERep nd c e → SRep nd (.body b) p → ActRep nd a aa →
      SRep nd (.loop c (some (some a)) b) (.rounds e (some aa) p)
  | ret {t c e} : nd t = some (.ret (some c)) → ERep nd c e → SRep nd (.stmt t) (.ret e)
  | leave {t} : nd t = some (.ret none) → SRep nd (.stmt t) .leave
  | nil : SRep nd (.block []) .skip
  | cons {t ts a b} : SRep nd (.stmt t) a → SRep nd (.block ts) b → SRep nd (.block (t :: ts)) (.seq a b)
  | none : SRep nd (.body none) .skip
  | braces {t ts p} : nd t = some (.chain ts) → SRep nd (.block ts) p → SRep nd (.body (some t)) p
  | single {t n p} : nd t = some n → isChain n = false → isJump n = false → SRep nd (.stmt t) p →
      SRep nd (.body (some t)) p
  | nested {t ts p} : nd t = some (.chain ts) → SRep nd (.block ts) p → SRep nd (.stmt t) (.block p)
  | call {t u i n ca f es} : Wrap nd t u → nd u = some (.fnCall (some i) ca) → nd i = some (.ident f) → CallArgs nd ca es →
      nd t = some n → isControl n = false → SRep nd (.stmt t) (.call f es)

theorem SRep.mono {nd nd' : TId → Option Node} (h : ∀ t n, nd t = some n → nd' t = some n) {k p} (r : SRep nd k p) :
    SRep nd' k p := by
  induction r with
  | act h1 h2 h3 => exact .act (h1.mono h) (h _ _ h2) h3
  | decl h1 h2 h3 =>
    refine .decl (h _ _ h1) (h2.mono h) ?_
    rcases h3 with ⟨l, h3, h4⟩ | h3
    · exact .inl ⟨l, h _ _ h3, h4.mono h⟩
    · exact .inr (h3.mono h)
  | empty h1 => exact .empty (h _ _ h1)
  | cond h1 h2 _ _ ih1 ih2 => exact .cond (h _ _ h1) (h2.mono h) ih1 ih2
  | whileS h1 _ ih => exact .whileS (h _ _ h1) ih
  | forS h1 h2 h3 h4 _ ih => exact .forS (h _ _ h1) (h2.mono h) (h _ _ h3) h4 ih
  | loop h1 _ ih => exact .loop (h1.mono h) ih
  | loopFor h1 _ h3 ih => exact .loopFor (h1.mono h) ih (h3.mono h)
  | ret h1 h2 => exact .ret (h _ _ h1) (h2.mono h)
  | leave h1 => exact .leave (h _ _ h1)
  | nil => exact .nil
  | cons _ _ ih1 ih2 => exact .cons ih1 ih2
  | none => exact .none
  | braces h1 _ ih => exact .braces (h _ _ h1) ih
  | single h1 h2 h3 _ ih => exact .single (h _ _ h1) h2 h3 ih
  | nested h1 _ ih => exact .nested (h _ _ h1) ih
  | call h1 h2 h3 h4 h5 h6 => exact .call (h1.mono h) (h _ _ h2) (h _ _ h3) (h4.mono h) (h _ _ h5) h6

/-- the state with the scopes `base` only -/
def onBase (s : St) (base : List Ctx) : St := { s with ctxs := base }

/-- executing `k` ends as `f` says with the store `σ'` -/
def Ended (E : Env) (s : St) (k : Code) (f : End) (σ' : Store) (m : Nat) : Prop :=
  match f with
  | .next => ∃ s', (∀ Q, Exec (langOf Q) (Evt E) (CondIs E) s k .next s') ∧ Good s' σ' m ∧ Kept s s' ∧ uids s' = uids s
  | .ret v => ∃ r s' top base, Exec okLang (Evt E) (CondIs E) s k (.ret (some r)) s' ∧ Denotes s' r v ∧
      s'.ctxs = top ++ base ∧ base.map (·.uid) = uids s ∧ Good (onBase s' base) σ' m ∧ Kept s s'
  | .left => ∃ s' top base, Exec voidLang (Evt E) (CondIs E) s k (.ret none) s' ∧
      s'.ctxs = top ++ base ∧ base.map (·.uid) = uids s ∧ Good (onBase s' base) σ' m ∧ Kept s s'

theorem cond_is {E : Env} {s : St} {σ n c e v} (g : Good s σ n) (hr : ERep s.nodes c e) (hv : okRules.Value σ e v) :
    ∃ s', CondIs E s c v s' ∧ Ext s s' := by
  obtain ⟨r, s1, h1, h2, h3⟩ := eval_expr (E := E) g.wf (g.rel.value hv) hr
  have ht : Evt E s (some c) (some r) s1 := ⟨h1, by rw [h2.ctxs], by rw [h2.ctxs]; exact g.flags⟩
  rcases h3 with h3 | ⟨k, w, h3, h4⟩
  · exact ⟨s1, ⟨r, s1, ht, .inl ⟨h3, rfl⟩⟩, h2⟩
  · exact ⟨_, ⟨r, s1, ht, .inr ⟨k, w, h3, h4, rfl⟩⟩, h2.trans (addNode_ext (h2.wf g.wf) _)⟩

/-- leaving the scope of a statement -/
theorem good_out {s s1 s' : St} {nm fr σ m} (g : Good s' (fr :: σ) m) (hu : uids s' = uids (enter s nm)) (hs : s.ctxs ≠ [])
    (hx : Bic.uids s = Bic.uids s1) : Good (leave s') σ m ∧ uids (leave s') = uids s1 := by
  have h2 : uids (leave s') = uids s := by
    have := congrArg List.tail hu
    simpa [uids, leave, enter] using this
  refine ⟨g.leave ?_, h2.trans hx⟩
  intro h
  have h3 : uids (leave s') = [] := by unfold uids; rw [h]; rfl
  rw [h2] at h3
  exact hs (List.map_eq_nil_iff.mp h3)

/-- the scopes to be discarded by a `return` -/
theorem good_discard {s s1 s' : St} {nm fr σ m top base} (g : Good (onBase s' base) (fr :: σ) m) (hc : s'.ctxs = top ++ base)
    (hu : base.map (·.uid) = uids (enter s nm)) (hs : s.ctxs ≠ []) (hx : Bic.uids s = Bic.uids s1) :
    ∃ top base, s'.ctxs = top ++ base ∧ base.map (·.uid) = uids s1 ∧ Good (onBase s' base) σ m := by
  obtain ⟨h1, h2⟩ := good_out (s := s) g hu hs hx
  cases base with
  | nil => simp [uids, enter] at hu
  | cons c base => exact ⟨top ++ [c], base, by simp [hc], h2, h1⟩

theorem act_ended {E : Env} {s : St} {σ σ' : Store} {a t m} (h : Acts okRules σ a σ') (hr : ActRep s.nodes t a) (g : Good s σ m) :
    ∃ r s', Evt E s (some t) r s' ∧ Good s' σ' m ∧ Kept s s' ∧ uids s' = uids s ∧ NoJump s' r := by
  obtain ⟨r, s', h1, h2, h3, h4, h5⟩ := act_conv (E := E) g hr h
  exact ⟨some r, s', h1, h2, h3, by unfold uids; rw [h5], by rintro _ h; cases h; exact h4⟩

/-- what is governed by a condition: it ends normally -/
theorem governed_next {E : Env} {s s1 : St} {k : Code} {fr σ' m nm} (x : Ext s s1) (hs : s.ctxs ≠ [])
    (h : Ended E (enter s1 nm) k .next (fr :: σ') m) :
    ∃ s', (∀ Q, Exec (langOf Q) (Evt E) (CondIs E) (enter s1 nm) k .next s') ∧
      Good (leave s') σ' m ∧ Kept s (leave s') ∧ uids (leave s') = uids s := by
  have hs1 : s1.ctxs ≠ [] := by rw [x.ctxs]; exact hs
  obtain ⟨s', h1, h2, h3, h4⟩ := h
  obtain ⟨g, hu⟩ := good_out h2 h4 hs1 x.uids
  exact ⟨s', h1, g, fun t n hn => h3 t n (x.nodes _ _ hn), hu⟩

/-- … or returns -/
theorem governed_ret {E : Env} {s s1 : St} {k k' : Code} {f fr σ' m nm} (x : Ext s s1) (hs : s.ctxs ≠ []) (hf : f ≠ .next)
    (h : Ended E (enter s1 nm) k f (fr :: σ') m)
    (he : ∀ Q r s', Exec (langOf Q) (Evt E) (CondIs E) (enter s1 nm) k (.ret r) s' →
      Exec (langOf Q) (Evt E) (CondIs E) s k' (.ret r) s') : Ended E s k' f σ' m := by
  have hs1 : s1.ctxs ≠ [] := by rw [x.ctxs]; exact hs
  cases f with
  | next => exact absurd rfl hf
  | ret v =>
    obtain ⟨r, s', top, base, h1, h2, h3, h4, h5, h6⟩ := h
    obtain ⟨top, base, a1, a2, a3⟩ := good_discard h5 h3 h4 hs1 x.uids
    exact ⟨r, s', top, base, he _ _ _ h1, h2, a1, a2, a3, fun t n hn => h6 t n (x.nodes _ _ hn)⟩
  | left =>
    obtain ⟨s', top, base, h1, h3, h4, h5, h6⟩ := h
    obtain ⟨top, base, a1, a2, a3⟩ := good_discard h5 h3 h4 hs1 x.uids
    exact ⟨s', top, base, he _ _ _ h1, a1, a2, a3, fun t n hn => h6 t n (x.nodes _ _ hn)⟩

theorem Ended.mapExec {E : Env} {s : St} {k k' : Code} {f σ' m} (h : Ended E s k f σ' m)
    (he : ∀ Q F s', Exec (langOf Q) (Evt E) (CondIs E) s k F s' → Exec (langOf Q) (Evt E) (CondIs E) s k' F s') :
    Ended E s k' f σ' m := by
  cases f with
  | next => obtain ⟨s', h1, h2⟩ := h; exact ⟨s', fun Q => he _ _ _ (h1 Q), h2⟩
  | ret v => obtain ⟨r, s', top, base, h1, h2⟩ := h; exact ⟨r, s', top, base, he _ _ _ h1, h2⟩
  | left => obtain ⟨s', top, base, h1, h2⟩ := h; exact ⟨s', top, base, he _ _ _ h1, h2⟩

/-- what follows something that ended normally -/
theorem Ended.after {E : Env} {s s1 : St} {k k' : Code} {f σ' m} (h : Ended E s1 k f σ' m) (hk : Kept s s1)
    (hu : uids s1 = uids s)
    (he : ∀ Q F s', Exec (langOf Q) (Evt E) (CondIs E) s1 k F s' → Exec (langOf Q) (Evt E) (CondIs E) s k' F s') :
    Ended E s k' f σ' m := by
  cases f with
  | next => obtain ⟨s', h1, h2, h3, h4⟩ := h; exact ⟨s', fun Q => he _ _ _ (h1 Q), h2, hk.trans h3, h4.trans hu⟩
  | ret v =>
    obtain ⟨r, s', top, base, h1, h2, h3, h4, h5, h6⟩ := h
    exact ⟨r, s', top, base, he _ _ _ h1, h2, h3, h4.trans hu, h5, hk.trans h6⟩
  | left =>
    obtain ⟨s', top, base, h1, h3, h4, h5, h6⟩ := h
    exact ⟨s', top, base, he _ _ _ h1, h3, h4.trans hu, h5, hk.trans h6⟩

/-- stands for one statement -/
def plainStmt : Spec.Stmt → Bool
  | .skip | .seq _ _ | .rounds _ _ _ => false
  | _ => true

theorem Ended.single {E : Env} {s : St} {t : TId} {n : Node} {f σ' m} (h1 : s.nodes t = some n) (h2 : isChain n = false)
    (h3 : isJump n = false) (h : Ended E s (.stmt t) f σ' m) : Ended E s (.body (some t)) f σ' m :=
  h.mapExec fun _ _ _ he => .single h1 h2 (fun hj => by rw [h3] at hj; cases hj) he

theorem stmt_ended {E : Env} {s : St} {k : Code} {P : Spec.Stmt} {f σ' m} (hr : SRep s.nodes k P) (hp : plainStmt P = true)
    (h : ∀ t, SRep s.nodes (.stmt t) P → Ended E s (.stmt t) f σ' m) : Ended E s k f σ' m := by
  cases hr with
  | act => exact h _ (by constructor <;> assumption)
  | decl => exact h _ (by constructor <;> assumption)
  | cond => exact h _ (by constructor <;> assumption)
  | whileS => exact h _ (by constructor <;> assumption)
  | forS => exact h _ (by constructor <;> assumption)
  | ret => exact h _ (by constructor <;> assumption)
  | leave => exact h _ (by constructor <;> assumption)
  | nested => exact h _ (by constructor <;> assumption)
  | call h1 h2 h3 h4 h5 h6 => exact h _ (.call h1 h2 h3 h4 h5 h6)
  | single h1 h2 h3 h4 => exact (h _ h4).single h1 h2 h3
  | braces h1 h2 =>
    generalize hk : Code.block _ = k at h2
    cases h2 <;> first | (cases hk; done) | (cases hp; done)
  | empty => cases hp
  | none => cases hp
  | nil => cases hp
  | cons => cases hp
  | loop => cases hp
  | loopFor => cases hp

theorem seq_ended {E : Env} {s : St} {k : Code} {A B : Spec.Stmt} {f σ' m} (hr : SRep s.nodes k (.seq A B))
    (h : ∀ t ts, SRep s.nodes (.stmt t) A → SRep s.nodes (.block ts) B → Ended E s (.block (t :: ts)) f σ' m) :
    Ended E s k f σ' m := by
  cases hr with
  | cons h1 h2 => exact h _ _ h1 h2
  | single _ _ _ h4 => cases h4
  | braces h1 h2 =>
    cases h2 with
    | cons h3 h4 => exact (h _ _ h3 h4).mapExec fun _ _ _ he => .braces h1 he

/-! ## Procedures -/

/-- all tree objects but `return` statements stay as they are -/
def KeptX (s s' : St) : Prop := ∀ t n, s.nodes t = some n → (∀ e, n ≠ .ret e) → s'.nodes t = some n

theorem VarAt.keptX {s s' : St} {t c v a} (h : VarAt s t c v a) (hk : KeptX s s') (hm : s'.mem = s.mem) : VarAt s' t c v a := by
  obtain ⟨τ, ⟨⟨arr, sz, h1⟩, ⟨e, h2⟩, h3, h4⟩⟩ := h.at_
  exact ⟨⟨τ, ⟨arr, sz, hk _ _ h1 (by simp)⟩, ⟨e, hk _ _ h2 (by simp)⟩, h3, by rw [hm]; exact h4⟩, h.int,
    by rw [hm]; exact h.wide, by rw [hm]; exact h.val⟩

/-- the parameters of a function as they are parsed -/
def FnArgs (nd : TId → Option Node) (args : Ref) (ps : List (CT × String)) : Prop :=
  (args = none ∧ ps = []) ∨ ∃ d ds, args = some d ∧ nd d = some (.chain ds) ∧ ps ≠ [] ∧ ParamsRep nd ds ps

/-- the function object of a procedure -/
def FnAt (nd : TId → Option Node) (t : TId) (q : Proc) : Prop :=
  ∃ fd args ret b name, nd t = some (.fn (some fd) args ret (some b)) ∧ nd fd = some (.ident name) ∧ FnArgs nd args q.params ∧
    SRep nd (.body (some b)) q.body

theorem FnAt.mono {nd nd' : TId → Option Node} (h : ∀ t n, nd t = some n → nd' t = some n) {t q} (r : FnAt nd t q) : FnAt nd' t q := by
  obtain ⟨fd, args, ret, b, name, h1, h2, h3, h4⟩ := r
  refine ⟨fd, args, ret, b, name, h _ _ h1, h _ _ h2, ?_, h4.mono h⟩
  rcases h3 with h3 | ⟨d, ds, a1, a2, a3, a4⟩
  · exact .inl h3
  · exact .inr ⟨d, ds, a1, h _ _ a2, a3, a4.mono h⟩

/-- the procedures are in the outermost of the scopes that the store describes -/
structure FnsAt (Φ : String → Option Proc) (s : St) (σ : Store) : Prop where
  sane : Sane s
  ne : σ ≠ []
  glob : ∃ c, s.ctxs[σ.length - 1]? = some c ∧ ∀ f q, Φ f = some q → ∃ t, findId f c.ids = some t ∧ FnAt s.nodes t q

/-- the same, if there are procedures -/
def Fns (Φ : String → Option Proc) (s : St) (σ : Store) : Prop := (∀ f, Φ f = none) ∨ FnsAt Φ s σ

theorem CtxsEvol.getElem? {l l' : List Ctx} (h : CtxsEvol l l') : ∀ {n : Nat} {c : Ctx}, l[n]? = some c → ∃ c', l'[n]? = some c' ∧ CtxEvol c c' := by
  induction h with
  | nil => intro n c hc; simp at hc
  | @cons a b l l' h1 h2 ih =>
    intro n c hc
    cases n with
    | zero => cases hc; exact ⟨b, rfl, h1⟩
    | succ n => exact ih hc

theorem FnsAt.step {Φ : String → Option Proc} {s s' : St} {σ σ' : Store} (h : FnsAt Φ s σ)
    (he : Sane s → Sane s' ∧ CtxsEvol s.ctxs s'.ctxs) (hk : Kept s s') (hl : σ'.length = σ.length) : FnsAt Φ s' σ' := by
  obtain ⟨h1, h2⟩ := he h.sane
  obtain ⟨c, g1, g2⟩ := h.glob
  obtain ⟨c', g3, g4⟩ := h2.getElem? g1
  refine ⟨h1, fun e => h.ne (by rw [e] at hl; exact List.length_eq_zero_iff.mp hl.symm), c', by rw [hl]; exact g3, fun f q hf => ?_⟩
  obtain ⟨t, t1, t2⟩ := g2 f q hf
  obtain ⟨add, e, _⟩ := g4.ids
  exact ⟨t, by rw [e]; exact findId_append _ t1, t2.mono hk⟩

theorem Fns.step {Φ : String → Option Proc} {s s' : St} {σ σ' : Store} (h : Fns Φ s σ)
    (he : Sane s → Sane s' ∧ CtxsEvol s.ctxs s'.ctxs) (hk : Kept s s') (hl : σ'.length = σ.length) : Fns Φ s' σ' :=
  h.imp id fun h => h.step he hk hl

theorem FnsAt.push {Φ : String → Option Proc} {s s' : St} {σ : Store} {c : Ctx} (h : FnsAt Φ s σ) (hs : Sane s')
    (hc : s'.ctxs = c :: s.ctxs) (hn : s'.nodes = s.nodes) (fr : Frame) : FnsAt Φ s' (fr :: σ) := by
  obtain ⟨d, g1, g2⟩ := h.glob
  refine ⟨hs, by simp, d, ?_, by rw [hn]; exact g2⟩
  rw [hc]
  cases hl : σ with
  | nil => exact absurd hl h.ne
  | cons a l => rw [hl] at g1; exact g1

theorem Fns.enter {Φ : String → Option Proc} {s : St} {σ : Store} (h : Fns Φ s σ) (nm : String) : Fns Φ (enter s nm) ([] :: σ) :=
  h.imp id fun h => h.push (h.sane.enter nm) rfl rfl _

/-- the name of a procedure, where no inner scope declares it -/
theorem StoreRel.procedure {s : St} {σ : Store} {cs : List Ctx} {as : List Nat} (h : StoreRel s σ cs as) {f : String} {c : Ctx} {t : TId}
    (hne : σ ≠ []) (hf : ∀ k ∈ σ.dropLast, f ∉ k.names) (hc : cs[σ.length - 1]? = some c) (ht : findId f c.ids = some t) :
    findInChain f .normal cs = some t := by
  induction h with
  | nil => exact absurd rfl hne
  | @cons fr σ d cs as bs h1 h2 ih =>
    cases σ with
    | nil =>
      cases hc
      simp [findInChain, Ctx.map, ht]
    | cons fr2 σ =>
      have hn : findId f d.ids = none :=
        findId_absent (h1.fresh (Frame_find_none.mpr (hf fr (by simp))))
      have := ih (by simp) (fun k hk => hf k (by simp [hk])) hc
      rw [findInChain]
      simp only [Ctx.map, hn]
      exact this

theorem Rel.procedure {s : St} {σ : Store} (h : Rel s σ) {f : String} {c : Ctx} {t : TId}
    (hne : σ ≠ []) (hf : ∀ k ∈ σ.dropLast, f ∉ k.names) (hc : s.ctxs[σ.length - 1]? = some c) (ht : findId f c.ids = some t) :
    resolveGlobal f .normal s = some t := by
  obtain ⟨as, h, _⟩ := h
  rw [← findInChain_lookups]
  refine h.procedure hne hf ?_ ht
  rw [lookups, List.getElem?_append_left (by
    rcases Nat.lt_or_ge (σ.length - 1) s.ctxs.length with h | h
    · exact h
    · rw [List.getElem?_eq_none h] at hc; cases hc), hc]

theorem acts_length {L : Rules} {σ σ' : Store} {a} (h : Acts L σ a σ') : σ'.length = σ.length := by
  have key : ∀ (x : String) (w : Int) (σ : Store), (Store.write x w σ).length = σ.length := by
    intro x w σ
    induction σ with
    | nil => rfl
    | cons fr σ ih =>
      simp only [Store.write]
      split <;> simp [ih]
  cases h <;> exact key _ _ _

theorem declares_length {L : Rules} {c : CT} {σ σ' : Store} {ds} (h : Declares L c σ ds σ') : σ'.length = σ.length := by
  induction h with
  | nil => rfl
  | plain _ _ ih => simpa using ih
  | init _ ha _ ih => simpa using ih.trans (acts_length ha)

/-- as many scopes are open after a statement as before -/
theorem run_length {L : Rules} {σ σ' : Store} {p f n} (h : Run L σ p f σ' n) : σ'.length = σ.length := by
  induction h with
  | act h => exact acts_length h
  | decl _ h => exact declares_length h
  | skip => rfl
  | seq _ _ ih1 ih2 => exact ih2.trans ih1
  | stop _ _ ih => exact ih
  | cond _ _ _ ih => simpa using ih
  | whileS _ ih => exact ih
  | forS ha _ ih => exact ih.trans (acts_length ha)
  | last => rfl
  | round _ _ _ _ ih1 ih2 => exact ih2.trans (by simpa using ih1)
  | roundFor _ _ _ ha _ ih1 ih2 => exact (ih2.trans (acts_length ha)).trans (by simpa using ih1)
  | returned _ _ _ _ ih => simpa using ih
  | leave => rfl
  | ret => rfl
  | block _ _ ih => simpa using ih
  | call _ _ _ _ _ _ _ ih => simpa using ih

/-- `L'` allows the expressions and assignments that `L` allows -/
def Spec.Rules.Sub (L L' : Rules) : Prop :=
  (∀ σ e v, L.Value σ e v → L'.Value σ e v) ∧ ∀ σ c e v, L.asg σ c e v → L'.asg σ c e v

theorem Spec.Acts.sub {L L' : Rules} (hL : L.Sub L') {σ σ' : Store} {a} (h : Acts L σ a σ') : Acts L' σ a σ' := by
  cases h with
  | set h1 h2 h3 h4 => exact .set h1 (hL.1 _ _ _ h2) (hL.2 _ _ _ _ h3) h4
  | step h1 h2 => exact .step h1 h2

theorem Spec.Declares.sub {L L' : Rules} (hL : L.Sub L') {c : CT} {σ σ' : Store} {ds} (h : Declares L c σ ds σ') : Declares L' c σ ds σ' := by
  induction h with
  | nil => exact .nil
  | plain h1 _ ih => exact .plain h1 ih
  | init h1 ha _ ih => exact .init h1 (ha.sub hL) ih

theorem Spec.Params.sub {L L' : Rules} (hL : L.Sub L') {σ : Store} {ps es fr} (h : Params L σ ps es fr) : Params L' σ ps es fr := by
  induction h with
  | nil => exact .nil
  | cons h1 h2 h3 h4 _ ih => exact .cons h1 (hL.1 _ _ _ h2) (hL.2 _ _ _ _ h3) h4 ih

theorem with_sub (L : Rules) (Φ : String → Option Proc) : (L.with Φ).Sub L := ⟨fun _ _ _ h => h, fun _ _ _ _ h => h⟩

theorem sub_with (L : Rules) (Φ : String → Option Proc) : L.Sub (L.with Φ) := ⟨fun _ _ _ h => h, fun _ _ _ _ h => h⟩

theorem Spec.Params.length {L : Rules} {σ : Store} {ps es fr} (h : Params L σ ps es fr) : ps.length = es.length := by
  induction h with
  | nil => rfl
  | cons _ _ _ _ _ ih => simp [ih]

/-- what executing a statement in a scope of its own does -/
theorem leave_keep {E : Env} {s s' : St} {k : Code} {nm : String} (h : Exec okLang (Evt E) (CondIs E) (enter s nm) k .next s')
    (hs : Sane s) : Sane (leave s') ∧ CtxsEvol s.ctxs (leave s').ctxs := by
  obtain ⟨_, sc⟩ := exec_does h (hs.enter nm)
  have := hs.leave (nm := nm) sc.1 sc.2
  exact ⟨this.1, this.2.1⟩

theorem exec_keep {E : Env} {s s' : St} {k : Code} (h : Exec okLang (Evt E) (CondIs E) s k .next s')
    (hs : Sane s) : Sane s' ∧ CtxsEvol s.ctxs s'.ctxs := (exec_does h hs).2

/-- a call of a procedure that ends with `return;` -/
theorem callUser_left {E : Env} {s s1 s' : St} {fd : TId} {args stmts callArgs : Ref} {name : String} {top base : List Ctx}
    {fr vis m} (hs : Sane s) (hfd : s.nodes fd = some (.ident name)) (hb : Bound E (enterFn s name) args callArgs s1)
    (hx : Exec voidLang (Evt E) (CondIs E) s1 (.body stmts) (.ret none) s') (hc : s'.ctxs = top ++ base)
    (hu : base.map (·.uid) = s.nextUid :: uids s) (hne : s.ctxs ≠ []) (g : Good (onBase s' base) (fr :: vis) m) :
    ∃ s'', Conv E (fun R => callUser R (some fd) args stmts callArgs) s (.ok none s'') ∧ (WF s'' → Good s'' vis m) ∧
      s''.nodes = s'.nodes ∧ uids s'' = uids s := by
  obtain ⟨s'', q', e', y1, y2, rfl, y3, y4, y5, _, ⟨_, hinc⟩, y8, y9⟩ := callUser_return (stable_void E) hs hfd hb hx
  cases base with
  | nil => simp at hu
  | cons d rest =>
    simp only [List.map_cons, List.cons.injEq] at hu
    have hctx := y9 top d rest hc hu.1
    have hnodes : s''.nodes = s'.nodes := by
      rw [y3]
      funext z
      by_cases hz : z = q'
      · subst hz; simp [retNode, y2]
      · simp [retNode, hz]
    have hne : rest ≠ [] := by
      intro h
      have h2 := hu.2
      rw [h] at h2
      exact hne (List.map_eq_nil_iff.mp h2.symm)
    have hrel : Rel s'' vis := by
      obtain ⟨as, z1, z2⟩ := g.rel
      have z1 : StoreRel (onBase s' (d :: rest)) (fr :: vis) (d :: (rest ++ s'.includeCtx.toList)) as := z1
      cases z1 with
      | cons z3 z4 =>
        refine ⟨_, ?_, (List.pairwise_append.mp z2).2.1⟩
        rw [show lookups s'' = rest ++ s'.includeCtx.toList by simp only [lookups, hctx, hinc]]
        refine z4.map rfl fun t c' v a _ h => VarAt.keptX (s := onBase s' (d :: rest)) h ?_ y5
        intro x k hx _
        rw [hnodes]; exact hx
    have hflags : ∀ c ∈ s''.ctxs, c.shouldBreak = false := by
      intro k hk
      rw [hctx] at hk
      exact g.flags k (List.mem_cons_of_mem _ hk)
    exact ⟨s'', y1, fun hwf => ⟨hwf, hflags, ⟨by rw [y5]; exact g.room.brk, by rw [hctx]; exact hne, by rw [y5]; exact g.room.livelt⟩, hrel⟩,
      hnodes, by unfold uids; rw [hctx]; exact hu.2⟩

/-- programs do what they should; procedures see the variables of their callers -/
theorem run_ended_procs {E : Env} {Φ : String → Option Proc} {σ σ' : Store} {p : Spec.Stmt} {f : End} {n : Nat}
    (h : Run (okRules.with Φ) σ p f σ' n) :
    ∀ {s k m}, SRep s.nodes k p → Good s σ (n + m) → Fns Φ s σ → Ended E s k f σ' m := by
  induction h with
  | act h =>
    intro s k m hr g F
    refine stmt_ended hr rfl fun t hr => ?_
    cases hr with
    | act h1 h2 h3 =>
      obtain ⟨r, s', a1, a2, a3, a4, a5⟩ := act_ended (E := E) (m := m) (h.sub (with_sub _ _)) h1 (g.mono (by omega))
      exact ⟨s', fun _ => .expr h2 h3 a1 a5, a2, a3, a4⟩
  | decl hc h =>
    intro s k m hr g F
    refine stmt_ended hr rfl fun t hr => ?_
    cases hr with
    | decl h1 h2 h3 =>
      obtain ⟨r, s', a1, a2, a3, a4, a5, _⟩ := decl_conv (E := E) hc h1 h2 h3 (h.sub (with_sub _ _)) g
      exact ⟨s', fun _ => .expr h1 rfl a1 a5, a2, a3, a4⟩
  | skip =>
    intro s k m hr g F
    have g := g.mono (m := m) (by omega)
    have hemp : ∀ t, s.nodes t = some .empty → Ended E s (.stmt t) .next _ m := fun t ht =>
      ⟨s, fun _ => .expr ht rfl ⟨Conv.evNode ht (Conv.pure _), rfl, g.flags⟩ (by simp [NoJump]), g, Kept.refl _, rfl⟩
    cases hr with
    | empty h1 => exact hemp _ h1
    | nil => exact ⟨s, fun _ => .nil, g, Kept.refl _, rfl⟩
    | none => exact ⟨s, fun _ => .none, g, Kept.refl _, rfl⟩
    | braces h1 h2 => cases h2; exact ⟨s, fun _ => .braces h1 .nil, g, Kept.refl _, rfl⟩
    | single h1 h2 h3 h4 => cases h4 with | empty h5 => exact (hemp _ h5).single h1 h2 h3
  | seq q1 _ ih1 ih2 =>
    intro s k m hr g F
    refine seq_ended hr fun t ts h1 h2 => ?_
    obtain ⟨s1, a1, a2, a3, a4⟩ := ih1 h1 g.assoc F
    exact (ih2 (h2.mono a3) a2 (F.step (exec_keep (a1 _)) a3 (run_length q1))).after a3 a4 fun Q _ _ he => .cons (a1 Q) he
  | @stop σ a b f σ' n _ hf ih =>
    intro s k m hr g F
    refine seq_ended hr fun t ts h1 h2 => ?_
    have hi := ih h1 g F
    cases f with
    | next => exact absurd rfl hf
    | ret v =>
      obtain ⟨r, s', top, base, h1, h2⟩ := hi
      exact ⟨r, s', top, base, .jump (by simp) h1, h2⟩
    | left =>
      obtain ⟨s', top, base, h1, h2⟩ := hi
      exact ⟨s', top, base, .jump (by simp) h1, h2⟩
  | @cond σ e p q v b f fr σ' n hv ht _ ih =>
    intro s k m hr g F
    refine stmt_ended hr rfl fun t hr => ?_
    cases hr with
    | @cond _ c x y _ _ _ h1 h2 h3 h4 =>
      obtain ⟨s1, c1, c2⟩ := cond_is (E := E) g h2 hv
      have hb : SRep (enter s1 "If statement").nodes (.body (if b then x else y)) (if b then p else q) :=
        SRep.mono c2.nodes (by cases b <;> assumption)
      have hi := ih hb ((g.ext c2).enter _) ((F.step c1.keep c2.nodes rfl).enter _)
      by_cases hf : f = .next
      · subst hf
        obtain ⟨s', a1, a2⟩ := governed_next c2 g.room.ctxs hi
        exact ⟨leave s', fun Q => Exec.cond h1 c1 ht (a1 Q), a2⟩
      · exact governed_ret c2 g.room.ctxs hf hi fun _ r s' he => Exec.cond h1 c1 ht he
  | whileS _ ih =>
    intro s k m hr g F
    refine stmt_ended hr rfl fun t hr => ?_
    cases hr with
    | whileS h1 h2 => exact (ih h2 g F).mapExec fun _ _ _ he => .whileS h1 he
  | forS hi _ ih =>
    intro s k m hr g F
    refine stmt_ended hr rfl fun t hr => ?_
    cases hr with
    | forS h1 h2 h3 h4 h5 =>
      obtain ⟨r, s1, a1, a2, a3, a4, a5⟩ := act_ended (E := E) (hi.sub (with_sub _ _)) h2 g
      exact (ih (h5.mono a3) a2 (F.step a1.keep a3 (acts_length hi))).after a3 a4 fun _ _ _ he => .forS h1 h3 h4 a1 he
  | @last σ e a b v hv ht =>
    intro s k m hr g F
    have g := g.mono (m := m) (by omega)
    have main : ∀ c a b, ERep s.nodes c e → Ended E s (.loop c a b) .next σ m := by
      intro c a b h1
      obtain ⟨s1, c1, c2⟩ := cond_is (E := E) g h1 hv
      exact ⟨s1, fun _ => .stop c1 ht, g.ext c2, c2.nodes, c2.uids⟩
    cases hr with
    | loop h1 _ => exact main _ _ _ h1
    | loopFor h1 _ _ => exact main _ _ _ h1
    | braces _ h => cases h
    | single _ _ _ h => cases h
  | round hv ht q1 _ ih1 ih2 =>
    intro s k m hr g F
    cases hr with
    | loop h1 h2 =>
      obtain ⟨s1, c1, c2⟩ := cond_is (E := E) g h1 hv
      have hb := SRep.mono (nd' := (enter s1 "While Loop").nodes) c2.nodes h2
      obtain ⟨s', a1, a2, a3, a4⟩ := governed_next c2 g.room.ctxs
        (ih1 hb ((g.ext c2).enter _).assoc ((F.step c1.keep c2.nodes rfl).enter _))
      have F1 := F.step (σ' := _) (fun hs => ⟨(leave_keep (a1 _) (c1.keep hs).1).1, (c1.keep hs).2.trans (leave_keep (a1 _) (c1.keep hs).1).2⟩)
        a3 (by simpa using run_length q1)
      exact (ih2 (SRep.mono a3 (.loop h1 h2)) a2 F1).after a3 a4 fun Q _ _ he => .round c1 ht (a1 Q) he
    | braces _ h => cases h
    | single _ _ _ h => cases h
  | roundFor hv ht q1 ha _ ih1 ih2 =>
    intro s k m hr g F
    cases hr with
    | loopFor h1 h2 h3 =>
      obtain ⟨s1, c1, c2⟩ := cond_is (E := E) g h1 hv
      have hb := SRep.mono (nd' := (enter s1 "For Loop").nodes) c2.nodes h2
      obtain ⟨s', a1, a2, a3, a4⟩ := governed_next c2 g.room.ctxs
        (ih1 hb ((g.ext c2).enter _).assoc ((F.step c1.keep c2.nodes rfl).enter _))
      have F1 := F.step (σ' := _) (fun hs => ⟨(leave_keep (a1 _) (c1.keep hs).1).1, (c1.keep hs).2.trans (leave_keep (a1 _) (c1.keep hs).1).2⟩)
        a3 (by simpa using run_length q1)
      obtain ⟨r, s3, b1, b2, b3, b4, b5⟩ := act_ended (E := E) (ha.sub (with_sub _ _)) (h3.mono a3) a2
      have k3 := a3.trans b3
      exact (ih2 (SRep.mono k3 (.loopFor h1 h2 h3)) b2 (F1.step b1.keep b3 (acts_length ha))).after k3 (b4.trans a4) fun Q _ _ he => .roundFor c1 ht (a1 Q) b1 he
    | braces _ h => cases h
    | single _ _ _ h => cases h
  | @returned σ e a p v f fr σ1 n hv ht _ hf ih =>
    intro s k m hr g F
    have main : ∀ c a b, ERep s.nodes c e → SRep s.nodes (.body b) p → Ended E s (.loop c a b) f σ1 m := by
      intro c a b h1 h2
      obtain ⟨s1, c1, c2⟩ := cond_is (E := E) g h1 hv
      have hb := SRep.mono (nd' := (enter s1 (loopName a)).nodes) c2.nodes h2
      exact governed_ret c2 g.room.ctxs hf (ih hb ((g.ext c2).enter _) ((F.step c1.keep c2.nodes rfl).enter _)) fun _ r s' he => .returned c1 ht he
    cases hr with
    | loop h1 h2 => exact main _ _ _ h1 h2
    | loopFor h1 h2 _ => exact main _ _ _ h1 h2
    | braces _ h => cases h
    | single _ _ _ h => cases h
  | ret hv =>
    intro s k m hr g F
    refine stmt_ended hr rfl fun t hr => ?_
    cases hr with
    | ret h1 h2 =>
      obtain ⟨r, s1, a1, a2, a3⟩ := eval_expr (E := E) g.wf (g.rel.value hv) h2
      exact ⟨r, s1, [], s1.ctxs, .ret trivial h1 ⟨a1, by rw [a2.ctxs], by rw [a2.ctxs]; exact g.flags⟩, a3, rfl,
        a2.uids, (g.ext a2).mono (by omega), a2.nodes⟩
  | leave =>
    intro s k m hr g F
    refine stmt_ended hr rfl fun t hr => ?_
    cases hr with
    | leave h1 =>
      exact ⟨s, [], s.ctxs, .ret rfl h1 ⟨⟨1, fun n hn => by obtain ⟨k, rfl⟩ : ∃ k, n = k + 1 := ⟨n - 1, by omega⟩; rfl⟩, rfl, g.flags⟩, rfl, rfl, g.mono (by omega), Kept.refl _⟩
  | block h => exact h.elim
  | @call hid vis f es q g' fr fr' vis' n hq hf hsee hok hP hnd _ ih =>
    intro s k m hr g F
    have F := F.resolve_left fun h => by
      have : Φ f = some q := hq
      rw [h f] at this; cases this
    obtain rfl : hid = [] := hsee
    obtain ⟨hav, hg'⟩ : Avoid [] q.params es ∧ (g' = .next ∨ g' = .left) := hok
    refine stmt_ended hr rfl fun t hr => ?_
    cases hr with
    | @call _ u i nd ca _ _ h1 h2 h3 h4 h5 h6 =>
      obtain ⟨c, g1, g2⟩ := F.glob
      obtain ⟨t', t1, fd, args, ret, b, name, t2, t3, t4, t5⟩ := g2 f q hq
      have hfind : resolveGlobal f .normal s = some t' := g.rel.procedure F.ne hf g1 t1
      have hlen := hP.length
      obtain ⟨s1, b1, b2, b3, b4⟩ := bound_conv (E := E) (name := name) (args := args) (callArgs := ca) g.assoc (hP.sub (with_sub _ _)) hav hnd (by
        rcases t4 with ⟨rfl, e1⟩ | ⟨d, ds, rfl, e1, e2, e3⟩ <;> rcases h4 with ⟨rfl, e4⟩ | ⟨c, as, rfl, e4, e5, e6⟩
        · exact .inl ⟨rfl, rfl, e1, e4⟩
        · rw [e1] at hlen; exact absurd (List.length_eq_zero_iff.mp hlen.symm) e5
        · rw [e4] at hlen; exact absurd (List.length_eq_zero_iff.mp hlen) e2
        · exact .inr ⟨d, c, ds, as, rfl, rfl, e1, e4, e3, e6⟩)
      have F1 : FnsAt Φ s1 (fr :: vis) := (F.push (F.sane.enterFn name) rfl rfl fr).step (fun hs => b1.keep hs) b3 rfl
      have hi := ih (t5.mono b3) b2 (.inr F1)
      rcases hg' with rfl | rfl
      · obtain ⟨s', x1, x2, x3, x4⟩ := hi
        obtain ⟨y1, y2⟩ := callUser_end F.sane t3 b1 (x1 _)
        have hev : Evl E s (some u) none (leave s') := fnCall_conv h2 (ident_conv h3 hfind) t2 (by simp) y1
        obtain ⟨z1, z2⟩ := good_out (s := s) (s1 := s) (nm := "") x2 (by rw [x4, b4]; rfl) g.room.ctxs rfl
        exact ⟨leave s', fun _ => .expr h5 h6 (evt_uids (h1.conv hev) z2 z1.flags) (by simp [NoJump]), z1, b3.trans x3, z2⟩
      · obtain ⟨s', top, base, x1, x3, x4, x5, x6⟩ := hi
        obtain ⟨s'', y1, y2, y3, y4⟩ := callUser_left F.sane t3 b1 x1 x3 (by rw [x4, b4]) g.room.ctxs x5
        have hev : Evl E s (some u) none s'' := fnCall_conv h2 (ident_conv h3 hfind) t2 (by simp) y1
        have g1 := y2 (Conv.evol hev F.sane.inv).inv.wf
        exact ⟨s'', fun _ => .expr h5 h6 (evt_uids (h1.conv hev) y4 g1.flags) (by simp [NoJump]), g1,
          fun t n hn => by rw [y3]; exact x6 _ _ (b3 _ _ hn), y4⟩

/-- programs without procedures -/
theorem run_ended {E : Env} {σ σ' : Store} {p : Spec.Stmt} {f : End} {n : Nat} (h : Run okRules σ p f σ' n) {s k m}
    (hr : SRep s.nodes k p) (g : Good s σ (n + m)) : Ended E s k f σ' m :=
  run_ended_procs (Φ := fun _ => none) h hr g (.inl fun _ => rfl)

end Bic
