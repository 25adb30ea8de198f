import Verif.Proofs.Pointers
import Verif.Proofs.Layout
/-!
# Declarations of structures and unions

Members of basic types, pointers, and arrays of those.
-/

namespace Bic
open Spec

/-- like `Grow`, but the trees in `D` may have changed and contexts may have been
created and left -/
structure GrowD (D : List TId) (s s' : St) : Prop where
  next : s.next ≤ s'.next
  nodes : ∀ t n, t ∉ D → s.nodes t = some n → s'.nodes t = some n
  wf : WF s → WF s'
  ctxs : s'.ctxs.map Ctx.core = s.ctxs.map Ctx.core
  nextUid : s.nextUid ≤ s'.nextUid
  includeCtx : s'.includeCtx = s.includeCtx
  includes : s'.includes = s.includes
  closures : s'.closures = s.closures
  events : s'.events = s.events
  byte : ∀ b, s.mem.live b = true → s'.mem.byte b = s.mem.byte b
  live : ∀ b, s.mem.live b = true → s'.mem.live b = true
  brk : s.mem.brk ≤ s'.mem.brk
  livelt : LiveLt s.mem → LiveLt s'.mem

theorem Grow.toD {s s' : St} (h : Grow s s') (D : List TId) : GrowD D s s' :=
  { h with nodes := fun t n _ hn => h.nodes t n hn, nextUid := Nat.le_of_eq h.nextUid.symm }

namespace GrowD
variable {D : List TId} {s s' s'' : St}

theorem refl (D : List TId) (s : St) : GrowD D s s := (Grow.refl s).toD D

theorem trans (h : GrowD D s s') (h' : GrowD D s' s'') : GrowD D s s'' where
  next := Nat.le_trans h.next h'.next
  nodes t n hd hn := h'.nodes t n hd (h.nodes t n hd hn)
  wf w := h'.wf (h.wf w)
  ctxs := h'.ctxs.trans h.ctxs
  nextUid := Nat.le_trans h.nextUid h'.nextUid
  includeCtx := h'.includeCtx.trans h.includeCtx
  includes := h'.includes.trans h.includes
  closures := h'.closures.trans h.closures
  events := h'.events.trans h.events
  byte b hb := (h'.byte b (h.live b hb)).trans (h.byte b hb)
  live b hb := h'.live b (h.live b hb)
  brk := Nat.le_trans h.brk h'.brk
  livelt hl := h'.livelt (h.livelt hl)

theorem mono {D' : List TId} (h : GrowD D s s') (hd : ∀ t ∈ D, t ∈ D') : GrowD D' s s' :=
  { h with nodes := fun t n ht hn => h.nodes t n (fun h => ht (hd t h)) hn }

/-- forgetting about objects that did not exist -/
theorem old (h : GrowD D s s') (w : WF s) {D' : List TId} (hd : ∀ t ∈ D, s.next ≤ t ∨ t ∈ D') : GrowD D' s s' :=
  { h with nodes := fun t n ht hn => h.nodes t n (fun h => by
      rcases hd t h with h | h
      · exact absurd (w.lt hn) (Nat.not_lt.mpr h)
      · exact ht h) hn }

theorem ctxs_ne (h : GrowD D s s') (hc : s.ctxs ≠ []) : s'.ctxs ≠ [] := by
  intro h'
  have := h.ctxs
  rw [h'] at this
  cases hs : s.ctxs with
  | nil => exact hc hs
  | cons c cs => rw [hs] at this; simp at this

/-- setting a tree -/
theorem set (h : GrowD D s s') {t : TId} (ht : t ∈ D) (ht' : t < s'.next) (n : Node) :
    GrowD D s { s' with nodes := fun x => if x = t then some n else s'.nodes x } :=
  { h with
    nodes := fun x m hx hm => by
      have : x ≠ t := fun e => hx (e ▸ ht)
      simp [this, h.nodes x m hx hm]
    wf := fun w x hx => by
      have hx' : s'.next ≤ x := hx
      have : x ≠ t := by intro h2; subst h2; exact absurd ht' (Nat.not_lt.mpr hx')
      simp [this, h.wf w x hx'] }

theorem resolveGlobal (h : GrowD D s s') (x ns) : resolveGlobal x ns s' = resolveGlobal x ns s := by
  unfold Bic.resolveGlobal
  rw [findInChain_core x ns h.ctxs, h.includeCtx]

end GrowD

/-! ## Declarators of members -/

/-- the declarator `d` declares `x` as a member of type `m`, the declaration
specifiers giving the type `k`; bic makes a bit-field a member of the whole type -/
inductive MDecl (nd : TId → Option Node) : TId → CT → String → MTy → Prop
  | ident {d k x} : nd d = some (.ident x) → MDecl nd d k x (.val k)
  | arr {d id sz k x} {n : Nat} : nd d = some (.array (some id) (some sz)) → nd id = some (.ident x) →
      nd sz = some (.integer n) → MDecl nd d k x (.arr k n)
  | ptr {d e k x m} : nd d = some (.pointer (some e)) → MDecl nd e .ptr x m → MDecl nd d k x m
  | bit {d e z k x} : nd d = some (.bitfield z (some e)) → nd e = some (.ident x) → MDecl nd d k x (.val k)

theorem MDecl.mono {nd nd' : TId → Option Node} (h : ∀ t n, nd t = some n → nd' t = some n) {d k x m}
    (hk : MDecl nd d k x m) : MDecl nd' d k x m := by
  induction hk with
  | ident h1 => exact .ident (h _ _ h1)
  | arr h1 h2 h3 => exact .arr (h _ _ h1) (h _ _ h2) (h _ _ h3)
  | ptr h1 _ ih => exact .ptr (h _ _ h1) ih
  | bit h1 h2 => exact .bit (h _ _ h1) (h _ _ h2)

/-- what is left of a declarator without its `*`s -/
inductive Bare (nd : TId → Option Node) : TId → CT → String → MTy → Prop
  | ident {d k x} : nd d = some (.ident x) → Bare nd d k x (.val k)
  | arr {d id sz k x} {n : Nat} : nd d = some (.array (some id) (some sz)) → nd id = some (.ident x) →
      nd sz = some (.integer n) → Bare nd d k x (.arr k n)
  | bit {d e z k x} : nd d = some (.bitfield z (some e)) → nd e = some (.ident x) → Bare nd d k x (.val k)

theorem Bare.mono {nd nd' : TId → Option Node} (h : ∀ t n, nd t = some n → nd' t = some n) {d k x m}
    (hk : Bare nd d k x m) : Bare nd' d k x m := by
  cases hk with
  | ident h1 => exact .ident (h _ _ h1)
  | arr h1 h2 h3 => exact .arr (h _ _ h1) (h _ _ h2) (h _ _ h3)
  | bit h1 h2 => exact .bit (h _ _ h1) (h _ _ h2)

theorem resolvePtr_conv {E : Env} {nd0 : TId → Option Node} {d : TId} {k : CT} {x m} (hm : MDecl nd0 d k x m) :
    ∀ {s : St} {τ : TId} {e : Ref}, nd0 = s.nodes → WF s → s.nodes τ = some (.ctype k e) →
    ∃ d' τ' k' e' s', Conv E (fun R => R.resolvePtr (some d) (some τ)) s (.ok (some d', some τ') s') ∧
      Ext s s' ∧ s'.nodes τ' = some (.ctype k' e') ∧ Bare s'.nodes d' k' x m := by
  have : ∀ {nd0 : TId → Option Node} {d : TId} {k : CT} {x m}, MDecl nd0 d k x m →
      ∀ {s : St} {τ : TId} {e : Ref}, (∀ t n, nd0 t = some n → s.nodes t = some n) → WF s →
      s.nodes τ = some (.ctype k e) →
      ∃ d' τ' k' e' s', Conv E (fun R => R.resolvePtr (some d) (some τ)) s (.ok (some d', some τ') s') ∧
      Ext s s' ∧ s'.nodes τ' = some (.ctype k' e') ∧ Bare s'.nodes d' k' x m := by
    intro nd0 d k x m hm
    induction hm with
    | @ident d k x h =>
      intro s τ e hs w hτ
      exact ⟨d, τ, k, e, s, Conv.resolvePtr (Conv.fixed fun R => by simp [resolvePtrStep, peek_apply (hs _ _ h)]),
        Ext.refl s, hτ, .ident (hs _ _ h)⟩
    | @arr d id sz k x n h h2 h3 =>
      intro s τ e hs w hτ
      exact ⟨d, τ, k, e, s, Conv.resolvePtr (Conv.fixed fun R => by simp [resolvePtrStep, peek_apply (hs _ _ h)]),
        Ext.refl s, hτ, .arr (hs _ _ h) (hs _ _ h2) (hs _ _ h3)⟩
    | @bit d e0 z k x h h2 =>
      intro s τ e hs w hτ
      exact ⟨d, τ, k, e, s, Conv.resolvePtr (Conv.fixed fun R => by simp [resolvePtrStep, peek_apply (hs _ _ h)]),
        Ext.refl s, hτ, .bit (hs _ _ h) (hs _ _ h2)⟩
    | @ptr d e0 k x m h _ ih =>
      intro s τ e hs w hτ
      have x1 := addNode_ext w (.ctype .ptr (some τ))
      obtain ⟨d', τ', k', e', s', c, x2, h2, h3⟩ := ih (s := addNode s (.ctype .ptr (some τ))) (τ := s.next)
        (fun t n h => x1.nodes t n (hs t n h)) (x1.wf w) (addNode_self s _)
      refine ⟨d', τ', k', e', s', Conv.resolvePtr (Conv.of_eq c fun R => ?_), x1.trans x2, h2, h3⟩
      simp [resolvePtrStep, peek_apply (hs _ _ h), mk_apply]
  intro s τ e h w hτ
  exact this hm (fun t n hn => by rw [← h]; exact hn) w hτ

/-- a declarator is handled by what is left of it without its `*`s -/
theorem handleDecl_ptr_conv {E : Env} {s s' : St} {d d' τ τ' : TId} {o : Out Ref}
    (h1 : Conv E (fun R => R.resolvePtr (some d) (some τ)) s (.ok (some d', some τ') s'))
    (h2 : ∃ n, s'.nodes d' = some n ∧ ∀ e, n ≠ .pointer e)
    (h3 : Conv E (fun R => R.handleDecl (some d') (some τ')) s' o) :
    Conv E (fun R => R.handleDecl (some d) (some τ)) s o := by
  obtain ⟨n, hn, hp⟩ := h2
  obtain ⟨N, hN⟩ := h3
  obtain ⟨N1, hN1⟩ := h1
  refine Conv.handleDecl ⟨max (N + 1) N1, fun k hk => ?_⟩
  have hk1 : N + 1 ≤ k := Nat.le_trans (Nat.le_max_left _ _) hk
  have hk2 : N1 ≤ k := Nat.le_trans (Nat.le_max_right _ _) hk
  have a := hN (k + 1) (by omega)
  have e0 : (run E (k + 1)).handleDecl (some d') (some τ') s' = handleDeclStep (run E k) (some d') (some τ') s' := rfl
  have a' := e0.symm.trans a
  have b := hN1 k hk2
  have c : (run E k).resolvePtr (some d') (some τ') s' = .ok (some d', some τ') s' := by
    obtain ⟨j, rfl⟩ : ∃ j, k = j + 1 := ⟨k - 1, by omega⟩
    show resolvePtrStep (run E j) (some d') (some τ') s' = _
    simp only [resolvePtrStep, bind_apply, peek_apply hn]
    cases n <;> first | rfl | exact absurd rfl (hp _)
  show handleDeclStep (run E k) (some d) (some τ) s = o
  rw [← a']
  unfold handleDeclStep
  simp only [bind_apply]
  have b' : (run E k).resolvePtr (some d) (some τ) s = .ok (some d', some τ') s' := b
  rw [b', c]

/-! ## Members as objects -/

/-- an object standing for a member of type `m` -/
def MemberObj (s : St) (v : TId) : MTy → Prop
  | .val c => ∃ τ a e, s.nodes v = some (.lv (some τ) a false 0) ∧ s.nodes τ = some (.ctype c e)
  | .arr c n => ∃ bt a e, ArrayAt s v (some bt) (c.size * n) a ∧ s.nodes bt = some (.ctype c e)

/-- an object standing for a member of type `m` at the address `a` -/
def MemberAt (s : St) (v : TId) (a : Nat) : MTy → Prop
  | .val c => ∃ τ e, s.nodes v = some (.lv (some τ) a false 0) ∧ s.nodes τ = some (.ctype c e)
  | .arr c n => ∃ bt e, ArrayAt s v (some bt) (c.size * n) a ∧ s.nodes bt = some (.ctype c e)

theorem MemberAt.grow {s s' : St} {v a m} (h : MemberAt s v a m) (x : Grow s s') : MemberAt s' v a m := by
  cases m with
  | val c =>
    obtain ⟨τ, e, h1, h2⟩ := h
    exact ⟨τ, e, x.nodes _ _ h1, x.nodes _ _ h2⟩
  | arr c n =>
    obtain ⟨bt, e, h1, h2⟩ := h
    exact ⟨bt, e, h1.grow x, x.nodes _ _ h2⟩

/-- if `v` is an array, the cell with its address is at `lo` or above -/
def CellFrom (s : St) (v : TId) (lo : Nat) : Prop :=
  ∃ ty a arr n, s.nodes v = some (.lv ty a arr n) ∧ (arr = true → lo ≤ a)

theorem CellFrom.grow {s s' : St} {v lo lo'} (h : CellFrom s v lo) (x : Grow s s') (hl : lo' ≤ lo) : CellFrom s' v lo' := by
  obtain ⟨ty, a, arr, n, h1, h2⟩ := h
  exact ⟨ty, a, arr, n, x.nodes _ _ h1, fun h => Nat.le_trans hl (h2 h)⟩

/-- memory used while a member is looked at -/
def mcost : MTy → Nat
  | .val _ => 256
  | .arr c n => 512 + c.size * n

/-- enough memory and a context -/
structure Cap (s : St) (n : Nat) : Prop where
  brk : s.mem.brk + n < Mem.limit
  ctxs : s.ctxs ≠ []
  livelt : LiveLt s.mem

theorem Cap.room {s : St} {n k : Nat} (h : Cap s n) (hk : 48 * k ≤ n) : Room s k :=
  ⟨by have := h.brk; omega, h.ctxs, h.livelt⟩

theorem Cap.grow {s s' : St} {n n' : Nat} (h : Cap s n) (x : Grow s s') (hb : s'.mem.brk + n' ≤ s.mem.brk + n) :
    Cap s' n' := ⟨by have := h.brk; omega, x.ctxs_ne h.ctxs, x.livelt h.livelt⟩

theorem Bare.notPtr {nd : TId → Option Node} {d k x m} (h : Bare nd d k x m) :
    ∃ n, nd d = some n ∧ ∀ e, n ≠ .pointer e := by
  cases h with
  | ident h => exact ⟨_, h, by intros; simp⟩
  | arr h _ _ => exact ⟨_, h, by intros; simp⟩
  | bit h _ => exact ⟨_, h, by intros; simp⟩

/-- evaluating the declaration of a member -/
theorem memberDecl_conv {E : Env} {s : St} {t specs d : TId} {off : Nat} {k : CT} {x : String} {m : MTy} (w : WF s)
    (ht : s.nodes t = some (.decl (some specs) (some d) off)) (hs : TypeSpecs s.nodes specs k)
    (hd : MDecl s.nodes d k x m) (hx : resolveCurrent x .normal s = none) (hc : Cap s (mcost m)) :
    ∃ id v s', Conv E (fun R => R.ev (some t)) s (.ok (some id) (bindSt s' ⟨x, id, some v⟩)) ∧
      s'.nodes id = some (.ident x) ∧ Grow s s' ∧ MemberObj s' v m ∧ s'.mem.brk + 128 ≤ s.mem.brk + mcost m := by
  have x1 := addNode_ext w (.ctype k none)
  have w1 := x1.wf w
  have hcost : 256 ≤ mcost m := by cases m <;> simp [mcost] <;> omega
  obtain ⟨d', τ', k', e', s2, c2, x2, h2, hb⟩ := resolvePtr_conv (E := E) (hd.mono x1.nodes) rfl w1 (addNode_self s _)
  have w2 := x2.wf w1
  have x12 := x1.trans x2
  have hx2 : resolveCurrent x .normal s2 = none := by rw [x12.grow.resolveCurrent]; exact hx
  have hb2 : s2.mem.brk = s.mem.brk := by rw [x12.mem]
  have hc2 : Cap s2 (mcost m) := hc.grow x12.grow (by omega)
  have fin : ∀ {o}, Conv E (fun R => R.handleDecl (some d') (some τ')) s2 o → Conv E (fun R => R.ev (some t)) s o := by
    intro o h
    refine evalDecl_conv w ht hs ?_
    have h5 := handleDecl_ptr_conv c2 hb.notPtr h
    refine h5.of_eq fun R => ?_
    have hnc : ∀ {d k x m}, MDecl s.nodes d k x m → ∃ n, s.nodes d = some n ∧ (∀ l, n ≠ .chain l) := by
      intro d k x m h
      cases h <;> exact ⟨_, by assumption, by intros; simp⟩
    obtain ⟨n, hn, hl⟩ := hnc hd
    simp only [eachDecl, bind_apply, peek_apply (x1.nodes _ _ hn)]
    cases n <;> first | rfl | exact absurd rfl (hl _)
  cases hb with
  | ident h =>
    have hid := handleDecl_ident_conv (E := E) w2 h h2 (hc2.room (by omega)) hx2
    refine ⟨d', s2.next, newVar s2 (some τ'), fin hid, (newVar_grow w2 _).nodes _ _ h,
      x12.grow.trans (newVar_grow w2 _), ⟨τ', s2.mem.brk, e', newVar_self _ _, (newVar_grow w2 _).nodes _ _ h2⟩, ?_⟩
    show s2.mem.brk + 48 + 128 ≤ _
    omega
  | @bit b z _ _ h h3 =>
    have hid := handleDecl_ident_conv (E := E) w2 h3 h2 (hc2.room (by omega)) hx2
    have hbit : Conv E (fun R => R.handleDecl (some d') (some τ')) s2 (.ok (some b) (declSt s2 τ' b x)) := by
      refine Conv.handleDecl ?_
      unfold handleDeclStep
      refine Conv.bind (a := (some d', some τ')) (s' := s2) (Conv.resolvePtr ?_) ?_
      · exact Conv.fixed fun R => by simp [resolvePtrStep, peek_apply h]
      refine Conv.of_eq hid fun R => ?_
      simp only [bind_apply, node_apply h2, handleDeclSwitch, nodeR, node_apply h]
    refine ⟨b, s2.next, newVar s2 (some τ'), fin hbit, (newVar_grow w2 _).nodes _ _ h3,
      x12.grow.trans (newVar_grow w2 _), ⟨τ', s2.mem.brk, e', newVar_self _ _, (newVar_grow w2 _).nodes _ _ h2⟩, ?_⟩
    show s2.mem.brk + 48 + 128 ≤ _
    omega
  | arr h h3 h4 =>
    rename_i id sz n
    have hsz : ∀ s0, Grow s2 s0 → Room s0 1 → ∃ y s1, Conv E (fun R => R.ev (some sz)) s0 (.ok (some y) s1) ∧
        Ext s0 s1 ∧ Denotes s1 y (n : Int) := by
      intro s0 g0 _
      refine ⟨sz, s0, Conv.evNode (g0.nodes _ _ h4) (Conv.fixed fun R => rfl), Ext.refl _, .inl (g0.nodes _ _ h4)⟩
    obtain ⟨v, s3, s4, c4, g3, rfl, a, ha, hok, _, hbr, _⟩ := handleDecl_array_conv (E := E) w2 h h3 h2 hx2 hsz
      (by omega) (hc2.room (by omega)) (by have := hc2.brk; simp only [mcost, Int.toNat_natCast] at this ⊢; omega)
    refine ⟨id, v, s3, fin c4, g3.nodes _ _ h3, x12.grow.trans g3, ⟨τ', a, e', ?_, g3.nodes _ _ h2⟩, ?_⟩
    · simpa using ha
    · simp only [Int.toNat_natCast] at hbr
      simp only [mcost]; omega

theorem memberSize_conv {E : Env} {s : St} {v : TId} {m : MTy} (w : WF s) (hc : Cap s 48) (hm : MemberObj s v m)
    (hsz : m.size < 2 ^ 64) :
    ∃ s', Conv E (fun R => getSizeOfType R (some v)) s (.ok m.size s') ∧ Grow s s' ∧ s'.mem.brk ≤ s.mem.brk + 48 := by
  have r : Room s 1 := hc.room (by omega)
  cases m with
  | val c =>
    obtain ⟨τ, a, e, h1, h2⟩ := hm
    rw [show MTy.size (.val c) = c.size from abiSize_eq c] at hsz ⊢
    exact getSizeOfType_conv w r (.var h1 h2 (by simp)) hsz fun nd hnd R => by rw [h1] at hnd; cases hnd; rfl
  | arr c n =>
    obtain ⟨bt, a, e, ha, h2⟩ := hm
    obtain ⟨τ, b, h3, h4, _⟩ := ha.lv
    have : MTy.size (.arr c n) = c.size * n := by simp [MTy.size, abiSize_eq]
    rw [this] at hsz ⊢
    exact getSizeOfType_conv w r (.array h3 h4) hsz fun nd hnd R => by rw [h3] at hnd; cases hnd; rfl

theorem memberAlign_conv {E : Env} {s : St} {v : TId} {m : MTy} (w : WF s) (hc : Cap s 48) (hm : MemberObj s v m) :
    ∃ s', Conv E (fun R => R.alignment (some v)) s (.ok m.align s') ∧ Grow s s' ∧ s'.mem.brk ≤ s.mem.brk + 48 := by
  have r : Room s 1 := hc.room (by omega)
  cases m with
  | val c =>
    obtain ⟨τ, a, e, h1, h2⟩ := hm
    rw [show MTy.align (.val c) = c.size from abiAlign_eq c]
    obtain ⟨s', c', g, b⟩ := ctypeSize_conv (E := E) w r h2
    refine ⟨s', Conv.alignment (c'.of_eq fun R => ?_), g, b⟩
    simp [alignmentStep, nodeR, node_apply h1]
  | arr c n =>
    obtain ⟨bt, a, e, ha, h2⟩ := hm
    obtain ⟨τ, b, h3, h4, _⟩ := ha.lv
    rw [show MTy.align (.arr c n) = c.size from abiAlign_eq c]
    obtain ⟨s', c', g, b⟩ := ctypeSize_conv (E := E) w r h2
    refine ⟨s', Conv.alignment (c'.of_eq fun R => ?_), g, b⟩
    simp [alignmentStep, nodeR, node_apply h3, node_apply h4]

/-! ## The layout loop -/

/-- trees that are neither declarations, nor compound types with their members, nor incomplete types -/
def Plain : Node → Prop
  | .decl _ _ _ => False
  | .incomp => False
  | .compound _ (some _) _ _ _ => False
  | _ => True

/-- the plain trees of `nd` are in `nd'` -/
def Keeps (nd nd' : TId → Option Node) : Prop := ∀ t n, Plain n → nd t = some n → nd' t = some n

theorem Keeps.trans {a b c : TId → Option Node} (h : Keeps a b) (h' : Keeps b c) : Keeps a c :=
  fun t n p hn => h' t n p (h t n p hn)

theorem KwChain.keeps {nd nd' : TId → Option Node} (h : Keeps nd nd') {l ks} (hk : KwChain nd l ks) : KwChain nd' l ks := by
  induction hk with
  | nil => exact .nil
  | cons h1 _ ih => exact .cons (h _ _ trivial h1) ih

theorem TypeSpecs.keeps {nd nd' : TId → Option Node} (h : Keeps nd nd') {t k} (hk : TypeSpecs nd t k) : TypeSpecs nd' t k := by
  obtain ⟨l, ks, h1, h2, h3⟩ := hk
  exact ⟨l, ks, h _ _ trivial h1, h2.keeps h, h3⟩

theorem MDecl.keeps {nd nd' : TId → Option Node} (h : Keeps nd nd') {d k x m} (hk : MDecl nd d k x m) : MDecl nd' d k x m := by
  induction hk with
  | ident h1 => exact .ident (h _ _ trivial h1)
  | arr h1 h2 h3 => exact .arr (h _ _ trivial h1) (h _ _ trivial h2) (h _ _ trivial h3)
  | ptr h1 _ ih => exact .ptr (h _ _ trivial h1) ih
  | bit h1 h2 => exact .bit (h _ _ trivial h1) (h _ _ trivial h2)

theorem Grow.keeps {s s' : St} (h : Grow s s') : Keeps s.nodes s'.nodes := fun t n _ => h.nodes t n

/-- related elements in two lists -/
inductive All₂ {α β : Type} (R : α → β → Prop) : List α → List β → Prop
  | nil : All₂ R [] []
  | cons {a b l l'} : R a b → All₂ R l l' → All₂ R (a :: l) (b :: l')

theorem All₂.imp {α β : Type} {R R' : α → β → Prop} (h : ∀ a b, R a b → R' a b) {l l'} (hl : All₂ R l l') : All₂ R' l l' := by
  induction hl with
  | nil => exact .nil
  | cons h1 _ ih => exact .cons (h _ _ h1) ih

theorem All₂.get {α β : Type} {R : α → β → Prop} {l l'} (hl : All₂ R l l') : ∀ {i : Nat} {a b},
    l[i]? = some a → l'[i]? = some b → R a b := by
  induction hl with
  | nil => intro i a b h; simp at h
  | cons h1 _ ih =>
    intro i a b ha hb
    cases i with
    | zero => simp at ha hb; subst ha; subst hb; exact h1
    | succ i => rw [List.getElem?_cons_succ] at ha hb; exact ih ha hb

theorem All₂.length {α β : Type} {R : α → β → Prop} {l l'} (hl : All₂ R l l') : l.length = l'.length := by
  induction hl with
  | nil => rfl
  | cons _ _ ih => simp [ih]

/-- a member: the declaration tree, its specifiers and declarator, and what they say -/
structure Item where
  d : TId
  specs : TId
  dd : TId
  k : CT
  x : String
  m : MTy

/-- the trees of a member say what `i` says -/
def Item.Ok (nd : TId → Option Node) (i : Item) : Prop := TypeSpecs nd i.specs i.k ∧ MDecl nd i.dd i.k i.x i.m

theorem Item.Ok.keeps {nd nd' : TId → Option Node} (h : Keeps nd nd') {i : Item} (hi : i.Ok nd) : i.Ok nd' :=
  ⟨hi.1.keeps h, hi.2.keeps h⟩

/-- the trees of the member `struct tag *x;` (or `union`) -/
def Item.Link (nd : TId → Option Node) (i : Item) (isS : Bool) (tag : String) : Prop :=
  ∃ u tid sz b e, nd i.specs = some (.chain [u]) ∧ nd u = some (.compound (some tid) none sz b isS) ∧
    nd tid = some (.ident tag) ∧ nd i.dd = some (.pointer (some e)) ∧ nd e = some (.ident i.x) ∧ i.m = .val .ptr

theorem Item.Link.keeps {nd nd' : TId → Option Node} (h : Keeps nd nd') {i : Item} {isS tag} (hi : i.Link nd isS tag) :
    i.Link nd' isS tag := by
  obtain ⟨u, tid, sz, b, e, h1, h2, h3, h4, h5, h6⟩ := hi
  exact ⟨u, tid, sz, b, e, h _ _ trivial h1, h _ _ trivial h2, h _ _ trivial h3, h _ _ trivial h4, h _ _ trivial h5, h6⟩

/-- the member is a pointer to the compound type `c` -/
def Item.To (s : St) (i : Item) (c : TId) : Prop :=
  ∃ isS tag, i.Link s.nodes isS tag ∧ resolveGlobal tag (compNS isS) s = some c

/-- the trees of a member make sense: it is of a basic type, a pointer or an array of those, or
a pointer to a compound type -/
def Item.Fine (s : St) (i : Item) : Prop := i.Ok s.nodes ∨ ∃ c, i.To s c

theorem Item.To.keeps {s s' : St} (h : Keeps s.nodes s'.nodes) (hr : ∀ x ns, resolveGlobal x ns s' = resolveGlobal x ns s)
    {i : Item} {c} (hi : i.To s c) : i.To s' c := by
  obtain ⟨isS, tag, h1, h2⟩ := hi
  exact ⟨isS, tag, h1.keeps h, by rw [hr]; exact h2⟩

theorem Item.Fine.keeps {s s' : St} (h : Keeps s.nodes s'.nodes) (hr : ∀ x ns, resolveGlobal x ns s' = resolveGlobal x ns s)
    {i : Item} (hi : i.Fine s) : i.Fine s' := by
  rcases hi with hi | ⟨c, hi⟩
  · exact .inl (Item.Ok.keeps h hi)
  · exact .inr ⟨c, hi.keeps h hr⟩

theorem Item.Fine.grow {s s' : St} (g : Grow s s') {i : Item} (hi : i.Fine s) : i.Fine s' :=
  Item.Fine.keeps g.keeps (fun x ns => g.resolveGlobal x ns) hi

theorem Item.Ok.notTo {s : St} {i : Item} (h : i.Ok s.nodes) {c} : ¬ i.To s c := by
  rintro ⟨isS, tag, ⟨u, tid, sz, b, e, h1, h2, _⟩, _⟩
  obtain ⟨l, ks, h3, h4, _⟩ := h.1
  rw [h1] at h3; cases h3
  cases h4 with
  | cons h5 _ => rw [h2] at h5; cases h5

/-- declaring a member that is a pointer to a compound type -/
theorem linkDecl_conv {E : Env} {s : St} {i : Item} {c : TId} {off : Nat} (w : WF s)
    (ht : s.nodes i.d = some (.decl (some i.specs) (some i.dd) off)) (hl : i.To s c)
    (hx : resolveCurrent i.x .normal s = none) (hc : Cap s (mcost i.m)) :
    ∃ id v s', Conv E (fun R => R.ev (some i.d)) s (.ok (some id) (bindSt s' ⟨i.x, id, some v⟩)) ∧
      s'.nodes id = some (.ident i.x) ∧ Grow s s' ∧ MemberObj s' v i.m ∧ s'.mem.brk + 128 ≤ s.mem.brk + mcost i.m := by
  obtain ⟨isS, tag, ⟨u, tid, sz, b, e, h1, h2, h3, h4, h5, h6⟩, hr⟩ := hl
  rw [h6] at hc ⊢
  simp only [mcost] at hc ⊢
  have x1 := addNode_ext w (.ctype .ptr (some c))
  have w1 := x1.wf w
  have self1 := addNode_self s (.ctype .ptr (some c))
  have b1 : (addNode s (.ctype .ptr (some c))).mem.brk = s.mem.brk := rfl
  have c1 : Conv E (fun R => R.resolvePtr (some i.dd) (some c)) s (.ok (some e, some s.next) (addNode s (.ctype .ptr (some c)))) := by
    have c2 : Conv E (fun R => R.resolvePtr (some e) (some s.next)) (addNode s (.ctype .ptr (some c)))
        (.ok (some e, some s.next) (addNode s (.ctype .ptr (some c)))) :=
      Conv.resolvePtr (Conv.fixed fun R => by simp [resolvePtrStep, peek_apply (x1.nodes _ _ h5)])
    refine Conv.resolvePtr (Conv.of_eq c2 fun R => ?_)
    simp [resolvePtrStep, peek_apply h4, mk_apply]
  generalize addNode s (.ctype .ptr (some c)) = s1 at x1 w1 self1 b1 c1
  have hx1 : resolveCurrent i.x .normal s1 = none := by rw [x1.grow.resolveCurrent]; exact hx
  have hc1 : Cap s1 256 := hc.grow x1.grow (by omega)
  have hid := handleDecl_ident_conv (E := E) w1 (x1.nodes _ _ h5) self1 (hc1.room (by omega)) hx1
  have hh := handleDecl_ptr_conv c1 ⟨_, x1.nodes _ _ h5, by intros; simp⟩ hid
  refine ⟨e, s1.next, newVar s1 (some s.next), ?_, (newVar_grow w1 _).nodes _ _ (x1.nodes _ _ h5),
    x1.grow.trans (newVar_grow w1 _), ⟨s.next, s1.mem.brk, some c, newVar_self _ _, (newVar_grow w1 _).nodes _ _ self1⟩, ?_⟩
  · refine Conv.evNode ht ?_
    have hev : Conv E (fun R => R.ev (some u)) s (.ok (some c) s) := by
      refine Conv.evNode h2 (Conv.fixed fun R => ?_)
      show evalDeclCompound R u (some tid) none isS s = _
      simp [evalDeclCompound, idStr, nodeR, node_apply h3, get, hr]
    have hall : Conv E (fun R => (do
        let ty ← R.ev (some u)
        let ks ← chainElems (some i.specs)
        if ← chainHasKw .typedef ks then eachDecl (fun d => R.mapTypedef d ty) (some i.dd)
        else if ← chainHasKw .extern ks then eachDecl (handleExternDecl E R ty) (some i.dd)
        else if ← chainHasKw .static ks then handleStaticDecl R ty i.d (some i.dd)
        else eachDecl (fun d => R.handleDecl d ty) (some i.dd) : M Ref)) s
        (.ok (some e) (bindSt (newVar s1 (some s.next)) ⟨i.x, e, some s1.next⟩)) := by
      refine Conv.bind hev (Conv.of_eq hh fun R => ?_)
      have hkw : ∀ kw, chainHasKw kw [u] s = .ok false s := by
        intro kw
        simp [chainHasKw, node_apply h2]
      simp [chainElems_apply h1, hkw, eachDecl, peek_apply h4]
    refine Conv.of_eq hall fun R => ?_
    have e0 : resolveSpecs (some i.specs) s = .ok (some u) s := by
      simp [resolveSpecs, chainElems_apply h1, resolveSpecsLoop, node_apply h2]
    show evalDecl E R i.d (some i.specs) (some i.dd) s = _
    simp [evalDecl, e0, peek_apply h2]
  · show s1.mem.brk + 48 + 128 ≤ _
    omega

theorem fineDecl_conv {E : Env} {s : St} {i : Item} {off : Nat} (w : WF s)
    (ht : s.nodes i.d = some (.decl (some i.specs) (some i.dd) off)) (hi : i.Fine s)
    (hx : resolveCurrent i.x .normal s = none) (hc : Cap s (mcost i.m)) :
    ∃ id v s', Conv E (fun R => R.ev (some i.d)) s (.ok (some id) (bindSt s' ⟨i.x, id, some v⟩)) ∧
      s'.nodes id = some (.ident i.x) ∧ Grow s s' ∧ MemberObj s' v i.m ∧ s'.mem.brk + 128 ≤ s.mem.brk + mcost i.m := by
  rcases hi with hi | ⟨c, hi⟩
  · exact memberDecl_conv w ht hi.1 hi.2 hx hc
  · exact linkDecl_conv w ht hi hx hc

/-- the declaration tree of a member with its offset -/
def Item.At (nd : TId → Option Node) (i : Item) (o : Nat) : Prop := nd i.d = some (.decl (some i.specs) (some i.dd) o)

def pushSt (s : St) (name : String) : St :=
  { s with
    ctxs := { uid := s.nextUid, name, ids := [], structs := [], unions := [], allocs := [],
              retval := none, shouldBreak := false, isFn := false } :: s.ctxs,
    nextUid := s.nextUid + 1 }

theorem pushSt_resolve (s : St) (name : String) (x : String) (ns : NS) :
    resolveGlobal x ns (pushSt s name) = resolveGlobal x ns s := by
  cases ns <;> simp [resolveGlobal, pushSt, findInChain, Ctx.map, findId]

theorem pushCtx_apply (name : String) (s : St) : pushCtx name s = .ok () (pushSt s name) := rfl

def popSt (s : St) : St := { s with ctxs := s.ctxs.tail }

theorem popCtx_apply {s : St} (h : s.ctxs.tail ≠ []) : popCtx s = .ok () (popSt s) := by
  unfold popCtx popSt
  match hc : s.ctxs with
  | [] => simp [hc] at h
  | [c] => simp [hc] at h
  | c :: c' :: cs => rfl

theorem bindCur_core (b : Binding) (l l' : List Ctx) (h : l'.map Ctx.core = (bindCur b l).map Ctx.core) :
    l'.tail.map Ctx.core = l.tail.map Ctx.core := by
  cases l with
  | nil => simp only [bindCur, List.map_nil, List.map_eq_nil_iff] at h; simp [h]
  | cons c cs =>
    cases l' with
    | nil => simp [bindCur] at h
    | cons c' cs' =>
      simp only [bindCur, List.map_cons, List.cons.injEq] at h
      exact h.2

/-- entering a scope, declaring something in it and leaving it -/
theorem pushPop {s s2 s4 : St} {nm : String} {b : Binding} (g1 : Grow (pushSt s nm) s2) (g2 : Grow (bindSt s2 b) s4) :
    GrowD [] s (popSt s4) where
  next := Nat.le_trans g1.next g2.next
  nodes t n _ hn := g2.nodes t n (g1.nodes t n hn)
  wf w := g2.wf (g1.wf w)
  ctxs := by
    have h1 := bindCur_core b s2.ctxs s4.ctxs g2.ctxs
    have h2 := g1.ctxs
    show s4.ctxs.tail.map Ctx.core = _
    rw [h1]
    cases hc : s2.ctxs with
    | nil => rw [hc] at h2; simp [pushSt] at h2
    | cons c cs =>
      rw [hc] at h2
      simp only [pushSt, List.map_cons, List.cons.injEq] at h2
      exact h2.2
  nextUid := by
    have h1 := g1.nextUid
    have h2 := g2.nextUid
    show s.nextUid ≤ s4.nextUid
    rw [h2]; show s.nextUid ≤ s2.nextUid
    rw [h1]; exact Nat.le_succ _
  includeCtx := g2.includeCtx.trans g1.includeCtx
  includes := g2.includes.trans g1.includes
  closures := g2.closures.trans g1.closures
  events := g2.events.trans g1.events
  byte b hb := (g2.byte b (g1.live b hb)).trans (g1.byte b hb)
  live b hb := g2.live b (g1.live b hb)
  brk := Nat.le_trans g1.brk g2.brk
  livelt hl := g2.livelt (g1.livelt hl)

theorem resolveCurrent_bind {s : St} {x : String} {d t : TId} (h : Fresh s x) (hc : s.ctxs ≠ []) :
    resolveCurrent x .normal (bindSt s ⟨x, d, some t⟩) = some t := by
  cases hs : s.ctxs with
  | nil => exact absurd hs hc
  | cons c cs =>
    have : findId x (c.ids ++ [⟨x, d, some t⟩]) = some t := by
      have h' := h c cs hs
      generalize c.ids = l at h'
      induction l with
      | nil => simp [findId]
      | cons b l ih =>
        rw [List.cons_append, findId, if_neg (h' b List.mem_cons_self)]
        exact ih fun d hd => h' d (List.mem_cons_of_mem _ hd)
    simp [resolveCurrent, bindSt, bindCur, hs, Ctx.map, this]

theorem MemberObj.grow {s s' : St} {v m} (h : MemberObj s v m) (x : Grow s s') : MemberObj s' v m := by
  cases m with
  | val c =>
    obtain ⟨τ, a, e, h1, h2⟩ := h
    exact ⟨τ, a, e, x.nodes _ _ h1, x.nodes _ _ h2⟩
  | arr c n =>
    obtain ⟨bt, a, e, h1, h2⟩ := h
    exact ⟨bt, a, e, h1.grow x, x.nodes _ _ h2⟩

/-- one round of the layout loop -/
theorem layoutRound_conv {E : Env} {s : St} {i : Item} {isS : Bool} {off mx o : Nat} (w : WF s) (hi : i.Fine s)
    (ha : i.At s.nodes o) (hc : Cap s (mcost i.m)) :
    ∃ s', (∀ {α : Type} (K : Nat → Nat → Rec → M α) (out : Out α),
        Conv E (K (layoutStep isS off mx i.m.size i.m.align).2.1 (layoutStep isS off mx i.m.size i.m.align).2.2) s' out →
        Conv E (fun R => (do
          pushCtx "Compound Declaration"
          let id ← R.ev (some i.d)
          let v ← resolveIdC id
          let size ← getSizeOfType R v
          let align ← R.alignment v
          let (mo, offset', maxSz') := layoutStep isS off mx size align
          match ← node i.d with
          | .decl specs decls _ => setNode i.d (.decl specs decls mo)
          | _ => ub "tDECL_OFFSET of another tree"
          popCtx
          K offset' maxSz' R : M α)) s out) ∧
      GrowD [i.d] s s' ∧ i.At s'.nodes (layoutStep isS off mx i.m.size i.m.align).1 ∧
      s'.mem.brk ≤ s.mem.brk + mcost i.m := by
  have hsz : i.m.size < 2 ^ 64 := by
    have hlim : Mem.limit < 2 ^ 64 := by decide
    have := hc.brk
    cases hm : i.m with
    | val c => have := CT.size_le c; simp only [MTy.size, abiSize_eq]; omega
    | arr c n => rw [hm] at this; simp only [MTy.size, abiSize_eq, mcost] at this ⊢; omega
  -- the declaration
  have w1 : WF (pushSt s "Compound Declaration") := w
  have hf1 : Fresh (pushSt s "Compound Declaration") i.x := by
    intro c cs h b hb
    simp only [pushSt, List.cons.injEq] at h
    rw [← h.1] at hb; simp at hb
  have hc1 : Cap (pushSt s "Compound Declaration") (mcost i.m) := ⟨hc.brk, by simp [pushSt], hc.livelt⟩
  have hi1 : i.Fine (pushSt s "Compound Declaration") :=
    Item.Fine.keeps (s := s) (s' := pushSt s "Compound Declaration") (fun _ _ _ h => h) (fun x ns => pushSt_resolve s _ x ns) hi
  obtain ⟨id, v, s2, c2, n2, g2, m2, b2⟩ := fineDecl_conv (E := E) w1 ha hi1 hf1.resolve hc1
  have w2 := g2.wf w1
  have hcap2 : Cap (bindSt s2 ⟨i.x, id, some v⟩) 128 := by
    refine ⟨?_, ?_, g2.livelt hc.livelt⟩
    · have := hc1.brk
      show s2.mem.brk + 128 < _
      omega
    · have := g2.ctxs_ne hc1.ctxs
      show bindCur _ s2.ctxs ≠ []
      cases h : s2.ctxs with
      | nil => exact absurd h this
      | cons c cs => simp [bindCur]
  have w2' : WF (bindSt s2 ⟨i.x, id, some v⟩) := w2
  have m2' : MemberObj (bindSt s2 ⟨i.x, id, some v⟩) v i.m := by
    cases hm : i.m with
    | val c => rw [hm] at m2; exact m2
    | arr c n =>
      rw [hm] at m2
      obtain ⟨bt, a, e, ha, h2⟩ := m2
      exact ⟨bt, a, e, ⟨ha.lv⟩, h2⟩
  have e3 : resolveIdC (some id) (bindSt s2 ⟨i.x, id, some v⟩) = .ok (some v) (bindSt s2 ⟨i.x, id, some v⟩) := by
    have : (bindSt s2 ⟨i.x, id, some v⟩).nodes id = some (.ident i.x) := n2
    simp [resolveIdC, idStr, nodeR, node_apply this, get, resolveCurrent_bind (hf1.grow g2) (g2.ctxs_ne hc1.ctxs)]
  have hd2 : (bindSt s2 ⟨i.x, id, some v⟩).nodes i.d = some (.decl (some i.specs) (some i.dd) o) := g2.nodes _ _ ha
  have hb2 : (bindSt s2 ⟨i.x, id, some v⟩).mem.brk = s2.mem.brk := rfl
  have hpp := fun s4 (g : Grow (bindSt s2 ⟨i.x, id, some v⟩) s4) => pushPop g2 g
  generalize bindSt s2 ⟨i.x, id, some v⟩ = s2b at c2 hcap2 w2' m2' e3 hd2 hb2 hpp
  obtain ⟨s3, c3, g3, b3⟩ := memberSize_conv (E := E) w2' (hcap2.grow (Grow.refl _) (by omega)) m2' hsz
  have w3 := g3.wf w2'
  have hcap3 : Cap s3 80 := hcap2.grow g3 (by omega)
  obtain ⟨s4, c4, g4, b4⟩ := memberAlign_conv (E := E) w3 (hcap3.grow (Grow.refl _) (by omega)) (m2'.grow g3)
  have w4 := g4.wf w3
  have g24 := g3.trans g4
  have hp := hpp s4 g24
  have hd4 := g24.nodes _ _ hd2
  generalize hmo : (layoutStep isS off mx i.m.size i.m.align).1 = mo
  let s5 : St := { s4 with nodes := fun x => if x = i.d then some (.decl (some i.specs) (some i.dd) mo) else s4.nodes x }
  have htail : s5.ctxs.tail ≠ [] := by
    have h1 := hp.ctxs_ne hc.ctxs
    exact h1
  refine ⟨popSt s5, ?_, ?_, ?_, ?_⟩
  · intro α K out hK
    refine Conv.bind (Conv.const (pushCtx_apply _ _)) (Conv.bind c2 (Conv.bind (Conv.const e3) (Conv.bind c3 (Conv.bind c4 ?_))))
    refine Conv.of_eq hK fun R => ?_
    simp only [bind_apply, node_apply hd4, setNode_apply, hmo]
    have := popCtx_apply htail
    simp only [s5] at this
    simp only [this]
    rfl
  · have hlt : i.d < s4.next := w4.lt hd4
    exact (hp.mono (by simp)).set (t := i.d) (by simp) hlt _
  · show s5.nodes i.d = _
    simp [s5]
  · show s4.mem.brk ≤ _
    have b2' : s2.mem.brk + 128 ≤ s.mem.brk + mcost i.m := b2
    omega

/-- the layout loop -/
theorem layoutLoop_conv {E : Env} {isS : Bool} : ∀ {L : List Item} {s : St} {off mx : Nat}, WF s →
    (∀ i ∈ L, i.Fine s ∧ i.At s.nodes 0) → (L.map Item.d).Nodup → Cap s ((L.map fun i => mcost i.m).sum) →
    ∃ s', Conv E (fun R => layoutLoop R isS off mx (L.map Item.d)) s
        (.ok (layoutPure isS off mx (L.map Item.m)).2 s') ∧
      GrowD (L.map Item.d) s s' ∧
      All₂ (fun i o => i.At s'.nodes o) L (layoutPure isS off mx (L.map Item.m)).1 ∧
      s'.mem.brk ≤ s.mem.brk + (L.map fun i => mcost i.m).sum := by
  intro L
  induction L with
  | nil =>
    intro s off mx w _ _ _
    exact ⟨s, Conv.pure _, GrowD.refl _ s, .nil, by simp⟩
  | cons i L ih =>
    intro s off mx w hL hnd hc
    simp only [List.map_cons, List.nodup_cons, List.sum_cons] at hnd hc ⊢
    obtain ⟨hi, ha⟩ := hL i List.mem_cons_self
    obtain ⟨s1, c1, g1, a1, b1⟩ := layoutRound_conv (E := E) (isS := isS) (off := off) (mx := mx) w hi ha
      ⟨by have := hc.brk; omega, hc.ctxs, hc.livelt⟩
    have w1 := g1.wf w
    have hk : Keeps s.nodes s1.nodes := by
      intro t n p hn
      refine g1.nodes t n ?_ hn
      intro ht
      simp only [List.mem_singleton] at ht
      subst ht
      rw [ha] at hn; cases hn; exact p
    have hL1 : ∀ j ∈ L, j.Fine s1 ∧ j.At s1.nodes 0 := by
      intro j hj
      obtain ⟨h1, h2⟩ := hL j (List.mem_cons_of_mem _ hj)
      refine ⟨Item.Fine.keeps hk (fun x ns => g1.resolveGlobal x ns) h1, g1.nodes _ _ ?_ h2⟩
      simp only [List.mem_singleton]
      intro h
      exact hnd.1 (h ▸ List.mem_map_of_mem hj)
    obtain ⟨s2, c2, g2, a2, b2⟩ := ih (off := (layoutStep isS off mx i.m.size i.m.align).2.1)
      (mx := (layoutStep isS off mx i.m.size i.m.align).2.2) w1 hL1 hnd.2
      ⟨by have := hc.brk; omega, g1.ctxs_ne hc.ctxs, g1.livelt hc.livelt⟩
    refine ⟨s2, ?_, ?_, ?_, by omega⟩
    · simp only [layoutPure]
      exact c1 (fun a b R => layoutLoop R isS a b (L.map Item.d)) _ c2
    · exact (g1.mono (by simp)).trans (g2.mono (by intro t h; exact List.mem_cons_of_mem _ h))
    · simp only [layoutPure]
      exact .cons (g2.nodes _ _ hnd.1 a1) a2

/-! ## One declaration per member -/

/-- create several trees -/
def addAll (s : St) : List Node → St
  | [] => s
  | n :: l => addAll (addNode s n) l

theorem addAll_ext {s : St} (w : WF s) (l : List Node) : Ext s (addAll s l) := by
  induction l generalizing s with
  | nil => exact Ext.refl s
  | cons n l ih => exact (addNode_ext w n).trans (ih ((addNode_ext w n).wf w))

theorem addAll_next (s : St) (l : List Node) : (addAll s l).next = s.next + l.length := by
  induction l generalizing s with
  | nil => rfl
  | cons n l ih =>
    rw [addAll, ih, List.length_cons]
    show s.next + 1 + l.length = _
    rw [Nat.add_assoc, Nat.add_comm 1]

theorem addAll_append (s : St) (l l' : List Node) : addAll s (l ++ l') = addAll (addAll s l) l' := by
  induction l generalizing s with
  | nil => rfl
  | cons n l ih => exact ih (addNode s n)

/-- the new trees -/
theorem addAll_get {s : St} (w : WF s) {l : List Node} : ∀ {i : Nat} {n}, l[i]? = some n →
    (addAll s l).nodes (s.next + i) = some n := by
  induction l generalizing s with
  | nil => intro i n h; simp at h
  | cons m l ih =>
    intro i n h
    have x := addNode_ext w m
    cases i with
    | zero =>
      simp at h; subst h
      exact (addAll_ext (x.wf w) l).nodes _ _ (addNode_self s m)
    | succ i =>
      rw [List.getElem?_cons_succ] at h
      have := ih (x.wf w) h
      rw [addAll, show s.next + (i + 1) = (addNode s m).next + i by
        show s.next + (i + 1) = s.next + 1 + i
        rw [Nat.add_assoc, Nat.add_comm 1]]
      exact this

theorem expandDeclarators_apply {specs : Ref} : ∀ {ds : List TId} {s : St}, WF s →
    (∀ d ∈ ds, ∃ n, s.nodes d = some n ∧ ∀ a, n ≠ .bitfield a none) →
    expandDeclarators specs ds s = .ok (List.range' s.next ds.length) (addAll s (ds.map fun d => .decl specs (some d) 0)) := by
  intro ds
  induction ds with
  | nil => intro s _ _; rfl
  | cons d ds ih =>
    intro s w hd
    obtain ⟨n, hn, hb⟩ := hd d List.mem_cons_self
    have x := addNode_ext w (.decl none none 0)
    have x' := addNode_ext w (.decl specs (some d) 0)
    have hs2 : setNode s.next (.decl specs (some d) 0) (addNode s (.decl none none 0)) =
        .ok () (addNode s (.decl specs (some d) 0)) := by
      rw [setNode_apply]
      simp only [addNode, Out.ok.injEq, true_and]
      congr 1
      funext y; split <;> rfl
    have hrec := ih (s := addNode s (.decl specs (some d) 0)) (x'.wf w) fun d' hd' => by
      obtain ⟨n', hn', hb'⟩ := hd d' (List.mem_cons_of_mem _ hd')
      exact ⟨n', x'.nodes _ _ hn', hb'⟩
    have hne : (addNode s (.decl specs (some d) 0)).next = s.next + 1 := rfl
    have e : expandDeclarators specs (d :: ds) s = ((do
        setNode s.next (.decl specs (some d) 0)
        let rest ← expandDeclarators specs ds
        pure (s.next :: rest) : M (List TId))) (addNode s (.decl none none 0)) := by
      simp only [expandDeclarators, bind_apply, mk_apply, node_apply (x.nodes _ _ hn)]
    rw [e]
    simp only [bind_apply, hs2, hrec, pure_apply, hne, List.length_cons, List.map_cons, addAll]
    rfl

/-- member declarations as written: `ts` declares the members `L` -/
inductive Src (nd : TId → Option Node) : List TId → List Item → Prop
  | nil : Src nd [] []
  | cons {t specs decls o ds k ts L L'} : nd t = some (.decl (some specs) (some decls) o) → nd decls = some (.chain ds) →
      ds = L.map Item.dd → (∀ i ∈ L, i.specs = specs ∧ i.k = k ∧ i.Ok nd) → Src nd ts L' → Src nd (t :: ts) (L ++ L')

/-- the declarations `ts` of the members `L`, whatever their types -/
inductive Decls (nd : TId → Option Node) : List TId → List Item → Prop
  | nil : Decls nd [] []
  | cons {t specs decls o ds ts L L'} : nd t = some (.decl (some specs) (some decls) o) → nd decls = some (.chain ds) →
      ds = L.map Item.dd → (∀ i ∈ L, i.specs = specs ∧ ∃ n, nd i.dd = some n ∧ ∀ a, n ≠ .bitfield a none) →
      Decls nd ts L' → Decls nd (t :: ts) (L ++ L')

def Item.node0 (i : Item) : Node := .decl (some i.specs) (some i.dd) 0

theorem Src.mono {nd nd' : TId → Option Node} (h : ∀ t n, nd t = some n → nd' t = some n) {ts L} (hs : Src nd ts L) :
    Src nd' ts L := by
  induction hs with
  | nil => exact .nil
  | cons h1 h2 h3 h4 _ ih =>
    exact .cons (h _ _ h1) (h _ _ h2) h3 (fun i hi => ⟨(h4 i hi).1, (h4 i hi).2.1, (h4 i hi).2.2.keeps fun t n _ => h t n⟩) ih

theorem Src.ok {nd : TId → Option Node} {ts L} (h : Src nd ts L) : ∀ i ∈ L, i.Ok nd := by
  induction h with
  | nil => intro i hi; cases hi
  | cons h1 h2 h3 h4 _ ih =>
    intro i hi
    rcases List.mem_append.mp hi with hi | hi
    · exact (h4 i hi).2.2
    · exact ih i hi

theorem Src.fine {s : St} {ts L} (h : Src s.nodes ts L) : ∀ i ∈ L, i.Fine s := fun i hi => .inl (h.ok i hi)

theorem MDecl.notBit {nd : TId → Option Node} {d k x m} (h : MDecl nd d k x m) :
    ∃ n, nd d = some n ∧ ∀ a, n ≠ .bitfield a none := by
  cases h <;> exact ⟨_, by assumption, by intros; simp⟩

theorem Src.decls {nd : TId → Option Node} {ts L} (h : Src nd ts L) : Decls nd ts L := by
  induction h with
  | nil => exact .nil
  | cons h1 h2 h3 h4 _ ih => exact .cons h1 h2 h3 (fun i hi => ⟨(h4 i hi).1, (h4 i hi).2.2.2.notBit⟩) ih

theorem expandDecls_apply {nd0 : TId → Option Node} {ts : List TId} {L : List Item} (h : Decls nd0 ts L) :
    ∀ {s : St}, WF s → (∀ t n, nd0 t = some n → s.nodes t = some n) →
    expandDecls ts s = .ok (List.range' s.next L.length) (addAll s (L.map Item.node0)) := by
  induction h with
  | nil => intro s _ _; rfl
  | @cons t specs decls o ds ts L L' h1 h2 h3 h4 h5 ih =>
    intro s w hs
    have hds : ∀ d ∈ ds, ∃ n, s.nodes d = some n ∧ ∀ a, n ≠ .bitfield a none := by
      intro d hd
      rw [h3] at hd
      obtain ⟨i, hi, rfl⟩ := List.mem_map.mp hd
      obtain ⟨n, hn, hb⟩ := (h4 i hi).2
      exact ⟨n, hs _ _ hn, hb⟩
    have e1 := expandDeclarators_apply (specs := some specs) w hds
    have hmap : (ds.map fun d => Node.decl (some specs) (some d) 0) = L.map Item.node0 := by
      rw [h3, List.map_map]
      refine List.map_congr_left fun i hi => ?_
      simp only [Function.comp_apply, Item.node0, (h4 i hi).1]
    have hlen : ds.length = L.length := by rw [h3, List.length_map]
    rw [hmap, hlen] at e1
    have x := addAll_ext w (L.map Item.node0)
    have e2 := ih (s := addAll s (L.map Item.node0)) (x.wf w) fun t n hn => x.nodes _ _ (hs _ _ hn)
    rw [addAll_next, List.length_map] at e2
    simp only [expandDecls, bind_apply, node_apply (hs _ _ h1), chainElems_apply (hs _ _ h2), e1, e2, pure_apply]
    rw [List.map_append, addAll_append, List.length_append]
    congr 1
    simp

/-! ## Expanding a compound type -/

/-- the members with the declaration trees made for them from `n` on -/
def withDecls : Nat → List Item → List Item
  | _, [] => []
  | n, i :: L => { i with d := n } :: withDecls (n + 1) L

theorem withDecls_length (n : Nat) (L : List Item) : (withDecls n L).length = L.length := by
  induction L generalizing n with
  | nil => rfl
  | cons i L ih => simp [withDecls, ih]

theorem withDecls_m (n : Nat) (L : List Item) : (withDecls n L).map Item.m = L.map Item.m := by
  induction L generalizing n with
  | nil => rfl
  | cons i L ih => simp [withDecls, ih]

theorem withDecls_x (n : Nat) (L : List Item) : (withDecls n L).map Item.x = L.map Item.x := by
  induction L generalizing n with
  | nil => rfl
  | cons i L ih => simp [withDecls, ih]

theorem withDecls_d (n : Nat) (L : List Item) : (withDecls n L).map Item.d = List.range' n L.length := by
  induction L generalizing n with
  | nil => rfl
  | cons i L ih => simp [withDecls, ih, List.range'_succ]

theorem withDecls_cost (n : Nat) (L : List Item) :
    ((withDecls n L).map fun i => mcost i.m).sum = (L.map fun i => mcost i.m).sum := by
  induction L generalizing n with
  | nil => rfl
  | cons i L ih => simp [withDecls, ih]

theorem withDecls_mem {n : Nat} {L : List Item} {j : Item} (h : j ∈ withDecls n L) :
    ∃ i ∈ L, ∃ k, L[k]? = some i ∧ j = { i with d := n + k } := by
  induction L generalizing n with
  | nil => cases h
  | cons i L ih =>
    rcases List.mem_cons.mp h with rfl | h
    · exact ⟨i, List.mem_cons_self, 0, rfl, rfl⟩
    · obtain ⟨i', h1, k, h2, h3⟩ := ih h
      refine ⟨i', List.mem_cons_of_mem _ h1, k + 1, by simpa using h2, ?_⟩
      rw [h3, Nat.add_assoc, Nat.add_comm 1]

/-- a compound type laid out: its members with their offsets -/
structure Laid (s : St) (c : TId) (L : List Item) (isS : Bool) : Prop where
  tree : ∃ id ch, s.nodes c = some (.compound id (some ch)
      (if isS then (layoutPure isS 0 0 (L.map Item.m)).2.1 else (layoutPure isS 0 0 (L.map Item.m)).2.2) true isS) ∧
    s.nodes ch = some (.chain (L.map Item.d))
  items : ∀ i ∈ L, i.Fine s
  offs : All₂ (fun i o => i.At s.nodes o) L (layoutPure isS 0 0 (L.map Item.m)).1

/-- evaluating a compound type written with its members -/
theorem expandCompound_conv {E : Env} {s : St} {c ch0 : TId} {id : Ref} {sz : Nat} {isS : Bool} {ts : List TId}
    {L : List Item} (w : WF s) (hc : s.nodes c = some (.compound id (some ch0) sz false isS))
    (hch : s.nodes ch0 = some (.chain ts)) (hsrc : Decls s.nodes ts L) (hfine : ∀ i ∈ L, i.Fine s)
    (hcap : Cap s ((L.map fun i => mcost i.m).sum)) :
    ∃ s', Conv E (fun R => expandCompound R c) s (.ok (some c) s') ∧ GrowD [c] s s' ∧
      Laid s' c (withDecls s.next L) isS ∧ s'.mem.brk ≤ s.mem.brk + (L.map fun i => mcost i.m).sum := by
  have e1 := expandDecls_apply (s := s) hsrc w fun t n h => h
  have x1 := addAll_ext w (L.map Item.node0)
  have w1 := x1.wf w
  have n1 := addAll_next s (L.map Item.node0)
  rw [List.length_map] at n1
  have get1 : ∀ {i n}, (L.map Item.node0)[i]? = some n → (addAll s (L.map Item.node0)).nodes (s.next + i) = some n :=
    fun h => addAll_get w h
  generalize addAll s (L.map Item.node0) = s1 at e1 x1 w1 n1 get1
  have x2 := addNode_ext w1 (.chain (List.range' s.next L.length))
  have w2 := x2.wf w1
  have hchn := addNode_self s1 (.chain (List.range' s.next L.length))
  have n2 : (addNode s1 (.chain (List.range' s.next L.length))).next = s1.next + 1 := rfl
  have e2 := mk_apply (.chain (List.range' s.next L.length)) s1
  generalize addNode s1 (.chain (List.range' s.next L.length)) = s2 at x2 w2 hchn n2 e2
  have x12 := x1.trans x2
  have hclt : c < s.next := w.lt hc
  have hc2 := x12.nodes _ _ hc
  -- the tree of the type gets the new chain
  let s3 : St := { s2 with nodes := fun t => if t = c then some (.compound id (some s1.next) sz false isS) else s2.nodes t }
  have g3 : GrowD [c] s s3 := (x12.grow.toD [c]).set (by simp) (Nat.lt_of_lt_of_le hclt x12.grow.next) _
  have w3 : WF s3 := g3.wf w
  have n3 : s3.next = s2.next := rfl
  have k3 : Keeps s.nodes s3.nodes := by
    intro t n p hn
    refine g3.nodes t n ?_ hn
    simp only [List.mem_singleton]
    rintro rfl
    rw [hc] at hn; cases hn; exact p
  let L' := withDecls s.next L
  have hL : ∀ i ∈ L', i.Fine s3 ∧ i.At s3.nodes 0 := by
    intro j hj
    obtain ⟨i, hi, k, hk, rfl⟩ := withDecls_mem hj
    have hf : Item.Fine s3 { i with d := s.next + k } :=
      Item.Fine.keeps (i := { i with d := s.next + k }) k3 (fun x ns => g3.resolveGlobal x ns) (hfine i hi)
    refine ⟨hf, ?_⟩
    have h1 : s1.nodes (s.next + k) = some i.node0 := get1 (by rw [List.getElem?_map, hk]; rfl)
    show s3.nodes (s.next + k) = _
    have h2 : s.next + k ≠ c := by
      intro h; rw [← h] at hclt
      exact absurd hclt (Nat.not_lt.mpr (Nat.le_add_right _ _))
    simp only [s3, if_neg h2]
    exact x2.nodes _ _ h1
  have hnodup : (L'.map Item.d).Nodup := by
    rw [withDecls_d]; exact List.nodup_range'
  have hcap3 : Cap s3 ((L'.map fun i => mcost i.m).sum) := by
    rw [withDecls_cost]
    refine ⟨?_, g3.ctxs_ne hcap.ctxs, g3.livelt hcap.livelt⟩
    show s2.mem.brk + _ < _
    rw [x12.mem]; exact hcap.brk
  obtain ⟨s4, c4, g4, a4, b4⟩ := layoutLoop_conv (E := E) (isS := isS) (off := 0) (mx := 0) w3 hL hnodup hcap3
  have w4 := g4.wf w3
  have hcD : c ∉ L'.map Item.d := by
    rw [withDecls_d]
    intro h
    have := (List.mem_range'_1.mp h).1
    exact absurd hclt (Nat.not_lt.mpr this)
  have hc4 : s4.nodes c = some (.compound id (some s1.next) sz false isS) := g4.nodes _ _ hcD (by simp [s3])
  have hch4 : s4.nodes s1.next = some (.chain (L'.map Item.d)) := by
    refine g4.nodes _ _ ?_ ?_
    · rw [withDecls_d]
      intro h
      have h' := (List.mem_range'_1.mp h).2
      rw [n1] at h'
      exact Nat.lt_irrefl _ h'
    · have h2 : s1.next ≠ c := by
        intro h; rw [← h, n1] at hclt
        exact absurd hclt (Nat.not_lt.mpr (Nat.le_add_right _ _))
      rw [withDecls_d]
      simp only [s3, if_neg h2]
      exact hchn
  generalize hr : layoutPure isS 0 0 (L'.map Item.m) = r at c4 a4
  let s5 : St := { s4 with nodes := fun t => if t = c then some (.compound id (some s1.next) (if isS then r.2.1 else r.2.2) true isS) else s4.nodes t }
  have gall : GrowD (c :: L'.map Item.d) s s4 := (g3.mono (by simp)).trans (g4.mono (by intro t h; exact List.mem_cons_of_mem _ h))
  have g5 : GrowD [c] s s5 := by
    refine (gall.set (t := c) (by simp) (Nat.lt_of_lt_of_le hclt gall.next) _).old w ?_
    intro t ht
    rcases List.mem_cons.mp ht with rfl | ht
    · exact .inr (by simp)
    · rw [withDecls_d] at ht
      exact .inl (List.mem_range'_1.mp ht).1
  have g35 : ∀ x ns, resolveGlobal x ns s5 = resolveGlobal x ns s3 := fun x ns => g4.resolveGlobal x ns
  refine ⟨s5, ?_, g5, ⟨⟨id, s1.next, ?_, ?_⟩, ?_, ?_⟩, ?_⟩
  · unfold expandCompound
    refine Conv.bind (Conv.const (node_apply hc)) ?_
    simp only [Bool.false_eq_true, if_false]
    have hd : L'.map Item.d = List.range' s.next L.length := withDecls_d _ _
    rw [hd] at c4
    refine Conv.bind (Conv.const (chainElems_apply hch)) (Conv.bind (Conv.const e1) (Conv.bind (Conv.const e2)
      (Conv.bind (Conv.const (setNode_apply _ _ _)) (Conv.bind (a := r.2) c4 (Conv.fixed fun R => ?_)))))
    rfl
  · rw [hr]
    simp [s5]
  · have h2 : s1.next ≠ c := by
      intro h; rw [← h, n1] at hclt
      exact absurd hclt (Nat.not_lt.mpr (Nat.le_add_right _ _))
    simp only [s5, if_neg h2]
    exact hch4
  · intro i hi
    have hk : Keeps s3.nodes s5.nodes := by
      intro t n p hn
      by_cases htc : t = c
      · subst htc; simp only [s3, if_true] at hn; cases hn; exact p.elim
      · simp only [s5, if_neg htc]
        refine g4.nodes _ _ ?_ hn
        intro hm
        obtain ⟨j, hj, rfl⟩ := List.mem_map.mp hm
        have := (hL j hj).2
        unfold Item.At at this
        rw [this] at hn; cases hn; exact p
    exact Item.Fine.keeps hk (fun x ns => g35 x ns) (hL i hi).1
  · rw [hr]
    have : ∀ {l : List Item} {os}, (∀ i ∈ l, i ∈ L') → All₂ (fun i o => i.At s4.nodes o) l os → All₂ (fun i o => i.At s5.nodes o) l os := by
      intro l os hl h
      induction h with
      | nil => exact .nil
      | @cons i o l os h1 _ ih =>
        refine .cons ?_ (ih fun i hi => hl i (List.mem_cons_of_mem _ hi))
        have : i.d ≠ c := fun h => hcD (h ▸ List.mem_map_of_mem (hl i List.mem_cons_self))
        unfold Item.At at h1 ⊢
        simp only [s5, if_neg this]
        exact h1
    exact this (fun _ h => h) a4
  · show s4.mem.brk ≤ _
    rw [withDecls_cost] at b4
    have : s3.mem.brk = s.mem.brk := by show s2.mem.brk = _; rw [x12.mem]
    omega

/-! ## Objects of compound types -/

/-- the size of an array in bytes, as `get_array_size` computes it -/
theorem getArraySize_conv {E : Env} {s : St} {τ sz : TId} {c : CT} {e : Ref} {n : Nat} (w : WF s)
    (hτ : s.nodes τ = some (.ctype c e)) (hsz : s.nodes sz = some (.integer n)) (hroom : Room s 1)
    (hn : c.size * n < Mem.limit) :
    ∃ s', Conv E (fun R => getArraySize R (some sz) (some τ)) s (.ok (c.size * n) s') ∧ Grow s s' ∧
      s'.mem.brk ≤ s.mem.brk + 48 := by
  have hlim : Mem.limit < 2 ^ 64 := by decide
  obtain ⟨s1, c1, g1, b1⟩ := ctypeSize_conv (E := E) w hroom hτ
  have w1 := g1.wf w
  have hsz1 := g1.nodes _ _ hsz
  have c2 : Conv E (fun R => R.ev (some sz)) s1 (.ok (some sz) s1) := Conv.evNode hsz1 (Conv.fixed fun R => rfl)
  obtain ⟨y, s2, e2, x2, n2⟩ := liveToInt_apply w1 (.inl hsz1 : Denotes s1 sz n)
  have hui : mpzGetUi (n : Int) = n := by
    have h1 := CT.size_pos c
    have h2 : n ≤ c.size * n := Nat.le_mul_of_pos_left _ h1
    unfold mpzGetUi; omega
  refine ⟨s2, ?_, g1.trans x2.grow, by rw [x2.mem]; exact b1⟩
  unfold getArraySize
  refine Conv.bind c1 (Conv.bind c2 (Conv.fixed fun R => ?_))
  simp only [bind_apply, e2, asInteger_apply n2, pure_apply, hui, Nat.mod_eq_of_lt (Nat.lt_trans hn hlim)]

theorem MDecl.notFn {nd : TId → Option Node} {d k x m} (h : MDecl nd d k x m) :
    ∃ n, nd d = some n ∧ ∀ a b c e, n ≠ .fn a b c e := by
  cases h <;> exact ⟨_, by assumption, by intros; simp⟩

/-- the end of `instantiate_struct_element` -/
def instTail (R : Rec) (d ty : Ref) (a : Nat) : M Binding := do
  let de ← (do
    match ← peek d with
    | some (.bitfield _ dd) => pure dd
    | _ => pure d)
  match ← peek de with
  | some (.array ad asz) => do
    let n ← getArraySize R asz ty
    let t ← instantiateArray ad ty a n
    memberBinding ad (some t)
  | _ =>
    match ← peek ty with
    | some (.ctype _ _) => do
      let t ← mk (.lv ty a false 0)
      memberBinding de (some t)
    | some (.compound _ _ _ _ _) => do
      let t ← R.instStruct ty a
      memberBinding de (some t)
    | _ => die "Unknown structure member decl"

theorem instBasic_conv {E : Env} {s : St} {i : Item} {o base : Nat} (w : WF s) (hi : i.Ok s.nodes)
    (ha : i.At s.nodes o) (hc : Cap s (mcost i.m)) (hbase : base + o < 2 ^ 64) :
    ∃ id v s', Conv E (fun R => instElement R i.d base) s (.ok ⟨i.x, id, some v⟩ s') ∧ Grow s s' ∧
      MemberAt s' v (base + o) i.m ∧ CellFrom s' v s.mem.brk ∧ s'.mem.brk ≤ s.mem.brk + mcost i.m := by
  have hcost : 256 ≤ mcost i.m := by cases i.m <;> simp [mcost] <;> omega
  have e1 := resolveSpecs_apply hi.1
  have x1 := addNode_ext w (.ctype i.k none)
  have w1 := x1.wf w
  have self1 := addNode_self s (.ctype i.k none)
  generalize addNode s (.ctype i.k none) = s1 at e1 x1 w1 self1
  have hd1 := hi.2.mono x1.nodes
  obtain ⟨nf, hnf, hnf'⟩ := hd1.notFn
  obtain ⟨d', τ', k', e', s2, c2, x2, h2, hb⟩ := resolvePtr_conv (E := E) hd1 rfl w1 self1
  have w2 := x2.wf w1
  have x12 := x1.trans x2
  have hb2 : s2.mem.brk = s.mem.brk := by rw [x12.mem]
  have hc2 : Cap s2 (mcost i.m) := hc.grow x12.grow (by omega)
  have key : ∀ {out : Out Binding}, Conv E (fun R => instTail R (some d') (some τ') (base + o)) s2 out →
      Conv E (fun R => instElement R i.d base) s out := by
    intro out h
    have h' := Conv.bind (g := fun R (p : Ref × Ref) => instTail R p.1 p.2 (base + o)) c2 h
    refine Conv.of_eq h' fun R => ?_
    have e0 : s.nodes i.d = some (.decl (some i.specs) (some i.dd) o) := ha
    simp only [instElement, bind_apply, node_apply e0, e1, isIdentOrCompound, peek_apply self1, pure_apply,
      Bool.false_eq_true, if_false, peek_apply hnf]
    cases nf <;> first | rfl | exact absurd rfl (hnf' _ _ _ _)
  generalize hmm : i.m = m at *
  cases hb with
  | ident h =>
    have x3 := addNode_ext w2 (.lv (some τ') (base + o) false 0)
    have h3 := x3.nodes _ _ h
    refine ⟨d', s2.next, addNode s2 (.lv (some τ') (base + o) false 0), key (Conv.fixed fun R => ?_),
      x12.grow.trans x3.grow, ⟨τ', e', addNode_self _ _, x3.nodes _ _ h2⟩,
      ⟨_, _, _, _, addNode_self _ _, by simp⟩, ?_⟩
    · simp only [instTail, bind_apply, peek_apply h, peek_apply h2, mk_apply, pure_apply, memberBinding, node_apply h3, pure_apply]
    · show s2.mem.brk ≤ _
      omega
  | @bit b z _ _ h h4 =>
    have x3 := addNode_ext w2 (.lv (some τ') (base + o) false 0)
    have h3 := x3.nodes _ _ h4
    refine ⟨b, s2.next, addNode s2 (.lv (some τ') (base + o) false 0), key (Conv.fixed fun R => ?_),
      x12.grow.trans x3.grow, ⟨τ', e', addNode_self _ _, x3.nodes _ _ h2⟩,
      ⟨_, _, _, _, addNode_self _ _, by simp⟩, ?_⟩
    · simp only [instTail, bind_apply, peek_apply h, peek_apply h4, peek_apply h2, mk_apply, pure_apply, memberBinding, node_apply h3,
        pure_apply]
    · show s2.mem.brk ≤ _
      omega
  | arr h h3 h4 =>
    rename_i id sz n
    simp only [mcost] at hc2
    obtain ⟨s3, c3, g3, b3⟩ := getArraySize_conv (E := E) w2 h2 h4 (hc2.room (by omega)) (by have := hc2.brk; omega)
    have w3 := g3.wf w2
    have r3 : Room s3 1 := (hc2.room (k := 2) (by omega)).after g3 b3
    obtain ⟨t, s4, e4, g4, a4, b4, ty4, l4⟩ := instantiateArray_apply (base := some τ') (n := k'.size * n) w3
      (g3.nodes _ _ h3) r3 hbase
    refine ⟨id, t, s4, key ?_, x12.grow.trans (g3.trans g4), ⟨τ', e', a4, (g3.trans g4).nodes _ _ h2⟩,
      ⟨_, _, _, _, l4, fun _ => by have := g3.brk; omega⟩, ?_⟩
    · have hb : Conv E (fun R => (do
          let n ← getArraySize R (some sz) (some τ')
          let t ← instantiateArray (some id) (some τ') (base + o) n
          memberBinding (some id) (some t) : M Binding)) s2 (.ok ⟨i.x, id, some t⟩ s4) := by
        refine Conv.bind c3 (Conv.fixed fun R => ?_)
        simp only [bind_apply, e4, memberBinding, node_apply (g4.nodes _ _ (g3.nodes _ _ h3)), pure_apply]
      refine Conv.of_eq hb fun R => ?_
      simp only [instTail, bind_apply, peek_apply h, pure_apply]
    · simp only [mcost]; omega

/-- an object standing for a pointer to the type `c` at the address `a` -/
def LinkAt (s : St) (v : TId) (a : Nat) (c : TId) : Prop :=
  ∃ τ, s.nodes v = some (.lv (some τ) a false 0) ∧ s.nodes τ = some (.ctype .ptr (some c))

theorem LinkAt.grow {s s' : St} {v a c} (h : LinkAt s v a c) (g : Grow s s') : LinkAt s' v a c := by
  obtain ⟨τ, h1, h2⟩ := h
  exact ⟨τ, g.nodes _ _ h1, g.nodes _ _ h2⟩

/-- `instantiate_struct_element` once the type is known -/
def instRest (R : Rec) (decls : Ref) (a : Nat) (ty : Ref) : M Binding := do
  let (de, ty) ← (do
    match ← peek decls with
    | some (.fn fd args _ stmts) => do
      let f ← mk (.fn fd args ty stmts)
      pure (fd, some f)
    | _ => pure (decls, ty))
  let (de, ty) ← R.resolvePtr de ty
  instTail R de ty a

theorem instLink_conv {E : Env} {s : St} {i : Item} {o base : Nat} {c : TId} (w : WF s) (hi : i.To s c)
    (ha : i.At s.nodes o) :
    ∃ id v s', Conv E (fun R => instElement R i.d base) s (.ok ⟨i.x, id, some v⟩ s') ∧ Ext s s' ∧
      LinkAt s' v (base + o) c := by
  obtain ⟨isS, tag, ⟨u, tid, sz, b, e, h1, h2, h3, h4, h5, h6⟩, hr⟩ := hi
  have x1 := addNode_ext w (.ctype .ptr (some c))
  have w1 := x1.wf w
  have self1 := addNode_self s (.ctype .ptr (some c))
  have c1 : Conv E (fun R => R.resolvePtr (some i.dd) (some c)) s (.ok (some e, some s.next) (addNode s (.ctype .ptr (some c)))) := by
    have c2 : Conv E (fun R => R.resolvePtr (some e) (some s.next)) (addNode s (.ctype .ptr (some c)))
        (.ok (some e, some s.next) (addNode s (.ctype .ptr (some c)))) :=
      Conv.resolvePtr (Conv.fixed fun R => by simp [resolvePtrStep, peek_apply (x1.nodes _ _ h5)])
    refine Conv.resolvePtr (Conv.of_eq c2 fun R => ?_)
    simp [resolvePtrStep, peek_apply h4, mk_apply]
  generalize addNode s (.ctype .ptr (some c)) = s1 at x1 w1 self1 c1
  have x2 := addNode_ext w1 (.lv (some s.next) (base + o) false 0)
  have h5' := x2.nodes _ _ (x1.nodes _ _ h5)
  refine ⟨e, s1.next, addNode s1 (.lv (some s.next) (base + o) false 0), ?_, x1.trans x2,
    ⟨s.next, addNode_self _ _, x2.nodes _ _ self1⟩⟩
  have hev : Conv E (fun R => R.ev (some u)) s (.ok (some c) s) := by
    refine Conv.evNode h2 (Conv.fixed fun R => ?_)
    show evalDeclCompound R u (some tid) none isS s = _
    simp [evalDeclCompound, idStr, nodeR, node_apply h3, get, hr]
  have ht : Conv E (fun R => instTail R (some e) (some s.next) (base + o)) s1
      (.ok ⟨i.x, e, some s1.next⟩ (addNode s1 (.lv (some s.next) (base + o) false 0))) := Conv.fixed fun R => by
    simp only [instTail, bind_apply, peek_apply (x1.nodes _ _ h5), peek_apply self1, mk_apply, pure_apply, memberBinding,
      node_apply h5']
  have hrest : Conv E (fun R => instRest R (some i.dd) (base + o) (some c)) s
      (.ok ⟨i.x, e, some s1.next⟩ (addNode s1 (.lv (some s.next) (base + o) false 0))) := by
    have h := Conv.bind (g := fun R (p : Ref × Ref) => instTail R p.1 p.2 (base + o)) c1 ht
    refine Conv.of_eq h fun R => ?_
    simp only [instRest, bind_apply, peek_apply h4, pure_apply]
  have hall := Conv.bind (g := fun R (ty : Ref) => instRest R (some i.dd) (base + o) ty) hev hrest
  refine Conv.of_eq hall fun R => ?_
  have e0 : s.nodes i.d = some (.decl (some i.specs) (some i.dd) o) := ha
  have e1 : resolveSpecs (some i.specs) s = .ok (some u) s := by
    simp [resolveSpecs, chainElems_apply h1, resolveSpecsLoop, node_apply h2]
  simp only [instElement, bind_apply, node_apply e0, e1, isIdentOrCompound, peek_apply h2, pure_apply, if_true]
  rfl

theorem instElement_conv {E : Env} {s : St} {i : Item} {o base : Nat} (w : WF s) (hi : i.Fine s)
    (ha : i.At s.nodes o) (hc : Cap s (mcost i.m)) (hbase : base + o < 2 ^ 64) :
    ∃ id v s', Conv E (fun R => instElement R i.d base) s (.ok ⟨i.x, id, some v⟩ s') ∧ Grow s s' ∧
      MemberAt s' v (base + o) i.m ∧ CellFrom s' v s.mem.brk ∧ s'.mem.brk ≤ s.mem.brk + mcost i.m ∧
      ∀ c, i.To s c → LinkAt s' v (base + o) c := by
  rcases hi with hi | ⟨c, hi⟩
  · obtain ⟨id, v, s', h1, h2, h3, h4, h5⟩ := instBasic_conv (E := E) w hi ha hc hbase
    exact ⟨id, v, s', h1, h2, h3, h4, h5, fun c hc => absurd hc hi.notTo⟩
  · obtain ⟨id, v, s', h1, h2, h3⟩ := instLink_conv (E := E) (base := base) w hi ha
    have hm : i.m = .val .ptr := by obtain ⟨_, _, ⟨_, _, _, _, _, _, _, _, _, _, h⟩, _⟩ := hi; exact h
    obtain ⟨τ, h4, h5⟩ := h3
    refine ⟨id, v, s', h1, h2.grow, ?_, ⟨_, _, _, _, h4, by simp⟩, ?_, ?_⟩
    · rw [hm]; exact ⟨τ, _, h4, h5⟩
    · rw [h2.mem]; omega
    · intro c' hc'
      have : c' = c := by
        obtain ⟨_, _, ⟨u, _, _, _, _, a1, a2, a3, _⟩, a4⟩ := hi
        obtain ⟨_, _, ⟨u', _, _, _, _, b1, b2, b3, _⟩, b4⟩ := hc'
        rw [a1] at b1; cases b1
        rw [a2] at b2; cases b2
        rw [a3] at b3; cases b3
        rw [a4] at b4; cases b4; rfl
      subst this
      exact ⟨τ, h4, h5⟩

/-- the members of an object at `base` -/
def MembersAt (s : St) (base lo : Nat) (L : List Item) (os : List Nat) (bs : List Binding) : Prop :=
  All₂ (fun (p : Item × Nat) b => b.name = p.1.x ∧ ∃ v, b.val = some v ∧ MemberAt s v (base + p.2) p.1.m ∧
    CellFrom s v lo) (L.zip os) bs

theorem MembersAt.grow {s s' : St} {base lo lo' L os bs} (h : MembersAt s base lo L os bs) (g : Grow s s') (hl : lo' ≤ lo) :
    MembersAt s' base lo' L os bs :=
  All₂.imp (fun _ _ ⟨h1, v, h2, h3, h4⟩ => ⟨h1, v, h2, h3.grow g, h4.grow g hl⟩) h

/-- the members that are pointers to compound types are objects of those types -/
def LinksAt (s s' : St) (base : Nat) (L : List Item) (os : List Nat) (bs : List Binding) : Prop :=
  All₂ (fun (p : Item × Nat) b => ∀ c, p.1.To s c → ∃ v, b.val = some v ∧ LinkAt s' v (base + p.2) c) (L.zip os) bs

theorem instElements_conv {E : Env} {base : Nat} : ∀ {L : List Item} {os : List Nat} {s : St}, WF s →
    (∀ i ∈ L, i.Fine s) → All₂ (fun i o => i.At s.nodes o) L os → (∀ o ∈ os, base + o < 2 ^ 64) →
    Cap s ((L.map fun i => mcost i.m).sum) →
    ∃ bs s', Conv E (fun R => instElements R base (L.map Item.d)) s (.ok bs s') ∧ Grow s s' ∧
      MembersAt s' base s.mem.brk L os bs ∧ s'.mem.brk ≤ s.mem.brk + (L.map fun i => mcost i.m).sum ∧
      LinksAt s s' base L os bs := by
  intro L
  induction L with
  | nil =>
    intro os s w _ ha _ _
    cases ha
    exact ⟨[], s, Conv.pure _, Grow.refl s, .nil, by simp, .nil⟩
  | cons i L ih =>
    intro os s w hi ha ho hc
    cases ha with
    | @cons _ o _ os h1 h2 =>
    simp only [List.map_cons, List.sum_cons] at hc ⊢
    obtain ⟨id, v, s1, c1, g1, m1, l1, b1, k1⟩ := instElement_conv (E := E) w (hi i List.mem_cons_self) h1
      ⟨by have := hc.brk; omega, hc.ctxs, hc.livelt⟩ (ho o List.mem_cons_self)
    obtain ⟨bs, s2, c2, g2, m2, b2, k2⟩ := ih (g1.wf w) (fun j hj => Item.Fine.grow g1 (hi j (List.mem_cons_of_mem _ hj)))
      (All₂.imp (fun j o h => g1.nodes _ _ h) h2) (fun o h => ho o (List.mem_cons_of_mem _ h)) (hc.grow g1 (by omega))
    refine ⟨⟨i.x, id, some v⟩ :: bs, s2, ?_, g1.trans g2, ?_, by omega, ?_⟩
    · unfold instElements
      exact Conv.bind c1 (Conv.bind c2 (Conv.pure _))
    · exact .cons ⟨rfl, v, rfl, m1.grow g2, l1.grow g2 (Nat.le_refl _)⟩ (m2.grow (Grow.refl _) g1.brk)
    · refine .cons (fun c hc => ⟨v, rfl, (k1 c hc).grow g2⟩) (All₂.imp (fun p b h c hc => h c ?_) k2)
      exact hc.keeps g1.keeps fun x ns => g1.resolveGlobal x ns

/-- the size of a compound type -/
def Laid.bytes (L : List Item) (isS : Bool) : Nat :=
  if isS then (layoutPure isS 0 0 (L.map Item.m)).2.1 else (layoutPure isS 0 0 (L.map Item.m)).2.2

/-- an object of a compound type at `base` -/
structure CompAt (s : St) (v c : TId) (L : List Item) (isS : Bool) (base : Nat) (bs : List Binding) : Prop where
  obj : s.nodes v = some (.lcomp (some c) bs base)
  members : MembersAt s base (base + Laid.bytes L isS) L (layoutPure isS 0 0 (L.map Item.m)).1 bs
  size : SizeOf s (some v) (Laid.bytes L isS)
  ok : s.mem.ok (Laid.bytes L isS) base = true

/-- declaring an object of a compound type that is laid out -/
theorem declComp_conv {E : Env} {s : St} {c d : TId} {L : List Item} {isS : Bool} {x : String} (w : WF s)
    (hL : Laid s c L isS) (hd : s.nodes d = some (.ident x)) (hx : resolveCurrent x .normal s = none)
    (hoff : ∀ o ∈ (layoutPure isS 0 0 (L.map Item.m)).1, o < 2 ^ 63)
    (hcap : Cap s ((L.map fun i => mcost i.m).sum + Laid.bytes L isS + 48)) :
    ∃ v bs s', Conv E (fun R => R.handleDecl (some d) (some c)) s (.ok (some d) (bindSt s' ⟨x, d, some v⟩)) ∧
      Grow s s' ∧ CompAt s' v c L isS s.mem.brk bs := by
  obtain ⟨id, ch, hc, hch⟩ := hL.tree
  have hc' : s.nodes c = some (.compound id (some ch) (Laid.bytes L isS) true isS) := hc
  generalize hN : Laid.bytes L isS = N at *
  have e1 : mallocM N s = .ok s.mem.brk (mallocSt s N) := mallocM_apply (by have := hcap.brk; omega)
  have g1 := mallocSt_grow s N
  have hok1 := mallocSt_ok s N
  have hb1 : (mallocSt s N).mem.brk = s.mem.brk + (N / 16 + 1) * 16 + 16 := rfl
  generalize mallocSt s N = s1 at e1 g1 hok1 hb1
  have e2 := trackAlloc_apply s.mem.brk (g1.ctxs_ne hcap.ctxs)
  have g2 := bumpSt_grow s1 s.mem.brk
  have hb2 : (bumpSt s1 s.mem.brk).mem.brk = s1.mem.brk := rfl
  generalize bumpSt s1 s.mem.brk = s2 at e2 g2 hb2
  have g12 := g1.trans g2
  have w2 := g12.wf w
  have hlim : Mem.limit < 2 ^ 63 := by decide
  obtain ⟨bs, s3, c3, g3, m3, b3, _⟩ := instElements_conv (E := E) (base := s.mem.brk) w2
    (fun i hi => Item.Fine.grow g12 (hL.items i hi)) (All₂.imp (fun _ _ h => g12.nodes _ _ h) hL.offs)
    (fun o ho => by have := hoff o ho; have := hcap.brk; omega)
    (hcap.grow g12 (by omega))
  have w3 := g3.wf w2
  have g123 := g12.trans g3
  have x4 := addNode_ext w3 (.lcomp (some c) bs s.mem.brk)
  have hself := addNode_self s3 (.lcomp (some c) bs s.mem.brk)
  have e4 := mk_apply (.lcomp (some c) bs s.mem.brk) s3
  generalize addNode s3 (.lcomp (some c) bs s.mem.brk) = s4 at x4 hself e4
  have g4 := g123.trans x4.grow
  have e5 := mapIdentifier_apply (v := some s3.next) (g4.nodes _ _ hd) (g4.ctxs_ne hcap.ctxs)
    (by rw [g4.resolveCurrent]; exact hx)
  refine ⟨s3.next, bs, s4, ?_, g4, ⟨hself, m3.grow x4.grow (by rw [hN]; omega), ?_, ?_⟩⟩
  · refine Conv.handleDecl ?_
    unfold handleDeclStep
    refine Conv.bind (a := (some d, some c)) (s' := s) (Conv.resolvePtr ?_) ?_
    · exact Conv.fixed fun R => by simp [resolvePtrStep, peek_apply hd]
    have hinst : Conv E (fun R => R.instStruct (some c) s.mem.brk) s2 (.ok s3.next s4) := by
      refine Conv.instStruct ?_
      have hi : Conv E (fun R => (do
          let ms ← instElements R s.mem.brk (L.map Item.d)
          mk (.lcomp (some c) ms s.mem.brk) : M TId)) s2 (.ok s3.next s4) := Conv.bind c3 (Conv.const e4)
      refine Conv.of_eq hi fun R => ?_
      simp only [instStructStep, nodeR, bind_apply, node_apply (g12.nodes _ _ hc'), if_true,
        chainElems_apply (g12.nodes _ _ hch)]
    have hall : Conv E (fun R => (do
        let o ← R.instStruct (some c) s.mem.brk
        mapIdentifier (some d) (some o)
        pure (some d) : M Ref)) s2 (.ok (some d) (bindSt s4 ⟨x, d, some s3.next⟩)) := by
      refine Conv.bind hinst (Conv.fixed fun R => ?_)
      simp only [bind_apply, e5, pure_apply]
    refine Conv.of_eq hall fun R => ?_
    simp only [bind_apply, node_apply hc', node_apply hd, allocStruct, nodeR, e1, e2]
  · rw [hN]
    exact .lcomp hself (g4.nodes _ _ hc')
  · rw [hN]
    exact (g2.trans (g3.trans x4.grow)).ok hok1

/-! ## Tags -/

/-- add a tag to the current scope -/
def tagSt (s : St) (isS : Bool) (b : Binding) : St :=
  { s with ctxs := match s.ctxs with
      | [] => []
      | c :: cs => (if isS then { c with structs := c.structs ++ [b] } else { c with unions := c.unions ++ [b] }) :: cs }

/-- no tag of the current scope is called `x` -/
def FreshTag (s : St) (isS : Bool) (x : String) : Prop :=
  ∀ c cs, s.ctxs = c :: cs → ∀ b ∈ c.map (compNS isS), b.name ≠ x

theorem findId_fresh {l : List Binding} {x : String} (h : ∀ b ∈ l, b.name ≠ x) : findId x l = none := by
  induction l with
  | nil => rfl
  | cons b l ih =>
    rw [findId, if_neg (h b List.mem_cons_self)]
    exact ih fun d hd => h d (List.mem_cons_of_mem _ hd)

theorem findId_append_fresh {l : List Binding} {x : String} {d t : TId} (h : ∀ b ∈ l, b.name ≠ x) :
    findId x (l ++ [⟨x, d, some t⟩]) = some t := by
  induction l with
  | nil => simp [findId]
  | cons b l ih =>
    rw [List.cons_append, findId, if_neg (h b List.mem_cons_self)]
    exact ih fun d hd => h d (List.mem_cons_of_mem _ hd)

/-- the scope after `struct S { … }` has been met: with the tag if there is one -/
def tagged (s : St) (isS : Bool) (c : TId) : Option (TId × String) → St
  | none => s
  | some (i, nm) => tagSt s isS ⟨nm, i, some c⟩

theorem tagged_ctxs (s : St) (isS : Bool) (c : TId) (tag : Option (TId × String)) (h : s.ctxs ≠ []) : (tagged s isS c tag).ctxs ≠ [] := by
  cases tag with
  | none => exact h
  | some p =>
    cases hc : s.ctxs with
    | nil => exact absurd hc h
    | cons a as => simp [tagged, tagSt, hc]

theorem tagged_current (s : St) (isS : Bool) (c : TId) (tag : Option (TId × String)) (x : String) :
    resolveCurrent x .normal (tagged s isS c tag) = resolveCurrent x .normal s := by
  cases tag with
  | none => rfl
  | some p => cases hc : s.ctxs with
    | nil => simp [tagged, tagSt, resolveCurrent, hc]
    | cons a as => cases isS <;> simp [tagged, tagSt, resolveCurrent, hc, Ctx.map]

theorem tagged_nodes (s : St) (isS : Bool) (c : TId) (tag : Option (TId × String)) : (tagged s isS c tag).nodes = s.nodes := by
  cases tag <;> rfl

theorem tagged_mem (s : St) (isS : Bool) (c : TId) (tag : Option (TId × String)) : (tagged s isS c tag).mem = s.mem := by
  cases tag <;> rfl

theorem tagged_WF {s : St} (w : WF s) (isS : Bool) (c : TId) (tag : Option (TId × String)) : WF (tagged s isS c tag) := by
  cases tag <;> exact w

/-- evaluating `struct { … }` or `struct S { … }` where `S` is no tag of the current scope -/
theorem newComp_conv {E : Env} {s : St} {c ch0 : TId} {isS : Bool} {ts : List TId} {L : List Item}
    {sz : Nat} {tag : Option (TId × String)} (w : WF s)
    (hc : s.nodes c = some (.compound (tag.map Prod.fst) (some ch0) sz false isS))
    (htag : ∀ i nm, tag = some (i, nm) → s.nodes i = some (.ident nm) ∧ FreshTag s isS nm)
    (hch : s.nodes ch0 = some (.chain ts)) (hsrc : Decls s.nodes ts L) (hfine : ∀ i ∈ L, i.Fine (tagged s isS c tag))
    (hcap : Cap s ((L.map fun i => mcost i.m).sum)) :
    ∃ s', Conv E (fun R => R.ev (some c)) s (.ok (some c) s') ∧ GrowD [c] (tagged s isS c tag) s' ∧
      Laid s' c (withDecls s.next L) isS ∧ s'.mem.brk ≤ s.mem.brk + (L.map fun i => mcost i.m).sum := by
  cases tag with
  | none =>
    obtain ⟨s1, c1, g1, l1, b1⟩ := expandCompound_conv (E := E) w hc hch hsrc hfine hcap
    refine ⟨s1, ?_, g1, l1, b1⟩
    refine Conv.evNode hc ?_
    exact Conv.of_eq c1 fun R => rfl
  | some p =>
    obtain ⟨i, nm⟩ := p
    obtain ⟨hi, hx⟩ := htag i nm rfl
    have hcx := tagged_ctxs s isS c (some (i, nm)) hcap.ctxs
    obtain ⟨s1, c1, g1, l1, b1⟩ := expandCompound_conv (E := E) (s := tagged s isS c (some (i, nm))) w hc hch hsrc hfine
      ⟨hcap.brk, hcx, hcap.livelt⟩
    refine ⟨s1, ?_, g1, l1, b1⟩
    have hcur : resolveCurrent nm (compNS isS) s = none := by
      unfold resolveCurrent
      cases h : s.ctxs with
      | nil => rfl
      | cons a as => exact findId_fresh (hx a as h)
    have hmap : mapIn (compNS isS) (some i) (some c) s = .ok () (tagSt s isS ⟨nm, i, some c⟩) := by
      cases h : s.ctxs with
      | nil => exact absurd h hcap.ctxs
      | cons a as => cases isS <;> simp [mapIn, node_apply hi, modCur, h, tagSt, compNS]
    refine Conv.evNode hc ?_
    refine Conv.of_eq c1 fun R => ?_
    show evalDeclCompound R c (some i) (some ch0) isS s = _
    simp [evalDeclCompound, idStr, nodeR, node_apply hi, get, hcur, hmap]
    rfl

/-- the declarators of a declaration are `d` alone: a chain from the parser, `d` itself for members -/
def OneDecl (nd : TId → Option Node) (ds d : TId) : Prop := ds = d ∨ nd ds = some (.chain [d])

/-- a declaration `struct { … } x;` or `struct S { … } x;`: the type is laid out, then the object made -/
theorem declStruct_conv {E : Env} {s : St} {t specs c ch0 ds d : TId} {isS : Bool} {ts : List TId} {L : List Item}
    {off sz : Nat} {x : String} {tag : Option (TId × String)} (w : WF s)
    (ht : s.nodes t = some (.decl (some specs) (some ds) off)) (hs : s.nodes specs = some (.chain [c]))
    (hc : s.nodes c = some (.compound (tag.map Prod.fst) (some ch0) sz false isS))
    (htag : ∀ i nm, tag = some (i, nm) → s.nodes i = some (.ident nm) ∧ FreshTag s isS nm)
    (hch : s.nodes ch0 = some (.chain ts)) (hsrc : Decls s.nodes ts L)
    (hfine : ∀ i ∈ L, i.Fine (tagged s isS c tag)) (hds : OneDecl s.nodes ds d)
    (hd : s.nodes d = some (.ident x)) (hx : resolveCurrent x .normal s = none)
    (hoff : ∀ o ∈ (layoutPure isS 0 0 (L.map Item.m)).1, o < 2 ^ 63)
    (hcap : Cap s ((L.map fun i => mcost i.m).sum * 2 + Laid.bytes L isS + 48)) :
    ∃ L' v bs base s', L'.map Item.m = L.map Item.m ∧ L'.map Item.x = L.map Item.x ∧
      Conv E (fun R => R.ev (some t)) s (.ok (some d) (bindSt s' ⟨x, d, some v⟩)) ∧
      GrowD [c] (tagged s isS c tag) s' ∧ CompAt s' v c L' isS base bs ∧ s.mem.brk ≤ base := by
  obtain ⟨s1, h1, g1, l1, b1⟩ := newComp_conv (E := E) w hc htag hch hsrc hfine
    ⟨by have := hcap.brk; omega, hcap.ctxs, hcap.livelt⟩
  have w1 := g1.wf (tagged_WF w isS c tag)
  have nc : ∀ {y n}, s.nodes y = some n → Plain n → s1.nodes y = some n := by
    intro y n hy hp
    refine g1.nodes _ _ ?_ (by rw [tagged_nodes]; exact hy)
    simp only [List.mem_singleton]; rintro rfl
    rw [hc] at hy; cases hy; exact hp
  have hm := withDecls_m s.next L
  have hxs := withDecls_x s.next L
  have hcs := withDecls_cost s.next L
  generalize withDecls s.next L = L' at l1 hm hxs hcs
  have hbytes : Laid.bytes L' isS = Laid.bytes L isS := by simp only [Laid.bytes, hm]
  have hcx := tagged_ctxs s isS c tag hcap.ctxs
  have hx1 : resolveCurrent x .normal s1 = none := by
    rw [← tagged_current s isS c tag x] at hx
    generalize tagged s isS c tag = s0 at hx g1 hcx
    have : (s1.ctxs.map Ctx.core).head?.map Ctx.ids = (s0.ctxs.map Ctx.core).head?.map Ctx.ids := by rw [g1.ctxs]
    unfold resolveCurrent at hx ⊢
    cases hcs : s0.ctxs with
    | nil => exact absurd hcs hcx
    | cons a as =>
      cases hcs1 : s1.ctxs with
      | nil => rfl
      | cons b bs =>
        rw [hcs, hcs1] at this
        rw [hcs] at hx
        simp only [List.map_cons, List.head?_cons, Option.map_some, Option.some.injEq, Ctx.core] at this
        simp only [Ctx.map] at hx ⊢
        rw [this]; exact hx
  have hb1 := g1.brk
  rw [tagged_mem] at hb1
  obtain ⟨v, bs, s2, c2, g2, m2⟩ := declComp_conv (E := E) w1 l1 (nc hd trivial) hx1 (by rw [hm]; exact hoff)
    (by
      rw [hbytes, hcs]
      exact ⟨by have := hcap.brk; omega, g1.ctxs_ne hcx, g1.livelt (by rw [tagged_mem]; exact hcap.livelt)⟩)
  refine ⟨L', v, bs, s1.mem.brk, s2, hm, hxs, ?_, g1.trans (g2.toD _), m2, hb1⟩
  refine Conv.evNode ht ?_
  have hs1 := nc hs trivial
  obtain ⟨id1, ch1, hc1, _⟩ := l1.tree
  have hkw : ∀ kw, chainHasKw kw [c] s1 = .ok false s1 := by
    intro kw
    simp [chainHasKw, node_apply hc1]
  have h2 : Conv E (fun R => (do
      let ty ← R.ev (some c)
      let ks ← chainElems (some specs)
      if ← chainHasKw .typedef ks then eachDecl (fun d => R.mapTypedef d ty) (some ds)
      else if ← chainHasKw .extern ks then eachDecl (handleExternDecl E R ty) (some ds)
      else if ← chainHasKw .static ks then handleStaticDecl R ty t (some ds)
      else eachDecl (fun d => R.handleDecl d ty) (some ds) : M Ref)) s (.ok (some d) (bindSt s2 ⟨x, d, some v⟩)) := by
    refine Conv.bind h1 ?_
    rcases hds with rfl | hds
    · refine Conv.of_eq c2 fun R => ?_
      simp [chainElems_apply hs1, hkw, eachDecl, peek_apply (nc hd trivial)]
    · refine Conv.of_eq c2 fun R => ?_
      simp [chainElems_apply hs1, hkw, eachDecl, peek_apply (nc hds trivial), forEachLast]
      cases R.handleDecl (some d) (some c) s1 <;> rfl
  refine Conv.of_eq h2 fun R => ?_
  have e : resolveSpecs (some specs) s = .ok (some c) s := by
    simp [resolveSpecs, chainElems_apply hs, resolveSpecsLoop, node_apply hc]
  show evalDecl E R t (some specs) (some ds) s = _
  simp [evalDecl, e, peek_apply hc]

/-- a declaration `struct S { … };`: afterwards the tag stands for the type, laid out -/
theorem defTag_conv {E : Env} {s : St} {t specs c ch0 i : TId} {isS : Bool} {ts : List TId} {L : List Item}
    {off sz : Nat} {nm : String} (w : WF s)
    (ht : s.nodes t = some (.decl (some specs) none off)) (hs : s.nodes specs = some (.chain [c]))
    (hc : s.nodes c = some (.compound (some i) (some ch0) sz false isS)) (hi : s.nodes i = some (.ident nm))
    (hch : s.nodes ch0 = some (.chain ts)) (hsrc : Decls s.nodes ts L)
    (hfine : ∀ j ∈ L, j.Fine (tagSt s isS ⟨nm, i, some c⟩)) (hx : FreshTag s isS nm)
    (hcap : Cap s ((L.map fun i => mcost i.m).sum)) :
    ∃ s', Conv E (fun R => R.ev (some t)) s (.ok none s') ∧ Laid s' c (withDecls s.next L) isS ∧
      resolveGlobal nm (compNS isS) s' = some c ∧ GrowD [c] (tagSt s isS ⟨nm, i, some c⟩) s' ∧
      s'.mem.brk ≤ s.mem.brk + (L.map fun i => mcost i.m).sum := by
  have hcx : (tagSt s isS ⟨nm, i, some c⟩).ctxs ≠ [] := by
    cases h : s.ctxs with
    | nil => exact absurd h hcap.ctxs
    | cons a as => simp [tagSt, h]
  obtain ⟨s1, c1, g1, l1, b1⟩ := expandCompound_conv (E := E) (s := tagSt s isS ⟨nm, i, some c⟩) w hc hch hsrc hfine
    ⟨hcap.brk, hcx, hcap.livelt⟩
  have nc : ∀ {y n}, s.nodes y = some n → Plain n → s1.nodes y = some n := by
    intro y n hy hp
    refine g1.nodes _ _ ?_ hy
    simp only [List.mem_singleton]; rintro rfl
    rw [hc] at hy; cases hy; exact hp
  refine ⟨s1, ?_, l1, ?_, g1, b1⟩
  · refine Conv.evNode ht ?_
    obtain ⟨id1, ch1, hc1, _⟩ := l1.tree
    have hcur : resolveCurrent nm (compNS isS) s = none := by
      unfold resolveCurrent
      cases h : s.ctxs with
      | nil => rfl
      | cons a as => exact findId_fresh (hx a as h)
    have hmap : mapIn (compNS isS) (some i) (some c) s = .ok () (tagSt s isS ⟨nm, i, some c⟩) := by
      cases h : s.ctxs with
      | nil => exact absurd h hcap.ctxs
      | cons a as => cases isS <;> simp [mapIn, node_apply hi, modCur, h, tagSt, compNS]
    have h1 : Conv E (fun R => R.ev (some c)) s (.ok (some c) s1) := by
      refine Conv.evNode hc ?_
      refine Conv.of_eq c1 fun R => ?_
      show evalDeclCompound R c (some i) (some ch0) isS s = _
      simp [evalDeclCompound, idStr, nodeR, node_apply hi, get, hcur, hmap]
    have h2 : Conv E (fun R => (do
        let ty ← R.ev (some c)
        let ks ← chainElems (some specs)
        if ← chainHasKw .typedef ks then eachDecl (fun d => R.mapTypedef d ty) none
        else if ← chainHasKw .extern ks then eachDecl (handleExternDecl E R ty) none
        else if ← chainHasKw .static ks then handleStaticDecl R ty t none
        else pure none : M Ref)) s (.ok none s1) := by
      refine Conv.bind h1 (Conv.fixed fun R => ?_)
      have hkw : ∀ kw, chainHasKw kw [c] s1 = .ok false s1 := by
        intro kw
        simp [chainHasKw, node_apply hc1]
      simp [chainElems_apply (nc hs trivial), hkw]
    refine Conv.of_eq h2 fun R => ?_
    have e : resolveSpecs (some specs) s = .ok (some c) s := by
      simp [resolveSpecs, chainElems_apply hs, resolveSpecsLoop, node_apply hc]
    show evalDecl E R t (some specs) none s = _
    simp [evalDecl, e, peek_apply hc]
  · rw [g1.resolveGlobal]
    cases h : s.ctxs with
    | nil => exact absurd h hcap.ctxs
    | cons a as =>
      cases isS with
      | true =>
        have := findId_append_fresh (d := i) (t := c) (hx a as h)
        simp only [compNS, if_true, Ctx.map] at this
        simp [resolveGlobal, tagSt, h, findInChain, Ctx.map, compNS, this]
      | false =>
        have := findId_append_fresh (d := i) (t := c) (hx a as h)
        simp only [compNS, Bool.false_eq_true, if_false, Ctx.map] at this
        simp [resolveGlobal, tagSt, h, findInChain, Ctx.map, compNS, this]

/-- a declaration `struct S x;` where the tag stands for a type that is laid out -/
theorem useTag_conv {E : Env} {s : St} {t specs c u i d : TId} {isS b : Bool} {L : List Item}
    {off sz : Nat} {nm x : String} (w : WF s)
    (ht : s.nodes t = some (.decl (some specs) (some d) off)) (hs : s.nodes specs = some (.chain [u]))
    (hu : s.nodes u = some (.compound (some i) none sz b isS)) (hi : s.nodes i = some (.ident nm))
    (hr : resolveGlobal nm (compNS isS) s = some c) (hL : Laid s c L isS)
    (hd : s.nodes d = some (.ident x)) (hx : resolveCurrent x .normal s = none)
    (hoff : ∀ o ∈ (layoutPure isS 0 0 (L.map Item.m)).1, o < 2 ^ 63)
    (hcap : Cap s ((L.map fun i => mcost i.m).sum + Laid.bytes L isS + 48)) :
    ∃ v bs s', Conv E (fun R => R.ev (some t)) s (.ok (some d) (bindSt s' ⟨x, d, some v⟩)) ∧
      Grow s s' ∧ CompAt s' v c L isS s.mem.brk bs := by
  obtain ⟨v, bs, s', c1, g, m⟩ := declComp_conv (E := E) w hL hd hx hoff hcap
  refine ⟨v, bs, s', ?_, g, m⟩
  refine Conv.evNode ht ?_
  have h1 : Conv E (fun R => R.ev (some u)) s (.ok (some c) s) := by
    refine Conv.evNode hu (Conv.fixed fun R => ?_)
    show evalDeclCompound R u (some i) none isS s = _
    simp [evalDeclCompound, idStr, nodeR, node_apply hi, get, hr]
  have h2 : Conv E (fun R => (do
      let ty ← R.ev (some u)
      let ks ← chainElems (some specs)
      if ← chainHasKw .typedef ks then eachDecl (fun d => R.mapTypedef d ty) (some d)
      else if ← chainHasKw .extern ks then eachDecl (handleExternDecl E R ty) (some d)
      else if ← chainHasKw .static ks then handleStaticDecl R ty t (some d)
      else eachDecl (fun d => R.handleDecl d ty) (some d) : M Ref)) s (.ok (some d) (bindSt s' ⟨x, d, some v⟩)) := by
    refine Conv.bind h1 ?_
    refine Conv.of_eq c1 fun R => ?_
    have hkw : ∀ kw, chainHasKw kw [u] s = .ok false s := by
      intro kw
      simp [chainHasKw, node_apply hu]
    simp [chainElems_apply hs, hkw, eachDecl, peek_apply hd]
  refine Conv.of_eq h2 fun R => ?_
  have e : resolveSpecs (some specs) s = .ok (some u) s := by
    simp [resolveSpecs, chainElems_apply hs, resolveSpecsLoop, node_apply hu]
  show evalDecl E R t (some specs) (some d) s = _
  simp [evalDecl, e, peek_apply hu]

end Bic
