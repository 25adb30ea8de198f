import Verif.Spec.PtrDialogue
import Verif.Props.PrintValue
import Verif.Proofs.StructDialogue
import Verif.Proofs.Parts
/-!
# Dialogues with a pointer
-/

namespace Bic.Repl
open Spec CSyn
open _root_.Bic.Parser (PT T K Der Rep nameStr rep_single rep_one we_der specs_der' rep_kws specs_kw resolveKws_gives)
open Printer (Floats Prints decimal pointerText)
open CText (Str Text ascii)

/-! ### The shape of a store -/

def Shape (σ : Store) : List (List Bool) := σ.map fun fr => fr.map fun p => p.2.isSome

theorem Frame.shape_write (x : String) (w : Int) : ∀ fr : Frame, (Frame.write x w fr).map (fun p => p.2.isSome) = fr.map fun p => p.2.isSome
  | [] => rfl
  | (y, v) :: fr => by
    unfold Frame.write
    split
    · simp
    · simp [Frame.shape_write x w fr]

theorem Shape.write (x : String) (w : Int) : ∀ σ : Store, Shape (σ.write x w) = Shape σ
  | [] => rfl
  | fr :: σ => by
    unfold Store.write
    split
    · simp only [Shape, List.map_cons, Frame.shape_write]
    · have := Shape.write x w σ
      simp only [Shape, List.map_cons] at this ⊢
      rw [this]

theorem Reply.shape {L : Rules} {S : Shows} {σ p out σ'} (h : Reply L S σ p out σ' 0) : Shape σ' = Shape σ := by
  generalize hn : (0 : Nat) = n at h
  cases h with
  | decl _ _ h => rw [List.length_eq_zero_iff.mp hn.symm] at h; cases h
  | expr | empty => rfl
  | set | post | pre => exact Shape.write _ _ _

theorem VarAt.addr_kept {s s' : St} {t c v a c' v' a'} (h : VarAt s t c v a) (h' : VarAt s' t c' v' a') (hk : Bic.Kept s s') : a' = a := by
  obtain ⟨_, ⟨_, _, n1⟩, _⟩ := h.at_
  obtain ⟨_, ⟨_, _, n2⟩, _⟩ := h'.at_
  have := hk _ _ n1
  rw [n2] at this
  cases this
  rfl

theorem FrameRel.sync {s s' : St} {fr bs as} (h : FrameRel s fr bs as) (hk : Bic.Kept s s') :
    ∀ {fr' as'}, FrameRel s' fr' bs as' → fr'.map (fun p => p.2.isSome) = fr.map (fun p => p.2.isSome) → as' = as := by
  induction h with
  | nil => intro fr' as' h' _; cases h'; rfl
  | var h1 _ ih =>
    intro fr' as' h' e
    cases h' with
    | var h1' h2' =>
      simp only [List.map_cons, List.cons.injEq] at e
      rw [VarAt.addr_kept h1 h1' hk, ih h2' e.2]
    | other h2' => simp at e
  | other _ ih =>
    intro fr' as' h' e
    cases h' with
    | var h1' h2' => simp at e
    | other h2' =>
      simp only [List.map_cons, List.cons.injEq] at e
      exact ih h2' e.2

theorem StoreRel.sync {s s' : St} {σ cs as} (h : StoreRel s σ cs as) (hk : Bic.Kept s s') :
    ∀ {σ' as'}, StoreRel s' σ' cs as' → Shape σ' = Shape σ → as' = as := by
  induction h with
  | nil =>
    intro σ' as' h' e
    cases h' with
    | nil => rfl
    | cons => simp [Shape] at e
  | cons h1 _ ih =>
    intro σ' as' h' e
    cases h' with
    | nil => simp [Shape] at e
    | cons h1' h2' =>
      simp only [Shape, List.map_cons, List.cons.injEq] at e
      rw [FrameRel.sync h1 hk h1' e.1, ih h2' e.2]

/-! ### The invariant -/

/-- the pointer `x` to `k`, pointing to `π`, and the variables at their addresses -/
structure PInv (s : St) (σ : Store) (k : CT) (x : String) (addr : String → Nat) (π : Option String) (n : Nat) : Prop where
  good : Good s σ n
  cell : ∃ as b q τ β, (∃ arr sz, s.nodes q = some (.lv (some τ) b arr sz)) ∧ (∃ e, s.nodes β = some (.ctype k e)) ∧ StoreRel s σ (lookups s) as ∧ Apart as ∧
    (∀ a ∈ as, a + 8 ≤ b ∨ b + 8 ≤ a) ∧ resolveGlobal x .normal s = some q ∧
    s.nodes τ = some (.ctype .ptr (some β)) ∧ s.mem.ok 8 b = true ∧ ∀ y, π = some y → s.mem.load 8 b = addr y
  addrs : ∀ y c v, σ.Has y c v → ∃ t τ sz, resolveGlobal y .normal s = some t ∧ s.nodes t = some (.lv τ (addr y) false sz)

theorem PInv.mono {s : St} {σ k x addr π n m} (h : PInv s σ k x addr π n) (hm : m ≤ n) : PInv s σ k x addr π m := ⟨h.good.mono hm, h.cell, h.addrs⟩

theorem good_grow {s s' : St} {σ n m} (h : Good s σ n) (g : Grow s s') (hr : Room s' m) : Good s' σ m where
  wf := g.wf h.wf
  flags := flags_of (core_flags g.ctxs) h.flags
  room := hr
  rel := h.rel.grow g

theorem PInv.grow {s s' : St} {σ k x addr π n m} (h : PInv s σ k x addr π n) (g : Grow s s') (hr : Room s' m) : PInv s' σ k x addr π m where
  good := good_grow h.good g hr
  cell := by
    obtain ⟨as, b, q, τ, β, ⟨arr, sz, h1⟩, ⟨e, h2⟩, h3, h4, h5, h6, h7, h8, h9⟩ := h.cell
    exact ⟨as, b, q, τ, β, ⟨arr, sz, g.nodes _ _ h1⟩, ⟨e, g.nodes _ _ h2⟩, h3.map g.lookups fun t c v a _ h => h.grow g, h4, h5,
      (g.resolveGlobal x _).trans h6, g.nodes _ _ h7, g.ok h8, fun y hy => by rw [g.load h8]; exact h9 y hy⟩
  addrs y c v hy := by
    obtain ⟨t, τ, sz, h1, h2⟩ := h.addrs y c v hy
    exact ⟨t, τ, sz, (g.resolveGlobal y _).trans h1, g.nodes _ _ h2⟩

theorem PInv.ext {s s' : St} {σ k x addr π n} (h : PInv s σ k x addr π n) (e : Ext s s') : PInv s' σ k x addr π n :=
  h.grow e.grow (h.good.room.ext e)

/-- the object of a variable -/
theorem PInv.var {s : St} {σ k x addr π n} (h : PInv s σ k x addr π n) {y c v} (hy : σ.Has y c v) :
    ∃ t sz τ, resolveGlobal y .normal s = some t ∧ VarAt s t c v (addr y) ∧ s.nodes t = some (.lv τ (addr y) false sz) ∧ addr y < 2 ^ 64 ∧
      ∀ as, StoreRel s σ (lookups s) as → Apart as → addr y ∈ as := by
  obtain ⟨t, τ, sz, h1, h2⟩ := h.addrs y c v hy
  obtain ⟨as0, h3, h4⟩ := h.good.rel
  have key : ∀ as, StoreRel s σ (lookups s) as → Apart as → VarAt s t c v (addr y) ∧ addr y ∈ as := by
    intro as h3 h4
    obtain ⟨t', a, e1, e2, e3, _⟩ := h3.find hy h4
    have e4 : resolveGlobal y .normal s = some t' := by rw [← findInChain_lookups, e1]
    rw [h1] at e4
    cases e4
    obtain ⟨_, ⟨_, _, n1⟩, _⟩ := e2.at_
    rw [h2] at n1
    cases n1
    exact ⟨e2, e3⟩
  have hv := (key as0 h3 h4).1
  refine ⟨t, sz, τ, h1, hv, h2, ?_, fun as a b => (key as a b).2⟩
  have := below h.good.room.livelt hv.wide
  have hb := h.good.room.brk
  have : Mem.limit < 2 ^ 64 := by decide
  omega

theorem store_has_write {σ : Store} {x y : String} {c v w} (h : (σ.write x w).Has y c v) : ∃ v', σ.Has y c v' := by
  unfold Store.Has at h ⊢
  rw [Store.find_write] at h
  split at h
  · cases hf : Store.find y σ with
    | none => rw [hf] at h; cases h
    | some u =>
      rw [hf] at h
      cases u with
      | none => cases h
      | some u =>
        simp only [Option.map_some, Option.some.injEq] at h
        exact ⟨u.2, by cases u; cases h; rfl⟩
  · exact ⟨v, h⟩

theorem Reply.has {L : Rules} {S : Shows} {σ p out σ'} (h : Reply L S σ p out σ' 0) {y c v} (hy : σ'.Has y c v) : ∃ v', σ.Has y c v' := by
  generalize hn : (0 : Nat) = n at h
  cases h with
  | decl _ _ h => rw [List.length_eq_zero_iff.mp hn.symm] at h; cases h
  | expr | empty => exact ⟨v, hy⟩
  | set | post | pre => exact store_has_write hy

theorem pair_text {fl : Floats} {s : St} {q : TId} {bt : Ref} {p : Nat} {t : Str} (h : PtrTo s q bt p) (hc : ¬ Print.CharType s bt) (ht : AddressText p t) (o : Str) :
    Prints fl s q o ↔ o = t := by
  rw [Print.C95_pointer fl s q bt p h hc o, Print.addressText_iff, (Print.addressText_iff _ _).mp ht]

/-! ### The lines -/

/-- the tree of the line -/
inductive PInputRep (nd : TId → Option Node) (x : String) : TId → PInput → Prop
  | plain {t p} : InputRep nd t p → PInputRep nd x t (.plain p)
  | point {t u l r o y} : Wrap nd t u → nd u = some (.assign (some l) (some r)) → nd l = some (.ident x) → nd r = some (.addr (some o)) →
      nd o = some (.ident y) → PInputRep nd x t (.point y)
  | value {t u} : Wrap nd t u → nd u = some (.ident x) → PInputRep nd x t .value
  | store {t u l r o e} : Wrap nd t u → nd u = some (.assign (some l) (some r)) → nd l = some (.deref (some o)) → nd o = some (.ident x) →
      ERep nd r e → PInputRep nd x t (.store e)
  | load {t u o} : Wrap nd t u → nd u = some (.deref (some o)) → nd o = some (.ident x) → PInputRep nd x t .load

theorem pinput_der {TN x p i} (h : WPInput cTable TN x p i) :
    ∃ t, Der .replUnit i (.chain [t]) [] ∧ typedefNames t = [] ∧ (∀ s, t ≠ .cppInclude s) ∧
      ∀ {nd : TId → Option Node} {u}, Rep nd (.t t (some u)) → PInputRep nd (nameStr x) u p := by
  have key : ∀ {i t}, Der .assignment i t [.p .semi] →
      (∀ {nd : TId → Option Node} {u v}, Rep nd (.t t (some v)) → Wrap nd u v → PInputRep nd (nameStr x) u p) →
      ∃ t, Der .replUnit i (.chain [t]) [] ∧ typedefNames t = [] ∧ (∀ s, t ≠ .cppInclude s) ∧
        ∀ {nd : TId → Option Node} {u}, Rep nd (.t t (some u)) → PInputRep nd (nameStr x) u p := by
    intro i t h1 h2
    refine ⟨_, .ruOne (.rsExpr (.esExpr (.exOne h1))), rfl, nofun, ?_⟩
    intro nd u hu
    obtain ⟨x, _, v, e, _, h3, h4⟩ := rep_single hu
    cases e
    exact h2 h3 h4
  cases h with
  | plain h =>
    obtain ⟨t, h1, h2, h3, h4⟩ := input_der h
    exact ⟨t, h1, h2, h3, fun hr => .plain (h4 hr)⟩
  | point =>
    refine key (.asOp (k := .assign) (f := fun l r => .assign l r) (.uPostfix (.poPrimary .pIdent)) rfl
      (Parser.nt_down (p := 2) (q := 15) (.uOp (k := .amp) (f := .addr) rfl (.uPostfix (.poPrimary .pIdent))) (by omega) (by omega))) ?_
    intro nd u v hr hx
    cases hr with
    | assign h3 h4 h5 =>
      cases h4 with
      | ident h4 =>
        cases h5 with
        | addr h6 h7 => cases h7 with | ident h7 => exact .point hx h3 h4 h6 h7
  | value =>
    refine key (Parser.nt_down (p := 2) (q := 16) (.poPrimary .pIdent) (by omega) (by omega)) ?_
    intro nd u v hr hx
    cases hr with
    | ident h => exact .value hx h
  | store he =>
    obtain ⟨te, e1, e2⟩ := we_der he
    refine key (.asOp (k := .assign) (f := fun l r => .assign l r) (.uOp (k := .star) (f := .deref) rfl (.uPostfix (.poPrimary .pIdent))) rfl e1) ?_
    intro nd u v hr hx
    cases hr with
    | assign h3 h4 h5 =>
      obtain ⟨v, rfl, h6⟩ := e2 h5
      cases h4 with
      | deref h7 h8 => cases h8 with | ident h8 => exact .store hx h3 h7 h8 h6
  | load =>
    refine key (Parser.nt_down (p := 2) (q := 15) (.uOp (k := .star) (f := .deref) rfl (.uPostfix (.poPrimary .pIdent))) (by omega) (by omega)) ?_
    intro nd u v hr hx
    cases hr with
    | deref h7 h8 => cases h8 with | ident h8 => exact .load hx h7 h8

/-- the invariant after writing somewhere else than into the pointer -/
theorem PInv.wrote {s s' : St} {σ σ' k x addr π n m} (h : PInv s σ k x addr π n) (g : Good s' σ' m) (hk : Bic.Kept s s') (hc : s'.ctxs = s.ctxs) (hi : s'.includeCtx = s.includeCtx)
    (hs : Shape σ' = Shape σ) (hh : ∀ y c v, σ'.Has y c v → ∃ v', σ.Has y c v')
    (hm : ∀ b, s.mem.ok 8 b = true → (∀ y c v, σ.Has y c v → addr y + 8 ≤ b ∨ b + 8 ≤ addr y) → s'.mem.load 8 b = s.mem.load 8 b ∧ s'.mem.ok 8 b = true) :
    PInv s' σ' k x addr π m where
  good := g
  cell := by
    obtain ⟨as, b, q, τ, β, ⟨arr, sz, h1⟩, ⟨e, h2⟩, h3, h4, h5, h6, h7, h8, h9⟩ := h.cell
    obtain ⟨as', i1, i2⟩ := g.rel
    have hsc : lookups s' = lookups s := by rw [lookups, lookups, hc, hi]
    rw [hsc] at i1
    have := StoreRel.sync h3 hk i1 hs
    subst this
    obtain ⟨m1, m2⟩ := hm b h8 fun y c v hy => by
      obtain ⟨_, _, _, _, _, _, _, j⟩ := h.var hy
      exact h5 _ (j _ h3 h4)
    refine ⟨as', b, q, τ, β, ⟨arr, sz, hk _ _ h1⟩, ⟨e, hk _ _ h2⟩, by rw [hsc]; exact i1, h4, h5, ?_, hk _ _ h7, m2, fun y hy => by rw [m1]; exact h9 y hy⟩
    unfold resolveGlobal at h6 ⊢
    rw [hc, hi]
    exact h6
  addrs y c v hy := by
    obtain ⟨v', hy'⟩ := hh y c v hy
    obtain ⟨t, τ, sz, h1, h2⟩ := h.addrs y c v' hy'
    refine ⟨t, τ, sz, ?_, hk _ _ h2⟩
    unfold resolveGlobal at h1 ⊢
    rw [hc, hi]
    exact h1

theorem PInv.touched {s s' : St} {σ σ' k x addr π n m} (h : PInv s σ k x addr π n) (g : Good s' σ' m) (hk : Bic.Kept s s') (hc : s'.ctxs = s.ctxs)
    (hs : Shape σ' = Shape σ) (hh : ∀ y c v, σ'.Has y c v → ∃ v', σ.Has y c v') (ht : Touch σ s s' ∨ Ext s s') : PInv s' σ' k x addr π m := by
  refine h.wrote g hk hc (by rcases ht with ⟨_, _, _, _, _, _, _, _, _, h⟩ | e; exacts [h, e.includeCtx]) hs hh fun b hb hd => ?_
  rcases ht with ⟨y, c, v, t, a, t1, t2, t3, t4, _⟩ | e
  · obtain ⟨t', sz, τ, i1, i2, i3, _⟩ := h.var t1
    rw [t2] at i1
    cases i1
    have := VarAt.addr_kept t3 i2 (Bic.Kept.refl s)
    subst this
    obtain ⟨m1, m2⟩ := t4 b (hd y c v t1)
    exact ⟨m1, m2.trans hb⟩
  · rw [e.mem]
    exact ⟨rfl, hb⟩

theorem reaches {s : St} {σ : Store} {k : CT} {x : String} {addr : String → Nat} {π : Option String} {n : Nat} (h : PInv s σ k x addr π n) :
    ∃ q β, resolveGlobal x .normal s = some q ∧ (∃ e, s.nodes β = some (.ctype k e)) ∧ ∀ y, π = some y → PtrTo s q (some β) (addr y) := by
  obtain ⟨as, b, q, τ, β, ⟨arr, sz, h1⟩, h2, h3, h4, h5, h6, h7, h8, h9⟩ := h.cell
  exact ⟨q, β, h6, h2, fun y hy => ⟨τ, b, arr, sz, h1, h7, h8, (h9 y hy).symm⟩⟩

theorem not_char {s : St} {β : TId} {k : CT} {e : Ref} (h : s.nodes β = some (.ctype k e)) (hk : k ≠ .char) : ¬ Print.CharType s (some β) := by
  rintro ⟨τ, e', h1, h2⟩
  cases h1
  rw [h] at h2
  cases h2
  exact hk rfl

/-- evaluating `*p` -/
theorem target_conv {E : Env} {s : St} {σ : Store} {k : CT} {x y : String} {addr : String → Nat} {n : Nat} {l o : TId} {v : Option Int}
    (h : PInv s σ k x addr (some y) n) (hl : s.nodes l = some (.deref (some o))) (ho : s.nodes o = some (.ident x)) (hy : σ.Has y k v) :
    ∃ s1 t β, Conv E (fun R => R.ev (some l)) s (.ok (some t) s1) ∧ Ext s s1 ∧ s1.nodes t = some (.lv (some β) (addr y) false 0) ∧
      VarAt s1 t k v (addr y) := by
  obtain ⟨q, β, r1, ⟨e, r2⟩, r3⟩ := reaches h
  have r3 := r3 y rfl
  have hc := deref_conv (E := E) hl (ident_conv ho r1) r3 (fun t ht => by cases ht; exact ⟨_, r2, by intros; simp⟩)
  have x1 := addNode_ext h.good.wf (.lv (some β) (addr y) false 0)
  obtain ⟨t', sz, τ, i1, i2, i3, _⟩ := (h.ext x1).var hy
  refine ⟨_, s.next, β, hc, x1, addNode_self _ _, ⟨β, ⟨false, 0, addNode_self _ _⟩, ⟨e, x1.nodes _ _ r2⟩, .inl i2.int, ?_⟩, i2.int, i2.wide, i2.val⟩
  obtain ⟨_, hl⟩ := i2.at_
  exact hl.ok

/-- `*p = e;` -/
theorem store_conv {E : Env} {s : St} {σ : Store} {k : CT} {x y : String} {addr : String → Nat} {n : Nat} {u l o r : TId} {e : Expr} {v0 : Option Int} {v w : Int}
    (h : PInv s σ k x addr (some y) n) (hu : s.nodes u = some (.assign (some l) (some r))) (hl : s.nodes l = some (.deref (some o)))
    (ho : s.nodes o = some (.ident x)) (hr : ERep s.nodes r e) (hy : σ.Has y k v0) (hv : okRules.Value σ e v) (ha : okAsg σ k e v)
    (hw : Converts k v w) :
    ∃ q s', Conv E (fun R => R.ev (some u)) s (.ok (some q) s') ∧ PInv s' (σ.write y w) k x addr (some y) n ∧ Value s' q v ∧ s'.includes = s.includes := by
  obtain ⟨s1, t, β, c1, x1, t1, t2⟩ := target_conv (E := E) h hl ho hy
  have g1 := h.ext x1
  have fin : ∀ {s2 : St} {z : Nat}, Ext s1 s2 → Rel (wr s2 k.size (addr y) z) (σ.write y w) → PInv (wr s2 k.size (addr y) z) (σ.write y w) k x addr (some y) n := by
    intro s2 z x2 hrel
    have g2 := g1.ext x2
    refine g2.wrote (g2.good.wr _ _ _ hrel) (Bic.Kept.refl _) rfl rfl (Shape.write _ _ _) (fun _ _ _ => store_has_write) fun b hb hd => ?_
    have := hd y k v0 hy
    have := integral_size t2.int
    rw [wr_mem, Mem.load_store_disj _ (by omega)]
    refine ⟨rfl, ?_⟩
    rw [← hb]
    exact Mem.ok_congr (by simp) _ _
  have addr_of : ∀ {s2 : St}, Ext s1 s2 → ∀ {t' a}, resolveGlobal y .normal s2 = some t' → VarAt s2 t' k v0 a → a = addr y := by
    intro s2 x2 t' a j1 j2
    obtain ⟨_, _, _, i1, i2, _⟩ := (g1.ext x2).var hy
    rw [j1] at i1
    cases i1
    exact VarAt.addr_kept i2 j2 (Bic.Kept.refl _)
  rcases ha with ⟨hcomp, hfit⟩ | ⟨z, d, rfl, hz, hwd⟩
  · obtain ⟨q, s2, k1, k2, k3, k4⟩ := eval_full (E := E) g1.good.wf (fun _ _ ⟨_, i1, i2⟩ => g1.good.rel.varIs i1 i2) hv (hr.mono x1.nodes)
    have hq := k4.1 hcomp
    obtain ⟨τ, hlt⟩ := t2.at_
    have hcv := assign_conv (E := E) hu c1 k1 (hlt.ext k2) t2.int (.int hq)
    obtain ⟨t', a, j1, j2, j3⟩ := (g1.good.ext k2).rel.find hy
    have := addr_of k2 j1 j2
    subst this
    have hz : w = k.decode (k.encode (mpzGetSi v)) := Converts.unique (.inl t2.int) hw (getSi_converts t2.int hfit)
    refine ⟨q, _, hcv, fin k2 (by rw [hz]; exact j3 _), .inl hq, ?_⟩
    exact k2.includes.trans x1.includes
  · obtain ⟨q, b, j1, j2, _⟩ := g1.good.rel.find hz
    have hrc := var_conv (E := E) j1 (hr.mono x1.nodes) rfl
    obtain ⟨τ, hlt⟩ := t2.at_
    obtain ⟨τ', hlq⟩ := j2.at_
    obtain ⟨arr, sz, hlv⟩ := hlq.lv
    have hcv := assign_conv (E := E) hu c1 hrc hlt t2.int (.lv hlv j2.wide)
    obtain ⟨z', s', w', e1, e2, e3⟩ := C08_assign_partial E k d t2.int j2.int hwd s s1 s1 u t q τ τ' (some l) (some r) (addr y) b v hu
      c1 hrc hlt hlq ((hlq.holds_iff v).mp ⟨_, _, hlq, j2.val v rfl⟩) j2.wide
    have := Conv.unique hcv e1
    cases this
    have hw' : w = k.decode (k.encode (CT.long.decode (s1.mem.load 8 b))) := by
      rw [Converts.unique (.inl t2.int) hw e2]
      have h4 := ((hlt.wr k.size (addr y) _).holds_iff w').mpr e3
      exact (h4.unique (hlt.holds_wr _)).2
    obtain ⟨t', a, i1, i2, i3⟩ := g1.good.rel.find hy
    have := addr_of (Ext.refl _) i1 i2
    subst this
    have hp := fin (z := k.encode (CT.long.decode (s1.mem.load 8 b))) (Ext.refl _) (by rw [hw']; exact i3 _)
    refine ⟨q, _, hcv, hp, .inr ?_, x1.includes⟩
    have hv' : InRange d v := by
      exact Holds.inRange ⟨τ', b, hlq, j2.val v rfl⟩
    have hz' : (σ.write y w).Has z d (some v) := by
      unfold Store.Has at hy hz ⊢
      rw [Store.find_write]
      by_cases hxy : z = y
      · subst hxy
        rw [hy] at hz
        injection hz with hz; injection hz with hz; injection hz with hz hz2
        subst hz
        rw [if_pos rfl, hy]
        have : w = v := Converts.unique (.inl j2.int) hw (Converts.self hv')
        rw [this]; rfl
      · rw [if_neg hxy]; exact hz
    obtain ⟨q', b', n1, n2, _⟩ := hp.good.rel.find hz'
    have n3 : resolveGlobal z .normal s1 = some q' := n1
    rw [j1] at n3
    cases n3
    exact ⟨_, _, n2⟩

/-- `p = &y;` -/
theorem point_conv {E : Env} {s : St} {σ : Store} {k : CT} {x y : String} {addr : String → Nat} {π : Option String} {n : Nat} {u l o r : TId} {v0 : Option Int}
    (h : PInv s σ k x addr π (n + 1)) (hu : s.nodes u = some (.assign (some l) (some r))) (hl : s.nodes l = some (.ident x))
    (hr : s.nodes r = some (.addr (some o))) (ho : s.nodes o = some (.ident y)) (hy : σ.Has y k v0) :
    ∃ q s' β, Conv E (fun R => R.ev (some u)) s (.ok (some q) s') ∧ PInv s' σ k x addr (some y) n ∧ PtrTo s' q (some β) (addr y) ∧
      (∃ e, s'.nodes β = some (.ctype k e)) ∧ s'.includes = s.includes := by
  obtain ⟨t, sz, τy, i1, i2, i3, i4, _⟩ := h.var hy
  obtain ⟨τ', hlt⟩ := i2.at_
  obtain ⟨_, _, n1⟩ := hlt.lv
  rw [i3] at n1
  cases n1
  obtain ⟨e', hty⟩ := hlt.ty
  have hroom : Room s 1 := h.good.room.mono (by omega)
  have hadd := addr_conv (E := E) (p := addr y) hr (ident_conv ho i1) h.good.wf hroom i3 (by simp)
  have x1 := addNode_ext h.good.wf (.ctype .ptr (some τ'))
  have w1 := x1.wf h.good.wf
  have g2 := newVal_grow w1 (some s.next) 8 (addr y) (hroom.ext x1)
  have hself := newVal_self (addNode s (.ctype .ptr (some τ'))) (some s.next) 8 (addr y)
  have hok := newVal_ok (s := addNode s (.ctype .ptr (some τ'))) (ty := some s.next) (n := 8) (v := addr y) (k := 8) (by decide)
  have hld := newVal_load (addNode s (.ctype .ptr (some τ'))) (some s.next) 8 (addr y)
  rw [Nat.mod_eq_of_lt (by simpa using i4)] at hld
  have hr2 : Room (newVal (addNode s (.ctype .ptr (some τ'))) (some s.next) 8 (addr y)) n := newVal_room w1 _ _ _ (h.good.room.ext x1)
  have gg := x1.grow.trans g2
  have htyp : (newVal (addNode s (.ctype .ptr (some τ'))) (some s.next) 8 (addr y)).nodes s.next = some (.ctype .ptr (some τ')) :=
    g2.nodes _ _ (addNode_self _ _)
  have hnx : (addNode s (.ctype .ptr (some τ'))).next = s.next + 1 := rfl
  have hbk : (addNode s (.ctype .ptr (some τ'))).mem = s.mem := rfl
  rw [hnx] at hself
  rw [hbk] at hself hok hld
  have hinc : (newVal (addNode s (.ctype .ptr (some τ'))) (some s.next) 8 (addr y)).includes = s.includes := gg.includes
  have hp := h.grow gg hr2
  have hbelow : ∀ b, s.mem.ok 8 b = true → b + 8 ≤ s.mem.brk := fun b hb => below h.good.room.livelt hb
  generalize newVal (addNode s (.ctype .ptr (some τ'))) (some s.next) 8 (addr y) = s2 at *
  obtain ⟨as, b, q, τ, β, ⟨arr, sz', h1⟩, ⟨e, h2⟩, h3, h4, h5, h6, h7, h8, h9⟩ := hp.cell
  have hb : s.mem.ok 8 b = true := by
    obtain ⟨as0, b0, q0, τ0, β0, ⟨arr0, sz0, k1⟩, _, _, _, _, k6, _, k8, _⟩ := h.cell
    rw [gg.resolveGlobal, k6] at h6
    cases h6
    have := gg.nodes _ _ k1
    rw [h1] at this
    cases this
    exact k8
  have hb' := hbelow b hb
  have hpa : PtrAssignment E s s2 u q (s.next + 1) (some β) b :=
    ⟨⟨some l, some r, s, hu, ident_conv hl (by rw [← h6]; exact (gg.resolveGlobal x _).symm), hadd⟩, ⟨τ, arr, sz', h1, h7, h8⟩⟩
  have hcv : Conv E (fun R => R.ev (some u)) s (.ok (some (s.next + 1)) (wr s2 8 b (addr y))) := by
    refine assign_ptr_conv hpa ?_
    simp [assignPtr, nodeR, node_apply hself, loadRaw, hok, lvFields, node_apply h1, storeRaw_apply h8, hld]
  have hvar : ∀ t c v a, a ∈ as → VarAt s2 t c v a → VarAt (wr s2 8 b (addr y)) t c v a := fun t c v a ha hv => hv.wr (by omega) (h5 a ha)
  have hstore : StoreRel (wr s2 8 b (addr y)) σ (lookups (wr s2 8 b (addr y))) as := h3.map rfl fun t c v a ha hv => hvar t c v a ha hv
  refine ⟨s.next + 1, _, τ', hcv, ⟨hp.good.wr _ _ _ ⟨as, hstore, h4⟩, ⟨as, b, q, τ, β, ⟨arr, sz', h1⟩, ⟨e, h2⟩, hstore, h4, h5, h6, h7, ?_, ?_⟩, ?_⟩,
    ⟨s.next, s.mem.brk, false, 0, hself, htyp, ?_, ?_⟩, ⟨e', gg.nodes _ _ hty⟩, hinc⟩
  · rw [← h8]; exact Mem.ok_congr (by simp) _ _
  · intro z hz
    cases hz
    rw [wr_mem, Mem.load_store, Nat.mod_eq_of_lt (by simpa using i4)]
  · exact hp.addrs
  · rw [← hok]; exact Mem.ok_congr (by simp) _ _
  · rw [wr_mem, Mem.load_store_disj _ (by omega)]
    exact hld.symm

theorem pinput_conv {E : Env} (fl : Floats) {s : St} {σ σ' : Store} {k : CT} {x : String} {addr : String → Nat} {π π' : Option String} {n : Nat} {t : TId}
    {p : PInput} {out : Str} (hk : k ≠ .char) (g : PInv s σ k x addr π (n + 1)) (ht : PInputRep s.nodes x t p)
    (h : PReply okRules bicShows addr k σ π p out σ' π') :
    ∃ s', Shown E fl s t out s' ∧ PInv s' σ' k x addr π' n ∧ s'.includes = s.includes := by
  have g' : PInv s σ k x addr π n := g.mono (by omega)
  cases h with
  | plain h =>
    cases ht with
    | plain ht =>
      obtain ⟨s', c1, c2, c3, c4⟩ := input_conv (E := E) (m := n) fl (by rw [Nat.zero_add]; exact g'.good) ht h
      obtain ⟨c5, c6, c7⟩ := c4 rfl
      exact ⟨s', c1, g'.touched c2 c5 c6 (Reply.shape h) (fun _ _ _ => Reply.has h) c7, c3⟩
  | point h1 h2 =>
    cases ht with
    | point w e1 e2 e3 e4 =>
      obtain ⟨q, s', β, c1, c2, c3, ⟨e, c4⟩, c5⟩ := point_conv (E := E) g e1 e2 e3 e4 h1
      exact ⟨s', .inl ⟨q, _, w.conv c1, rfl, fun o => pair_text c3 (not_char c4 hk) h2 o⟩, c2, c5⟩
  | value h1 =>
    cases ht with
    | value w e1 =>
      obtain ⟨q, β, r1, ⟨e, r2⟩, r3⟩ := reaches g
      exact ⟨s, .inl ⟨q, _, w.conv (ident_conv e1 r1), rfl, fun o => pair_text (r3 _ rfl) (not_char r2 hk) h1 o⟩, g', rfl⟩
  | store h1 h2 h3 h4 h5 h6 =>
    cases ht with
    | store w e1 e2 e3 e4 =>
      cases h5
      obtain ⟨q, s', c1, c2, c3, c4⟩ := store_conv (E := E) g' e1 e2 e3 e4 h1 h2 h3 h4
      refine ⟨s', .inl ⟨q, _, w.conv c1, rfl, fun o => ?_⟩, c2, c4⟩
      rw [decimal_unique h6]
      exact prints_value c3 o
  | load h1 h2 =>
    cases ht with
    | load w e1 e2 =>
      obtain ⟨s1, t1, β, c1, x1, c2, c3⟩ := target_conv (E := E) g' e1 e2 h1
      refine ⟨s1, .inl ⟨t1, _, w.conv c1, rfl, fun o => ?_⟩, g'.ext x1, x1.includes⟩
      rw [decimal_unique h2]
      exact prints_value (.inr ⟨_, _, c3⟩) o

/-! ### The declaration -/

structure PtrDecl (nd : TId → Option Node) (t : TId) (k : CT) (x : String) : Prop where
  trees : ∃ specs decls d id off, nd t = some (.decl (some specs) (some decls) off) ∧ TypeSpecs nd specs k ∧ nd decls = some (.chain [d]) ∧
    nd d = some (.pointer (some id)) ∧ nd id = some (.ident x)

theorem ptrVar_der {k x i} (h : WPtrVar k x i) :
    ∃ t, Der .replUnit i (.chain [t]) [] ∧ typedefNames t = [] ∧ (∀ s, t ≠ .cppInclude s) ∧
      ∀ {nd : TId → Option Node} {u}, Rep nd (.t t (some u)) → PtrDecl nd u k (nameStr x) := by
  cases h with
  | @mk ws _ _ i hs hg =>
    refine ⟨_, .ruOne (.rsDecl (.dcDecl (specs_der' hs).1 (.idlOne (.idDecl (.dPtr .ptr .ddIdent))))), ?_, nofun, ?_⟩
    · have : hasTypedef (.chain (ws.map .kw)) = false := by
        simp only [hasTypedef, List.any_eq_false, List.mem_map]
        rintro _ ⟨w, hw, rfl⟩
        have := specs_kw hs w hw
        cases w <;> first | exact absurd this (by decide) | simp
      simp [typedefNames, this]
    · intro nd u hx
      obtain ⟨g1, g2⟩ := resolveKws_gives (specs_kw hs) hg
      cases hx with
      | decl h5 h6 h7 =>
        cases h6 with
        | chain h8 h9 =>
          cases h7 with
          | chain h10 h11 =>
            obtain ⟨d, rfl, h12⟩ := rep_one h11
            cases h12 with
            | pointer h13 h14 =>
              cases h14 with
              | ident h14 => exact ⟨_, _, _, _, _, h5, ⟨_, _, h8, rep_kws h9, g1, g2⟩, h10, h13, h14⟩

theorem FrameRel.two {s : St} {fr bs as} (h : FrameRel s fr bs as) {x y c v d u} (hx : Frame.find x fr = some (some ⟨c, v⟩))
    (hy : Frame.find y fr = some (some ⟨d, u⟩)) (hxy : x ≠ y) (ha : Apart as) :
    ∃ t a t' a', findId x bs = some t ∧ VarAt s t c v a ∧ findId y bs = some t' ∧ VarAt s t' d u a' ∧ (a + 8 ≤ a' ∨ a' + 8 ≤ a) := by
  induction h with
  | nil => cases hx
  | @var z c' v' id t a fr bs as h1 h2 ih =>
    unfold Apart at ha
    rw [List.pairwise_cons] at ha
    unfold Frame.find at hx hy
    by_cases e : z = x
    · have e' : z ≠ y := fun h => hxy (e.symm.trans h)
      rw [if_pos e] at hx
      rw [if_neg e'] at hy
      cases hx
      obtain ⟨t', a', e1, e2, e3, _⟩ := h2.find hy ha.2
      exact ⟨t, a, t', a', by simp [findId, e], h1, by rw [findId, if_neg e']; exact e1, e2, ha.1 _ e3⟩
    · rw [if_neg e] at hx
      by_cases e' : z = y
      · rw [if_pos e'] at hy
        cases hy
        obtain ⟨t', a', e1, e2, e3, _⟩ := h2.find hx ha.2
        exact ⟨t', a', t, a, by rw [findId, if_neg e]; exact e1, e2, by simp [findId, e'], h1, (ha.1 _ e3).symm⟩
      · rw [if_neg e'] at hy
        obtain ⟨t, a, t', a', e1, e2, e3, e4, e5⟩ := ih hx hy ha.2
        exact ⟨t, a, t', a', by rw [findId, if_neg e]; exact e1, e2, by rw [findId, if_neg e']; exact e3, e4, e5⟩
  | @other z id r fr bs as h2 ih =>
    unfold Frame.find at hx hy
    by_cases e : z = x
    · rw [if_pos e] at hx; cases hx
    · by_cases e' : z = y
      · rw [if_pos e'] at hy; cases hy
      · rw [if_neg e] at hx
        rw [if_neg e'] at hy
        obtain ⟨t, a, t', a', e1, e2, e3, e4, e5⟩ := ih hx hy ha
        exact ⟨t, a, t', a', by rw [findId, if_neg e]; exact e1, e2, by rw [findId, if_neg e']; exact e3, e4, e5⟩

theorem StoreRel.two {s : St} {σ cs as} (h : StoreRel s σ cs as) {x y c v d u} (hx : σ.Has x c v) (hy : σ.Has y d u) (hxy : x ≠ y) (ha : Apart as) :
    ∃ t a t' a', findInChain x .normal cs = some t ∧ VarAt s t c v a ∧ findInChain y .normal cs = some t' ∧ VarAt s t' d u a' ∧
      (a + 8 ≤ a' ∨ a' + 8 ≤ a) := by
  unfold Store.Has at hx hy
  induction h with
  | nil => cases hx
  | @cons fr σ k cs as bs h1 h2 ih =>
    have hap := List.pairwise_append.mp ha
    unfold Store.find at hx hy
    cases fx : Frame.find x fr with
    | some ux =>
      rw [fx] at hx
      cases hx
      cases fy : Frame.find y fr with
      | some uy =>
        rw [fy] at hy
        cases hy
        obtain ⟨t, a, t', a', e1, e2, e3, e4, e5⟩ := FrameRel.two h1 fx fy hxy hap.1
        exact ⟨t, a, t', a', by simp [findInChain, Ctx.map, e1], e2, by simp [findInChain, Ctx.map, e3], e4, e5⟩
      | none =>
        rw [fy] at hy
        obtain ⟨t, a, e1, e2, e3, _⟩ := h1.find fx hap.1
        obtain ⟨t', a', i1, i2, i3, _⟩ := h2.find hy hap.2.1
        exact ⟨t, a, t', a', by simp [findInChain, Ctx.map, e1], e2,
          by simp [findInChain, Ctx.map, findId_absent (h1.fresh fy), i1], i2, hap.2.2 _ e3 _ i3⟩
    | none =>
      rw [fx] at hx
      cases fy : Frame.find y fr with
      | some uy =>
        rw [fy] at hy
        cases hy
        obtain ⟨t, a, e1, e2, e3, _⟩ := h1.find fy hap.1
        obtain ⟨t', a', i1, i2, i3, _⟩ := h2.find hx hap.2.1
        exact ⟨t', a', t, a, by simp [findInChain, Ctx.map, findId_absent (h1.fresh fx), i1], i2,
          by simp [findInChain, Ctx.map, e1], e2, (hap.2.2 _ e3 _ i3).symm⟩
      | none =>
        rw [fy] at hy
        obtain ⟨t, a, t', a', e1, e2, e3, e4, e5⟩ := ih hx hy hap.2.1
        exact ⟨t, a, t', a', by simp [findInChain, Ctx.map, findId_absent (h1.fresh fx), e1], e2,
          by simp [findInChain, Ctx.map, findId_absent (h1.fresh fy), e3], e4, e5⟩

/-- the address of the variable called `y` -/
def addrOf (s : St) (y : String) : Nat :=
  match resolveGlobal y .normal s with
  | some t => match s.nodes t with
    | some (.lv _ a _ _) => a
    | _ => 0
  | none => 0

/-- the variables of the store are not arrays -/
def NoArrays (s : St) (σ : Store) : Prop :=
  ∀ y c v t, σ.Has y c v → resolveGlobal y .normal s = some t → ∃ τ a sz, s.nodes t = some (.lv τ a false sz)

/-- different variables have different addresses -/
theorem addrOf_apart {s : St} {σ : Store} (h : Rel s σ) (ha : NoArrays s σ) {x y c v d u} (hx : σ.Has x c v) (hy : σ.Has y d u) (hxy : x ≠ y) :
    addrOf s x ≠ addrOf s y := by
  obtain ⟨as, h1, h2⟩ := h
  obtain ⟨t, a, t', a', e1, e2, e3, e4, e5⟩ := StoreRel.two h1 hx hy hxy h2
  have key : ∀ {x t c v a}, σ.Has x c v → findInChain x .normal (lookups s) = some t → VarAt s t c v a → addrOf s x = a := by
    intro x t c v a hx e1 e2
    have r1 : resolveGlobal x .normal s = some t := by rw [← findInChain_lookups, e1]
    obtain ⟨τ, b, sz, n1⟩ := ha _ _ _ _ hx r1
    obtain ⟨_, ⟨_, _, n2⟩, _⟩ := e2.at_
    have e3 : addrOf s x = b := by simp [addrOf, r1, n1]
    rw [n1] at n2
    cases n2
    exact e3
  rw [key hx e1 e2, key hy e3 e4]
  omega

theorem ptrDecl_conv {E : Env} {s0 s : St} {fr : Frame} {σ : Store} {k : CT} {x : String} {n : Nat} {t : TId} (he : Ext s0 s) (g : Good s0 (fr :: σ) (n + 1))
    (h : PtrDecl s.nodes t k x) (hx : Frame.find x fr = none) (ha : NoArrays s0 (fr :: σ)) :
    ∃ id s', Conv E (fun R => R.ev (some t)) s (.ok (some id) s') ∧ s'.nodes id = some (.ident x) ∧
      PInv s' ((fr ++ [(x, none)]) :: σ) k x (addrOf s0) none n ∧ s'.includes = s0.includes := by
  obtain ⟨specs, decls, d, id, off, ht, hs, hd, hp, hid⟩ := h.trees
  have g0 := g.ext he
  have x1 := addNode_ext g0.wf (.ctype k none)
  have hτ := addNode_self s (.ctype k none)
  have x2 := addNode_ext (x1.wf g0.wf) (.ctype .ptr (some s.next))
  have hτ2 := addNode_self (addNode s (.ctype k none)) (.ctype .ptr (some s.next))
  have xx := x1.trans x2
  have hres : Conv E (fun R => R.resolvePtr (some d) (some s.next)) (addNode s (.ctype k none))
      (.ok (some id, some (s.next + 1)) (addNode (addNode s (.ctype k none)) (.ctype .ptr (some s.next)))) := by
    refine Conv.resolvePtr (Conv.of_eq (f := fun R => R.resolvePtr (some id) (some (s.next + 1)))
      (s := addNode (addNode s (.ctype k none)) (.ctype .ptr (some s.next))) (Conv.resolvePtr (Conv.fixed fun R => ?_)) fun R => ?_)
    · simp [resolvePtrStep, peek_apply (xx.nodes _ _ hid)]
    · simp [resolvePtrStep, peek_apply (x1.nodes _ _ hp), mk_apply]
      rfl
  have g2 := g0.ext xx
  have hnx : (addNode s (.ctype k none)).next = s.next + 1 := rfl
  rw [hnx] at hτ2
  have hn1 := x2.nodes _ _ hτ
  have hnid := xx.nodes _ _ hid
  have hfr : Fresh (addNode (addNode s (.ctype k none)) (.ctype .ptr (some s.next))) x := by
    intro c cs hcx
    obtain ⟨as, h1, _⟩ := g2.rel
    rw [lookups_cons hcx] at h1
    cases h1 with
    | cons h3 _ => exact h3.fresh hx
  have x0 := he.trans xx
  have hbrk : (addNode (addNode s (.ctype k none)) (.ctype .ptr (some s.next))).mem.brk = s0.mem.brk := by rw [x0.mem]
  generalize hs2 : addNode (addNode s (.ctype k none)) (.ctype .ptr (some s.next)) = s2 at *
  have hdecl := handleDecl_ident_conv (E := E) g2.wf hnid hτ2 (g2.room.mono (by omega)) hfr.resolve
  have hcv := handleDecl_ptr_conv hres ⟨_, hnid, by intros; simp⟩ hdecl
  have gr := newVar_grow g2.wf (some (s.next + 1))
  have g3 : Good (newVar s2 (some (s.next + 1))) (fr :: σ) n := good_grow g2 gr (g2.room.newVar g2.wf _)
  have g4 := bindSt_good (f := x) (id := id) (r := some s2.next) g3
  have hself : (bindSt (newVar s2 (some (s.next + 1))) ⟨x, id, some s2.next⟩).nodes s2.next = some (.lv (some (s.next + 1)) s2.mem.brk false 0) := newVar_self _ _
  have hres2 : ∀ y, y ≠ x → resolveGlobal y .normal (bindSt (newVar s2 (some (s.next + 1))) ⟨x, id, some s2.next⟩) = resolveGlobal y .normal s0 := by
    intro y hy
    rw [resolveGlobal_other hy, gr.resolveGlobal, x0.resolveGlobal]
  refine ⟨id, bindSt (newVar s2 (some (s.next + 1))) ⟨x, id, some s2.next⟩, evalDecl_conv g0.wf ht hs ?_, gr.nodes _ _ hnid, ⟨g4, ?_, ?_⟩, ?_⟩
  · refine (Conv.bind hcv (Conv.pure _)).of_eq (g := fun R => eachDecl (fun d => R.handleDecl d (some s.next)) (some decls)) fun R => ?_
    simp [eachDecl, peek_apply (x1.nodes _ _ hd), forEachLast]
  · obtain ⟨as, h1, h2⟩ := g2.rel
    have hold : ∀ a ∈ as, a + 8 ≤ s2.mem.brk := fun a ha => below g2.room.livelt (h1.wide a ha)
    refine ⟨as, s2.mem.brk, s2.next, s.next + 1, s.next, ⟨_, _, hself⟩, ⟨none, gr.nodes _ _ hn1⟩, ?_, h2, fun a ha => .inl (hold a ha), ?_, gr.nodes _ _ hτ2, ?_, nofun⟩
    · have h3 := h1.map (s' := newVar s2 (some (s.next + 1))) gr.lookups fun t c v a _ h => h.grow gr
      cases hcx : (newVar s2 (some (s.next + 1))).ctxs with
      | nil => exact absurd hcx g3.room.ctxs
      | cons c cs =>
        rw [lookups_cons hcx] at h3
        have hb : (bindSt (newVar s2 (some (s.next + 1))) ⟨x, id, some s2.next⟩).ctxs = { c with ids := c.ids ++ [⟨x, id, some s2.next⟩] } :: cs := by
          simp [bindSt, hcx, bindCur]
        have hv : ∀ t c v a, VarAt (newVar s2 (some (s.next + 1))) t c v a → VarAt (bindSt (newVar s2 (some (s.next + 1))) ⟨x, id, some s2.next⟩) t c v a :=
          fun t c v a h => by
            obtain ⟨τ, ⟨a1, a2, a3, a4⟩⟩ := h.at_
            exact ⟨⟨τ, ⟨a1, a2, a3, a4⟩⟩, h.int, h.wide, h.val⟩
        rw [lookups_cons hb]
        cases h3 with
        | cons h3 h4 => exact .cons (h3.map fun t c v a _ => hv t c v a).snoc (h4.map rfl fun t c v a _ => hv t c v a)
    · exact resolveGlobal_bind (hfr.grow gr) g3.room.ctxs
    · exact newVar_ok (s := s2) (ty := some (s.next + 1)) (by omega)
  · intro y c v hy
    have hxy : y ≠ x ∧ Store.Has (fr :: σ) y c v := by
      unfold Store.Has Store.find at hy ⊢
      have key : ∀ fr : Frame, Frame.find x fr = none → Frame.find y (fr ++ [(x, none)]) = if y = x then some none else Frame.find y fr := by
        intro fr
        induction fr with
        | nil =>
          intro _
          by_cases e : x = y
          · subst e; simp [Frame.find]
          · simp [Frame.find, e, Ne.symm e]
        | cons p fr ih =>
          intro h
          obtain ⟨z, u⟩ := p
          simp only [Frame.find, List.cons_append] at h ⊢
          by_cases ez : z = x
          · rw [if_pos ez] at h; cases h
          · rw [if_neg ez] at h
            by_cases e : z = y
            · subst e; simp [ez]
            · simp only [if_neg e]; exact ih h
      rw [key fr hx] at hy
      by_cases e : y = x
      · rw [if_pos e] at hy; cases hy
      · rw [if_neg e] at hy; exact ⟨e, hy⟩
    obtain ⟨t, a, j1, j2, _⟩ := g.rel.find hxy.2
    obtain ⟨τ, a', sz, j3⟩ := ha y c v t hxy.2 j1
    have e1 : addrOf s0 y = a' := by simp [addrOf, j1, j3]
    refine ⟨t, τ, sz, (hres2 y hxy.1).trans j1, ?_⟩
    rw [e1]
    exact gr.nodes _ _ (x0.nodes _ _ j3)
  · exact gr.includes.trans x0.includes

end Bic.Repl
