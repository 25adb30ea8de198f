import Verif.Proofs.Assign
import Verif.Proofs.Evol
/-!
# Allocating variables

`Grow s s'`: `s'` has more tree objects and more memory than `s`; whatever existed
in `s` is unchanged.
-/

namespace Bic
open Spec

/-- a context without its list of allocations -/
def Ctx.core (c : Ctx) : Ctx := { c with allocs := [] }

structure Grow (s s' : St) : Prop where
  next : s.next ≤ s'.next
  nodes : ∀ t n, s.nodes t = some n → s'.nodes t = some n
  wf : WF s → WF s'
  ctxs : s'.ctxs.map Ctx.core = s.ctxs.map Ctx.core
  nextUid : s'.nextUid = s.nextUid
  includeCtx : s'.includeCtx = s.includeCtx
  includes : s'.includes = s.includes
  closures : s'.closures = s.closures
  events : s'.events = s.events
  byte : ∀ b, s.mem.live b = true → s'.mem.byte b = s.mem.byte b
  live : ∀ b, s.mem.live b = true → s'.mem.live b = true
  brk : s.mem.brk ≤ s'.mem.brk
  livelt : LiveLt s.mem → LiveLt s'.mem

theorem Grow.refl (s : St) : Grow s s where
  next := Nat.le_refl _
  nodes _ _ h := h
  wf := id
  ctxs := rfl
  nextUid := rfl
  includeCtx := rfl
  includes := rfl
  closures := rfl
  events := rfl
  byte _ _ := rfl
  live _ h := h
  brk := Nat.le_refl _
  livelt := id

theorem Grow.trans {s s' s'' : St} (h : Grow s s') (h' : Grow s' s'') : Grow s s'' where
  next := Nat.le_trans h.next h'.next
  nodes t n hn := h'.nodes t n (h.nodes t n hn)
  wf w := h'.wf (h.wf w)
  ctxs := h'.ctxs.trans h.ctxs
  nextUid := h'.nextUid.trans h.nextUid
  includeCtx := h'.includeCtx.trans h.includeCtx
  includes := h'.includes.trans h.includes
  closures := h'.closures.trans h.closures
  events := h'.events.trans h.events
  byte b hb := (h'.byte b (h.live b hb)).trans (h.byte b hb)
  live b hb := h'.live b (h.live b hb)
  brk := Nat.le_trans h.brk h'.brk
  livelt hl := h'.livelt (h.livelt hl)

theorem Ext.grow {s s' : St} (h : Ext s s') : Grow s s' where
  next := h.next
  nodes := h.nodes
  wf := h.wf
  ctxs := by rw [h.ctxs]
  nextUid := h.nextUid
  includeCtx := h.includeCtx
  includes := h.includes
  closures := h.closures
  events := h.events
  byte b _ := by rw [h.mem]
  live b hb := by rw [h.mem]; exact hb
  brk := by rw [h.mem]; exact Nat.le_refl _
  livelt hl := by rw [h.mem]; exact hl

theorem findInChain_core (x ns) {l l' : List Ctx} (h : l'.map Ctx.core = l.map Ctx.core) :
    findInChain x ns l' = findInChain x ns l := by
  induction l generalizing l' with
  | nil => cases l' <;> simp_all
  | cons c l ih =>
    cases l' with
    | nil => simp at h
    | cons c' l' =>
      simp only [List.map_cons, List.cons.injEq] at h
      obtain ⟨h1, h2⟩ := h
      have : c'.map ns = c.map ns := by
        simp only [Ctx.core, Ctx.mk.injEq] at h1
        cases ns <;> simp [Ctx.map, h1]
      simp only [findInChain, this, ih h2]

theorem Grow.resolveGlobal {s s' : St} (h : Grow s s') (x ns) :
    resolveGlobal x ns s' = resolveGlobal x ns s := by
  unfold Bic.resolveGlobal
  rw [findInChain_core x ns h.ctxs, h.includeCtx]

theorem Grow.ctxs_ne {s s' : St} (h : Grow s s') (hc : s.ctxs ≠ []) : s'.ctxs ≠ [] := by
  intro h'
  have := h.ctxs
  rw [h'] at this
  exact hc (List.map_eq_nil_iff.mp this.symm)

theorem Grow.ok {s s' : St} (h : Grow s s') {n a} (ho : s.mem.ok n a = true) : s'.mem.ok n a = true := by
  rw [Mem.ok_iff] at ho ⊢
  exact fun x h1 h2 => h.live x (ho x h1 h2)

theorem Grow.load {s s' : St} (h : Grow s s') {n a} (ho : s.mem.ok n a = true) :
    s'.mem.load n a = s.mem.load n a := by
  rw [Mem.ok_iff] at ho
  exact Mem.load_congr fun x h1 h2 => h.byte x (ho x h1 h2)

theorem LvAt.grow {s s' : St} {t τ c a} (h : LvAt s t τ c a) (x : Grow s s') : LvAt s' t τ c a where
  lv := by obtain ⟨arr, sz, h⟩ := h.lv; exact ⟨arr, sz, x.nodes _ _ h⟩
  ty := by obtain ⟨e, h⟩ := h.ty; exact ⟨e, x.nodes _ _ h⟩
  int := h.int
  ok := x.ok h.ok

theorem Holds.grow {s s' : St} {t c w} (h : Holds s t c w) (x : Grow s s') : Holds s' t c w := by
  obtain ⟨τ, a, h, hw⟩ := h
  exact ⟨τ, a, h.grow x, by rw [x.load h.ok]; exact hw⟩

/-- writing into memory that did not exist in `s` -/
theorem Grow.wr {s s' : St} (h : Grow s s') (n a v : Nat)
    (hf : ∀ x, a ≤ x → x < a + n → s.mem.live x = false) : Grow s (wr s' n a v) where
  next := h.next
  nodes := h.nodes
  wf := h.wf
  ctxs := h.ctxs
  nextUid := h.nextUid
  includeCtx := h.includeCtx
  includes := h.includes
  closures := h.closures
  events := h.events
  byte b hb := by
    rw [wr_mem, Mem.store_byte_other]
    · exact h.byte b hb
    · by_cases h1 : b < a
      · exact .inl h1
      · by_cases h2 : b < a + n
        · have := hf b (by omega) h2; rw [hb] at this; cases this
        · exact .inr (by omega)
  live b hb := by rw [wr_mem, Mem.store_live]; exact h.live b hb
  brk := by rw [wr_mem, Mem.store_brk]; exact h.brk
  livelt hl x hx := by
    rw [wr_mem, Mem.store_live] at hx
    rw [wr_mem, Mem.store_brk]
    exact h.livelt hl x hx

/-- record an allocation in the current context -/
def bump (a : Nat) : List Ctx → List Ctx
  | [] => []
  | c :: cs => { c with allocs := c.allocs ++ [a] } :: cs

/-- the state after `make_live_var` -/
def newVar (s : St) (ty : Ref) : St :=
  { addNode s (.lv ty s.mem.brk false 0) with
    mem := { s.mem with
      brk := s.mem.brk + 48
      live := fun x => if s.mem.brk ≤ x ∧ x < s.mem.brk + 16 then true else s.mem.live x },
    ctxs := bump s.mem.brk s.ctxs }

/-- there is memory for `k` more variables, and a context to allocate in -/
structure Room (s : St) (k : Nat) : Prop where
  brk : s.mem.brk + 48 * k < Mem.limit
  ctxs : s.ctxs ≠ []
  livelt : LiveLt s.mem

theorem makeLiveVar_apply {s : St} (ty : Ref) (h : Room s 1) :
    makeLiveVar ty s = .ok s.next (newVar s ty) := by
  have h1 := h.brk
  unfold makeLiveVar
  cases hc : s.ctxs with
  | nil => exact absurd hc h.ctxs
  | cons c cs =>
    simp [mallocM, Mem.malloc, unionValueSize, h1, mk, trackAlloc, modCur, hc, newVar, addNode, bump]

theorem newVar_self (s : St) (ty : Ref) :
    (newVar s ty).nodes s.next = some (.lv ty s.mem.brk false 0) := by
  simp [newVar, addNode]

theorem bump_core (a) (l : List Ctx) : (bump a l).map Ctx.core = l.map Ctx.core := by
  cases l <;> simp [bump, Ctx.core]

theorem newVar_grow {s : St} (w : WF s) (ty : Ref) : Grow s (newVar s ty) where
  next := Nat.le_succ _
  nodes := (addNode_ext w _).nodes
  wf := (addNode_ext w _).wf
  ctxs := bump_core _ _
  nextUid := rfl
  includeCtx := rfl
  includes := rfl
  closures := rfl
  events := rfl
  byte _ _ := rfl
  live b hb := by simp [newVar, hb]
  brk := Nat.le_add_right _ _
  livelt hl x hx := by
    simp only [newVar] at hx ⊢
    split at hx
    · omega
    · have := hl x hx; omega

theorem newVar_ok {s : St} {ty : Ref} {n : Nat} (h : n ≤ 16) : (newVar s ty).mem.ok n s.mem.brk = true := by
  rw [Mem.ok_iff]
  intro x h1 h2
  simp [newVar, h1, show x < s.mem.brk + 16 by omega]

theorem Room.fresh {s : St} {k n : Nat} (h : Room s k) :
    ∀ x, s.mem.brk ≤ x → x < s.mem.brk + n → s.mem.live x = false := by
  intro x h1 _
  cases hx : s.mem.live x with
  | false => rfl
  | true => have := h.livelt x hx; omega

theorem Room.mono {s : St} {k k' : Nat} (h : Room s k) (hk : k' ≤ k) : Room s k' :=
  ⟨by have := h.brk; omega, h.ctxs, h.livelt⟩

theorem Room.newVar {s : St} {k : Nat} (w : WF s) (h : Room s (k + 1)) (ty : Ref) : Room (newVar s ty) k :=
  ⟨by have := h.brk; show s.mem.brk + 48 + 48 * k < _; omega, (newVar_grow w ty).ctxs_ne h.ctxs,
    (newVar_grow w ty).livelt h.livelt⟩

theorem Room.wr {s : St} {k : Nat} (h : Room s k) (n a v) : Room (wr s n a v) k :=
  ⟨by rw [wr_mem, Mem.store_brk]; exact h.brk, h.ctxs, fun x hx => by
    rw [wr_mem, Mem.store_live] at hx; rw [wr_mem, Mem.store_brk]; exact h.livelt x hx⟩

theorem Room.ext {s s' : St} {k : Nat} (h : Room s k) (x : Ext s s') : Room s' k :=
  ⟨by rw [x.mem]; exact h.brk, by rw [x.ctxs]; exact h.ctxs, by rw [x.mem]; exact h.livelt⟩

theorem newVar_lvAt {s : St} {τ : TId} {c : CT} {e : Ref} (w : WF s) (hτ : s.nodes τ = some (.ctype c e))
    (hc : integral c ∨ c = .ptr) : LvAt (newVar s (some τ)) s.next τ c s.mem.brk where
  lv := ⟨_, _, newVar_self s _⟩
  ty := ⟨e, (newVar_grow w _).nodes _ _ hτ⟩
  int := hc
  ok := newVar_ok (by rcases hc with hc | rfl
                      · cases c <;> simp [integral] at hc <;> decide
                      · decide)

end Bic
