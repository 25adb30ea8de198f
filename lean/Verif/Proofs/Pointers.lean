import Verif.Proofs.Decl
/-!
# sizeof, address-of, dereference, array access: what they do to the state
-/

namespace Bic
open Spec

theorem Denotes.grow {s s' : St} {r v} (h : Denotes s r v) (x : Grow s s') : Denotes s' r v := by
  rcases h with h | ⟨c, w, h, e⟩
  · exact .inl (x.nodes _ _ h)
  · exact .inr ⟨c, w, h.grow x, e⟩

theorem Room.grow_wr {s s' : St} {k : Nat} (h : Room s k) (x : Grow s s') (hb : s'.mem.brk = s.mem.brk) : Room s' k :=
  ⟨by rw [hb]; exact h.brk, x.ctxs_ne h.ctxs, x.livelt h.livelt⟩

theorem Room.after {s s' : St} {k : Nat} (h : Room s (k + 1)) (x : Grow s s') (hb : s'.mem.brk ≤ s.mem.brk + 48) :
    Room s' k :=
  ⟨by have := h.brk; omega, x.ctxs_ne h.ctxs, x.livelt h.livelt⟩

/-- a new variable of type `ty` whose first `n` bytes are `v` -/
def newVal (s : St) (ty : Ref) (n v : Nat) : St := wr (newVar s ty) n s.mem.brk v

theorem newVal_grow {s : St} (w : WF s) (ty : Ref) (n v : Nat) {k} (h : Room s k) : Grow s (newVal s ty n v) :=
  (newVar_grow w ty).wr _ _ _ (h.fresh)

theorem newVal_room {s : St} (w : WF s) (ty : Ref) (n v : Nat) {k} (h : Room s (k + 1)) : Room (newVal s ty n v) k :=
  (h.newVar w ty).wr _ _ _

theorem newVal_self (s : St) (ty : Ref) (n v : Nat) :
    (newVal s ty n v).nodes s.next = some (.lv ty s.mem.brk false 0) := newVar_self s ty

theorem newVal_ok {s : St} {ty : Ref} {n v k : Nat} (h : k ≤ 16) : (newVal s ty n v).mem.ok k s.mem.brk = true := by
  rw [← newVar_ok (s := s) (ty := ty) h]
  exact Mem.ok_congr (by simp [newVal]) _ _

theorem newVal_load (s : St) (ty : Ref) (n v : Nat) : (newVal s ty n v).mem.load n s.mem.brk = v % 256 ^ n := by
  simp [newVal, Mem.load_store]

/-- `make_live_var` followed by a store into it -/
theorem makeLiveVar_store {s : St} (ty : Ref) {n v : Nat} (hn : n ≤ 16) (h : Room s 1) :
    ∀ (f : TId → M α), (do
      let t ← makeLiveVar ty
      let (_, a) ← lvFields t
      storeRaw n a v
      f t : M α) s = f s.next (newVal s ty n v) := by
  intro f
  simp [makeLiveVar_apply ty h, lvFields, node_apply (newVar_self s ty), storeRaw_apply (newVar_ok hn), newVal]

theorem loadRaw_apply {s : St} {n a : Nat} (h : s.mem.ok n a = true) : loadRaw n a s = .ok (s.mem.load n a) s := by
  simp [loadRaw, h]

/-- the state after `sizeof` of something of a C type: the type tree of the result
and the result -/
def szSt (s : St) (n : Nat) : St := newVal (addNode s (.ctype .ulong none)) (some s.next) 8 n

theorem szSt_grow {s : St} (w : WF s) (n : Nat) {k} (h : Room s k) : Grow s (szSt s n) :=
  (addNode_ext w _).grow.trans (newVal_grow ((addNode_ext w _).wf w) _ _ _ (h.ext (addNode_ext w _)))

theorem szSt_room {s : St} (w : WF s) (n : Nat) {k} (h : Room s (k + 1)) : Room (szSt s n) k :=
  newVal_room ((addNode_ext w _).wf w) _ _ _ (h.ext (addNode_ext w _))

theorem szSt_brk (s : St) (n : Nat) : (szSt s n).mem.brk = s.mem.brk + 48 := by
  simp [szSt, newVal, newVar, addNode]

/-- the operand of `sizeof` as bic sees it, and the size it finds -/
inductive SizeOf (s : St) : Ref → Nat → Prop
  | ctype {t c e} : s.nodes t = some (.ctype c e) → SizeOf s (some t) c.size
  | comp {t i d sz b} : s.nodes t = some (.compound i d sz true b) → SizeOf s (some t) sz
  | var {t τ a arr sz c e} : s.nodes t = some (.lv (some τ) a arr sz) → s.nodes τ = some (.ctype c e) →
      (arr = true → c ≠ .ptr) → SizeOf s (some t) c.size
  | array {t τ a sz e} : s.nodes t = some (.lv (some τ) a true sz) → s.nodes τ = some (.ctype .ptr e) →
      SizeOf s (some t) sz
  | lcomp {t d ms a i ds sz b} : s.nodes t = some (.lcomp (some d) ms a) →
      s.nodes d = some (.compound i ds sz true b) → SizeOf s (some t) sz

theorem SizeOf.grow {s s' : St} {r n} (h : SizeOf s r n) (x : Grow s s') : SizeOf s' r n := by
  cases h with
  | ctype h => exact .ctype (x.nodes _ _ h)
  | comp h => exact .comp (x.nodes _ _ h)
  | var h h' hn => exact .var (x.nodes _ _ h) (x.nodes _ _ h') hn
  | array h h' => exact .array (x.nodes _ _ h) (x.nodes _ _ h')
  | lcomp h h' => exact .lcomp (x.nodes _ _ h) (x.nodes _ _ h')

theorem addNode_grow {s : St} (w : WF s) (n : Node) : Grow s (addNode s n) := (addNode_ext w n).grow

/-- `sizeof e` once `e` has been evaluated -/
theorem sizeof_conv {E : Env} {s s1 : St} {t : TId} {e x : Ref} {n : Nat} (ht : s.nodes t = some (.sizeof e))
    (he : Conv E (fun R => R.ev e) s (.ok x s1)) (w : WF s1) (hroom : Room s1 1) (hs : SizeOf s1 x n) :
    Conv E (fun R => R.ev (some t)) s (.ok (some (s1.next + 1)) (szSt s1 n)) := by
  refine Conv.evNode ht (Conv.bind he (Conv.fixed fun R => ?_))
  have x2 := addNode_ext w (.ctype .ulong none)
  have w2 := x2.wf w
  have r2 := hroom.ext x2
  have hg := x2.grow.trans (newVar_grow w2 (some s1.next))
  have hs' := hs.grow hg
  have e1 : (addNode s1 (.ctype .ulong none)).next = s1.next + 1 := rfl
  have hself := newVar_self (addNode s1 (.ctype .ulong none)) (some s1.next)
  rw [e1] at hself
  have hst := storeRaw_apply (v := n) (newVar_ok (s := addNode s1 (.ctype .ulong none)) (ty := some s1.next)
    (n := 8) (by decide))
  simp only [bind_apply, mk_apply, makeLiveVar_apply _ r2, e1, lvFields, node_apply hself]
  cases hs' with
  | @ctype t c e h =>
    simp [peek_apply h, sizeofType, lvFields, node_apply hself, hst, szSt, newVal]
  | @comp t i d sz b h =>
    simp [peek_apply h, sizeofType, lvFields, node_apply hself, hst, szSt, newVal]
  | @var t τ a arr sz c e h h' hn =>
    cases c <;> cases arr <;> simp at hn <;>
      simp [peek_apply h, peek_apply h', sizeofType, lvFields, node_apply hself, hst, szSt, newVal]
  | @array t τ a sz e h h' =>
    simp [peek_apply h, peek_apply h', hst, szSt, newVal]
  | @lcomp t d ms a i ds sz b h h' =>
    simp [peek_apply h, peek_apply h', sizeofType, lvFields, node_apply hself, hst, szSt, newVal]

/-- what `get_size_of_type` gives for a type or an object -/
theorem getSizeOfType_conv {E : Env} {s : St} {ty : TId} {n : Nat} (w : WF s) (hroom : Room s 1)
    (hs : SizeOf s (some ty) n) (hn : n < 2 ^ 64)
    (hev : ∀ nd, s.nodes ty = some nd → ∀ R, evalNode E R ty nd = pure (some ty)) :
    ∃ s', Conv E (fun R => getSizeOfType R (some ty)) s (.ok n s') ∧ Grow s s' ∧
      s'.mem.brk ≤ s.mem.brk + 48 := by
  have main : ∀ nd, s.nodes ty = some nd → (∀ i d sz x b, nd ≠ .compound i d (sz + 1) x b) →
      ∃ s', Conv E (fun R => getSizeOfType R (some ty)) s (.ok n s') ∧ Grow s s' ∧
      s'.mem.brk ≤ s.mem.brk + 48 := by
    intro nd hnd hc
    have x1 := addNode_ext w (.sizeof (some ty))
    have w1 := x1.wf w
    have r1 := hroom.ext x1
    have hev' : Conv E (fun R => R.ev (some ty)) (addNode s (.sizeof (some ty)))
        (.ok (some ty) (addNode s (.sizeof (some ty)))) :=
      Conv.evNode (x1.nodes _ _ hnd) (Conv.fixed fun R => by rw [hev _ hnd R]; rfl)
    have hsz := sizeof_conv (addNode_self s (.sizeof (some ty))) hev' w1 r1 (hs.grow x1.grow)
    refine ⟨_, ?_, x1.grow.trans (szSt_grow w1 n r1), Nat.le_of_eq (szSt_brk _ _)⟩
    unfold getSizeOfType
    have e2 : ∀ R, getSizeOfType R (some ty) s = ((do
        let szof ← mk (.sizeof (some ty))
        match ← R.ev (some szof) with
        | none => ub "tLV_VAL of NULL"
        | some r =>
          let (_, a) ← lvFields r
          loadRaw 8 a) : M Nat) s := by
      intro R
      simp only [getSizeOfType, bind_apply, peek_apply hnd]
      cases nd <;> try rfl
      rename_i i d sz x b
      cases sz with
      | zero => rfl
      | succ sz => exact absurd rfl (hc i d sz x b)
    refine Conv.of_eq ?_ e2
    refine Conv.bind (Conv.const (mk_apply _ _)) (Conv.bind hsz (Conv.fixed fun R => ?_))
    have hself : (szSt (addNode s (.sizeof (some ty))) n).nodes ((addNode s (.sizeof (some ty))).next + 1) = _ :=
      newVal_self (addNode (addNode s (.sizeof (some ty))) (.ctype .ulong none)) (some (addNode s (.sizeof (some ty))).next) 8 n
    simp only [bind_apply, lvFields, node_apply hself, pure_apply]
    rw [loadRaw_apply (by exact newVal_ok (by decide))]
    have : (szSt (addNode s (.sizeof (some ty))) n).mem.load 8
        (addNode (addNode s (.sizeof (some ty))) (.ctype .ulong none)).mem.brk = n % 256 ^ 8 := newVal_load _ _ _ _
    rw [this, Nat.mod_eq_of_lt (by simpa using hn)]
  cases hs with
  | @ctype t c e h => exact main _ h (by intros; simp)
  | @comp t i d sz b h =>
    cases n with
    | zero => exact main _ h (by intros; simp)
    | succ n =>
      refine ⟨s, Conv.fixed fun R => by simp [getSizeOfType, peek_apply h], Grow.refl s, by omega⟩
  | @var t τ a arr sz c e h h' hn' => exact main _ h (by intros; simp)
  | @array t τ a sz e h h' => exact main _ h (by intros; simp)
  | @lcomp t d ms a i ds sz b h h' => exact main _ h (by intros; simp)

theorem CT.size_le (c : CT) : c.size ≤ 16 := by cases c <;> decide
theorem CT.size_pos (c : CT) : 0 < c.size := by cases c <;> decide

/-- the size of a C type -/
theorem ctypeSize_conv {E : Env} {s : St} {ty : TId} {c : CT} {e : Ref} (w : WF s) (hroom : Room s 1)
    (h : s.nodes ty = some (.ctype c e)) :
    ∃ s', Conv E (fun R => getSizeOfType R (some ty)) s (.ok c.size s') ∧ Grow s s' ∧
      s'.mem.brk ≤ s.mem.brk + 48 := by
  refine getSizeOfType_conv w hroom (.ctype h) (by have := CT.size_le c; omega) fun nd hnd R => ?_
  rw [h] at hnd; cases hnd; rfl

/-- `t` is a pointer (or an array) to objects of the type tree `bt`, holding the
address `p` -/
structure PtrTo (s : St) (t : TId) (bt : Ref) (p : Nat) : Prop where
  lv : ∃ τ a arr sz, s.nodes t = some (.lv (some τ) a arr sz) ∧ s.nodes τ = some (.ctype .ptr bt) ∧
    s.mem.ok 8 a = true ∧ p = s.mem.load 8 a

theorem PtrTo.grow {s s' : St} {t bt p} (h : PtrTo s t bt p) (x : Grow s s') : PtrTo s' t bt p := by
  obtain ⟨τ, a, arr, sz, h1, h2, h3, h4⟩ := h.lv
  exact ⟨τ, a, arr, sz, x.nodes _ _ h1, x.nodes _ _ h2, x.ok h3, by rw [x.load h3]; exact h4⟩

/-- a type tree that is not a compound -/
def NotCompound (s : St) (bt : Ref) : Prop :=
  ∀ t, bt = some t → ∃ nd, s.nodes t = some nd ∧ ∀ i d sz x b, nd ≠ .compound i d sz x b

theorem NotCompound.grow {s s' : St} {bt} (h : NotCompound s bt) (x : Grow s s') : NotCompound s' bt := by
  intro t ht
  obtain ⟨nd, h1, h2⟩ := h t ht
  exact ⟨nd, x.nodes _ _ h1, h2⟩

/-- `*e` once `e` has been evaluated -/
theorem deref_conv {E : Env} {s s1 : St} {t x : TId} {e : Ref} {bt : Ref} {p : Nat}
    (ht : s.nodes t = some (.deref e)) (he : Conv E (fun R => R.ev e) s (.ok (some x) s1))
    (hp : PtrTo s1 x bt p) (hb : NotCompound s1 bt) :
    Conv E (fun R => R.ev (some t)) s (.ok (some s1.next) (addNode s1 (.lv bt p false 0))) := by
  refine Conv.evNode ht (Conv.bind he (Conv.fixed fun R => ?_))
  obtain ⟨τ, a, arr, sz, h1, h2, h3, rfl⟩ := hp.lv
  cases bt with
  | none => simp [peek_apply h1, peek_apply h2, peek_none, loadRaw_apply h3, mk_apply]
  | some b =>
    obtain ⟨nd, h4, h5⟩ := hb b rfl
    cases nd <;> first
      | (simp only [bind_apply, peek_apply h1, peek_apply h2, peek_apply h4, loadRaw_apply h3, mk_apply]; rfl)
      | exact absurd rfl (h5 _ _ _ _ _)

/-- `&e` once `e` has been evaluated to a variable that is not an array -/
theorem addr_conv {E : Env} {s s1 : St} {t x : TId} {e : Ref} {ty : Ref} {a sz : Nat} {arr : Bool} {p : Nat}
    (ht : s.nodes t = some (.addr e)) (he : Conv E (fun R => R.ev e) s (.ok (some x) s1))
    (w : WF s1) (hroom : Room s1 1) (hx : s1.nodes x = some (.lv ty a arr sz))
    (hp : if arr = true then s1.mem.ok 8 a = true ∧ p = s1.mem.load 8 a else p = a) :
    Conv E (fun R => R.ev (some t)) s (.ok (some (s1.next + 1))
      (newVal (addNode s1 (.ctype .ptr ty)) (some s1.next) 8 p)) := by
  refine Conv.evNode ht (Conv.bind he (Conv.fixed fun R => ?_))
  have r2 := hroom.ext (addNode_ext w (.ctype .ptr ty))
  have key := makeLiveVar_store (α := Ref) (some s1.next) (n := 8) (v := p) (by decide) r2 (fun t => pure (some t))
  cases arr with
  | false =>
    simp at hp; subst hp
    simp only [bind_apply, peek_apply hx, mk_apply, pure_apply, Bool.false_eq_true, if_false] at key ⊢
    exact key
  | true =>
    simp at hp; obtain ⟨h1, rfl⟩ := hp
    simp only [bind_apply, peek_apply hx, mk_apply, pure_apply, loadRaw_apply h1, if_true] at key ⊢
    exact key

/-- `a[i]` once `a` and `i` have been evaluated -/
theorem arrAccess_conv_brk {E : Env} {s s1 s2 : St} {t x y bt : TId} {o i : Ref} {p : Nat} {v : Int} {c : CT} {e : Ref}
    (ht : s.nodes t = some (.arrAccess o i)) (ho : Conv E (fun R => R.ev o) s (.ok (some x) s1))
    (hi : Conv E (fun R => R.ev i) s1 (.ok (some y) s2)) (w : WF s2) (hroom : Room s2 2)
    (hp : PtrTo s2 x (some bt) p) (hc : s2.nodes bt = some (.ctype c e)) (hy : Denotes s2 y v) :
    ∃ r s', Conv E (fun R => R.ev (some t)) s (.ok (some r) s') ∧ Grow s2 s' ∧
      s'.nodes r = some (.lv (some bt) ((p + c.size * mpzGetUi v) % 2 ^ 64) false 0) ∧ s'.mem.brk ≤ s2.mem.brk + 96 := by
  obtain ⟨y', s3, e3, x3, n3⟩ := liveToInt_apply w hy
  have w3 := x3.wf w
  have r3 := hroom.ext x3
  obtain ⟨s4, c4, g4, r4⟩ := ctypeSize_conv (E := E) w3 (r3.mono (by omega)) (x3.nodes _ _ hc)
  have w4 := g4.wf w3
  have r4' : Room s4 1 := r3.after g4 r4
  have g24 := x3.grow.trans g4
  obtain ⟨τ, a, arr, sz, h1, h2, h3, rfl⟩ := hp.lv
  generalize hq : (s2.mem.load 8 a + c.size * mpzGetUi v) % 2 ^ 64 = q
  -- the new pointer
  have g5 := newVal_grow w4 (some τ) 8 q r4'
  have w5 := g5.wf w4
  have hself := newVal_self s4 (some τ) 8 q
  generalize hs5 : newVal s4 (some τ) 8 q = s5 at g5 w5 hself
  have x6 := addNode_ext w5 (.deref (some s4.next))
  have hde := addNode_self s5 (.deref (some s4.next))
  have hτ := (g24.trans (g5.trans x6.grow)).nodes _ _ h2
  have hbt := (g24.trans (g5.trans x6.grow)).nodes _ _ hc
  generalize hs6 : addNode s5 (.deref (some s4.next)) = s6 at x6 hde hτ hbt
  have hok5 : s5.mem.ok 8 s4.mem.brk = true := by rw [← hs5]; exact newVal_ok (by decide)
  have hld5 : s5.mem.load 8 s4.mem.brk = q := by
    rw [← hs5, newVal_load, Nat.mod_eq_of_lt]
    rw [← hq]; exact Nat.mod_lt _ (by decide)
  have hptr : PtrTo s6 s4.next (some bt) q := by
    refine ⟨τ, s4.mem.brk, false, 0, x6.nodes _ _ hself, hτ, ?_, ?_⟩
    · rw [x6.mem]; exact hok5
    · rw [x6.mem]; exact hld5.symm
  have hderef := deref_conv (E := E) hde (x := s4.next) (s1 := s6)
    (Conv.evNode (x6.nodes _ _ hself) (Conv.fixed fun R => rfl)) hptr
    (fun b hb => by cases hb; exact ⟨_, hbt, by intros; simp⟩)
  refine ⟨s6.next, _, ?_, (g24.trans (g5.trans x6.grow)).trans (addNode_grow (x6.wf w5) _), addNode_self _ _, ?_⟩
  rotate_left
  · show s6.mem.brk ≤ _
    rw [x6.mem, ← hs5]
    simp only [newVal, wr_mem, Mem.store_brk]
    show s4.mem.brk + 48 ≤ _
    rw [x3.mem] at r4
    omega
  refine Conv.evNode ht (Conv.bind ho (Conv.bind hi ?_))
  have h1' := x3.nodes _ _ h1
  have h2' := x3.nodes _ _ h2
  have hok3 : s3.mem.ok 8 a = true := by rw [x3.mem]; exact h3
  have hld3 : s3.mem.load 8 a = s2.mem.load 8 a := by rw [x3.mem]
  have tail : Conv E (fun R => (do
      let len ← getSizeOfType R (some bt)
      let np ← makeLiveVar (some τ)
      let (_, na) ← lvFields np
      storeRaw 8 na ((s2.mem.load 8 a + len * mpzGetUi v) % 2 ^ 64)
      let de ← mk (.deref (some np))
      R.ev (some de) : M Ref)) s3 (.ok (some s6.next) (addNode s6 (.lv (some bt) q false 0))) := by
    refine Conv.bind c4 ?_
    refine Conv.of_eq hderef fun R => ?_
    rw [hq]
    have := makeLiveVar_store (α := Ref) (some τ) (n := 8) (v := q) (by decide) (r4'.mono (by omega))
      (fun np => do let de ← mk (.deref (some np)); R.ev (some de))
    refine this.trans ?_
    simp only [bind_apply, hs5, mk_apply, hs6]
  refine Conv.of_eq tail fun R => ?_
  simp only [bind_apply, peek_apply h1, peek_apply h2, e3, asInteger_apply n3, loadRaw_apply hok3, hld3]

theorem arrAccess_conv {E : Env} {s s1 s2 : St} {t x y bt : TId} {o i : Ref} {p : Nat} {v : Int} {c : CT} {e : Ref}
    (ht : s.nodes t = some (.arrAccess o i)) (ho : Conv E (fun R => R.ev o) s (.ok (some x) s1))
    (hi : Conv E (fun R => R.ev i) s1 (.ok (some y) s2)) (w : WF s2) (hroom : Room s2 2)
    (hp : PtrTo s2 x (some bt) p) (hc : s2.nodes bt = some (.ctype c e)) (hy : Denotes s2 y v) :
    ∃ r s', Conv E (fun R => R.ev (some t)) s (.ok (some r) s') ∧ Grow s2 s' ∧
      s'.nodes r = some (.lv (some bt) ((p + c.size * mpzGetUi v) % 2 ^ 64) false 0) := by
  obtain ⟨r, s', h1, h2, h3, _⟩ := arrAccess_conv_brk (E := E) ht ho hi w hroom hp hc hy
  exact ⟨r, s', h1, h2, h3⟩

/-! ## Declaring an array -/

/-- the state after `malloc(n)` -/
def mallocSt (s : St) (n : Nat) : St :=
  { s with mem := { s.mem with
      brk := s.mem.brk + (n / 16 + 1) * 16 + 16
      live := fun x => if s.mem.brk ≤ x ∧ x < s.mem.brk + n then true else s.mem.live x } }

theorem mallocM_apply {s : St} {n : Nat} (h : s.mem.brk + (n / 16 + 1) * 16 + 16 < Mem.limit) :
    mallocM n s = .ok s.mem.brk (mallocSt s n) := by
  simp [mallocM, Mem.malloc, h, mallocSt]

theorem mallocSt_grow (s : St) (n : Nat) : Grow s (mallocSt s n) where
  next := Nat.le_refl _
  nodes _ _ h := h
  wf := id
  ctxs := rfl
  nextUid := rfl
  includeCtx := rfl
  includes := rfl
  closures := rfl
  events := rfl
  byte _ _ := rfl
  live b hb := by simp [mallocSt, hb]
  brk := by show s.mem.brk ≤ s.mem.brk + (n / 16 + 1) * 16 + 16; omega
  livelt hl x hx := by
    simp only [mallocSt] at hx ⊢
    split at hx
    · omega
    · have := hl x hx; omega

theorem mallocSt_ok (s : St) (n : Nat) : (mallocSt s n).mem.ok n s.mem.brk = true := by
  rw [Mem.ok_iff]
  intro x h1 h2
  simp [mallocSt, h1, h2]

/-- record an allocation -/
def bumpSt (s : St) (a : Nat) : St := { s with ctxs := bump a s.ctxs }

theorem trackAlloc_apply {s : St} (a : Nat) (h : s.ctxs ≠ []) : trackAlloc a s = .ok () (bumpSt s a) := by
  cases hc : s.ctxs with
  | nil => exact absurd hc h
  | cons c cs => simp [trackAlloc, modCur, hc, bumpSt, bump]

theorem bumpSt_grow (s : St) (a : Nat) : Grow s (bumpSt s a) :=
  { Grow.refl s with ctxs := bump_core a s.ctxs }

/-- changing an object that did not exist in `s` -/
theorem Grow.set {s s' : St} (h : Grow s s') (w : WF s) {t : TId} (ht : s.next ≤ t) (ht' : t < s'.next) (n : Node) :
    Grow s { s' with nodes := fun x => if x = t then some n else s'.nodes x } :=
  { h with
    nodes := fun x m hm => by
      have : x ≠ t := by
        have h1 := w.lt hm
        intro h2; subst h2; exact absurd h1 (Nat.not_lt.mpr ht)
      simp [this, h.nodes x m hm]
    wf := fun w x hx => by
      have hx' : s'.next ≤ x := hx
      have : x ≠ t := by intro h2; subst h2; exact absurd ht' (Nat.not_lt.mpr hx')
      simp [this, h.wf w x hx'] }

theorem setNode_apply (t : TId) (n : Node) (s : St) :
    setNode t n s = .ok () { s with nodes := fun x => if x = t then some n else s.nodes x } := rfl

/-- the array variable `t` for `n` bytes at `m`, elements of type `bt` -/
structure ArrayAt (s : St) (t : TId) (bt : Ref) (n m : Nat) : Prop where
  lv : ∃ τ a, s.nodes t = some (.lv (some τ) a true n) ∧ s.nodes τ = some (.ctype .ptr bt) ∧
    s.mem.ok 8 a = true ∧ m = s.mem.load 8 a

theorem ArrayAt.ptr {s t bt n m} (h : ArrayAt s t bt n m) : PtrTo s t bt m := by
  obtain ⟨τ, a, h1, h2, h3, h4⟩ := h.lv
  exact ⟨τ, a, true, n, h1, h2, h3, h4⟩

theorem ArrayAt.grow {s s' : St} {t bt n m} (h : ArrayAt s t bt n m) (x : Grow s s') : ArrayAt s' t bt n m := by
  obtain ⟨τ, a, h1, h2, h3, h4⟩ := h.lv
  exact ⟨τ, a, x.nodes _ _ h1, x.nodes _ _ h2, x.ok h3, by rw [x.load h3]; exact h4⟩

theorem instantiateArray_apply {s : St} {d : TId} {x : String} {base : Ref} {m n : Nat} (w : WF s)
    (hd : s.nodes d = some (.ident x)) (hroom : Room s 1) (hm : m < 2 ^ 64) :
    ∃ t s', instantiateArray (some d) base m n s = .ok t s' ∧ Grow s s' ∧ ArrayAt s' t base n m ∧
      s'.mem.brk = s.mem.brk + 48 ∧ ∃ ty, s'.nodes t = some (.lv ty s.mem.brk true n) := by
  have x1 := addNode_ext w (.ctype .ptr none)
  have w1 := x1.wf w
  have hd1 := x1.nodes _ _ hd
  have hs2 : setNode s.next (.ctype .ptr base) (addNode s (.ctype .ptr none)) =
      .ok () (addNode s (.ctype .ptr base)) := by
    rw [setNode_apply]
    simp only [addNode, Out.ok.injEq, true_and]
    congr 1
    funext y; split <;> rfl
  have x2 := addNode_ext w (.ctype .ptr base)
  have hp2 := addNode_self s (.ctype .ptr base)
  generalize hs2' : addNode s (.ctype .ptr base) = s2 at hs2 x2 hp2
  have hn2 : s2.next = s.next + 1 := by rw [← hs2']; rfl
  have w2 := x2.wf w
  have r2 := hroom.ext x2
  have g3 := newVal_grow w2 (some s.next) 8 m r2
  have hself := newVal_self s2 (some s.next) 8 m
  have hok := newVal_ok (s := s2) (ty := some s.next) (n := 8) (v := m) (k := 8) (by decide)
  have hld := newVal_load s2 (some s.next) 8 m
  have hbrk : (newVal s2 (some s.next) 8 m).mem.brk = s2.mem.brk + 48 := by simp [newVal, newVar]
  have hnx : (newVal s2 (some s.next) 8 m).next = s2.next + 1 := rfl
  have e : instantiateArray (some d) base m n s = .ok s2.next
      { newVal s2 (some s.next) 8 m with
        nodes := fun x => if x = s2.next then some (.lv (some s.next) s2.mem.brk true n) else (newVal s2 (some s.next) 8 m).nodes x } := by
    unfold instantiateArray
    simp only [bind_apply, mk_apply, peek_apply hd1, hs2]
    simp only [makeLiveVar_apply _ r2, lvFields, bind_apply, node_apply (newVar_self s2 (some s.next)), pure_apply,
      storeRaw_apply (newVar_ok (s := s2) (ty := some s.next) (n := 8) (by decide)), setNode_apply]
    rfl
  generalize hs3 : newVal s2 (some s.next) 8 m = s3 at g3 hself hok hld hbrk hnx e
  have g := (x2.grow.trans g3).set w (t := s2.next) (by rw [hn2]; exact Nat.le_succ _) (by rw [hnx]; exact Nat.lt_succ_self _) (.lv (some s.next) s2.mem.brk true n)
  refine ⟨_, _, e, g, ⟨s.next, s2.mem.brk, by simp, ?_, hok, ?_⟩, ?_, ?_⟩
  · have h1 : s.next ≠ s2.next := by rw [hn2]; exact Nat.ne_of_lt (Nat.lt_succ_self _)
    simp only [if_neg h1]
    exact g3.nodes _ _ hp2
  · rw [hld, Nat.mod_eq_of_lt hm]
  · show s3.mem.brk = _
    rw [hbrk, x2.mem]
  · rw [← x2.mem]; exact ⟨some s.next, by simp⟩

/-- the state after mapping a name in the current scope -/
def bindSt (s : St) (b : Binding) : St := { s with ctxs := bindCur b s.ctxs }

theorem Grow.resolveCurrent {s s' : St} (h : Grow s s') (x ns) :
    resolveCurrent x ns s' = resolveCurrent x ns s := by
  unfold Bic.resolveCurrent
  have h1 := h.ctxs
  cases hs : s.ctxs with
  | nil => rw [hs] at h1; simp at h1; rw [h1]
  | cons c cs =>
    cases hs' : s'.ctxs with
    | nil => rw [hs, hs'] at h1; simp at h1
    | cons c' cs' =>
      rw [hs, hs'] at h1
      simp only [List.map_cons, List.cons.injEq, Ctx.core, Ctx.mk.injEq] at h1
      cases ns <;> simp [Ctx.map, h1]

theorem mapIdentifier_apply {s : St} {d : TId} {x : String} {v : Ref} (hd : s.nodes d = some (.ident x))
    (hc : s.ctxs ≠ []) (hx : resolveCurrent x .normal s = none) :
    mapIdentifier (some d) v s = .ok () (bindSt s ⟨x, d, v⟩) := by
  cases h : s.ctxs with
  | nil => exact absurd h hc
  | cons c cs =>
    simp [mapIdentifier, resolveIdC, idStr, nodeR, node_apply hd, get, hx, mapIn, modCur, h, bindSt, bindCur]

/-- making the array `x[n]` with element type `τ` -/
theorem declareArray_conv {E : Env} {s : St} {τ id : TId} {sz : Ref} {x : String} {c : CT} {e : Ref} {v : Int}
    (w : WF s) (hid : s.nodes id = some (.ident x))
    (hτ : s.nodes τ = some (.ctype c e)) (hx : resolveCurrent x .normal s = none)
    (hsz : ∀ s0, Grow s s0 → Room s0 1 → ∃ y s1, Conv E (fun R => R.ev sz) s0 (.ok (some y) s1) ∧ Ext s0 s1 ∧ Denotes s1 y v)
    (hv : 0 ≤ v) (hroom : Room s 2) (hcap : s.mem.brk + 128 + c.size * v.toNat < Mem.limit) :
    ∃ t s' s'', Conv E (fun R => declareArray R (some id) sz (some τ)) s (.ok (some id) s'') ∧ Grow s s' ∧
      s'' = bindSt s' ⟨x, id, some t⟩ ∧ ∃ m, ArrayAt s' t (some τ) (c.size * v.toNat) m ∧
      s'.mem.ok (c.size * v.toNat) m = true ∧ s.mem.brk ≤ m ∧ s'.mem.brk ≤ s.mem.brk + 128 + c.size * v.toNat ∧
      ∃ ty a, s'.nodes t = some (.lv ty a true (c.size * v.toNat)) ∧ m + c.size * v.toNat ≤ a := by
  have hlim : Mem.limit < 2 ^ 64 := by decide
  obtain ⟨s1, c1, g1, b1⟩ := ctypeSize_conv (E := E) w (hroom.mono (by omega)) hτ
  have w1 := g1.wf w
  have r1 : Room s1 1 := hroom.after g1 b1
  obtain ⟨y, s2, c2, x2, d2⟩ := hsz s1 g1 r1
  have w2 := x2.wf w1
  obtain ⟨y', s3, e3, x3, n3⟩ := liveToInt_apply w2 d2
  have w3 := x3.wf w2
  have x13 := x2.trans x3
  have r3 := r1.ext x13
  have hb3 : s3.mem.brk ≤ s.mem.brk + 48 := by rw [x13.mem]; exact b1
  have g13 := g1.trans x13.grow
  have hui : mpzGetUi v = v.toNat := by
    have : v < 2 ^ 47 := by
      have h1 := CT.size_pos c
      have h2 : v.toNat ≤ c.size * v.toNat := Nat.le_mul_of_pos_left _ h1
      have h3 : (2 : Nat) ^ 47 = Mem.limit := rfl
      omega
    unfold mpzGetUi; omega
  generalize hN : c.size * v.toNat = N at hcap ⊢
  have hNlt : N < 2 ^ 64 := by omega
  have e4 : mallocM N s3 = .ok s3.mem.brk (mallocSt s3 N) := mallocM_apply (by omega)
  have g4 := mallocSt_grow s3 N
  have hok4 := mallocSt_ok s3 N
  have hb4 : (mallocSt s3 N).mem.brk = s3.mem.brk + (N / 16 + 1) * 16 + 16 := rfl
  generalize mallocSt s3 N = s4 at e4 g4 hok4 hb4
  have w4 := g4.wf w3
  have r4 : Room s4 1 := ⟨by omega, g4.ctxs_ne r3.ctxs, g4.livelt r3.livelt⟩
  have hm : s3.mem.brk < 2 ^ 64 := by omega
  obtain ⟨t, s5, e5, g5, a5, b5, ty, hlv⟩ := instantiateArray_apply (base := some τ) (n := N) w4
    ((g13.trans g4).nodes _ _ hid) r4 hm
  have e6 := trackAlloc_apply s3.mem.brk (g5.ctxs_ne r4.ctxs)
  have g6 := bumpSt_grow s5 s3.mem.brk
  have hb6 : (bumpSt s5 s3.mem.brk).mem.brk = s5.mem.brk := rfl
  generalize bumpSt s5 s3.mem.brk = s6 at e6 g6 hb6
  have gall := g13.trans (g4.trans (g5.trans g6))
  have e7 := mapIdentifier_apply (v := some t) (gall.nodes _ _ hid) (gall.ctxs_ne hroom.ctxs)
    (by rw [gall.resolveCurrent]; exact hx)
  refine ⟨t, s6, _, ?_, gall, rfl, s3.mem.brk, a5.grow g6, (g5.trans g6).ok hok4, ?_, ?_, ty, s4.mem.brk, g6.nodes _ _ hlv, ?_⟩
  · unfold declareArray allocArray getArraySize
    refine Conv.bind (Conv.bind (Conv.bind c1 (Conv.bind c2 (Conv.const (o := .ok N s3) ?_)))
      (Conv.const (o := .ok t s6) ?_)) (Conv.const ?_)
    · simp only [bind_apply, e3, asInteger_apply n3, pure_apply, hui, hN, Nat.mod_eq_of_lt hNlt]
    · simp only [bind_apply, e4, e5, e6, pure_apply]
    · simp only [bind_apply, e7, pure_apply]
  · exact Nat.le_trans g1.brk (by rw [x13.mem]; exact Nat.le_refl _)
  · omega
  · rw [hb4]; omega

/-- evaluation of an array declarator `x[n]` with element type `τ` -/
theorem handleDecl_array_conv {E : Env} {s : St} {d τ id : TId} {sz : Ref} {x : String} {c : CT} {e : Ref} {v : Int}
    (w : WF s) (hd : s.nodes d = some (.array (some id) sz)) (hid : s.nodes id = some (.ident x))
    (hτ : s.nodes τ = some (.ctype c e)) (hx : resolveCurrent x .normal s = none)
    (hsz : ∀ s0, Grow s s0 → Room s0 1 → ∃ y s1, Conv E (fun R => R.ev sz) s0 (.ok (some y) s1) ∧ Ext s0 s1 ∧ Denotes s1 y v)
    (hv : 0 ≤ v) (hroom : Room s 2) (hcap : s.mem.brk + 128 + c.size * v.toNat < Mem.limit) :
    ∃ t s' s'', Conv E (fun R => R.handleDecl (some d) (some τ)) s (.ok (some id) s'') ∧ Grow s s' ∧
      s'' = bindSt s' ⟨x, id, some t⟩ ∧ ∃ m, ArrayAt s' t (some τ) (c.size * v.toNat) m ∧
      s'.mem.ok (c.size * v.toNat) m = true ∧ s.mem.brk ≤ m ∧ s'.mem.brk ≤ s.mem.brk + 128 + c.size * v.toNat ∧
      ∃ ty a, s'.nodes t = some (.lv ty a true (c.size * v.toNat)) ∧ m + c.size * v.toNat ≤ a := by
  obtain ⟨t, s', s'', h1, h2, h3, m, h4, h5, h6, h7, h8⟩ := declareArray_conv (E := E) w hid hτ hx hsz hv hroom hcap
  refine ⟨t, s', s'', ?_, h2, h3, m, h4, h5, h6, h7, h8⟩
  refine Conv.handleDecl ?_
  unfold handleDeclStep
  refine Conv.bind (a := (some d, some τ)) (s' := s) (Conv.resolvePtr ?_) ?_
  · exact Conv.fixed fun R => by simp [resolvePtrStep, peek_apply hd]
  refine Conv.of_eq h1 fun R => ?_
  simp only [bind_apply, node_apply hτ, handleDeclSwitch, nodeR, node_apply hd]

theorem VarIs.grow {s s' : St} {x v} (h : VarIs s x v) (e : Grow s s') : VarIs s' x v := by
  obtain ⟨t, h1, h2⟩ := h
  refine ⟨t, by rw [e.resolveGlobal]; exact h1, ?_⟩
  rcases h2 with h2 | ⟨c, h2, h3⟩
  · exact .inl (e.nodes _ _ h2)
  · exact .inr ⟨c, h2.grow e, h3⟩

/-- no object of the current scope is called `x` -/
def Fresh (s : St) (x : String) : Prop := ∀ c cs, s.ctxs = c :: cs → ∀ b ∈ c.ids, b.name ≠ x

theorem Fresh.resolve {s : St} {x : String} (h : Fresh s x) : resolveCurrent x .normal s = none := by
  unfold resolveCurrent
  cases hc : s.ctxs with
  | nil => rfl
  | cons c cs =>
    have h' := h c cs hc
    simp only [Ctx.map]
    generalize c.ids = l at h'
    induction l with
    | nil => rfl
    | cons b l ih =>
      rw [findId, if_neg (h' b List.mem_cons_self)]
      exact ih fun d hd => h' d (List.mem_cons_of_mem _ hd)

theorem Fresh.grow {s s' : St} {x : String} (h : Fresh s x) (g : Grow s s') : Fresh s' x := by
  intro c cs hc b hb
  have h1 := g.ctxs
  cases hs : s.ctxs with
  | nil => rw [hs, hc] at h1; simp at h1
  | cons c' cs' =>
    rw [hs, hc] at h1
    simp only [List.map_cons, List.cons.injEq, Ctx.core, Ctx.mk.injEq] at h1
    exact h c' cs' hs b (by rw [← h1.1.2.2.1]; exact hb)

/-- the name just declared denotes its object -/
theorem resolveGlobal_bind {s : St} {x : String} {d t : TId} (h : Fresh s x) (hc : s.ctxs ≠ []) :
    resolveGlobal x .normal (bindSt s ⟨x, d, some t⟩) = some t := by
  cases hs : s.ctxs with
  | nil => exact absurd hs hc
  | cons c cs =>
    have : findId x (c.ids ++ [⟨x, d, some t⟩]) = some t := by
      have h' := h c cs hs
      generalize c.ids = l at h'
      induction l with
      | nil => simp [findId]
      | cons b l ih =>
        rw [List.cons_append, findId, if_neg (h' b List.mem_cons_self)]
        exact ih fun d hd => h' d (List.mem_cons_of_mem _ hd)
    simp [resolveGlobal, bindSt, bindCur, hs, findInChain, Ctx.map, this]

end Bic
