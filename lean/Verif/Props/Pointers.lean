import Verif.Proofs.Witness
import Verif.Proofs.Repr
import Verif.Proofs.Pointers
/-!
# C15, C16, C38: arrays, pointers, sizeof
-/

namespace Bic
open Spec

/-! ## C15 -/

/-- `t` is `o[i]`; `o` evaluates to the pointer or array `x` to objects of type `c`,
holding the address `p`; `i` then evaluates to the integer `v`. -/
structure Indexing (E : Env) (s s2 : St) (t bt : TId) (c : CT) (p : Nat) (v : Int) : Prop where
  ev : ∃ (o i : Ref) (x y : TId) (s1 : St), s.nodes t = some (.arrAccess o i) ∧
    Conv E (fun R => R.ev o) s (.ok (some x) s1) ∧ Conv E (fun R => R.ev i) s1 (.ok (some y) s2) ∧
    PtrTo s2 x (some bt) p ∧ Denotes s2 y v
  ty : ∃ e, s2.nodes bt = some (.ctype c e)
  wf : WF s2
  room : Room s2 2

/-- C15 in full: `o[i]` denotes the object of the element type at `p + i * size`,
and nothing that existed is changed -/
def C15_statement : Prop :=
  ∀ (E : Env) (s s2 : St) (t bt : TId) (c : CT) (p : Nat) (v : Int), Indexing E s s2 t bt c p v →
    0 ≤ (p : Int) + c.size * v → (p : Int) + c.size * v < 2 ^ 64 →
    ∃ r s' a, Conv E (fun R => R.ev (some t)) s (.ok (some r) s') ∧ Grow s2 s' ∧
      s'.nodes r = some (.lv (some bt) a false 0) ∧ (a : Int) = p + c.size * v

/-- C15 for indices that are not negative. -/
theorem C15_index_partial (E : Env) (s s2 : St) (t bt : TId) (c : CT) (p : Nat) (v : Int)
    (h : Indexing E s s2 t bt c p v) (h0 : 0 ≤ v) (h1 : (p : Int) + c.size * v < 2 ^ 64) :
    ∃ r s' a, Conv E (fun R => R.ev (some t)) s (.ok (some r) s') ∧ Grow s2 s' ∧
      s'.nodes r = some (.lv (some bt) a false 0) ∧ (a : Int) = p + c.size * v := by
  obtain ⟨o, i, x, y, s1, ht, ho, hi, hp, hy⟩ := h.ev
  obtain ⟨e, he⟩ := h.ty
  obtain ⟨r, s', hc, hg, hn⟩ := arrAccess_conv ht ho hi h.wf h.room hp he hy
  refine ⟨r, s', _, hc, hg, hn, ?_⟩
  obtain ⟨n, rfl⟩ := Int.eq_ofNat_of_zero_le h0
  have h3 : n ≤ c.size * n := Nat.le_mul_of_pos_left _ (CT.size_pos c)
  have h4 : ((c.size * n : Nat) : Int) = c.size * (n : Int) := Int.natCast_mul _ _
  have h5 : mpzGetUi (n : Int) = n := by unfold mpzGetUi; omega
  rw [h5, Nat.mod_eq_of_lt (by omega)]
  omega

/-- C15 for the elements of an array of `n` elements at `m`: the object denoted by `a[v]`, `0 ≤ v < n`, lies
in the storage of the array, and `a[v]`, `a[v']` for different indices do not
overlap. -/
theorem C15_elements_partial (E : Env) (s s2 s2' : St) (t t' bt : TId) (c : CT) (m n : Nat) (v v' : Int)
    (hm : m + c.size * n < 2 ^ 64)
    (hok : s.mem.ok (c.size * n) m = true) (hg : Grow s s2) (hg' : Grow s s2')
    (h : Indexing E s s2 t bt c m v) (h' : Indexing E s s2' t' bt c m v')
    (h0 : 0 ≤ v) (h0' : 0 ≤ v') (h1 : v < n) (h1' : v' < n) (hne : v ≠ v') :
    ∃ r s1 r' s1' a a', Conv E (fun R => R.ev (some t)) s (.ok (some r) s1) ∧
      Conv E (fun R => R.ev (some t')) s (.ok (some r') s1') ∧
      s1.nodes r = some (.lv (some bt) a false 0) ∧ s1'.nodes r' = some (.lv (some bt) a' false 0) ∧
      s1.mem.ok c.size a = true ∧ s1'.mem.ok c.size a' = true ∧
      (m ≤ a ∧ a + c.size ≤ m + c.size * n) ∧ (m ≤ a' ∧ a' + c.size ≤ m + c.size * n) ∧
      (a + c.size ≤ a' ∨ a' + c.size ≤ a) := by
  obtain ⟨k, rfl⟩ := Int.eq_ofNat_of_zero_le h0
  obtain ⟨k', rfl⟩ := Int.eq_ofNat_of_zero_le h0'
  have hk : c.size * k + c.size ≤ c.size * n := by
    rw [← Nat.mul_succ]; exact Nat.mul_le_mul_left _ (by omega)
  have hk' : c.size * k' + c.size ≤ c.size * n := by
    rw [← Nat.mul_succ]; exact Nat.mul_le_mul_left _ (by omega)
  have e : ((c.size * k : Nat) : Int) = c.size * (k : Int) := Int.natCast_mul _ _
  have e' : ((c.size * k' : Nat) : Int) = c.size * (k' : Int) := Int.natCast_mul _ _
  obtain ⟨r, s1, a, hc, g, hn, hv⟩ := C15_index_partial E s s2 t bt c m k h h0 (by omega)
  obtain ⟨r', s1', a', hc', g', hn', hv'⟩ := C15_index_partial E s s2' t' bt c m k' h' h0' (by omega)
  obtain rfl : a = m + c.size * k := by omega
  obtain rfl : a' = m + c.size * k' := by omega
  have hin : ∀ j, c.size * j + c.size ≤ c.size * n → s.mem.ok c.size (m + c.size * j) = true := by
    intro j hj
    rw [Mem.ok_iff] at hok ⊢
    exact fun b h1 h2 => hok b (by omega) (by omega)
  refine ⟨r, s1, r', s1', _, _, hc, hc', hn, hn', (hg.trans g).ok (hin k hk), (hg'.trans g').ok (hin k' hk'),
    by omega, by omega, ?_⟩
  have hlt : k < k' ∨ k' < k := by omega
  rcases hlt with h | h
  · left
    have : c.size * k + c.size ≤ c.size * k' := by rw [← Nat.mul_succ]; exact Nat.mul_le_mul_left _ h
    omega
  · right
    have : c.size * k' + c.size ≤ c.size * k := by rw [← Nat.mul_succ]; exact Nat.mul_le_mul_left _ h
    omega

/-- C15, declaration: `T x[e];` where `e` has the value `n ≥ 0` declares an array
whose storage of `n` elements is accessible and was not in use before. -/
theorem C15_declared (E : Env) (s : St) (t specs decls d id sz : TId) (off : Nat) (x : String) (c : CT) (e : Expr)
    (n : Nat) (w : WF s) (ht : s.nodes t = some (.decl (some specs) (some decls) off))
    (hs : TypeSpecs s.nodes specs c) (hd : s.nodes decls = some (.chain [d]))
    (ha : s.nodes d = some (.array (some id) (some sz))) (hid : s.nodes id = some (.ident x)) (hx : Fresh s x)
    (he : ERep s.nodes sz e) (hv : Val okOp okTruth (VarIs s) e n) (hroom : Room s 2)
    (hcap : s.mem.brk + 128 + c.size * n < Mem.limit) :
    ∃ s' y bt m, Conv E (fun R => R.ev (some t)) s (.ok (some id) s') ∧
      resolveGlobal x .normal s' = some y ∧ (∃ ex, s'.nodes bt = some (.ctype c ex)) ∧
      ArrayAt s' y (some bt) (c.size * n) m ∧ s'.mem.ok (c.size * n) m = true ∧
      (∀ b, m ≤ b → b < m + c.size * n → s.mem.live b = false) ∧
      (∀ b, s.mem.live b = true → s'.mem.live b = true ∧ s'.mem.byte b = s.mem.byte b) := by
  have x1 := addNode_ext w (.ctype c none)
  have hτ := addNode_self s (.ctype c none)
  have key : ∃ t' s' s'', Conv E (fun R => R.handleDecl (some d) (some s.next)) (addNode s (.ctype c none))
      (.ok (some id) s'') ∧ Grow (addNode s (.ctype c none)) s' ∧ s'' = bindSt s' ⟨x, id, some t'⟩ ∧
      ∃ m, ArrayAt s' t' (some s.next) (c.size * n) m ∧ s'.mem.ok (c.size * n) m = true ∧ s.mem.brk ≤ m := by
    have := handleDecl_array_conv (E := E) (v := (n : Int)) (sz := some sz) (x1.wf w) (x1.nodes _ _ ha)
      (x1.nodes _ _ hid) hτ (hx.grow x1.grow).resolve
      (fun s0 g r0 => by
        have gg := x1.grow.trans g
        obtain ⟨y, s1, h1, h2, h3⟩ := eval_expr (E := E) (gg.wf w)
          (hv.mono (fun _ _ _ _ h => h) (fun _ _ h => h) (fun y v hy => VarIs.grow hy gg)) (he.mono gg.nodes)
        exact ⟨y, s1, h1, h2, h3⟩)
      (by omega) (hroom.ext x1) (by simpa [x1.mem] using hcap)
    obtain ⟨t', s', s'', h1, h2, h3, m, h4, h5, h6, _⟩ := this
    exact ⟨t', s', s'', h1, h2, h3, m, by simpa using h4, by simpa using h5, by simpa [x1.mem] using h6⟩
  obtain ⟨t', s', s'', hc, hg, rfl, m, h1, h2, h3⟩ := key
  have g := x1.grow.trans hg
  refine ⟨bindSt s' ⟨x, id, some t'⟩, t', s.next, m, evalDecl_conv w ht hs ?_, resolveGlobal_bind (hx.grow g) (g.ctxs_ne hroom.ctxs), ⟨none, hg.nodes _ _ hτ⟩, ?_, h2, ?_, ?_⟩
  · refine (Conv.bind hc (Conv.pure _)).of_eq (g := fun R => eachDecl (fun d => R.handleDecl d (some s.next)) (some decls))
      fun R => ?_
    simp [eachDecl, peek_apply (x1.nodes _ _ hd), forEachLast]
  · obtain ⟨τ, a, p1, p2, p3, p4⟩ := h1.lv
    exact ⟨τ, a, p1, p2, p3, p4⟩
  · intro b hb1 hb2
    exact hroom.fresh (n := b + 1) b (by omega) (by omega)
  · intro b hb
    exact ⟨g.live b hb, g.byte b hb⟩

/-- `short a[3]` at 4112, the indices 2 and -1, the accesses `a[2]`, `a[i]` -/
def stArr : St :=
  stOf [.ctype .short none, .ctype .ptr (some 0), .lv (some 1) 4096 true 6, .ident "a", .integer 2,
        .arrAccess (some 3) (some 4), .integer (-1), .arrAccess (some 3) (some 6), .integer 1,
        .arrAccess (some 3) (some 8)] [⟨"a", 3, some 2⟩]
    [16, 16, 0, 0, 0, 0, 0, 0, 0, 0, 0, 0, 0, 0, 0, 0, 1, 0, 2, 0, 3, 0]

theorem stArr_indexing {i t : TId} {v : Int} (ht : stArr.nodes t = some (.arrAccess (some 3) (some i)))
    (hi : stArr.nodes i = some (.integer v)) : Indexing E0 stArr stArr t 0 .short 4112 v where
  ev := ⟨some 3, some i, 2, i, stArr, ht, Conv.of_ev 5 rfl (by intro h; cases h),
    Conv.evNode hi (Conv.pure _),
    ⟨1, 4096, true, 6, rfl, rfl, by decide +kernel, by decide +kernel⟩, .inl hi⟩
  ty := ⟨none, rfl⟩
  wf := stOf_WF _ _ _
  room := ⟨by decide +kernel, by simp [stArr, stOf], memOf_livelt _⟩

example : ∃ r s' a, Conv E0 (fun R => R.ev (some 5)) stArr (.ok (some r) s') ∧ Grow stArr s' ∧
    s'.nodes r = some (.lv (some 0) a false 0) ∧ (a : Int) = (4112 : Nat) + CT.short.size * 2 :=
  C15_index_partial E0 stArr stArr 5 0 .short 4112 2 (stArr_indexing rfl rfl) (by decide) (by decide)

example : ∃ r s1 r' s1' a a', Conv E0 (fun R => R.ev (some 5)) stArr (.ok (some r) s1) ∧
      Conv E0 (fun R => R.ev (some 9)) stArr (.ok (some r') s1') ∧
      s1.nodes r = some (.lv (some 0) a false 0) ∧ s1'.nodes r' = some (.lv (some 0) a' false 0) ∧
      s1.mem.ok CT.short.size a = true ∧ s1'.mem.ok CT.short.size a' = true ∧
      (4112 ≤ a ∧ a + CT.short.size ≤ 4112 + CT.short.size * 3) ∧
      (4112 ≤ a' ∧ a' + CT.short.size ≤ 4112 + CT.short.size * 3) ∧
      (a + CT.short.size ≤ a' ∨ a' + CT.short.size ≤ a) :=
  C15_elements_partial E0 stArr stArr stArr 5 9 0 .short 4112 3 2 1 (by decide) (by decide +kernel) (Grow.refl _) (Grow.refl _)
    (stArr_indexing rfl rfl) (stArr_indexing rfl rfl) (by decide) (by decide) (by decide) (by decide) (by decide)

/-- where an evaluation that gave a variable put it -/
def outAddr : Out Ref → Option Nat
  | .ok (some r) s =>
    match s.nodes r with
    | some (.lv _ a _ _) => some a
    | _ => none
  | _ => none

/-- C15 in full is false: `a[-1]` denotes the element `a[1]`. -/
theorem C15_refuted : ¬ C15_statement := by
  intro h
  obtain ⟨r, s', a, h1, _, h2, h3⟩ := h E0 stArr stArr 7 0 .short 4112 (-1) (stArr_indexing rfl rfl) (by decide) (by decide)
  have hc : outAddr ((run E0 30).ev (some 7) stArr) = some 4114 := by decide +kernel
  have hne : (run E0 30).ev (some 7) stArr ≠ .fuel := by
    intro hf; rw [hf] at hc; cases hc
  rw [Conv.unique (Conv.of_ev 30 rfl hne) h1] at hc
  simp [outAddr, h2] at hc
  simp [CT.size] at h3
  omega

/-- `int a[n + 1];` for a variable `n` holding 4 -/
def stArrDecl : St :=
  stOf [.ctype .int none, .lv (some 0) 4096 false 0, .ident "n", .integer 1, .bin .add (some 2) (some 3), .ident "a",
        .array (some 5) (some 4), .chain [6], .kw .int, .chain [8], .decl (some 9) (some 7) 0] [⟨"n", 2, some 1⟩]
    [4, 0, 0, 0]

example : ∃ s' y bt m, Conv E0 (fun R => R.ev (some 10)) stArrDecl (.ok (some 5) s') ∧
      resolveGlobal "a" .normal s' = some y ∧ (∃ ex, s'.nodes bt = some (.ctype .int ex)) ∧
      ArrayAt s' y (some bt) (CT.int.size * 5) m ∧ s'.mem.ok (CT.int.size * 5) m = true ∧
      (∀ b, m ≤ b → b < m + CT.int.size * 5 → stArrDecl.mem.live b = false) ∧
      (∀ b, stArrDecl.mem.live b = true → s'.mem.live b = true ∧ s'.mem.byte b = stArrDecl.mem.byte b) :=
  C15_declared E0 stArrDecl 10 9 7 6 5 4 0 "a" .int (.bin .add (.var "n") (.lit 1)) 5 (stOf_WF _ _ _) rfl
    ⟨[8], [.int], rfl, .cons rfl .nil, by decide, by decide⟩ rfl rfl rfl
    (by intro c cs hc b hb
        have : c = ctx1 [⟨"n", 2, some 1⟩] := by simp [stArrDecl, stOf] at hc; exact hc.1.symm
        subst this
        simp [ctx1] at hb; subst hb; decide)
    (ERepG.bin (o := .add) rfl (.var rfl) (.lit rfl))
    (.bin (.var (v := 4) ⟨1, rfl, .inr ⟨.int, ⟨0, 4096, ⟨⟨_, _, rfl⟩, ⟨_, rfl⟩, .inl trivial, by decide +kernel⟩,
      by decide +kernel⟩, by decide⟩⟩) (.lit 1) ⟨by simp [cOp], trivial⟩)
    ⟨by decide +kernel, by simp [stArrDecl, stOf], memOf_livelt _⟩ (by decide +kernel)

/-! ## C16 -/

/-- `t` is `*&e` and `e` evaluates to the variable `x` -/
structure DerefAddr (E : Env) (s s1 : St) (t x : TId) : Prop where
  ev : ∃ (e : Ref) (u : TId), s.nodes t = some (.deref (some u)) ∧ s.nodes u = some (.addr e) ∧
    Conv E (fun R => R.ev e) s (.ok (some x) s1)
  wf : WF s1
  room : Room s1 1

/-- C16 in full, first part: `*&x` is a variable like `x` — of the same type, with
the same storage -/
def C16_statement : Prop :=
  ∀ (E : Env) (s s1 : St) (t x : TId) (ty : Ref) (a sz : Nat) (arr : Bool), DerefAddr E s s1 t x →
    s1.nodes x = some (.lv ty a arr sz) → a < 2 ^ 64 → s1.mem.ok 8 a = true → NotCompound s1 ty →
    ∃ r s', Conv E (fun R => R.ev (some t)) s (.ok (some r) s') ∧ Grow s1 s' ∧
      s'.nodes r = some (.lv ty a arr sz)

theorem Conv.evLv {E : Env} {s : St} {t : TId} {ty a arr sz} (h : s.nodes t = some (.lv ty a arr sz)) :
    Conv E (fun R => R.ev (some t)) s (.ok (some t) s) := Conv.evNode h (Conv.pure _)

/-- C16 for variables that are not arrays. -/
theorem C16_deref_addr_partial (E : Env) (s s1 : St) (t x : TId) (ty : Ref) (a sz : Nat) (h : DerefAddr E s s1 t x)
    (hx : s1.nodes x = some (.lv ty a false sz)) (ha : a < 2 ^ 64) (hty : NotCompound s1 ty) :
    ∃ r s', Conv E (fun R => R.ev (some t)) s (.ok (some r) s') ∧ Grow s1 s' ∧
      s'.nodes r = some (.lv ty a false 0) := by
  obtain ⟨e, u, ht, hu, he⟩ := h.ev
  have hroom := h.room
  have w := h.wf
  have hadd := addr_conv (p := a) hu he w hroom hx (by simp)
  have x1 := addNode_ext w (.ctype .ptr ty)
  have w1 := x1.wf w
  have g2 := newVal_grow w1 (some s1.next) 8 a (hroom.ext x1)
  have hself := newVal_self (addNode s1 (.ctype .ptr ty)) (some s1.next) 8 a
  have hok := newVal_ok (s := addNode s1 (.ctype .ptr ty)) (ty := some s1.next) (n := 8) (v := a) (k := 8) (by decide)
  have hld := newVal_load (addNode s1 (.ctype .ptr ty)) (some s1.next) 8 a
  have hptr : PtrTo (newVal (addNode s1 (.ctype .ptr ty)) (some s1.next) 8 a) (s1.next + 1) ty a :=
    ⟨s1.next, _, false, 0, hself, g2.nodes _ _ (addNode_self _ _), hok, by rw [hld, Nat.mod_eq_of_lt ha]⟩
  have hd := deref_conv ht hadd hptr (hty.grow (x1.grow.trans g2))
  exact ⟨_, _, hd, (x1.grow.trans g2).trans (addNode_grow (g2.wf w1) _), addNode_self _ _⟩

/-- C16: what is assigned through `*&x` is found in `x`, and what is assigned to `x`
is found through `*&x` (they have the same bytes). -/
theorem C16_assign (E : Env) (s s1 : St) (t l x q τ : TId) (r : Ref) (a : Nat) (c : CT) (n : Int) (v : Int)
    (ht : s.nodes t = some (.assign (some l) r)) (hl : DerefAddr E s s1 l x) (hx : LvAt s1 x τ c a)
    (hxa : ∃ sz, s1.nodes x = some (.lv (some τ) a false sz)) (ha : a < 2 ^ 64) (hc : integral c)
    (hr : ∀ s', Grow s1 s' → ∃ s2', Conv E (fun R => R.ev r) s' (.ok (some q) s2') ∧ Grow s' s2' ∧ RVal s2' q n)
    (hv : Converts c n v) :
    ∃ s', Conv E (fun R => R.ev (some t)) s (.ok (some q) s') ∧ Holds s' x c v := by
  obtain ⟨sz, hxn⟩ := hxa
  obtain ⟨e, hτ⟩ := hx.ty
  obtain ⟨y, s', hcv, hg, hn⟩ := C16_deref_addr_partial E s s1 l x (some τ) a sz hl hxn ha
    (fun t ht => by cases ht; exact ⟨_, hτ, by intros; simp⟩)
  obtain ⟨s3, hc3, hg3, hv3⟩ := hr s' hg
  have hgg := hg.trans hg3
  have hy : LvAt s3 y τ c a := ⟨⟨_, _, hg3.nodes _ _ hn⟩, ⟨e, hgg.nodes _ _ hτ⟩, .inl hc, hgg.ok hx.ok⟩
  refine ⟨_, assign_conv ht hcv hc3 hy hc hv3, ?_⟩
  have := (hx.grow hgg).holds_wr n
  rwa [Converts.unique (.inl hc) (CT.decode_encode_converts (.inl hc) n) hv] at this

/-- C16: `&*p` is a pointer holding the same address, to the same type. -/
theorem C16_addr_deref (E : Env) (s s1 : St) (t u x : TId) (e bt : Ref) (p : Nat)
    (ht : s.nodes t = some (.addr (some u))) (hu : s.nodes u = some (.deref e))
    (he : Conv E (fun R => R.ev e) s (.ok (some x) s1)) (hp : PtrTo s1 x bt p) (hb : NotCompound s1 bt)
    (w : WF s1) (hroom : Room s1 1) :
    ∃ r s', Conv E (fun R => R.ev (some t)) s (.ok (some r) s') ∧ Grow s1 s' ∧ PtrTo s' r bt p := by
  have hd := deref_conv hu he hp hb
  have x1 := addNode_ext w (.lv bt p false 0)
  have w1 := x1.wf w
  have r1 := hroom.ext x1
  have hself1 := addNode_self s1 (.lv bt p false 0)
  generalize hs2 : addNode s1 (.lv bt p false 0) = s2 at hd x1 w1 r1 hself1
  have hadd := addr_conv (p := p) ht hd w1 r1 hself1 (by simp)
  have x2 := addNode_ext w1 (.ctype .ptr bt)
  have g3 := newVal_grow (x2.wf w1) (some s2.next) 8 p (r1.ext x2)
  refine ⟨_, _, hadd, x1.grow.trans (x2.grow.trans g3), s2.next, _, false, 0, newVal_self _ _ _ _,
    g3.nodes _ _ (addNode_self _ _), newVal_ok (by decide), ?_⟩
  obtain ⟨_, a, _, _, _, _, _, rfl⟩ := hp.lv
  rw [newVal_load, Nat.mod_eq_of_lt]
  exact Mem.load_lt _ 8 a

/-- `int x`, `int *p` pointing to `x`, the trees `*&x`, `*&x = 7`, `&*p`, and the array
`a` of `stArr` with `*&a` -/
def stDeref : St :=
  stOf [.ctype .int none, .lv (some 0) 4096 false 0, .ident "x", .addr (some 2), .deref (some 3), .integer 7,
        .assign (some 4) (some 5), .ctype .ptr (some 0), .lv (some 7) 4104 false 0, .ident "p", .deref (some 9),
        .addr (some 10), .lv (some 7) 4104 true 4, .ident "a", .addr (some 13), .deref (some 14)]
    [⟨"x", 2, some 1⟩, ⟨"p", 9, some 8⟩, ⟨"a", 13, some 12⟩]
    [1, 0, 0, 0, 0, 0, 0, 0, 0, 16, 0, 0, 0, 0, 0, 0]

theorem stPtr_room : Room stDeref 1 := ⟨by decide +kernel, by simp [stDeref, stOf], memOf_livelt _⟩

example : ∃ r s', Conv E0 (fun R => R.ev (some 4)) stDeref (.ok (some r) s') ∧ Grow stDeref s' ∧
    s'.nodes r = some (.lv (some 0) 4096 false 0) :=
  C16_deref_addr_partial E0 stDeref stDeref 4 1 (some 0) 4096 0
    ⟨⟨some 2, 3, rfl, rfl, Conv.of_ev 5 rfl (by intro h; cases h)⟩, stOf_WF _ _ _, stPtr_room⟩ rfl (by decide)
    (fun t ht => by cases ht; exact ⟨_, rfl, by intros; simp⟩)

example : ∃ s', Conv E0 (fun R => R.ev (some 6)) stDeref (.ok (some 5) s') ∧ Holds s' 1 .int 7 :=
  C16_assign E0 stDeref stDeref 6 4 1 5 0 (some 5) 4096 .int 7 7 rfl
    ⟨⟨some 2, 3, rfl, rfl, Conv.of_ev 5 rfl (by intro h; cases h)⟩, stOf_WF _ _ _, stPtr_room⟩
    ⟨⟨_, _, rfl⟩, ⟨_, rfl⟩, .inl trivial, by decide +kernel⟩ ⟨0, rfl⟩ (by decide) trivial
    (fun s' g => ⟨s', Conv.evNode (g.nodes _ _ rfl) (Conv.pure _), Grow.refl _, by
      have : RVal s' 5 (mpzGetSi 7) := .int (g.nodes _ _ rfl)
      exact this⟩)
    (Converts.self (by decide))

example : ∃ r s', Conv E0 (fun R => R.ev (some 11)) stDeref (.ok (some r) s') ∧ Grow stDeref s' ∧ PtrTo s' r (some 0) 4096 :=
  C16_addr_deref E0 stDeref stDeref 11 10 8 (some 9) (some 0) 4096 rfl rfl (Conv.of_ev 5 rfl (by intro h; cases h))
    ⟨7, 4104, false, 0, rfl, rfl, by decide +kernel, by decide +kernel⟩
    (fun t ht => by cases ht; exact ⟨_, rfl, by intros; simp⟩) (stOf_WF _ _ _) stPtr_room

/-- C16 in full is false: for an array `a`, `*&a` is a pointer variable made of the
first bytes of the array. -/
theorem C16_refuted : ¬ C16_statement := by
  intro h
  obtain ⟨r, s', h1, _, h2⟩ := h E0 stDeref stDeref 15 12 (some 7) 4104 4 true
    ⟨⟨some 13, 14, rfl, rfl, Conv.of_ev 5 rfl (by intro h; cases h)⟩, stOf_WF _ _ _, stPtr_room⟩ rfl (by decide)
    (by decide +kernel) (fun t ht => by cases ht; exact ⟨_, rfl, by intros; simp⟩)
  have hc : outAddr ((run E0 30).ev (some 15) stDeref) = some 4096 := by decide +kernel
  have hne : (run E0 30).ev (some 15) stDeref ≠ .fuel := by
    intro hf; rw [hf] at hc; cases hc
  rw [Conv.unique (Conv.of_ev 30 rfl hne) h1] at hc
  simp [outAddr, h2] at hc

/-! ## C38 -/

/-- C38 in full, "no side effects": whatever the operand, evaluating `sizeof e`
leaves the memory of every existing variable as it was -/
def C38_statement : Prop :=
  ∀ (E : Env) (s s' : St) (t : TId) (e r : Ref), s.nodes t = some (.sizeof e) → Inv s →
    Conv E (fun R => R.ev (some t)) s (.ok r s') → ∀ b, s.mem.live b = true → s'.mem.byte b = s.mem.byte b

/-- the result `r` of a `sizeof` is the `unsigned long` `n`, and nothing that
existed was changed -/
def IsSize (s s' : St) (r : TId) (n : Nat) : Prop := Grow s s' ∧ Holds s' r .ulong n

theorem szSt_isSize {s : St} (w : WF s) (hroom : Room s 1) {n : Nat} (hn : n < 2 ^ 64) :
    IsSize s (szSt s n) (s.next + 1) n := by
  have x1 := addNode_ext w (.ctype .ulong none)
  refine ⟨szSt_grow w n hroom, s.next, (addNode s (.ctype .ulong none)).mem.brk, ⟨⟨_, _, newVal_self _ _ _ _⟩,
    ⟨none, (newVal_grow (x1.wf w) _ _ _ (hroom.ext x1)).nodes _ _ (addNode_self _ _)⟩, .inl trivial,
    newVal_ok (by decide)⟩, ?_⟩
  have : (szSt s n).mem.load 8 (addNode s (.ctype .ulong none)).mem.brk = n % 256 ^ 8 := newVal_load _ _ _ _
  show (n : Int) = CT.ulong.decode ((szSt s n).mem.load 8 (addNode s (.ctype .ulong none)).mem.brk)
  rw [this, Nat.mod_eq_of_lt (by simpa using hn)]
  simp [CT.decode, CT.isSigned]

/-- C38 for type names made of keywords: `sizeof (T)` is the C size of `T`. -/
theorem C38_type_partial (E : Env) (s : St) (t u specs : TId) (c : CT) (w : WF s) (hroom : Room s 1)
    (ht : s.nodes t = some (.sizeof (some u))) (hu : s.nodes u = some (.typeSpec (some specs) none))
    (hs : TypeSpecs s.nodes specs c) :
    ∃ r s', Conv E (fun R => R.ev (some t)) s (.ok (some r) s') ∧ IsSize s s' r c.size := by
  have x1 := addNode_ext w (.ctype c none)
  have hev : Conv E (fun R => R.ev (some u)) s (.ok (some s.next) (addNode s (.ctype c none))) := by
    refine Conv.evNode hu ?_
    show Conv E (fun R => evalTypeSpec R (some specs) none) s _
    have hp : Conv E (fun R => R.resolvePtr none (some s.next)) (addNode s (.ctype c none))
        (.ok (none, some s.next) (addNode s (.ctype c none))) :=
      Conv.resolvePtr (Conv.fixed fun R => by simp [resolvePtrStep, peek_none])
    have h2 : Conv E (fun R => (do let p ← R.resolvePtr none (some s.next); pure p.2 : M Ref)) _ _ :=
      Conv.bind hp (Conv.pure (some s.next))
    refine h2.of_eq (g := fun R => evalTypeSpec R (some specs) none) fun R => ?_
    simp [evalTypeSpec, resolveSpecs_apply hs, isIdentOrCompound, peek_apply (addNode_self s _)]
  have hsz := sizeof_conv ht hev (x1.wf w) (hroom.ext x1) (.ctype (addNode_self s (.ctype c none)))
  obtain ⟨h1, h2⟩ := szSt_isSize (x1.wf w) (hroom.ext x1) (n := c.size) (by have := CT.size_le c; omega)
  exact ⟨_, _, hsz, x1.grow.trans h1, h2⟩

/-- C38 for operands that evaluate to a variable of integer or pointer type (that is
not an array): the size of the type.  No side effects other than those of
evaluating the operand. -/
theorem C38_var_partial (E : Env) (s s1 : St) (t x τ : TId) (e : Ref) (c : CT) (a sz : Nat) (e' : Ref)
    (ht : s.nodes t = some (.sizeof e)) (he : Conv E (fun R => R.ev e) s (.ok (some x) s1))
    (w : WF s1) (hroom : Room s1 1) (hx : s1.nodes x = some (.lv (some τ) a false sz))
    (hτ : s1.nodes τ = some (.ctype c e')) :
    ∃ r s', Conv E (fun R => R.ev (some t)) s (.ok (some r) s') ∧ IsSize s1 s' r c.size :=
  ⟨_, _, sizeof_conv ht he w hroom (.var hx hτ (by simp)),
    szSt_isSize w hroom (by have := CT.size_le c; omega)⟩

/-- C38 for arrays: all bytes of the array. -/
theorem C38_array_partial (E : Env) (s s1 : St) (t x : TId) (e bt : Ref) (n m : Nat)
    (ht : s.nodes t = some (.sizeof e)) (he : Conv E (fun R => R.ev e) s (.ok (some x) s1))
    (w : WF s1) (hroom : Room s1 1) (hx : ArrayAt s1 x bt n m) (hn : n < 2 ^ 64) :
    ∃ r s', Conv E (fun R => R.ev (some t)) s (.ok (some r) s') ∧ IsSize s1 s' r n := by
  obtain ⟨τ, a, h1, h2, _, _⟩ := hx.lv
  exact ⟨_, _, sizeof_conv ht he w hroom (.array h1 h2), szSt_isSize w hroom hn⟩

/-- the trees `sizeof (unsigned short int)`, `sizeof x`, `sizeof a`, `sizeof (x = y)` -/
def stSizeof : St :=
  stOf [.ctype .int none, .lv (some 0) 4096 false 0, .ident "x", .sizeof (some 2), .kw .unsigned, .kw .short, .kw .int,
        .chain [4, 5, 6], .typeSpec (some 7) none, .sizeof (some 8), .ctype .ptr (some 0), .lv (some 10) 4104 true 40,
        .ident "a", .sizeof (some 12), .assign (some 2) (some 16), .sizeof (some 14), .ident "y", .lv (some 0) 4104 false 0]
    [⟨"x", 2, some 1⟩, ⟨"a", 12, some 11⟩, ⟨"y", 16, some 17⟩]
    [1, 0, 0, 0, 0, 0, 0, 0, 2, 16, 0, 0, 0, 0, 0, 0]

theorem stSizeof_room : Room stSizeof 1 := ⟨by decide +kernel, by simp [stSizeof, stOf], memOf_livelt _⟩

example : ∃ r s', Conv E0 (fun R => R.ev (some 9)) stSizeof (.ok (some r) s') ∧ IsSize stSizeof s' r CT.ushort.size :=
  C38_type_partial E0 stSizeof 9 8 7 .ushort (stOf_WF _ _ _) stSizeof_room rfl rfl
    ⟨[4, 5, 6], [.unsigned, .short, .int], rfl, .cons rfl (.cons rfl (.cons rfl .nil)), by decide, by decide⟩

example : ∃ r s', Conv E0 (fun R => R.ev (some 3)) stSizeof (.ok (some r) s') ∧ IsSize stSizeof s' r CT.int.size :=
  C38_var_partial E0 stSizeof stSizeof 3 1 0 (some 2) .int 4096 0 none rfl (Conv.of_ev 5 rfl (by intro h; cases h))
    (stOf_WF _ _ _) stSizeof_room rfl rfl

example : ∃ r s', Conv E0 (fun R => R.ev (some 13)) stSizeof (.ok (some r) s') ∧ IsSize stSizeof s' r 40 :=
  C38_array_partial E0 stSizeof stSizeof 13 11 (some 12) (some 0) 40 4098 rfl (Conv.of_ev 5 rfl (by intro h; cases h))
    (stOf_WF _ _ _) stSizeof_room ⟨10, 4104, rfl, rfl, by decide +kernel, by decide +kernel⟩ (by decide)

/-- C38 in full is false: `sizeof (x = y)` assigns to `x`. -/
theorem C38_refuted : ¬ C38_statement := by
  intro h
  have := h E0 stSizeof _ 15 (some 14) _ rfl (stOf_Inv _ _ _) (Conv.computed 20 (by decide +kernel)) 4096 (by decide +kernel)
  exact absurd this (by decide +kernel)

end Bic
