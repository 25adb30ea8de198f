import Verif.Props.PtrAssign
import Verif.Props.Lazy
/-!
# C112, C113: sums, differences and comparisons of pointers

The sum of a pointer and an integer as a number is in C13.
-/

namespace Bic
open Spec

/-- `x` is a pointer to objects of the type `c`, given by the tree `b`; it holds the address `p` of the
user space -/
structure PointerTo (s : St) (x : TId) (b : TId) (c : CT) (p : Nat) : Prop where
  ptr : PtrTo s x (some b) p
  elem : ∃ e, s.nodes b = some (.ctype c e)
  user : p < 2 ^ 63

theorem PtrTo.holds {s : St} {x : TId} {bt : Ref} {p : Nat} (h : PtrTo s x bt p) : Holds s x .ptr p := by
  obtain ⟨τ, a, arr, sz, h1, h2, h3, h4⟩ := h.lv
  refine ⟨τ, a, ⟨⟨_, _, h1⟩, ⟨_, h2⟩, .inr rfl, h3⟩, ?_⟩
  rw [h4]
  have hlt := Mem.load_lt s.mem 8 a
  show _ = CT.ptr.decode (s.mem.load 8 a)
  simp [CT.decode, CT.isSigned]

theorem PointerTo.denotes {s : St} {x b : TId} {c : CT} {p : Nat} (h : PointerTo s x b c p) : Denotes s x p := by
  refine .inr ⟨.ptr, p, h.ptr.holds, (toPtrdiff_of_inRange ?_).symm⟩
  have := h.user
  constructor
  · show -(2 ^ (64 - 1) : Int) ≤ p
    omega
  · show (p : Int) < 2 ^ (64 - 1)
    omega

/-! ## C112 -/

/-- `*(p + i)` is the element `i` of the array `p` points to: a variable of the type of the elements, at
the address `i` elements further. -/
def C112_statement : Prop :=
  ∀ (E : Env) (s s1 s2 : St) (t u l r x b : TId) (c : CT) (p : Nat) (i : Int), integral c →
    s.nodes u = some (.deref (some t)) → s.nodes t = some (.bin .add (some l) (some r)) →
    Conv E (fun R => R.ev (some l)) s (.ok (some x) s1) → Yields E s1 r i s2 → PointerTo s2 x b c p →
    0 ≤ p + i * (width c / 8 : Nat) → p + i * (width c / 8 : Nat) < 2 ^ 63 →
    ∃ y s' sz arr, Conv E (fun R => R.ev (some u)) s (.ok (some y) s') ∧
      s'.nodes y = some (.lv (some b) (p + i * (width c / 8 : Nat)).toNat arr sz)

/-- **C112**: it never is; every program that evaluates `*(p + i)` ends with an error. -/
theorem C112_dies (E : Env) (s s1 s2 : St) (t u l r x b : TId) (c : CT) (p : Nat) (i : Int)
    (hu : s.nodes u = some (.deref (some t))) (ht : s.nodes t = some (.bin .add (some l) (some r)))
    (hl : Conv E (fun R => R.ev (some l)) s (.ok (some x) s1)) (hr : Yields E s1 r i s2) (hx : PointerTo s2 x b c p) :
    ∃ s', Conv E (fun R => R.ev (some u)) s (.stop (.die "Derefencing something that isn't live") s') ∧ Ext s2 s' := by
  obtain ⟨y, s', h1, h2, h3⟩ := C70_arithmetic_partial E s s1 s2 t l r x .add p i (p + i) ht hl hr hx.denotes ⟨rfl, trivial⟩
  exact ⟨s', Conv.evNode hu (Conv.bind h1 (Conv.fixed fun R => by simp [peek_apply h2]; rfl)), h3⟩

/-! ## C113 -/

/-- the tree `l` is a variable (or another expression that has no effect): it evaluates to `x` -/
def IsVar (E : Env) (s : St) (l x : TId) : Prop := ∀ s', Ext s s' → Conv E (fun R => R.ev (some l)) s' (.ok (some x) s')

/-- The comparisons of two pointers are those of their addresses, and their difference is the number of
elements between them. -/
def C113_statement : Prop :=
  ∀ (E : Env) (s : St) (t l r x y b b' : TId) (c : CT) (p q : Nat), integral c → WF s → IsVar E s l x → IsVar E s r y →
    PointerTo s x b c p → PointerTo s y b' c q →
    (∀ o v, s.nodes t = some (.cmp o (some l) (some r)) → cOp (BOp.ofCmp o) p q v → GivesInt E s t v s) ∧
    ∀ d : Int, s.nodes t = some (.bin .sub (some l) (some r)) → (p : Int) = q + d * (width c / 8 : Nat) → GivesInt E s t d s

theorem PointerTo.ext {s s' : St} {x b : TId} {c : CT} {p : Nat} (h : PointerTo s x b c p) (e : Ext s s') : PointerTo s' x b c p := by
  obtain ⟨τ, a, arr, sz, h1, h2, h3, h4⟩ := h.ptr.lv
  obtain ⟨k, hk⟩ := h.elem
  exact ⟨⟨τ, a, arr, sz, e.nodes _ _ h1, e.nodes _ _ h2, by rw [e.mem]; exact h3, by rw [e.mem]; exact h4⟩, ⟨k, e.nodes _ _ hk⟩, h.user⟩

/-- **C113**, the comparisons: also with 0 (and other integers) and for any operands, the left one being
evaluated first. -/
theorem C113_compare (E : Env) (s s1 : St) (t l r x b : TId) (c : CT) (o : CmpOp) (p : Nat)
    (ht : s.nodes t = some (.cmp o (some l) (some r)))
    (hl : Conv E (fun R => R.ev (some l)) s (.ok (some x) s1)) (w : WF s1) (hx : PointerTo s1 x b c p) :
    ∃ s1', Ext s1 s1' ∧ ∀ (s2 : St) (y : TId) (v : Int), Conv E (fun R => R.ev (some r)) s1' (.ok (some y) s2) → WF s2 →
      ((∃ b' c' q, PointerTo s2 y b' c' q ∧ cOp (BOp.ofCmp o) p q v) ∨ ∃ z, s2.nodes y = some (.integer z) ∧ cOp (BOp.ofCmp o) p z v) →
      GivesInt E s t v s2 := by
  have key : ∃ s1', Ext s1 s1' ∧ ∀ (s2 : St) (y : TId) (v z : Int), Conv E (fun R => R.ev (some r)) s1' (.ok (some y) s2) → WF s2 →
      Denotes s2 y z → cOp (BOp.ofCmp o) p z v → GivesInt E s t v s2 := by
    obtain ⟨s1', h1, x1⟩ := Yields.comparable ⟨x, hl, w, hx.denotes⟩
    refine ⟨s1', x1, fun s2 y v z hr w2 hd hv => ?_⟩
    obtain ⟨s3, h3, x3⟩ := Yields.comparable ⟨y, hr, w2, hd⟩
    refine givesInt w2 x3 (Conv.evNode ht ?_)
    refine Conv.bind h1 (Conv.bind h3 (Conv.const ?_))
    rw [applyCmp_spec hv]
  obtain ⟨s1', x1, h⟩ := key
  refine ⟨s1', x1, fun s2 y v hr w2 hv => ?_⟩
  rcases hv with ⟨b', c', q, hq, hv⟩ | ⟨z, hz, hv⟩
  · exact h s2 y v q hr w2 hq.denotes hv
  · exact h s2 y v z hr w2 (.inl hz) hv

/-- **C113**, the difference: it counts bytes, whatever the pointers point to. -/
theorem C113_bytes (E : Env) (s : St) (t l r x y b b' : TId) (c c' : CT) (p q : Nat) (w : WF s) (hl : IsVar E s l x) (hr : IsVar E s r y)
    (hx : PointerTo s x b c p) (hy : PointerTo s y b' c' q) (ht : s.nodes t = some (.bin .sub (some l) (some r))) :
    GivesInt E s t (p - q) s :=
  C70_arithmetic_partial E s s s t l r x .sub p q (p - q) ht (hl s (Ext.refl _)) ⟨y, hr s (Ext.refl _), w, hy.denotes⟩ hx.denotes ⟨rfl, trivial⟩

/-- **C113** for pointers to objects of one byte. -/
theorem C113_pointers_partial (E : Env) (s : St) (t l r x y b b' : TId) (c : CT) (p q : Nat) (hc : width c = 8) (w : WF s)
    (hl : IsVar E s l x) (hr : IsVar E s r y) (hx : PointerTo s x b c p) (hy : PointerTo s y b' c q) :
    (∀ o v, s.nodes t = some (.cmp o (some l) (some r)) → cOp (BOp.ofCmp o) p q v → GivesInt E s t v s) ∧
    ∀ d : Int, s.nodes t = some (.bin .sub (some l) (some r)) → (p : Int) = q + d * (width c / 8 : Nat) → GivesInt E s t d s := by
  refine ⟨fun o v ht hv => ?_, fun d ht hd => ?_⟩
  · obtain ⟨s1', x1, h⟩ := C113_compare E s s t l r x b c o p ht (hl s (Ext.refl _)) w hx
    obtain ⟨z, s3, g1, g2, g3⟩ := h s1' y v (hr s1' x1) (x1.wf w) (.inl ⟨b', c, q, hy.ext x1, hv⟩)
    exact ⟨z, s3, g1, g2, x1.trans g3⟩
  · have e : d = p - q := by
      rw [hc] at hd
      omega
    rw [e]
    exact C113_bytes E s t l r x y b b' c c p q w hl hr hx hy ht

/-! ## Where they fail -/

/-- `int *p, *q;` with 4108 and 4100 (`*(p + 1)` is 9, `p - q` is 10, `p < q` is 11), `char *r, *t;` with 4098 and 4096
(`r - t` is 16, `r == t` is 17) -/
def stArith : St :=
  stOf [.ctype .int none, .ctype .ptr (some 0), .lv (some 1) 4096 false 0, .lv (some 1) 4104 false 0, .ident "p", .ident "q",
        .integer 1, .empty, .bin .add (some 4) (some 6), .deref (some 8), .bin .sub (some 4) (some 5), .cmp .lt (some 4) (some 5),
        .ctype .char none, .ctype .ptr (some 12), .lv (some 13) 4112 false 0, .lv (some 13) 4120 false 0,
        .bin .sub (some 18) (some 19), .cmp .eq (some 18) (some 19), .ident "r", .ident "t"]
    [⟨"p", 4, some 2⟩, ⟨"q", 5, some 3⟩, ⟨"r", 18, some 14⟩, ⟨"t", 19, some 15⟩]
    [12, 16, 0, 0, 0, 0, 0, 0, 4, 16, 0, 0, 0, 0, 0, 0, 2, 16, 0, 0, 0, 0, 0, 0, 0, 16, 0, 0, 0, 0, 0, 0]

theorem stArith_p : PointerTo stArith 2 0 .int 4108 := ⟨⟨1, 4096, false, 0, rfl, rfl, by decide +kernel, by decide +kernel⟩, ⟨_, rfl⟩, by decide⟩
theorem stArith_q : PointerTo stArith 3 0 .int 4100 := ⟨⟨1, 4104, false, 0, rfl, rfl, by decide +kernel, by decide +kernel⟩, ⟨_, rfl⟩, by decide⟩
theorem stArith_r : PointerTo stArith 14 12 .char 4098 := ⟨⟨13, 4112, false, 0, rfl, rfl, by decide +kernel, by decide +kernel⟩, ⟨_, rfl⟩, by decide⟩
theorem stArith_t : PointerTo stArith 15 12 .char 4096 := ⟨⟨13, 4120, false, 0, rfl, rfl, by decide +kernel, by decide +kernel⟩, ⟨_, rfl⟩, by decide⟩

theorem isVar_of {E : Env} {s : St} {l x : TId} {n : String} (h : s.nodes l = some (.ident n)) (hr : resolveGlobal n .normal s = some x) :
    IsVar E s l x := by
  intro s' e
  exact ident_conv (e.nodes _ _ h) ((e.resolveGlobal _ _).trans hr)

theorem stArith_sum : Yields E0 stArith 6 1 stArith := ⟨6, Conv.evNode rfl (Conv.pure _), stOf_WF _ _ _, .inl rfl⟩

/-- a case of `C112_dies` -/
example : ∃ s', Conv E0 (fun R => R.ev (some 9)) stArith (.stop (.die "Derefencing something that isn't live") s') ∧ Ext stArith s' :=
  C112_dies E0 stArith stArith stArith 8 9 4 6 2 0 .int 4108 1 rfl rfl (isVar_of rfl rfl _ (Ext.refl _)) stArith_sum stArith_p

/-- **C112** fails: for `int *p`, `*(p + 1)` ends with an error. -/
theorem C112_refuted : ¬ C112_statement := by
  intro h
  obtain ⟨y, s', _, _, h1, _⟩ := h E0 stArith stArith stArith 8 9 4 6 2 0 .int 4108 1 trivial rfl rfl (isVar_of rfl rfl _ (Ext.refl _))
    stArith_sum stArith_p (by decide) (by decide)
  obtain ⟨s2, h2, _⟩ := C112_dies E0 stArith stArith stArith 8 9 4 6 2 0 .int 4108 1 rfl rfl (isVar_of rfl rfl _ (Ext.refl _)) stArith_sum stArith_p
  have := Conv.unique h1 h2
  cases this

/-- **C113** fails: the difference of two pointers to `int` is four times the number of elements. -/
theorem C113_refuted : ¬ C113_statement := by
  intro h
  obtain ⟨y, s', h1, h2, _⟩ := (h E0 stArith 10 4 5 2 3 0 0 .int 4108 4100 trivial (stOf_WF _ _ _) (isVar_of rfl rfl) (isVar_of rfl rfl)
    stArith_p stArith_q).2 2 rfl (by decide)
  obtain ⟨y', s'', h3, h4, _⟩ := C113_bytes E0 stArith 10 4 5 2 3 0 0 .int .int 4108 4100 (stOf_WF _ _ _) (isVar_of rfl rfl) (isVar_of rfl rfl)
    stArith_p stArith_q rfl
  have e := Conv.unique h1 h3
  injection e with e1 e2
  injection e1 with e1
  subst e1 e2
  rw [h2] at h4
  simp at h4

/-- cases of `C113_pointers_partial`: `r - t` and `r == t` -/
example : GivesInt E0 stArith 16 2 stArith :=
  (C113_pointers_partial E0 stArith 16 18 19 14 15 12 12 .char 4098 4096 rfl (stOf_WF _ _ _) (isVar_of rfl rfl) (isVar_of rfl rfl)
    stArith_r stArith_t).2 2 rfl (by decide)

example : GivesInt E0 stArith 17 0 stArith :=
  (C113_pointers_partial E0 stArith 17 18 19 14 15 12 12 .char 4098 4096 rfl (stOf_WF _ _ _) (isVar_of rfl rfl) (isVar_of rfl rfl)
    stArith_r stArith_t).1 .eq 0 rfl (.inr ⟨by decide, rfl⟩)

/-- and of `C113_compare`: `p < q` -/
example : ∃ s', GivesInt E0 stArith 11 0 s' := by
  obtain ⟨s1, x1, h⟩ := C113_compare E0 stArith stArith 11 4 5 2 0 .int .lt 4108 rfl (isVar_of rfl rfl _ (Ext.refl _)) (stOf_WF _ _ _) stArith_p
  exact ⟨s1, h s1 3 0 (isVar_of rfl rfl _ x1) (x1.wf (stOf_WF _ _ _)) (.inl ⟨0, .int, 4100, stArith_q.ext x1, .inr ⟨by decide, rfl⟩⟩)⟩

end Bic
