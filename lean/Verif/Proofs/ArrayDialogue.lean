import Verif.Spec.ArrayDialogue
import Verif.Proofs.StructDialogue
/-!
# Lines that use the elements of an array
-/

namespace Bic.Repl
open Spec CSyn
open Lexer (Reads Follows)
open _root_.Bic.Parser (PT T K Der Rep nameStr rep_single rep_one we_der specs_der' rep_kws specs_kw resolveKws_gives)
open Printer (Floats)
open CText (Text ascii)

theorem KeptBut.grow {s0 s s' : St} {x : String} (k : KeptBut s0 s x) (e : Grow s s') : KeptBut s0 s' x :=
  ⟨fun t n hp h => e.nodes _ _ (k.nodes t n hp h), fun b h => e.live b (k.live b h), fun b h => (e.byte b (k.live b h)).trans (k.byte b h),
    fun y hy => (e.resolveGlobal y _).trans (k.names y hy), e.includes.trans k.includes⟩

/-- the elements of the array `x`, which was declared in the state `s0`, hold these values -/
structure Elems (s0 s : St) (x : String) (k : CT) (n : Nat) (σ : AVals) (cap : Nat) : Prop where
  wf : WF s
  kept : KeptBut s0 s x
  cap : Cap s cap
  cells : ∃ y bt m τ a, resolveGlobal x .normal s = some y ∧ (∃ e, s.nodes bt = some (.ctype k e)) ∧
    s.nodes y = some (.lv (some τ) a true (k.size * n)) ∧ s.nodes τ = some (.ctype .ptr (some bt)) ∧ s.mem.ok 8 a = true ∧
    m = s.mem.load 8 a ∧ m + k.size * n ≤ a ∧ m + k.size * n < 2 ^ 64 ∧ s.mem.ok (k.size * n) m = true ∧
    (∀ b, m ≤ b → s0.mem.live b = false) ∧ ∀ i v, σ i = some v → i < n ∧ v = k.decode (s.mem.load k.size (m + k.size * i))

theorem elem_within {k : CT} {n i : Nat} (h : i < n) : k.size * i + k.size ≤ k.size * n := by
  rw [← Nat.mul_succ]
  exact Nat.mul_le_mul_left _ h

theorem elem_ok {s : St} {k : CT} {n i m : Nat} (h : s.mem.ok (k.size * n) m = true) (hi : i < n) : s.mem.ok k.size (m + k.size * i) = true := by
  have := elem_within (k := k) hi
  rw [Mem.ok_iff] at h ⊢
  exact fun b h1 h2 => h b (by omega) (by omega)

theorem Elems.grow {s0 s s' : St} {x : String} {k n σ cap cap'} (h : Elems s0 s x k n σ cap) (e : Grow s s') (hc : s'.mem.brk + cap' ≤ s.mem.brk + cap) :
    Elems s0 s' x k n σ cap' := by
  obtain ⟨y, bt, m, τ, a, h1, ⟨ex, h2⟩, h3, h4, h5, h6, h7, h8, h9, h10, h11⟩ := h.cells
  refine ⟨e.wf h.wf, h.kept.grow e, ⟨by have := h.cap.brk; omega, e.ctxs_ne h.cap.ctxs, e.livelt h.cap.livelt⟩, y, bt, m, τ, a,
    (e.resolveGlobal x _).trans h1, ⟨ex, e.nodes _ _ h2⟩, e.nodes _ _ h3, e.nodes _ _ h4, e.ok h5, by rw [e.load h5]; exact h6, h7, h8, e.ok h9, h10, ?_⟩
  intro i v hv
  obtain ⟨j1, j2⟩ := h11 i v hv
  exact ⟨j1, by rw [e.load (elem_ok h9 j1)]; exact j2⟩

theorem Elems.ext {s0 s s' : St} {x : String} {k n σ cap} (h : Elems s0 s x k n σ cap) (e : Ext s s') : Elems s0 s' x k n σ cap :=
  h.grow e.grow (by rw [e.mem])

/-- storing into an element -/
theorem Elems.set {s0 s : St} {x : String} {k n σ cap} (h : Elems s0 s x k n σ cap) {j : Nat} (hj : j < n) :
    ∀ {y τ a m : Nat}, resolveGlobal x .normal s = some y → s.nodes y = some (.lv (some τ) a true (k.size * n)) → m = s.mem.load 8 a → ∀ z : Int,
      Elems s0 (Bic.wr s k.size (m + k.size * j) (k.encode z)) x k n (fun i => if i = j then some (k.decode (k.encode z)) else σ i) cap := by
  obtain ⟨y, bt, m, τ, a, h1, ⟨ex, h2⟩, h3, h4, h5, h6, h7, h8, h9, h10, h11⟩ := h.cells
  intro y' τ' a' m' q1 q2 q3 z
  rw [h1] at q1
  cases q1
  rw [h3] at q2
  cases q2
  obtain rfl : m' = m := by rw [q3, h6]
  have hw := elem_within (k := k) hj
  refine ⟨wr_WF h.wf _ _ _, h.kept.wr fun b hb => h10 b (by omega), ?_, y, bt, m', τ, a, h1, ⟨ex, h2⟩, h3, h4, ?_, ?_, h7, h8, ?_, h10, ?_⟩
  · refine ⟨by rw [wr_mem, Mem.store_brk]; exact h.cap.brk, h.cap.ctxs, ?_⟩
    intro b hb
    rw [wr_mem, Mem.store_live] at hb
    rw [wr_mem, Mem.store_brk]
    exact h.cap.livelt b hb
  · rw [← h5]; exact Mem.ok_congr (by simp) _ _
  · rw [wr_mem, Mem.load_store_disj]
    · exact h6
    · omega
  · rw [← h9]; exact Mem.ok_congr (by simp) _ _
  · intro i v hv
    by_cases e : i = j
    · subst e
      rw [if_pos rfl] at hv
      cases hv
      refine ⟨hj, ?_⟩
      rw [wr_mem, Mem.load_store, Nat.mod_eq_of_lt (show _ < 256 ^ k.size from CT.encode_lt k z)]
    · rw [if_neg e] at hv
      obtain ⟨j1, j2⟩ := h11 i v hv
      refine ⟨j1, ?_⟩
      rw [wr_mem, Mem.load_store_disj]
      · exact j2
      · rcases Nat.lt_or_gt_of_ne e with h | h
        · have := elem_within (k := k) h
          omega
        · have := elem_within (k := k) h
          omega

/-! ### The declaration -/

/-- the tree of the declaration -/
structure ArrayDecl (nd : TId → Option Node) (t : TId) (k : CT) (x : String) (e : Expr) : Prop where
  trees : ∃ specs decls d id sz off, nd t = some (.decl (some specs) (some decls) off) ∧ TypeSpecs nd specs k ∧ nd decls = some (.chain [d]) ∧
    nd d = some (.array (some id) (some sz)) ∧ nd id = some (.ident x) ∧ ERep nd sz e

theorem arrayVar_der {TN k x e i} (h : WArrayVar cTable TN k x e i) :
    ∃ t, Der .replUnit i (.chain [t]) [] ∧ typedefNames t = [] ∧ (∀ s, t ≠ .cppInclude s) ∧
      ∀ {nd : TId → Option Node} {u}, Rep nd (.t t (some u)) → ArrayDecl nd u k (nameStr x) e := by
  cases h with
  | @mk ws _ _ _ i j hs hg he =>
    obtain ⟨t, d1, d2⟩ := we_der he
    refine ⟨_, .ruOne (.rsDecl (.dcDecl (specs_der' hs).1 (.idlOne (.idDecl (.dDirect (.ddArr .ddIdent d1)))))), ?_, nofun, ?_⟩
    · have : hasTypedef (.chain (ws.map .kw)) = false := by
        simp only [hasTypedef, List.any_eq_false, List.mem_map]
        rintro _ ⟨w, hw, rfl⟩
        have := specs_kw hs w hw
        cases w <;> first | exact absurd this (by decide) | simp
      simp [typedefNames, this]
    · intro nd u hx
      obtain ⟨g1, g2⟩ := resolveKws_gives (specs_kw hs) hg
      cases hx with
      | decl h5 h6 h7 =>
        cases h6 with
        | chain h8 h9 =>
          cases h7 with
          | chain h10 h11 =>
            obtain ⟨d, rfl, h12⟩ := rep_one h11
            cases h12 with
            | array h13 h14 h15 =>
              cases h14 with
              | ident h14 =>
                obtain ⟨v, rfl, h16⟩ := d2 h15
                exact ⟨_, _, _, _, _, _, h5, ⟨_, _, h8, rep_kws h9, g1, g2⟩, h10, h13, h14, h16⟩

theorem arrayDecl_conv {E : Env} {s0 s : St} {t : TId} {k : CT} {x : String} {e : Expr} {n cap : Nat} (he : Ext s0 s) (w : WF s0)
    (h : ArrayDecl s.nodes t k x e) (hf : Fresh s0 x) (hv : Val okOp okTruth (IntIs s0) e n) (hcap : Cap s0 (128 + k.size * n + cap)) :
    ∃ id s', Conv E (fun R => R.ev (some t)) s (.ok (some id) s') ∧ s'.nodes id = some (.ident x) ∧ Elems s0 s' x k n (fun _ => none) cap := by
  obtain ⟨specs, decls, d, id, sz, off, ht, hs, hd, ha, hid, hz⟩ := h.trees
  have hw := he.wf w
  have hc := Cap.ext hcap he
  have hlim : Mem.limit < 2 ^ 64 := by decide
  have x1 := addNode_ext hw (.ctype k none)
  have hτ := addNode_self s (.ctype k none)
  have x01 := he.trans x1
  have hf1 := Fresh.ext hf x01
  have hroom : Room s 2 := hc.room (by omega)
  obtain ⟨t', s', s'', h1, g, rfl, m, h4, h5, h6, h7, ty, a, h8, h9⟩ := handleDecl_array_conv (E := E) (v := (n : Int)) (sz := some sz) (x1.wf hw) (x1.nodes _ _ ha)
      (x1.nodes _ _ hid) hτ hf1.resolve
      (fun s2 g r0 => by
        have gg := x01.grow.trans g
        obtain ⟨y, s1, h1, h2, h3⟩ := eval_expr (E := E) (gg.wf w)
          (hv.mono (fun _ _ _ _ h => h) (fun _ _ h => h) (fun y v hy => VarIs.grow hy.varIs gg)) (hz.mono fun u q hu => g.nodes _ _ (x1.nodes _ _ hu))
        exact ⟨y, s1, h1, h2, h3⟩)
      (by omega) (hroom.ext x1) (by have := hc.brk; simp only [x1.mem, Int.toNat_natCast]; omega)
  simp only [Int.toNat_natCast, x1.mem, he.mem] at h4 h5 h6 h7 h8 h9
  have gg := x01.grow.trans g
  have hlive : ∀ b, m ≤ b → s0.mem.live b = false := by
    intro b hb
    cases hl : s0.mem.live b with
    | false => rfl
    | true =>
      have := hcap.livelt b hl
      omega
  obtain ⟨τ, a', p1, p2, p3, p4⟩ := h4.lv
  rw [h8] at p1
  cases p1
  have hbrk := hcap.brk
  refine ⟨id, bindSt s' ⟨x, id, some t'⟩, evalDecl_conv hw ht hs ?_, g.nodes _ _ (x1.nodes _ _ hid), gg.wf w, ⟨?_, ?_, ?_, ?_, ?_⟩, ⟨?_, ?_, ?_⟩,
    t', s.next, m, τ, a, resolveGlobal_bind (hf.grow gg) (gg.ctxs_ne hcap.ctxs), ⟨none, g.nodes _ _ hτ⟩, h8, p2, p3, p4, h9, ?_, h5, hlive, nofun⟩
  · refine (Conv.bind h1 (Conv.pure _)).of_eq (g := fun R => eachDecl (fun d => R.handleDecl d (some s.next)) (some decls))
      fun R => ?_
    simp [eachDecl, peek_apply (x1.nodes _ _ hd), forEachLast]
  · exact fun u q _ hu => gg.nodes _ _ hu
  · exact fun b hb => gg.live b hb
  · exact fun b hb => gg.byte b hb
  · intro y hy
    rw [resolveGlobal_other hy]
    exact gg.resolveGlobal y _
  · exact gg.includes
  · show s'.mem.brk + cap < _
    omega
  · intro h0
    have := gg.ctxs_ne hcap.ctxs
    cases hs' : s'.ctxs with
    | nil => exact this hs'
    | cons c cs => simp [bindSt, bindCur, hs'] at h0
  · exact gg.livelt hcap.livelt
  · have h10 : a + 8 ≤ s'.mem.brk := below (gg.livelt hcap.livelt) p3
    omega

/-! ### The lines -/

/-- the tree of the line -/
inductive AInputRep (nd : TId → Option Node) (x : String) : TId → AInput → Prop
  | set {t u l r o d i e} : Wrap nd t u → nd u = some (.assign (some l) (some r)) → nd l = some (.arrAccess (some o) (some d)) →
      nd o = some (.ident x) → ERep nd d i → ERep nd r e → AInputRep nd x t (.set i e)
  | get {t u o d i} : Wrap nd t u → nd u = some (.arrAccess (some o) (some d)) → nd o = some (.ident x) → ERep nd d i → AInputRep nd x t (.get i)

theorem ainput_der {TN x p i} (h : WAInput cTable TN x p i) :
    ∃ t, Der .replUnit i (.chain [t]) [] ∧ typedefNames t = [] ∧ (∀ s, t ≠ .cppInclude s) ∧
      ∀ {nd : TId → Option Node} {u}, Rep nd (.t t (some u)) → AInputRep nd (nameStr x) u p := by
  have key : ∀ {i t}, Der .assignment i t [.p .semi] →
      (∀ {nd : TId → Option Node} {u v}, Rep nd (.t t (some v)) → Wrap nd u v → AInputRep nd (nameStr x) u p) →
      ∃ t, Der .replUnit i (.chain [t]) [] ∧ typedefNames t = [] ∧ (∀ s, t ≠ .cppInclude s) ∧
        ∀ {nd : TId → Option Node} {u}, Rep nd (.t t (some u)) → AInputRep nd (nameStr x) u p := by
    intro i t h1 h2
    refine ⟨_, .ruOne (.rsExpr (.esExpr (.exOne h1))), rfl, nofun, ?_⟩
    intro nd u hu
    obtain ⟨x, _, v, e, _, h3, h4⟩ := rep_single hu
    cases e
    exact h2 h3 h4
  cases h with
  | set hi he =>
    obtain ⟨ti, i1, i2⟩ := we_der hi
    obtain ⟨te, e1, e2⟩ := we_der he
    refine key (.asOp (k := .assign) (f := fun l r => .assign l r) (.uPostfix (.poIndex (.poPrimary .pIdent) i1)) rfl e1) ?_
    intro nd u v hr hx
    cases hr with
    | assign h3 h4 h5 =>
      obtain ⟨v, rfl, h6⟩ := e2 h5
      cases h4 with
      | arrAccess h7 h8 h9 =>
        cases h8 with
        | ident h8 =>
          obtain ⟨w, rfl, h10⟩ := i2 h9
          exact .set hx h3 h7 h8 h10 h6
  | get hi =>
    obtain ⟨ti, i1, i2⟩ := we_der hi
    refine key (Parser.nt_down (p := 2) (q := 16) (.poIndex (.poPrimary .pIdent) i1) (by omega) (by omega)) ?_
    intro nd u v hr hx
    cases hr with
    | arrAccess h7 h8 h9 =>
      cases h8 with
      | ident h8 =>
        obtain ⟨w, rfl, h10⟩ := i2 h9
        exact .get hx h7 h8 h10

/-- evaluating `x[i]` -/
theorem elem_conv {E : Env} {s0 s : St} {x : String} {k : CT} {n cap : Nat} {σ : AVals} {u o d : TId} {i : Expr} {j : Nat}
    (g : Elems s0 s x k n σ (cap + 96)) (hu : s.nodes u = some (.arrAccess (some o) (some d))) (ho : s.nodes o = some (.ident x)) (hd : ERep s.nodes d i)
    (hi : Val okOp okTruth (fun y v => IntIs s0 y v ∧ y ≠ x) i j) (hj : j < n) :
    ∃ r s' bt y τ a m, Conv E (fun R => R.ev (some u)) s (.ok (some r) s') ∧ Grow s s' ∧ Elems s0 s' x k n σ cap ∧
      resolveGlobal x .normal s' = some y ∧ s'.nodes y = some (.lv (some τ) a true (k.size * n)) ∧ m = s'.mem.load 8 a ∧
      s'.nodes r = some (.lv (some bt) (m + k.size * j) false 0) ∧ (∃ e, s'.nodes bt = some (.ctype k e)) ∧ s'.mem.ok k.size (m + k.size * j) = true ∧
      ∀ v, σ j = some v → v = k.decode (s'.mem.load k.size (m + k.size * j)) := by
  obtain ⟨y, bt, m, τ, a, h1, ⟨ex, h2⟩, h3, h4, h5, h6, h7, h8, h9, h10, h11⟩ := g.cells
  obtain ⟨q, s2, k1, k2, k3, k4⟩ := eval_full (E := E) g.wf (fun _ _ h => (g.kept.intIs h.2 h.1).varIs) hi hd
  have g2 := g.ext k2
  obtain ⟨r, s', c1, c2, c3, c4⟩ := arrAccess_conv_brk (E := E) (x := y) (bt := bt) (p := m) (c := k) hu (ident_conv ho h1) k1 g2.wf (g2.cap.room (by omega))
    ⟨τ, a, true, k.size * n, k2.nodes _ _ h3, k2.nodes _ _ h4, by rw [k2.mem]; exact h5, by rw [k2.mem]; exact h6⟩ (k2.nodes _ _ h2) k3
  have gg := k2.grow.trans c2
  have hw := elem_within (k := k) hj
  have hj64 : j ≤ k.size * j := Nat.le_mul_of_pos_left _ (CT.size_pos k)
  have e1 : mpzGetUi (j : Int) = j := by unfold mpzGetUi; omega
  rw [e1, Nat.mod_eq_of_lt (by omega)] at c3
  refine ⟨r, s', bt, y, τ, a, m, c1, gg, g.grow gg (by rw [k2.mem] at c4; omega), (gg.resolveGlobal x _).trans h1, gg.nodes _ _ h3, by rw [gg.load h5]; exact h6, c3,
    ⟨ex, gg.nodes _ _ h2⟩, gg.ok (elem_ok h9 hj), ?_⟩
  intro v hv
  rw [gg.load (elem_ok h9 hj)]
  exact (h11 j v hv).2

theorem ainput_conv {E : Env} (fl : Floats) {s0 s : St} {x : String} {k : CT} {n cap : Nat} {σ σ' : AVals} {t : TId} {p : AInput} {out : Str} (hk : integral k)
    (g : Elems s0 s x k n σ (cap + 96)) (ht : AInputRep s.nodes x t p)
    (h : AReply (Val okOp okTruth fun y v => IntIs s0 y v ∧ y ≠ x) (bicVal s0 x k) (fun v _ z => z = v) k n σ p out σ') :
    ∃ s', Shown E fl s t out s' ∧ Elems s0 s' x k n σ' cap := by
  cases h with
  | @set i e v w z out j h1 h2 h3 h4 h5 h6 =>
    subst h5
    cases ht with
    | set w e1 e2 e3 e4 e5 =>
      obtain ⟨r, s1, bt, y, τ, a, m, c1, gr, c2, c3, c4, c5, c6, ⟨ex, c7⟩, c8, -⟩ := elem_conv (E := E) g e2 e3 e4 h1 h2
      obtain ⟨hv, hcomp, hfit⟩ := h3
      obtain ⟨q, s2, k1, k2, k3, k4⟩ := eval_full (E := E) c2.wf (fun _ _ h => (c2.kept.intIs h.2 h.1).varIs) hv (e5.mono gr.nodes)
      have hq := k4.1 hcomp
      have hl : LvAt s2 r bt k (m + k.size * j) := ⟨⟨_, _, k2.nodes _ _ c6⟩, ⟨ex, k2.nodes _ _ c7⟩, .inl hk, by rw [k2.mem]; exact c8⟩
      have := assign_conv e1 c1 k1 hl hk (.int hq)
      refine ⟨_, .inl ⟨q, _, w.conv this, rfl, fun o => ?_⟩, ?_⟩
      · rw [decimal_unique h6]
        exact prints_int (s := wr s2 _ _ _) (.inl hq) o
      · have := (c2.ext k2).set h2 ((k2.resolveGlobal x _).trans c3) (k2.nodes _ _ c4) (m := m) (by rw [k2.mem]; exact c5) (mpzGetSi z)
        rw [Converts.unique (.inl hk) (getSi_converts hk hfit) h4] at this
        exact this
  | get h1 h2 h3 h4 =>
    cases ht with
    | get w e1 e2 e3 =>
      obtain ⟨r, s1, bt, y, τ, a, m, c1, gr, c2, c3, c4, c5, c6, ⟨ex, c7⟩, c8, c9⟩ := elem_conv (E := E) g e1 e2 e3 h1 h2
      refine ⟨s1, .inl ⟨r, _, w.conv c1, rfl, fun o => ?_⟩, c2⟩
      rw [decimal_unique h4]
      exact prints_int (.inr ⟨k, hk, bt, _, ⟨⟨_, _, c6⟩, ⟨ex, c7⟩, .inl hk, c8⟩, c9 _ h3⟩) o

end Bic.Repl
