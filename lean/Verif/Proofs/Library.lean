import Verif.Spec.Library
import Verif.Proofs.Startup
import Verif.Props.ExtCall
/-!
# Lines that call library functions
-/

namespace Bic
open Spec

/-! ### How arguments are passed -/

/-- bic passes the value of a variable as it is, and any other value as an `int` -/
def bicCalling : Calling where
  arg σ c e v w :=
    (computed e = true ∧ InRange .long v ∧ ∃ u, Converts .int v u ∧ Converts c u w) ∨ ∃ y d, e = .var y ∧ σ.Has y d (some v) ∧ Converts c v w
  many n := n ≤ 32

/-- what both do: variables; values that fit an `int`, or any value for parameters of at most 32 bits -/
def okCalling : Calling where
  arg σ c e v w := Converts c v w ∧
    ((computed e = true ∧ (InRange .int v ∨ width c ≤ 32 ∧ InRange .long v)) ∨ ∃ y d, e = .var y ∧ σ.Has y d (some v))
  many n := n ≤ 32

theorem converts_add {c : CT} {v v' w : Int} (k : Int) (hk : v' = v + k * 2 ^ 64) (hc : integral c) (h : Converts c v w) : Converts c v' w := by
  obtain ⟨h1, j, hj⟩ := h
  refine ⟨h1, ?_⟩
  cases c <;> simp [integral] at hc <;> simp only [width] at hj ⊢
  · exact ⟨j + k * 2 ^ 56, by omega⟩
  · exact ⟨j + k * 2 ^ 48, by omega⟩
  · exact ⟨j + k * 2 ^ 32, by omega⟩
  · exact ⟨j + k, by omega⟩
  · exact ⟨j + k, by omega⟩
  · exact ⟨j + k * 2 ^ 56, by omega⟩
  · exact ⟨j + k * 2 ^ 48, by omega⟩
  · exact ⟨j + k * 2 ^ 32, by omega⟩
  · exact ⟨j + k, by omega⟩
  · exact ⟨j + k, by omega⟩

theorem converts_add32 {c : CT} {v v' w : Int} (k : Int) (hk : v' = v + k * 2 ^ 32) (hc : integral c) (hw : width c ≤ 32) (h : Converts c v w) :
    Converts c v' w := by
  obtain ⟨h1, j, hj⟩ := h
  refine ⟨h1, ?_⟩
  cases c <;> simp [integral] at hc <;> simp [width] at hw <;> simp only [width] at hj ⊢
  · exact ⟨j + k * 2 ^ 24, by omega⟩
  · exact ⟨j + k * 2 ^ 16, by omega⟩
  · exact ⟨j + k, by omega⟩
  · exact ⟨j + k * 2 ^ 24, by omega⟩
  · exact ⟨j + k * 2 ^ 16, by omega⟩
  · exact ⟨j + k, by omega⟩

theorem carries_reads {c : CT} {reg : Nat} {v w : Int} (h : Carries reg v) (hc : integral c) (hw : Converts c v w) : Converts c reg w := by
  obtain ⟨_, k, hk⟩ := h
  exact converts_add (-k) (by omega) hc hw

theorem okCalling_bic {σ : Store} {c : CT} {e : Expr} {v w : Int} (hc : integral c) (h : okCalling.arg σ c e v w) : bicCalling.arg σ c e v w := by
  obtain ⟨h, ⟨h1, h2⟩ | ⟨y, d, h1, h2⟩⟩ := h
  · refine .inl ⟨h1, ?_⟩
    rcases h2 with h2 | ⟨h2, h3⟩
    · exact ⟨inRange_sub h2 (by decide) (by decide), v, Converts.self h2, h⟩
    · obtain ⟨hr, k, hk⟩ := CT.decode_encode_converts (c := .int) (.inl (by decide)) v
      exact ⟨h3, _, ⟨hr, k, hk⟩, converts_add32 (-k) (by simp only [width] at hk; omega) hc h2 h⟩
  · exact .inr ⟨y, d, h1, h2, h⟩

/-! ### Evaluating the arguments -/

/-- how the arguments of the call arrive -/
theorem args_conv {E : Env} {σ : Store} {n : Nat} : ∀ {s : St} {cs : List CT} {es : List Expr} {ws : List Int} {ts : List TId}, Good s σ n →
    (∀ c ∈ cs, integral c) → Args okRules bicCalling σ cs es ws → ArgsRep s.nodes ts es →
    ∃ rs s1 as, Evs E s ts rs s1 ∧ Ext s s1 ∧ as.length = es.length ∧ List.Forall₂ (ArgAt s1) rs as ∧
      ∃ fs, (∀ k, passAll E none k as = fs) ∧ List.Forall₂ (fun (p : CT × FfiArg) w => Reads p.1 p.2 w) (cs.zip fs) ws ∧ fs.length = cs.length := by
  intro s cs es ws ts g hcs h hr
  induction h generalizing s ts with
  | nil =>
    cases hr
    exact ⟨[], s, [], .nil, .refl s, rfl, .nil, [], fun _ => rfl, .nil, rfl⟩
  | @cons c e v w cs es ws hv ha _ ih =>
    cases hr with
    | @cons t _ ts _ ht hts =>
      have hci := hcs c (by simp)
      have key : ∃ r s1 a, Conv E (fun R => R.ev (some t)) s (.ok (some r) s1) ∧ Ext s s1 ∧ ArgAt s1 r a ∧ Reads c (pass E false a) w := by
        rcases ha with ⟨h1, h2, u, h3, h4⟩ | ⟨y, d, rfl, h2, h3⟩
        · obtain ⟨r, s1, k1, k2, _, k4⟩ := eval_full (E := E) g.wf (fun _ _ ⟨_, i1, i2⟩ => g.rel.varIs i1 i2) hv ht
          refine ⟨r, s1, .const v, k1, k2, k4.1 h1, .int, _, rfl, ?_⟩
          have hl : -2 ^ 63 ≤ v ∧ v < 2 ^ 63 := by
            have h5 := h2.1
            have h6 := h2.2
            simp [lo, hi, signed, width] at h5 h6
            omega
          rw [mpzGetSi_eq hl.1 hl.2, ← Converts.unique (.inl (by decide)) h3 (CT.decode_encode_converts (c := .int) (.inl (by decide)) v)]
          exact carries_reads (carries_encode u) hci h4
        · obtain ⟨q, b, j1, j2, _⟩ := g.rel.find h2
          refine ⟨q, s, .int d v, var_conv (E := E) j1 ht rfl, .refl s, ?_, ?_⟩
          · obtain ⟨τ, hl⟩ := j2.at_
            exact ⟨τ, b, hl, j2.val v rfl⟩
          · have : pass E false (.int d v) = .int d (CT.ulong.encode v) := by cases d <;> rfl
            rw [this]
            exact ⟨_, _, rfl, carries_reads (carries_encode v) hci h3⟩
      obtain ⟨r, s1, a, k1, k2, k3, k4⟩ := key
      have hts' : ArgsRep s1.nodes ts es := hts.mono k2.nodes
      obtain ⟨rs, s2, as, m1, m2, m3, m4, fs, m5, m6, m7⟩ := ih (g.ext k2) (fun c hc => hcs c (by simp [hc])) hts'
      refine ⟨r :: rs, s2, a :: as, .cons k1 m1, k2.trans m2, by simp [m3], .cons (k3.grow m2.grow) m4, pass E false a :: fs,
        fun k => by simp [passAll, isVar, m5], .cons k4 m6, by simp [m7]⟩

/-! ### Declared functions -/

/-- the library function `f` with the value `q` for given values of the parameters: its address is `fa`, and it
changes nothing in the memory of the program -/
def Provided (E : Env) (f : String) (q : LibFn) (fa : Nat) : Prop :=
  E.dlsym f = some fa ∧ integral q.ret ∧ (∀ c ∈ q.params, integral c) ∧
    ∀ fs ws v m, fs.length = q.params.length → List.Forall₂ (fun (p : CT × FfiArg) w => Reads p.1 p.2 w) (q.params.zip fs) ws → q.val ws = some v →
      (E.extCall fa fs m).1 = m ∧ (E.extCall fa fs m).2.length ≤ 16 ∧ Returned q.ret (E.extCall fa fs m).2 v

/-- the library provides these functions -/
def Provides (E : Env) (Λ : String → Option LibFn) : Prop := ∀ f q, Λ f = some q → ∃ fa, Provided E f q fa

/-- the declaration of a function -/
def ProtoAt (nd : TId → Option Node) (t : TId) (f : String) (c : CT) : Prop :=
  ∃ fd args ds ρ e, nd t = some (.fn (some fd) args (some ρ) none) ∧ nd fd = some (.ident f) ∧ ListOf nd args ds ∧ VarPos nd ds none ∧ nd ρ = some (.ctype c e)

theorem ListOf.mono {nd nd' : TId → Option Node} (h : ∀ t n, nd t = some n → nd' t = some n) {l : Ref} {ts : List TId} (hl : ListOf nd l ts) : ListOf nd' l ts := by
  rcases hl with hl | ⟨x, rfl, h1⟩
  · exact .inl hl
  · exact .inr ⟨x, rfl, h _ _ h1⟩

/-- no parameter is `...` -/
def Fixed (nd : TId → Option Node) (ds : List TId) : Prop := ∀ d ∈ ds, ∃ n, nd d = some n ∧ n ≠ .variadic

theorem Fixed.mono {nd nd' : TId → Option Node} (h : ∀ t n, nd t = some n → nd' t = some n) {ds : List TId} (hf : Fixed nd ds) : Fixed nd' ds := by
  intro d hd
  obtain ⟨n, h1, h2⟩ := hf d hd
  exact ⟨n, h _ _ h1, h2⟩

theorem Fixed.varPos {nd : TId → Option Node} {ds : List TId} (h : Fixed nd ds) : VarPos nd ds none := by
  refine ⟨fun d hd => ?_, ?_⟩
  · obtain ⟨n, h1, _⟩ := h d hd
    rw [h1]; rfl
  · symm
    rw [List.findIdx?_eq_none_iff]
    intro d hd
    obtain ⟨n, h1, h2⟩ := h d hd
    rw [h1]
    simp [h2]

theorem VarPos.fixed {nd : TId → Option Node} {ds : List TId} (h : VarPos nd ds none) : Fixed nd ds := by
  intro d hd
  obtain ⟨n, hn⟩ := Option.isSome_iff_exists.mp (h.1 d hd)
  refine ⟨n, hn, ?_⟩
  rintro rfl
  have := List.findIdx?_eq_none_iff.mp h.2.symm d hd
  rw [hn] at this
  simp at this

theorem ProtoAt.mono {nd nd' : TId → Option Node} (h : ∀ t n, nd t = some n → nd' t = some n) {t f c} (hp : ProtoAt nd t f c) : ProtoAt nd' t f c := by
  obtain ⟨fd, args, ds, ρ, e, h1, h2, h3, h4, h5⟩ := hp
  exact ⟨fd, args, ds, ρ, e, h _ _ h1, h _ _ h2, h3.mono h, (h4.fixed.mono h).varPos, h _ _ h5⟩

/-- the functions `Δ` have been declared -/
structure LibAt (Λ : String → Option LibFn) (Δ : List String) (s : St) : Prop where
  sane : Sane s
  closures : s.closures = []
  protos : ∃ c, s.ctxs[0]? = some c ∧ ∀ f ∈ Δ, ∃ q t, Λ f = some q ∧ findId f c.ids = some t ∧ ProtoAt s.nodes t f q.ret

theorem LibAt.step {Λ : String → Option LibFn} {Δ : List String} {s s' : St} (h : LibAt Λ Δ s)
    (he : Sane s → Sane s' ∧ CtxsEvol s.ctxs s'.ctxs) (hk : Kept s s') (hc : s'.closures = s.closures) : LibAt Λ Δ s' := by
  obtain ⟨h1, h2⟩ := he h.sane
  obtain ⟨c, g1, g2⟩ := h.protos
  obtain ⟨c', g3, g4⟩ := h2.getElem? g1
  refine ⟨h1, hc.trans h.closures, c', g3, fun f hf => ?_⟩
  obtain ⟨q, t, t1, t2, t3⟩ := g2 f hf
  obtain ⟨add, e, _⟩ := g4.ids
  exact ⟨q, t, t1, by rw [e]; exact findId_append _ t2, t3.mono hk⟩

/-- the syntax tree of a declaration `c f(…);` -/
def ProtoRep (nd : TId → Option Node) (u : TId) (f : String) (c : CT) : Prop :=
  ∃ specs l ks off ch t fd args ds, nd u = some (.decl (some specs) (some ch) off) ∧ nd specs = some (.chain l) ∧ KwChain nd l ks ∧
    (∀ k ∈ ks, ignoredSpec k = false) ∧ resolveKws 0 ks = some (.c c) ∧ nd ch = some (.chain [t]) ∧
    nd t = some (.fn (some fd) args none none) ∧ nd fd = some (.ident f) ∧ ListOf nd args ds ∧ Fixed nd ds

/-- a declaration -/
theorem proto_conv {E : Env} {Λ : String → Option LibFn} {Δ : List String} {s : St} {u : TId} {f : String} {q : LibFn} {fr : Frame} {σ : Store} {n : Nat}
    (g : Good s (fr :: σ) n) (hd : ProtoRep s.nodes u f q.ret) (hf : Frame.find f fr = none) (hq : Λ f = some q) (F : LibAt Λ Δ s) :
    ∃ r s' k, Evl E s (some u) (some r) s' ∧ s'.nodes r = some k ∧ (∃ a b c d, k = .fn a b c d) ∧ Good s' ((fr ++ [(f, none)]) :: σ) n ∧ LibAt Λ (f :: Δ) s' ∧ cfg s' = cfg s ∧
      Kept s s' ∧ s'.ctxs.length = s.ctxs.length := by
  obtain ⟨specs, l, ks, off, c, t, fd, args, ds, g1, g2, g3, g4, g5, g6, g7, g8, g9, g10⟩ := hd
  have x := addNode_ext g.wf (tyNode (.c q.ret))
  have x2 := addNode_ext (x.wf g.wf) (.fn (some fd) args (some s.next) none)
  have xx := x.trans x2
  obtain ⟨as, h1, _⟩ := g.rel
  obtain ⟨k, kl, hk⟩ : ∃ k kl, s.ctxs = k :: kl := List.exists_cons_of_ne_nil g.room.ctxs
  rw [lookups_cons hk] at h1
  cases h1 with
  | cons h3 h4 =>
    have hfr := findId_absent (h3.fresh hf)
    have hx : resolveCurrent f .normal s = none := by simp [resolveCurrent, hk, Ctx.map, hfr]
    have hev := def_eval (E := E) g.wf g.room.ctxs hx g1 g2 g3 g4 g5 g6 g7 g8
    have hg : Good (defSt s (.c q.ret) f fd args none) ((fr ++ [(f, none)]) :: σ) n := bindSt_good (g.ext xx)
    have hkept : Kept s (defSt s (.c q.ret) f fd args none) := xx.nodes
    have hnew : (defSt s (.c q.ret) f fd args none).nodes (s.next + 1) = some (.fn (some fd) args (some s.next) none) :=
      addNode_self (addNode s (tyNode (.c q.ret))) _
    have hty : (defSt s (.c q.ret) f fd args none).nodes s.next = some (.ctype q.ret none) := x2.nodes _ _ (addNode_self s _)
    have hctx : (defSt s (.c q.ret) f fd args none).ctxs = { k with ids := k.ids ++ [⟨f, fd, some (s.next + 1)⟩] } :: kl := by
      show bindCur _ s.ctxs = _
      rw [hk]; rfl
    have hevt : Evt E s (some u) (some t) (defSt s (.c q.ret) f fd args none) := ⟨hev, by rw [hctx, hk]; rfl, hg.flags⟩
    refine ⟨t, _, _, hev, hkept _ _ g7, ⟨_, _, _, _, rfl⟩, hg, ⟨(hevt.keep F.sane).1, F.closures, _, by rw [hctx]; rfl, ?_⟩, rfl, hkept, hevt.2.1⟩
    obtain ⟨d, d1, d2⟩ := F.protos
    rw [hk] at d1
    cases d1
    intro f' hf'
    by_cases e : f' = f
    · subst e
      exact ⟨q, s.next + 1, hq, findId_append_fresh (h3.fresh hf), fd, args, ds, s.next, none, hnew, hkept _ _ g8, g9.mono hkept, (g10.mono hkept).varPos, hty⟩
    · have hm : f' ∈ Δ := by
        rcases List.mem_cons.mp hf' with h | h
        · exact absurd h e
        · exact h
      obtain ⟨q', t', t1, t2, t3⟩ := d2 f' hm
      exact ⟨q', t', t1, findId_append _ t2, t3.mono hkept⟩

/-- another declaration of the same function -/
theorem again_conv {E : Env} {Λ : String → Option LibFn} {Δ : List String} {s : St} {u : TId} {f : String} {c : CT} {σ : Store} {n : Nat}
    (g : Good s σ n) (hd : ProtoRep s.nodes u f c) (hf : f ∈ Δ) (F : LibAt Λ Δ s) :
    ∃ r s' k, Evl E s (some u) (some r) s' ∧ s'.nodes r = some k ∧ (∃ a b c d, k = .fn a b c d) ∧ Good s' σ n ∧ LibAt Λ Δ s' ∧ cfg s' = cfg s ∧
      Kept s s' ∧ s'.ctxs.length = s.ctxs.length := by
  obtain ⟨specs, l, ks, off, ch, t, fd, args, ds, g1, g2, g3, g4, g5, g6, g7, g8, g9, g10⟩ := hd
  have x := addNode_ext g.wf (tyNode (.c c))
  have x2 := addNode_ext (x.wf g.wf) (.fn (some fd) args (some s.next) none)
  have xx := x.trans x2
  obtain ⟨k, k1, k2⟩ := F.protos
  obtain ⟨q, p, p1, p2, p3⟩ := k2 f hf
  have hx : resolveCurrent f .normal s = some p := by
    cases hs : s.ctxs with
    | nil => exact absurd hs g.room.ctxs
    | cons d l =>
      rw [hs] at k1
      cases k1
      simp [resolveCurrent, hs, Ctx.map, p2]
  have hev := again_eval (E := E) g.wf hx g1 g2 g3 g4 g5 g6 g7 g8
  obtain ⟨_, _, _, _, _, p4, _⟩ := p3
  refine ⟨p, _, _, hev, xx.nodes _ _ p4, ⟨_, _, _, _, rfl⟩, g.ext xx, F.step (fun sa => ⟨sa.ext xx, by rw [xx.ctxs]; exact .refl _⟩) xx.nodes rfl, xx.cfg, xx.nodes, by rw [xx.ctxs]⟩

/-- the state after a function has been called that returned `bs` -/
theorem Good.result {s : St} {σ : Store} {n : Nat} (g : Good s σ (n + 1)) (ρ : Ref) (bs : List Byte) (ev : List Event) :
    Good { newVar s ρ with mem := (newVar s ρ).mem.storeBytes s.mem.brk bs, events := ev } σ n := by
  have x := newVar_grow g.wf ρ
  have hr := g.room.newVar g.wf ρ
  refine ⟨x.wf g.wf, flags_of (core_flags x.ctxs) g.flags, ⟨?_, hr.ctxs, ?_⟩, ?_⟩
  · show ((newVar s ρ).mem.storeBytes s.mem.brk bs).brk + _ < _
    rw [Mem.storeBytes_brk]
    exact hr.brk
  · intro y hy
    have hy' : ((newVar s ρ).mem.storeBytes s.mem.brk bs).live y = true := hy
    rw [Mem.storeBytes_live] at hy'
    show y < ((newVar s ρ).mem.storeBytes s.mem.brk bs).brk
    rw [Mem.storeBytes_brk]
    exact hr.livelt y hy'
  · obtain ⟨as, h1, h2⟩ := g.rel
    refine ⟨as, h1.map x.lookups fun t c v b _ h0 => ?_, h2⟩
    have h := h0.grow x
    have hd : b + 8 ≤ s.mem.brk := by
      have := g.room.livelt (b + 7) ((Mem.ok_iff _ _ _).mp h0.wide (b + 7) (by omega) (by omega))
      omega
    have hsz := integral_size h.int
    have hok : ∀ k, (newVar s ρ).mem.ok k b = true → ((newVar s ρ).mem.storeBytes s.mem.brk bs).ok k b = true := fun k hk => by
      rw [← hk]; exact Mem.ok_congr (Mem.storeBytes_live _ _ _) _ _
    have hld : ((newVar s ρ).mem.storeBytes s.mem.brk bs).load c.size b = (newVar s ρ).mem.load c.size b :=
      Mem.load_congr fun x h3 h4 => Mem.storeBytes_byte_other _ _ _ _ (by omega)
    obtain ⟨τ, ⟨a1, a2, a3, a4⟩⟩ := h.at_
    exact ⟨⟨τ, ⟨a1, a2, a3, hok _ a4⟩⟩, h.int, hok _ h.wide, fun w hw => by
      rw [h.val w hw]; show _ = c.decode (((newVar s ρ).mem.storeBytes s.mem.brk bs).load _ _); rw [hld]⟩

/-- `f(e, …);`: the parameters get these values, and the value of the call is that of the function -/
theorem libLine_at {E : Env} {s : St} {σ : Store} {f es t t'} {q : LibFn} {fa : Nat}
    {ws : List Int} {v : Int} {n : Nat} (g : Good s σ (1 + n)) (hcl : s.closures = [])
    (hfind : resolveGlobal f .normal s = some t') (hpr : ProtoAt s.nodes t' f q.ret)
    (hp : Provided E f q fa) (hn : es.length ≤ 32) (ha : Args okRules bicCalling σ q.params es ws) (hv : q.val ws = some v)
    (hr : SRep s.nodes (.stmt t) (.call f es)) :
    ∃ r s' fs, Evl E s (some t) (some r) s' ∧ Holds s' r q.ret v ∧ Good s' σ n ∧ Kept s s' ∧ s'.ctxs.length = s.ctxs.length ∧ s'.closures = s.closures ∧
      s'.events = s.events ++ [⟨fa, fs, none⟩] ∧ fs.length = q.params.length ∧
      List.Forall₂ (fun (p : CT × FfiArg) w => Reads p.1 p.2 w) (q.params.zip fs) ws := by
  obtain ⟨p1, p2, p3, p4⟩ := hp
  cases hr with
  | @call _ u i nd ca _ _ h1 h2 h3 h4 h5 h6 =>
    obtain ⟨fd, args, ds, ρ, e, t3, t4, t5, t6, t7⟩ := hpr
    obtain ⟨ts, l1, l2⟩ : ∃ ts, ListOf s.nodes ca ts ∧ ArgsRep s.nodes ts es := by
      rcases h4 with ⟨rfl, rfl⟩ | ⟨c, as, rfl, e1, e2, e3⟩
      · exact ⟨[], .inl ⟨rfl, rfl⟩, .nil⟩
      · exact ⟨as, .inr ⟨c, rfl, e1⟩, e3⟩
    obtain ⟨rs, s1, as, a1, a2, a3, a4, fs, a5, a6, a7⟩ := args_conv (E := E) g p3 ha l2
    have g1 : Good s1 σ (n + 1) := by rw [Nat.add_comm]; exact g.ext a2
    have hρ : s1.nodes ρ = some (.ctype q.ret e) := a2.nodes _ _ t7
    have x := newVar_grow g1.wf (some ρ)
    have hlen : rs.length ≤ 32 := by rw [a4.length_eq, a3]; exact hn
    obtain ⟨m1, m2, m3⟩ := p4 fs ws v (newVar s1 (some ρ)).mem a7 a6 hv
    have hcall := doExtCall_val (E := E) (fa := fa) (vp := none) (newVar_self s1 (some ρ)) (x.nodes _ _ hρ) (Forall2.imp_grow a4 x) hlen
      (by show findClosure fa s1.closures = none; rw [a2.closures, hcl]; rfl)
    rw [a5] at hcall
    have hst : resultSt E (newVar s1 (some ρ)) fa fs none s1.mem.brk =
        { newVar s1 (some ρ) with mem := (newVar s1 (some ρ)).mem.storeBytes s1.mem.brk (E.extCall fa fs (newVar s1 (some ρ)).mem).2,
                                  events := s1.events ++ [⟨fa, fs, none⟩] } := by
      simp only [resultSt, calledSt, m1]
      rfl
    have hev : Evl E s (some u) (some s1.next) (resultSt E (newVar s1 (some ρ)) fa fs none s1.mem.brk) := by
      refine libCall_decl h2 (ident_conv h3 hfind) t4 p1 t5 t6 l1 t3 ?_
      refine Conv.bind a1.conv ?_
      refine Conv.fixed fun R => ?_
      simp only [tailA, bind_apply, mkRet_type hρ (g1.room.mono (by omega)), hcall R, pure_apply]
    have gg : Good (resultSt E (newVar s1 (some ρ)) fa fs none s1.mem.brk) σ n := by
      rw [hst]
      exact g1.result _ _ _
    have hk : Kept s (resultSt E (newVar s1 (some ρ)) fa fs none s1.mem.brk) := fun t n hn => x.nodes _ _ (a2.nodes t n hn)
    have hev' := h1.conv hev
    refine ⟨_, _, fs, hev', ?_, gg, hk, ?_, ?_, ?_, a7, a6⟩
    · rw [hst]
      have hlt := newVar_lvAt g1.wf hρ (.inl p2)
      have hlt' : LvAt { newVar s1 (some ρ) with mem := (newVar s1 (some ρ)).mem.storeBytes s1.mem.brk (E.extCall fa fs (newVar s1 (some ρ)).mem).2, events := s1.events ++ [⟨fa, fs, none⟩] } s1.next ρ q.ret s1.mem.brk :=
        ⟨hlt.lv, hlt.ty, hlt.int, by rw [← hlt.ok]; exact Mem.ok_congr (Mem.storeBytes_live _ _ _) _ _⟩
      have hl : q.ret.size ≤ (E.extCall fa fs (newVar s1 (some ρ)).mem).2.length := by
        have := m3.1
        rw [List.length_take, ← width_size (.inl p2)] at this
        omega
      refine (hlt'.holds_iff v).mpr ?_
      show Represents q.ret (bytesAt ((newVar s1 (some ρ)).mem.storeBytes s1.mem.brk _) s1.mem.brk q.ret.size) v
      rw [storeBytes_take _ _ _ _ hl]
      exact m3
    · rw [hst]
      show (newVar s1 (some ρ)).ctxs.length = _
      have := congrArg List.length x.ctxs
      rw [List.length_map, List.length_map] at this
      rw [this, a2.ctxs]
    · rw [hst]
      show s1.closures = _
      exact a2.closures
    · rw [hst]
      show s1.events ++ _ = _
      rw [a2.events]

/-- … for a function that a line has declared -/
theorem libLine_conv {E : Env} {Λ : String → Option LibFn} {Δ : List String} {s : St} {fr : Frame} {f es t} {q : LibFn} {fa : Nat}
    {ws : List Int} {v : Int} {n : Nat} (g : Good s [fr] (1 + n)) (F : LibAt Λ Δ s) (hf : f ∈ Δ) (hq : Λ f = some q)
    (hp : Provided E f q fa) (hn : es.length ≤ 32) (ha : Args okRules bicCalling [fr] q.params es ws) (hv : q.val ws = some v)
    (hr : SRep s.nodes (.stmt t) (.call f es)) :
    ∃ r s' fs, Evl E s (some t) (some r) s' ∧ Holds s' r q.ret v ∧ Good s' [fr] n ∧ LibAt Λ Δ s' ∧ s'.includes = s.includes ∧
      s'.events = s.events ++ [⟨fa, fs, none⟩] ∧ fs.length = q.params.length ∧
      List.Forall₂ (fun (p : CT × FfiArg) w => Reads p.1 p.2 w) (q.params.zip fs) ws := by
  obtain ⟨c, c1, c2⟩ := F.protos
  obtain ⟨q', t', t1, t2, t3⟩ := c2 f hf
  rw [hq] at t1
  cases t1
  have hfind : resolveGlobal f .normal s = some t' := by
    cases hs : s.ctxs with
    | nil => exact absurd hs g.room.ctxs
    | cons d l =>
      rw [hs] at c1
      cases c1
      simp [resolveGlobal, findInChain, hs, Ctx.map, t2]
  obtain ⟨r, s', fs, k1, k2, k3, k4, k5, k6, k7, k8, k9⟩ := libLine_at (E := E) g F.closures hfind t3 hp hn ha hv hr
  exact ⟨r, s', fs, k1, k2, k3, F.step (Evt.keep ⟨k1, k5, k3.flags⟩) k4 k6, (Conv.evol k1 F.sane.inv).includes, k7, k8, k9⟩

end Bic

namespace Bic.Repl
open Spec CSyn
open Lexer (Follows)
open _root_.Bic.Parser (PT T K Der Rep nameStr rep_single args_der)
open Printer (Floats)
open CText (Text ascii)

/-- how the tree of a line looks in the heap -/
inductive LInputRep (nd : TId → Option Node) (t : TId) : LInput → Prop
  | plain {p} : InputRep nd t p → LInputRep nd t (.plain p)
  | proto {f c cs} : ProtoRep nd t f c → LInputRep nd t (.proto f c cs)
  | call {f es} : SRep nd (.stmt t) (.call f es) → LInputRep nd t (.call f es)

/-- a function is shown as nothing -/
theorem prints_fn {fl : Floats} {s : St} {r : TId} {k : Node} (h : s.nodes r = some k) (hk : ∃ a b c d, k = .fn a b c d) (out : Str) :
    Printer.Prints fl s r out ↔ out = [] := by
  obtain ⟨a, b, c, d, rfl⟩ := hk
  constructor
  · rintro (⟨h1, _⟩ | ⟨h1, _, h2⟩)
    · rw [h] at h1; cases h1
    · cases h2 with
      | other h2 h3 => rfl
      | _ h2 => rw [h] at h2; cases h2
  · rintro rfl
    exact .one h nofun (.other h rfl)

/-- the calls that were made -/
def CallOf (E : Env) (Λ : String → Option LibFn) (ev : Event) (p : String × List Int) : Prop :=
  ∃ q, Λ p.1 = some q ∧ E.dlsym p.1 = some ev.addr ∧ ev.variadic = none ∧ ev.args.length = q.params.length ∧
    List.Forall₂ (fun (p : CT × FfiArg) w => Spec.Reads p.1 p.2 w) (q.params.zip ev.args) p.2

theorem linput_conv {E : Env} (fl : Floats) {Λ : String → Option LibFn} {Δ Δ' : List String} {s : St} {fr fr' : Frame} {n m : Nat} {t : TId}
    {p : LInput} {out : Str} {calls} (hs : Provides E Λ) (g : Good s [fr] (n + m)) (F : LibAt Λ Δ s) (ht : LInputRep s.nodes t p)
    (h : LReply okRules bicShows bicCalling Λ fr Δ p out fr' Δ' calls n) :
    ∃ s' evs, Shown E fl s t out s' ∧ Good s' [fr'] m ∧ LibAt Λ Δ' s' ∧ s'.includes = s.includes ∧ s'.events = s.events ++ evs ∧
      List.Forall₂ (CallOf E Λ) evs calls := by
  cases h with
  | plain h =>
    cases ht with
    | plain ht =>
      obtain ⟨s', h1, h2, h3, _, h5, h6⟩ := input_keeps (E := E) fl g ht h
      simp only [cfg, Prod.mk.injEq] at h3
      refine ⟨s', [], h1, h2, F.step ?_ h5 h3.2.1, h3.1, by simp [h3.2.2], .nil⟩
      intro sa
      rcases h1 with ⟨q, _, h1, _⟩ | ⟨h1, _⟩
      · exact Evt.keep ⟨h1, h6, h2.flags⟩ sa
      · exact Evt.keep ⟨h1, h6, h2.flags⟩ sa
  | proto h1 h2 =>
    cases ht with
    | proto ht =>
      rw [Nat.zero_add] at g
      obtain ⟨r, s', k, k1, k2, k3, k4, k5, k6, -, -⟩ := proto_conv (E := E) g ht h2 h1 F
      simp only [cfg, Prod.mk.injEq] at k6
      exact ⟨s', [], .inl ⟨r, [], k1, rfl, prints_fn k2 k3⟩, k4, k5, k6.1, by simp [k6.2.2], .nil⟩
  | again h1 h2 =>
    cases ht with
    | proto ht =>
      rw [Nat.zero_add] at g
      obtain ⟨r, s', k, k1, k2, k3, k4, k5, k6, -, -⟩ := again_conv (E := E) g ht h2 F
      simp only [cfg, Prod.mk.injEq] at k6
      exact ⟨s', [], .inl ⟨r, [], k1, rfl, prints_fn k2 k3⟩, k4, k5, k6.1, by simp [k6.2.2], .nil⟩
  | @call f q es ws v z h1 h2 h3 h4 h5 h6 =>
    cases ht with
    | call ht =>
      obtain ⟨fa, hp⟩ := hs f q h2
      obtain ⟨r, s', fs, k1, k2, k3, k4, k5, k6, k7, k8⟩ := libLine_conv (E := E) g F h1 h2 hp h3 h4 h5 ht
      refine ⟨s', _, .inl ⟨r, z, k1, rfl, fun o => ?_⟩, k3, k4, k5, k6, .cons ⟨q, h2, hp.1, rfl, k7, k8⟩ .nil⟩
      rw [prints_int (.inr ⟨q.ret, hp.2.1, k2⟩), decimal_unique h6]

/-! ### Parsing -/

theorem type_der {c i r} (h : WType c i r) : ∃ s d, Der .paramDecl i (.decl s d) r := by
  cases h with
  | named hs _ => exact ⟨_, _, .pdDecl (Parser.specs_der' hs).1 (.dDirect .ddIdent)⟩
  | bare hs _ => exact ⟨_, _, .pdNone (Parser.specs_der' hs).1⟩

theorem types_der {cs i r} (h : WTypes cs i r) :
    ∃ ts, Der .paramList i (.chain ts) r ∧
      (∀ {i0 ts0}, Der .paramList i0 (.chain ts0) (.p .comma :: i) → Der .paramList i0 (.chain (ts0 ++ ts)) r) ∧ ∀ t ∈ ts, ∃ s d, t = .decl s d := by
  induction h with
  | one h =>
    obtain ⟨s, d, h1⟩ := type_der h
    exact ⟨[_], .plOne h1, fun h => .plMore h h1, by simp⟩
  | more h _ ih =>
    obtain ⟨s, d, h1⟩ := type_der h
    obtain ⟨ts, h3, h4, h5⟩ := ih
    refine ⟨_ :: ts, h4 (.plOne h1), fun {i0 ts0} h => ?_, ?_⟩
    · have := h4 (.plMore h h1)
      rwa [List.append_assoc] at this
    · intro t ht
      rcases List.mem_cons.mp ht with rfl | ht
      · exact ⟨_, _, rfl⟩
      · exact h5 t ht

theorem decls_fixed {nd : TId → Option Node} : ∀ {ts : List PT} {ls}, (∀ t ∈ ts, ∃ s d, t = .decl s d) → Rep nd (.l ts ls) → Fixed nd ls
  | [], _, _, h => by cases h; exact nofun
  | _ :: _, _, hd, h => by
    cases h with
    | cons h1 h2 =>
      obtain ⟨s, d, rfl⟩ := hd _ List.mem_cons_self
      cases h1 with
      | decl h1 _ _ =>
        have := decls_fixed (fun t ht => hd t (List.mem_cons_of_mem _ ht)) h2
        intro x hx
        rcases List.mem_cons.mp hx with rfl | hx
        · exact ⟨_, h1, nofun⟩
        · exact this x hx

theorem protoDecl_der {ws c s i j a r} (hs : WSpecs ws i (.ident s :: .p .lparen :: j)) (hg : CSpec.Gives ws (.arith c))
    (hd : Der .directDecl (.ident s :: .p .lparen :: j) (.fn (.ident s) a .null) (.p .semi :: r))
    (ha : ∀ {nd : TId → Option Node} {x}, Rep nd (.t a x) → ∃ ds, ListOf nd x ds ∧ Fixed nd ds) :
    ∃ t, Der .declaration i t r ∧ typedefNames t = [] ∧ (∀ s, t ≠ .cppInclude s) ∧
      ∀ {nd : TId → Option Node} {u}, Rep nd (.t t (some u)) → ProtoRep nd u (nameStr s) c := by
  obtain ⟨h1, -⟩ := Parser.specs_der' hs
  refine ⟨_, .dcDecl h1 (.idlOne (.idDecl (.dDirect hd))), ?_, nofun, ?_⟩
  · have : hasTypedef (.chain (ws.map .kw)) = false := by
      simp only [hasTypedef, List.any_eq_false, List.mem_map]
      rintro _ ⟨w, hw, rfl⟩
      have := Parser.specs_kw hs w hw
      cases w <;> first | exact absurd this (by decide) | simp
    simp [typedefNames, this]
  · intro nd u hx
    obtain ⟨g1, g2⟩ := Parser.resolveKws_gives (Parser.specs_kw hs) hg
    cases hx with
    | decl k1 k2 k3 =>
      cases k2 with
      | chain k4 k5 =>
        cases k3 with
        | chain k6 k7 =>
          obtain ⟨w, rfl, k8⟩ := Parser.rep_one k7
          cases k8 with
          | fn m1 m2 m3 m4 =>
            cases m2 with
            | ident m2 =>
              cases m4
              obtain ⟨ds, d1, d2⟩ := ha m3
              exact ⟨_, _, _, _, _, _, _, _, ds, k1, k4, Parser.rep_kws k5, g1, g2, k6, m1, m2, d1, d2⟩

theorem proto_der {ws c s i j a} (hs : WSpecs ws i (.ident s :: .p .lparen :: j)) (hg : CSpec.Gives ws (.arith c))
    (hd : Der .directDecl (.ident s :: .p .lparen :: j) (.fn (.ident s) a .null) [.p .semi])
    (ha : ∀ {nd : TId → Option Node} {x}, Rep nd (.t a x) → ∃ ds, ListOf nd x ds ∧ Fixed nd ds) :
    ∃ t, Der .replUnit i (.chain [t]) [] ∧ typedefNames t = [] ∧ (∀ s, t ≠ .cppInclude s) ∧
      ∀ {nd : TId → Option Node} {u}, Rep nd (.t t (some u)) → ProtoRep nd u (nameStr s) c := by
  obtain ⟨t, h1, h2, h3, h4⟩ := protoDecl_der hs hg hd ha
  exact ⟨t, .ruOne (.rsDecl h1), h2, h3, h4⟩

theorem linput_der {TN p i} (h : WLInput cTable TN p i) :
    ∃ t, Der .replUnit i (.chain [t]) [] ∧ typedefNames t = [] ∧ (∀ s, t ≠ .cppInclude s) ∧
      ∀ {nd : TId → Option Node} {u}, Rep nd (.t t (some u)) → LInputRep nd u p := by
  have call : ∀ {f es}, WSInput cTable TN (.call f es) i → ∃ t, Der .replUnit i (.chain [t]) [] ∧ typedefNames t = [] ∧ (∀ s, t ≠ .cppInclude s) ∧
      ∀ {nd : TId → Option Node} {u}, Rep nd (.t t (some u)) → LInputRep nd u (.call f es) := by
    intro f es h
    obtain ⟨t, h1, h2, h3, h4⟩ := sinput_der h
    exact ⟨t, h1, h2, h3, fun hr => by cases h4 hr with | call h => exact .call h⟩
  have many : ∀ {ws c s j cs a}, WSpecs ws i (.ident s :: .p .lparen :: j) → CSpec.Gives ws (.arith c) →
      Der .directDecl (.ident s :: .p .lparen :: j) (.fn (.ident s) a .null) [.p .semi] →
      (∀ {nd : TId → Option Node} {x}, Rep nd (.t a x) → ∃ ds, ListOf nd x ds ∧ Fixed nd ds) →
      ∃ t, Der .replUnit i (.chain [t]) [] ∧ typedefNames t = [] ∧ (∀ s, t ≠ .cppInclude s) ∧
        ∀ {nd : TId → Option Node} {u}, Rep nd (.t t (some u)) → LInputRep nd u (.proto (nameStr s) c cs) := by
    intro ws c s j cs a hs hg hd ha
    obtain ⟨t, h1, h2, h3, h4⟩ := proto_der hs hg hd ha
    exact ⟨t, h1, h2, h3, fun hr => .proto (h4 hr)⟩
  cases h with
  | plain h =>
    obtain ⟨t, h1, h2, h3, h4⟩ := input_der h
    exact ⟨t, h1, h2, h3, fun hr => .plain (h4 hr)⟩
  | proto hs hg ht =>
    obtain ⟨ts, h1, -, h2⟩ := types_der ht
    refine many hs hg (.ddFn .ddIdent (.ptlList h1)) ?_
    intro nd x hx
    cases hx with
    | chain h3 h4 => exact ⟨_, .inr ⟨_, rfl, h3⟩, decls_fixed h2 h4⟩
  | proto0 hs hg =>
    refine many hs hg (.ddFn0 .ddIdent) ?_
    intro nd x hx
    cases hx
    exact ⟨[], .inl ⟨rfl, rfl⟩, nofun⟩
  | protoVoid hs hg =>
    refine many hs hg (.ddFn .ddIdent (.ptlList (.plOne (.pdNone (.dsOne (.dsType (.typeKw (k := .void) rfl))))))) ?_
    intro nd x hx
    cases hx with
    | chain h3 h4 => exact ⟨_, .inr ⟨_, rfl, h3⟩, decls_fixed (by simp) h4⟩
  | call0 => exact call .call0
  | call h => exact call (.call h)

end Bic.Repl
