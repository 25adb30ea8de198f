import Verif.Model.Cscript
import Verif.Proofs.Calls
import Verif.Proofs.Pointers
import Verif.Proofs.Prog
/-!
# Running a script: the variables `argc` and `argv`
-/

namespace Bic
open Spec

/-! ## Adding declarations to the current scope -/

/-- add declarations to the innermost scope -/
def bindAll (bs : List Binding) : List Ctx → List Ctx
  | [] => []
  | c :: cs => { c with ids := c.ids ++ bs } :: cs

theorem bindAll_nil (l : List Ctx) : bindAll [] l = l := by cases l <;> simp [bindAll]

theorem bindAll_append (bs bs' l) : bindAll bs' (bindAll bs l) = bindAll (bs ++ bs') l := by
  cases l <;> simp [bindAll]

theorem bindAll_core (bs) (l : List Ctx) : (bindAll bs l).map Ctx.core = bindAll bs (l.map Ctx.core) := by
  cases l <;> simp [bindAll, Ctx.core]

theorem bindCur_core' (b) (l : List Ctx) : (bindCur b l).map Ctx.core = bindAll [b] (l.map Ctx.core) := by
  cases l <;> simp [bindCur, bindAll, Ctx.core]

/-- `s'` has more objects than `s`, among them those declared by `bs` -/
structure More (s s' : St) (bs : List Binding) : Prop where
  next : s.next ≤ s'.next
  nodes : ∀ t n, s.nodes t = some n → s'.nodes t = some n
  wf : WF s → WF s'
  ctxs : s'.ctxs.map Ctx.core = bindAll bs (s.ctxs.map Ctx.core)
  nextUid : s'.nextUid = s.nextUid
  includeCtx : s'.includeCtx = s.includeCtx
  closures : s'.closures = s.closures
  events : s'.events = s.events
  byte : ∀ b, s.mem.live b = true → s'.mem.byte b = s.mem.byte b
  live : ∀ b, s.mem.live b = true → s'.mem.live b = true
  brk : s.mem.brk ≤ s'.mem.brk
  livelt : LiveLt s.mem → LiveLt s'.mem

theorem Grow.more {s s' : St} (g : Grow s s') : More s s' [] :=
  ⟨g.next, g.nodes, g.wf, by rw [bindAll_nil]; exact g.ctxs, g.nextUid, g.includeCtx, g.closures, g.events, g.byte, g.live, g.brk, g.livelt⟩

theorem More.trans {s s' s'' : St} {bs bs'} (h : More s s' bs) (h' : More s' s'' bs') : More s s'' (bs ++ bs') where
  next := Nat.le_trans h.next h'.next
  nodes t n hn := h'.nodes t n (h.nodes t n hn)
  wf w := h'.wf (h.wf w)
  ctxs := by rw [h'.ctxs, h.ctxs, bindAll_append]
  nextUid := h'.nextUid.trans h.nextUid
  includeCtx := h'.includeCtx.trans h.includeCtx
  closures := h'.closures.trans h.closures
  events := h'.events.trans h.events
  byte b hb := (h'.byte b (h.live b hb)).trans (h.byte b hb)
  live b hb := h'.live b (h.live b hb)
  brk := Nat.le_trans h.brk h'.brk
  livelt hl := h'.livelt (h.livelt hl)

theorem bindSt_more (s : St) (b : Binding) : More s (bindSt s b) [b] :=
  ⟨Nat.le_refl _, fun _ _ h => h, id, bindCur_core' _ _, rfl, rfl, rfl, rfl, fun _ _ => rfl, fun _ h => h, Nat.le_refl _, id⟩

/-- writing into memory that did not exist in `s` -/
theorem More.wr {s s' : St} {bs} (h : More s s' bs) (n a v : Nat)
    (hf : ∀ x, a ≤ x → x < a + n → s.mem.live x = false) : More s (wr s' n a v) bs where
  next := h.next
  nodes := h.nodes
  wf := h.wf
  ctxs := h.ctxs
  nextUid := h.nextUid
  includeCtx := h.includeCtx
  closures := h.closures
  events := h.events
  byte b hb := by
    rw [wr_mem, Mem.store_byte_other]
    · exact h.byte b hb
    · by_cases h1 : b < a
      · exact .inl h1
      · by_cases h2 : b < a + n
        · have := hf b (by omega) h2; rw [hb] at this; cases this
        · exact .inr (by omega)
  live b hb := by rw [wr_mem, Mem.store_live]; exact h.live b hb
  brk := by rw [wr_mem, Mem.store_brk]; exact h.brk
  livelt hl x hx := by
    rw [wr_mem, Mem.store_live] at hx
    rw [wr_mem, Mem.store_brk]
    exact h.livelt hl x hx

theorem More.ctxs_ne {s s' : St} {bs} (h : More s s' bs) (hc : s.ctxs ≠ []) : s'.ctxs ≠ [] := by
  intro h'
  have h1 := h.ctxs
  rw [h'] at h1
  cases hs : s.ctxs with
  | nil => exact hc hs
  | cons c cs => rw [hs] at h1; simp [bindAll] at h1

theorem More.ok {s s' : St} {bs} (h : More s s' bs) {n a} (ho : s.mem.ok n a = true) : s'.mem.ok n a = true := by
  rw [Mem.ok_iff] at ho ⊢
  exact fun x h1 h2 => h.live x (ho x h1 h2)

theorem More.load {s s' : St} {bs} (h : More s s' bs) {n a} (ho : s.mem.ok n a = true) :
    s'.mem.load n a = s.mem.load n a := by
  rw [Mem.ok_iff] at ho
  exact Mem.load_congr fun x h1 h2 => h.byte x (ho x h1 h2)

theorem LvAt.more {s s' : St} {t τ c a bs} (h : LvAt s t τ c a) (x : More s s' bs) : LvAt s' t τ c a where
  lv := by obtain ⟨arr, sz, h⟩ := h.lv; exact ⟨arr, sz, x.nodes _ _ h⟩
  ty := by obtain ⟨e, h⟩ := h.ty; exact ⟨e, x.nodes _ _ h⟩
  int := h.int
  ok := x.ok h.ok

theorem Holds.more {s s' : St} {t c w bs} (h : Holds s t c w) (x : More s s' bs) : Holds s' t c w := by
  obtain ⟨τ, a, h, hw⟩ := h
  exact ⟨τ, a, h.more x, by rw [x.load h.ok]; exact hw⟩

theorem VarAt.more {s s' : St} {t c v a bs} (h : VarAt s t c v a) (x : More s s' bs) : VarAt s' t c v a where
  at_ := by obtain ⟨τ, h⟩ := h.at_; exact ⟨τ, h.more x⟩
  int := h.int
  wide := x.ok h.wide
  val w hw := by
    obtain ⟨τ, hl⟩ := h.at_
    rw [x.load hl.ok]; exact h.val w hw

theorem ArrayAt.more {s s' : St} {t bt n m bs} (h : ArrayAt s t bt n m) (x : More s s' bs) : ArrayAt s' t bt n m := by
  obtain ⟨τ, a, h1, h2, h3, h4⟩ := h.lv
  exact ⟨τ, a, x.nodes _ _ h1, x.nodes _ _ h2, x.ok h3, by rw [x.load h3]; exact h4⟩

theorem PtrTo.more {s s' : St} {t bt p bs} (h : PtrTo s t bt p) (x : More s s' bs) : PtrTo s' t bt p := by
  obtain ⟨τ, a, arr, sz, h1, h2, h3, h4⟩ := h.lv
  exact ⟨τ, a, arr, sz, x.nodes _ _ h1, x.nodes _ _ h2, x.ok h3, by rw [x.load h3]; exact h4⟩

theorem More.room {s s' : St} {bs k} (h : More s s' bs) (hr : Room s k) {k' : Nat} (hb : s'.mem.brk + 48 * k' ≤ s.mem.brk + 48 * k) :
    Room s' k' := ⟨by have := hr.brk; omega, h.ctxs_ne hr.ctxs, h.livelt hr.livelt⟩

theorem findId_app (x : String) (l bs : List Binding) :
    findId x (l ++ bs) = if ∃ b ∈ l, b.name = x then findId x l else findId x bs := by
  induction l with
  | nil => simp
  | cons b l ih =>
    rw [List.cons_append, findId, findId, ih]
    by_cases h : b.name = x
    · simp [h]
    · simp [h]

theorem findInChain_bindAll {s s' : St} {bs} (h : More s s' bs) (x ns) :
    findInChain x ns s'.ctxs = findInChain x ns (bindAll bs s.ctxs) :=
  findInChain_core x ns (h.ctxs.trans (bindAll_core bs s.ctxs).symm)

/-- a declared name denotes its object -/
theorem More.resolve {s s' : St} {bs} (h : More s s' bs) {x : String} {t : TId} (hx : Fresh s x) (hc : s.ctxs ≠ [])
    (hb : findId x bs = some t) : resolveGlobal x .normal s' = some t := by
  unfold resolveGlobal
  rw [findInChain_bindAll h]
  cases hs : s.ctxs with
  | nil => exact absurd hs hc
  | cons c cs =>
    have : findId x (c.ids ++ bs) = some t := by
      rw [findId_app, if_neg (by rintro ⟨b, h1, h2⟩; exact hx c cs hs b h1 h2), hb]
    simp only [bindAll, findInChain, Ctx.map, this]

/-- other names denote what they did -/
theorem More.resolve_other {s s' : St} {bs} (h : More s s' bs) {x : String} (hb : ∀ b ∈ bs, b.name ≠ x) :
    resolveGlobal x .normal s' = resolveGlobal x .normal s := by
  unfold resolveGlobal
  rw [findInChain_bindAll h, h.includeCtx]
  have hn : findId x bs = none := by
    clear h
    induction bs with
    | nil => rfl
    | cons b bs ih =>
      rw [findId, if_neg (hb b List.mem_cons_self)]
      exact ih fun d hd => hb d (List.mem_cons_of_mem _ hd)
  have hl : ∀ l, findId x (l ++ bs) = findId x l := by
    intro l
    rw [findId_app, hn]
    split
    · rfl
    · rename_i hne
      symm
      induction l with
      | nil => rfl
      | cons b l ih =>
        rw [findId, if_neg fun e => hne ⟨b, List.mem_cons_self, e⟩]
        exact ih fun ⟨d, hd, e⟩ => hne ⟨d, List.mem_cons_of_mem _ hd, e⟩
  cases hs : s.ctxs with
  | nil => rfl
  | cons c cs => simp only [bindAll, findInChain, Ctx.map, hl]

theorem More.fresh {s s' : St} {bs} (h : More s s' bs) {x : String} (hx : Fresh s x) (hb : ∀ b ∈ bs, b.name ≠ x) : Fresh s' x := by
  intro c cs hc b hm
  have h1 := h.ctxs
  cases hs : s.ctxs with
  | nil => rw [hs, hc] at h1; simp [bindAll] at h1
  | cons c' cs' =>
    rw [hs, hc] at h1
    simp only [List.map_cons, bindAll, List.cons.injEq, Ctx.core, Ctx.mk.injEq] at h1
    have h2 : c.ids = c'.ids ++ bs := h1.1.2.2.1
    rw [h2] at hm
    rcases List.mem_append.mp hm with hm | hm
    · exact hx c' cs' hs b hm
    · exact hb b hm

/-! ## Declarators with pointers -/

theorem resolvePtr_pointer {E : Env} {s : St} {d : TId} {e ty : Ref} {o} (hd : s.nodes d = some (.pointer e))
    (h : Conv E (fun R => R.resolvePtr e (some s.next)) (addNode s (.ctype .ptr ty)) o) :
    Conv E (fun R => R.resolvePtr (some d) ty) s o := by
  refine Conv.resolvePtr (h.of_eq fun R => ?_)
  simp [resolvePtrStep, peek_apply hd, mk_apply]

theorem resolvePtr_leaf {E : Env} {s : St} {d : TId} {ty : Ref} {n : Node} (hd : s.nodes d = some n)
    (hn : ∀ e, n ≠ .pointer e) : Conv E (fun R => R.resolvePtr (some d) ty) s (.ok (some d, ty) s) := by
  refine Conv.resolvePtr (Conv.fixed fun R => ?_)
  cases n <;> first
    | exact absurd rfl (hn _)
    | simp [resolvePtrStep, peek_apply hd]

/-- a declarator behind pointers -/
theorem handleDecl_resolve {E : Env} {s s' : St} {d ty ty' : Ref} {d' : TId} {n : Node} {o}
    (hp : Conv E (fun R => R.resolvePtr d ty) s (.ok (some d', ty') s')) (hd : s'.nodes d' = some n) (hn : ∀ e, n ≠ .pointer e)
    (h : Conv E (fun R => R.handleDecl (some d') ty') s' o) : Conv E (fun R => R.handleDecl d ty) s o := by
  obtain ⟨N, hN⟩ := hp
  obtain ⟨K, hK⟩ := h
  obtain ⟨L, hL⟩ := resolvePtr_leaf (E := E) (ty := ty') hd hn
  refine ⟨max N (max K L) + 1, fun n hn => ?_⟩
  obtain ⟨m, rfl⟩ : ∃ m, n = m + 1 := ⟨n - 1, by omega⟩
  have h1 := hN m (by omega)
  have h2 : (run E m).resolvePtr (some d') ty' s' = _ := hL m (by omega)
  have h3 := hK (m + 1) (by omega)
  have e : ∀ d ty, (run E (m + 1)).handleDecl d ty = handleDeclStep (run E m) d ty := fun _ _ => rfl
  simp only [e, handleDeclStep, bind_apply, h1] at h3 ⊢
  rw [h2] at h3
  exact h3

/-! ## Lists of statements -/

theorem evalElems_cons {E : Env} {s s1 : St} {t : TId} {ts : List TId} {r : Ref} {o} (h : Evl E s (some t) r s1) (hj : NoJump s1 r)
    (h2 : Conv E (fun R => evalElems R ts) s1 o) : Conv E (fun R => evalElems R (t :: ts)) s o := by
  unfold evalElems
  refine Conv.bind h (h2.congr fun R => ?_)
  cases r with
  | none => simp [peek_none]
  | some q =>
    obtain ⟨n, hn, hjn⟩ := hj q rfl
    cases n <;> simp [isJump] at hjn <;> simp [peek_apply hn]

namespace Script

/-! ## The trees of `create_arguments` -/

inductive ArgAssigns (nd : TId → Option Node) : Nat → List Nat → List TId → Prop
  | nil {i} : ArgAssigns nd i [] []
  | cons {i p ps a acc obj idx rhs as} : nd a = some (.assign (some acc) (some rhs)) →
      nd acc = some (.arrAccess (some obj) (some idx)) → nd obj = some (.ident "argv") →
      nd idx = some (.integer (i % 2 ^ 32 : Nat)) → nd rhs = some (.integer (p % 2 ^ 64 : Nat)) →
      ArgAssigns nd (i + 1) ps as → ArgAssigns nd i (p :: ps) (a :: as)

theorem ArgAssigns.mono {nd nd' : TId → Option Node} (h : ∀ t n, nd t = some n → nd' t = some n) {i ps as}
    (ha : ArgAssigns nd i ps as) : ArgAssigns nd' i ps as := by
  induction ha with
  | nil => exact .nil
  | cons h1 h2 h3 h4 h5 _ ih => exact .cons (h _ _ h1) (h _ _ h2) (h _ _ h3) (h _ _ h4) (h _ _ h5) ih

theorem argAssigns_apply (ps : List Nat) : ∀ {s : St} (_ : WF s) (i : Nat),
    ∃ as s', argAssigns i ps s = .ok as s' ∧ Ext s s' ∧ ArgAssigns s'.nodes i ps as := by
  induction ps with
  | nil => exact fun w i => ⟨[], _, rfl, Ext.refl _, .nil⟩
  | cons p ps ih =>
    intro s w i
    have x1 := addNode_ext w (.integer (i % 2 ^ 32 : Nat))
    have y1 := addNode_self s (.integer (i % 2 ^ 32 : Nat))
    have w1 := x1.wf w
    generalize e1 : addNode s (.integer (i % 2 ^ 32 : Nat)) = s1 at x1 y1 w1
    have x2 := addNode_ext w1 (.ident "argv")
    have y2 := addNode_self s1 (.ident "argv")
    have w2 := x2.wf w1
    generalize e2 : addNode s1 (.ident "argv") = s2 at x2 y2 w2
    have x3 := addNode_ext w2 (.arrAccess (some s1.next) (some s.next))
    have y3 := addNode_self s2 (.arrAccess (some s1.next) (some s.next))
    have w3 := x3.wf w2
    generalize e3 : addNode s2 (.arrAccess (some s1.next) (some s.next)) = s3 at x3 y3 w3
    have x4 := addNode_ext w3 (.integer (p % 2 ^ 64 : Nat))
    have y4 := addNode_self s3 (.integer (p % 2 ^ 64 : Nat))
    have w4 := x4.wf w3
    generalize e4 : addNode s3 (.integer (p % 2 ^ 64 : Nat)) = s4 at x4 y4 w4
    have x5 := addNode_ext w4 (.assign (some s2.next) (some s3.next))
    have y5 := addNode_self s4 (.assign (some s2.next) (some s3.next))
    have w5 := x5.wf w4
    generalize e5 : addNode s4 (.assign (some s2.next) (some s3.next)) = s5 at x5 y5 w5
    obtain ⟨as, s6, h6, x6, a6⟩ := ih w5 (i + 1)
    have x56 := x6
    have x46 := x5.trans x56
    have x36 := x4.trans x46
    have x26 := x3.trans x36
    have x16 := x2.trans x26
    refine ⟨s4.next :: as, s6, ?_, x1.trans x16,
      .cons (x56.nodes _ _ y5) (x36.nodes _ _ y3) (x26.nodes _ _ y2) (x16.nodes _ _ y1) (x46.nodes _ _ y4) a6⟩
    simp only [argAssigns, getInteger, getAddr, bind_apply, mk_apply, e1, e2, e3, e4, e5, h6, pure_apply]

/-- `int argc = n` -/
structure ArgcDecl (nd : TId → Option Node) (d id v asg : TId) (n : Nat) : Prop where
  decl : ∃ specs, nd d = some (.decl (some specs) (some asg) 0) ∧ TypeSpecs nd specs .int
  asg : nd asg = some (.assign (some id) (some v))
  id : nd id = some (.ident "argc")
  val : nd v = some (.integer (n % 2 ^ 32 : Nat))

/-- `char *argv[n]` -/
structure ArgvDecl (nd : TId → Option Node) (d id v arr : TId) (n : Nat) : Prop where
  decl : ∃ specs ptr, nd d = some (.decl (some specs) (some ptr) 0) ∧ TypeSpecs nd specs .char ∧ nd ptr = some (.pointer (some arr))
  arr : nd arr = some (.array (some id) (some v))
  id : nd id = some (.ident "argv")
  val : nd v = some (.integer (n % 2 ^ 32 : Nat))

theorem ArgcDecl.mono {nd nd' : TId → Option Node} (h : ∀ t n, nd t = some n → nd' t = some n) {d id v asg n}
    (a : ArgcDecl nd d id v asg n) : ArgcDecl nd' d id v asg n := by
  obtain ⟨⟨specs, h1, h2⟩, h3, h4, h5⟩ := a
  exact ⟨⟨specs, h _ _ h1, h2.mono h⟩, h _ _ h3, h _ _ h4, h _ _ h5⟩

theorem ArgvDecl.mono {nd nd' : TId → Option Node} (h : ∀ t n, nd t = some n → nd' t = some n) {d id v arr n}
    (a : ArgvDecl nd d id v arr n) : ArgvDecl nd' d id v arr n := by
  obtain ⟨⟨specs, ptr, h1, h2, h3⟩, h4, h5, h6⟩ := a
  exact ⟨⟨specs, ptr, h _ _ h1, h2.mono h, h _ _ h3⟩, h _ _ h4, h _ _ h5, h _ _ h6⟩

theorem argcDecl_apply {s : St} (w : WF s) (n : Nat) :
    ∃ d id v asg s', argcDecl n s = .ok d s' ∧ Ext s s' ∧ ArgcDecl s'.nodes d id v asg n := by
  have x1 := addNode_ext w (.ident "argc")
  have y1 := addNode_self s (.ident "argc")
  have w1 := x1.wf w
  generalize e1 : addNode s (.ident "argc") = s1 at x1 y1 w1
  have x2 := addNode_ext w1 (.integer (n % 2 ^ 32 : Nat))
  have y2 := addNode_self s1 (.integer (n % 2 ^ 32 : Nat))
  have w2 := x2.wf w1
  generalize e2 : addNode s1 (.integer (n % 2 ^ 32 : Nat)) = s2 at x2 y2 w2
  have x3 := addNode_ext w2 (.assign (some s.next) (some s1.next))
  have y3 := addNode_self s2 (.assign (some s.next) (some s1.next))
  have w3 := x3.wf w2
  generalize e3 : addNode s2 (.assign (some s.next) (some s1.next)) = s3 at x3 y3 w3
  have x4 := addNode_ext w3 (.kw .int)
  have y4 := addNode_self s3 (.kw .int)
  have w4 := x4.wf w3
  generalize e4 : addNode s3 (.kw .int) = s4 at x4 y4 w4
  have x5 := addNode_ext w4 (.chain [s3.next])
  have y5 := addNode_self s4 (.chain [s3.next])
  have w5 := x5.wf w4
  generalize e5 : addNode s4 (.chain [s3.next]) = s5 at x5 y5 w5
  have x6 := addNode_ext w5 (.decl (some s4.next) (some s2.next) 0)
  have y6 := addNode_self s5 (.decl (some s4.next) (some s2.next) 0)
  generalize e6 : addNode s5 (.decl (some s4.next) (some s2.next) 0) = s6 at x6 y6
  have x46 := x5.trans x6
  have x36 := x4.trans x46
  have x26 := x3.trans x36
  have x16 := x2.trans x26
  refine ⟨s5.next, s.next, s1.next, s2.next, s6, ?_, x1.trans x16, ⟨s4.next, y6, ?_⟩, x36.nodes _ _ y3, x16.nodes _ _ y1, x26.nodes _ _ y2⟩
  · simp only [argcDecl, getInteger, bind_apply, mk_apply, e1, e2, e3, e4, e5, e6]
  · exact ⟨[s3.next], [.int], x6.nodes _ _ y5, .cons (x46.nodes _ _ y4) .nil, by decide, by decide⟩

theorem argvDecl_apply {s : St} (w : WF s) (n : Nat) :
    ∃ d id v arr s', argvDecl n s = .ok d s' ∧ Ext s s' ∧ ArgvDecl s'.nodes d id v arr n := by
  have x1 := addNode_ext w (.kw .char)
  have y1 := addNode_self s (.kw .char)
  have w1 := x1.wf w
  generalize e1 : addNode s (.kw .char) = s1 at x1 y1 w1
  have x2 := addNode_ext w1 (.chain [s.next])
  have y2 := addNode_self s1 (.chain [s.next])
  have w2 := x2.wf w1
  generalize e2 : addNode s1 (.chain [s.next]) = s2 at x2 y2 w2
  have x3 := addNode_ext w2 (.integer (n % 2 ^ 32 : Nat))
  have y3 := addNode_self s2 (.integer (n % 2 ^ 32 : Nat))
  have w3 := x3.wf w2
  generalize e3 : addNode s2 (.integer (n % 2 ^ 32 : Nat)) = s3 at x3 y3 w3
  have x4 := addNode_ext w3 (.ident "argv")
  have y4 := addNode_self s3 (.ident "argv")
  have w4 := x4.wf w3
  generalize e4 : addNode s3 (.ident "argv") = s4 at x4 y4 w4
  have x5 := addNode_ext w4 (.array (some s3.next) (some s2.next))
  have y5 := addNode_self s4 (.array (some s3.next) (some s2.next))
  have w5 := x5.wf w4
  generalize e5 : addNode s4 (.array (some s3.next) (some s2.next)) = s5 at x5 y5 w5
  have x6 := addNode_ext w5 (.pointer (some s4.next))
  have y6 := addNode_self s5 (.pointer (some s4.next))
  have w6 := x6.wf w5
  generalize e6 : addNode s5 (.pointer (some s4.next)) = s6 at x6 y6 w6
  have x7 := addNode_ext w6 (.decl (some s1.next) (some s5.next) 0)
  have y7 := addNode_self s6 (.decl (some s1.next) (some s5.next) 0)
  generalize e7 : addNode s6 (.decl (some s1.next) (some s5.next) 0) = s7 at x7 y7
  have x57 := x6.trans x7
  have x47 := x5.trans x57
  have x37 := x4.trans x47
  have x27 := x3.trans x37
  have x17 := x2.trans x27
  refine ⟨s6.next, s3.next, s2.next, s4.next, s7, ?_, x1.trans x17, ⟨s1.next, s5.next, y7, ?_, x7.nodes _ _ y6⟩, x57.nodes _ _ y5,
    x47.nodes _ _ y4, x37.nodes _ _ y3⟩
  · simp only [argvDecl, getInteger, bind_apply, mk_apply, e1, e2, e3, e4, e5, e6, e7]
  · exact ⟨[s.next], [.char], x27.nodes _ _ y2, .cons (x17.nodes _ _ y1) .nil, by decide, by decide⟩

/-! ## Their evaluation -/

theorem eachDecl_one {E : Env} {f : Rec → Ref → M Ref} {s : St} {d : TId} {n : Node} {o} (hd : s.nodes d = some n)
    (hn : ∀ l, n ≠ .chain l) (h : Conv E (fun R => f R (some d)) s o) : Conv E (fun R => eachDecl (f R) (some d)) s o := by
  refine h.congr fun R => ?_
  cases n <;> first
    | exact absurd rfl (hn _)
    | simp [eachDecl, peek_apply hd]

theorem int_conv {E : Env} {s : St} {t : TId} {z : Int} (h : s.nodes t = some (.integer z)) :
    Conv E (fun R => R.ev (some t)) s (.ok (some t) s) := Conv.evNode h (Conv.const rfl)

theorem argc_conv {E : Env} {s : St} {d id v asg : TId} {n : Nat} (w : WF s) (a : ArgcDecl s.nodes d id v asg n)
    (hn : n < 2 ^ 31) (room : Room s 1) (fresh : Fresh s "argc") :
    ∃ x s', Conv E (fun R => R.ev (some d)) s (.ok (some id) s') ∧ More s s' [⟨"argc", id, some x⟩] ∧
      (∃ c, VarAt s' x .int (some n) c) ∧ s'.mem.brk = s.mem.brk + 48 := by
  obtain ⟨specs, h1, h2⟩ := a.decl
  have x1 := addNode_ext w (.ctype .int none)
  have y1 := addNode_self s (.ctype .int none)
  have w1 := x1.wf w
  have fresh1 := fresh.grow x1.grow
  have room1 := room.ext x1
  have c0 := fun o => evalDecl_conv (E := E) (o := o) w h1 h2
  have hb1 : (addNode s (.ctype .int none)).mem.brk = s.mem.brk := rfl
  generalize e1 : addNode s (.ctype .int none) = s1 at x1 y1 w1 fresh1 room1 c0 hb1
  have g2 := newVar_grow w1 (some s.next)
  have lv := newVar_lvAt w1 y1 (.inl (show integral .int from trivial))
  have lv' : LvAt (declSt s1 s.next id "argc") s1.next s.next .int s1.mem.brk := ⟨lv.lv, lv.ty, lv.int, lv.ok⟩
  have hres : resolveGlobal "argc" .normal (declSt s1 s.next id "argc") = some s1.next :=
    resolveGlobal_bind (s := newVar s1 (some s.next)) (fresh1.grow g2) (g2.more.ctxs_ne room1.ctxs)
  have m1 : More s (declSt s1 s.next id "argc") [⟨"argc", id, some s1.next⟩] :=
    ((x1.grow.trans g2).more).trans (bindSt_more (newVar s1 (some s.next)) ⟨"argc", id, some s1.next⟩)
  have hb2 : (declSt s1 s.next id "argc").mem.brk = s.mem.brk + 48 := by
    show s1.mem.brk + 48 = _; rw [hb1]
  have hand := fun q s' => handleDecl_assign_conv (E := E) (q := q) (s' := s') w1 (x1.nodes _ _ a.asg) (x1.nodes _ _ a.id) y1 room1 fresh1.resolve
  generalize e2 : declSt s1 s.next id "argc" = s2 at lv' hres m1 hb2 hand
  have hv : s2.nodes v = some (.integer (n % 2 ^ 32 : Nat)) := m1.nodes _ _ a.val
  have hc := assign_conv (E := E) (m1.nodes _ _ a.asg) (ident_conv (m1.nodes _ _ a.id) hres) (int_conv hv) lv' trivial (.int hv)
  have hval : mpzGetSi ((n % 2 ^ 32 : Nat) : Int) = (n : Int) := by
    rw [Nat.mod_eq_of_lt (by omega)]; exact mpzGetSi_eq (by omega) (by omega)
  rw [hval] at hc
  refine ⟨s1.next, _, c0 _ (eachDecl_one (x1.nodes _ _ a.asg) (fun l h => by cases h) (hand _ _ hc)), m1.wr _ _ _ ?_, ?_, ?_⟩
  · rw [hb1]; exact room.fresh
  · have hV : VarAt s2 s1.next .int none s1.mem.brk := by
      refine ⟨⟨_, lv'⟩, trivial, ?_, fun _ h => by cases h⟩
      rw [← e2]
      exact newVar_ok (s := s1) (ty := some s.next) (by decide)
    have := hV.wr_self n
    rw [CT.decode_encode_of_inRange (c := .int) (.inl trivial) ⟨by show -(2 ^ 31) ≤ _; omega, by show _ < 2 ^ 31; omega⟩] at this
    exact ⟨_, this⟩
  · rw [wr_mem, Mem.store_brk]; exact hb2

theorem argv_conv {E : Env} {s : St} {d id v arr : TId} {n : Nat} (w : WF s) (a : ArgvDecl s.nodes d id v arr n)
    (hn : n < 2 ^ 31) (room : Room s 2) (hcap : s.mem.brk + 128 + 8 * n < Mem.limit) (fresh : Fresh s "argv") :
    ∃ x s' bt e τ m c, Conv E (fun R => R.ev (some d)) s (.ok (some id) s') ∧ More s s' [⟨"argv", id, some x⟩] ∧
      s'.nodes bt = some (.ctype .ptr e) ∧ s'.nodes x = some (.lv (some τ) c true (8 * n)) ∧ s'.nodes τ = some (.ctype .ptr (some bt)) ∧
      s'.mem.ok 8 c = true ∧ s'.mem.load 8 c = m ∧
      s'.mem.ok (8 * n) m = true ∧ s.mem.brk ≤ m ∧ m + 8 * n ≤ c ∧ s'.mem.brk ≤ s.mem.brk + 128 + 8 * n := by
  obtain ⟨specs, ptr, h1, h2, h3⟩ := a.decl
  have x1 := addNode_ext w (.ctype .char none)
  have w1 := x1.wf w
  have c0 := fun o => evalDecl_conv (E := E) (o := o) w h1 h2
  generalize e1 : addNode s (.ctype .char none) = s1 at x1 w1 c0
  have x2 := addNode_ext w1 (.ctype .ptr (some s.next))
  have y2 := addNode_self s1 (.ctype .ptr (some s.next))
  have w2 := x2.wf w1
  have c1 := fun o => resolvePtr_pointer (E := E) (o := o) (ty := some s.next) (x1.nodes _ _ h3)
  generalize e2 : addNode s1 (.ctype .ptr (some s.next)) = s2 at x2 y2 w2 c1
  have x12 := x1.trans x2
  have harr := x12.nodes _ _ a.arr
  have hid := x12.nodes _ _ a.id
  have room2 := room.ext x12
  have fresh2 := fresh.grow x12.grow
  have hmem : s2.mem = s.mem := x12.mem
  obtain ⟨x, s', s'', hc, g, rfl, m, hA, hok, hm, hb, ty, c, hx, hle⟩ := declareArray_conv (E := E) (sz := some v) (v := ((n % 2 ^ 32 : Nat) : Int)) w2 hid y2 fresh2.resolve
    (fun s0 g0 _ => ⟨v, s0, int_conv (g0.nodes _ _ (x12.nodes _ _ a.val)), Ext.refl _, .inl (g0.nodes _ _ (x12.nodes _ _ a.val))⟩) (by omega) room2
    (by rw [hmem]; have : (8 * ((n % 2 ^ 32 : Nat) : Int).toNat) = 8 * n := by omega
        show _ + 128 + 8 * _ < _; omega)
  have hsz : CT.ptr.size * ((n % 2 ^ 32 : Nat) : Int).toNat = 8 * n := by show 8 * _ = _; omega
  rw [hsz] at hA hok hb hx hle
  obtain ⟨τ, c', k1, k2, k3, k4⟩ := hA.lv
  rw [hx] at k1
  obtain ⟨rfl, rfl⟩ : ty = some τ ∧ c = c' := by simpa using k1
  have hh : Conv E (fun R => R.handleDecl (some arr) (some s1.next)) s2 (.ok (some id) (bindSt s' ⟨"argv", id, some x⟩)) := by
    refine Conv.handleDecl ?_
    unfold handleDeclStep
    refine Conv.bind (resolvePtr_leaf harr (fun e h => by cases h)) (hc.congr fun R => ?_)
    simp [node_apply y2, handleDeclSwitch, nodeR, node_apply harr]
  refine ⟨x, _, s1.next, _, τ, m, c, c0 _ (eachDecl_one (x1.nodes _ _ h3) (fun l h => by cases h)
    (handleDecl_resolve (c1 _ (resolvePtr_leaf harr (fun e h => by cases h))) harr (fun e h => by cases h) hh)), ?_, g.nodes _ _ y2, hx, k2, k3, k4.symm, hok, ?_, hle, ?_⟩
  · exact ((x12.grow.trans g).more).trans (bindSt_more s' _)
  · rw [← hmem]; exact hm
  · rw [← hmem]; exact hb

/-- one assignment `argv[i] = p` -/
theorem argAssign_conv {E : Env} {s : St} {a acc obj idx rhs x bt τ : TId} {e : Ref} {i p m c N : Nat} (w : WF s)
    (h1 : s.nodes a = some (.assign (some acc) (some rhs))) (h2 : s.nodes acc = some (.arrAccess (some obj) (some idx)))
    (h3 : s.nodes obj = some (.ident "argv")) (h4 : s.nodes idx = some (.integer (i % 2 ^ 32 : Nat)))
    (h5 : s.nodes rhs = some (.integer (p % 2 ^ 64 : Nat))) (hr : resolveGlobal "argv" .normal s = some x)
    (hx : s.nodes x = some (.lv (some τ) c true N)) (hτ : s.nodes τ = some (.ctype .ptr (some bt)))
    (hbt : s.nodes bt = some (.ctype .ptr e)) (hc : s.mem.ok 8 c = true) (hm : s.mem.load 8 c = m)
    (hi : i < 2 ^ 32) (hok : s.mem.ok 8 (m + 8 * i) = true) (room : Room s 2) :
    ∃ s', Grow s s' ∧ s'.mem.brk ≤ s.mem.brk + 96 ∧
      Conv E (fun R => R.ev (some a)) s (.ok (some rhs) (Bic.wr s' 8 (m + 8 * i) (p % 2 ^ 64))) := by
  have hlim : Mem.limit < 2 ^ 64 := by decide
  have hp : PtrTo s x (some bt) m := ⟨τ, c, true, N, hx, hτ, hc, hm.symm⟩
  obtain ⟨r, s', hc', g, hn, hb⟩ := arrAccess_conv_brk (E := E) h2 (ident_conv h3 hr) (int_conv h4) w room hp hbt (.inl h4)
  have hui : mpzGetUi ((i % 2 ^ 32 : Nat) : Int) = i := by unfold mpzGetUi; omega
  have hlt : m + 8 * i < 2 ^ 64 := by
    have := room.livelt (m + 8 * i) (((Mem.ok_iff _ _ _).mp hok) _ (Nat.le_refl _) (by omega))
    have := room.brk
    omega
  have ha : (m + CT.ptr.size * mpzGetUi ((i % 2 ^ 32 : Nat) : Int)) % 2 ^ 64 = m + 8 * i := by
    rw [hui]; exact Nat.mod_eq_of_lt hlt
  rw [ha] at hn
  refine ⟨s', g, hb, Conv.evNode h1 (Conv.bind hc' (Conv.bind (int_conv (g.nodes _ _ h5)) (Conv.const ?_)))⟩
  have lv : LvAt s' r bt .ptr (m + 8 * i) := ⟨⟨_, _, hn⟩, ⟨_, g.nodes _ _ hbt⟩, .inr rfl, g.ok hok⟩
  have hpv : mpzGetUi ((p % 2 ^ 64 : Nat) : Int) = p % 2 ^ 64 := by unfold mpzGetUi; omega
  have hst : storeRaw 8 (m + 8 * i) (p % 2 ^ 64) s' = .ok () (Bic.wr s' 8 (m + 8 * i) (p % 2 ^ 64)) := storeRaw_apply lv.ok
  have h5' := g.nodes _ _ h5
  generalize ((p % 2 ^ 64 : Nat) : Int) = z at hpv h5'
  simp [node_apply hn, typeOf_apply lv, CT.isInt, CT.isFloat, assignPtr, nodeR, node_apply h5', hpv, lvFields_apply lv, hst]

theorem noJump_of {s : St} {t : TId} {n : Node} (h : s.nodes t = some n) (hj : isJump n = false) : NoJump s (some t) := by
  intro q hq; cases hq; exact ⟨n, h, hj⟩

/-- the assignments of `create_arguments` -/
theorem argAssigns_conv {E : Env} {x bt τ : TId} {e : Ref} {m c N : Nat} (ps : List Nat) :
    ∀ {i : Nat} {s : St} {as : List TId} (_ : WF s) (_ : ArgAssigns s.nodes i ps as)
    (_ : resolveGlobal "argv" .normal s = some x)
    (_ : s.nodes x = some (.lv (some τ) c true N)) (_ : s.nodes τ = some (.ctype .ptr (some bt)))
    (_ : s.nodes bt = some (.ctype .ptr e)) (_ : s.mem.ok 8 c = true) (_ : s.mem.load 8 c = m)
    (_ : i + ps.length < 2 ^ 32) (_ : s.mem.ok (8 * (i + ps.length)) m = true) (_ : m + 8 * (i + ps.length) ≤ c)
    (_ : Room s (2 * ps.length)),
    ∃ s', Conv E (fun R => evalElems R as) s (.ok () s') ∧ s'.mem.brk ≤ s.mem.brk + 96 * ps.length ∧
      (∀ b bs, More b s bs → (∀ y, m ≤ y → y < m + 8 * (i + ps.length) → b.mem.live y = false) → More b s' bs) ∧
      (∀ t n, s.nodes t = some n → s'.nodes t = some n) ∧ (∀ y, s.mem.live y = true → s'.mem.live y = true) ∧
      (∀ y, s.mem.live y = true → y < m + 8 * i ∨ m + 8 * (i + ps.length) ≤ y → s'.mem.byte y = s.mem.byte y) ∧
      (∀ k p, ps[k]? = some p → s'.mem.load 8 (m + 8 * (i + k)) = p % 2 ^ 64) := by
  induction ps with
  | nil =>
    intro i s as w ha _ _ _ _ _ _ _ _ _ _
    cases ha
    exact ⟨s, Conv.pure _, by simp, fun _ _ h _ => h, fun _ _ h => h, fun _ h => h, fun _ _ _ => rfl, fun k p h => by simp at h⟩
  | cons p ps ih =>
    intro i s as w ha hr hx hτ hbt hc hm hi hok hle room
    simp only [List.length_cons] at hi hok hle room
    cases ha with
    | cons h1 h2 h3 h4 h5 ha =>
      rename_i a acc obj idx rhs as
      have hokI : s.mem.ok 8 (m + 8 * i) = true := by
        rw [Mem.ok_iff] at hok ⊢
        exact fun y h1 h2 => hok y (by omega) (by omega)
      obtain ⟨s1, g, hb, hcv⟩ := argAssign_conv (E := E) w h1 h2 h3 h4 h5 hr hx hτ hbt hc hm (by omega) hokI (room.mono (by omega))
      generalize e2 : Bic.wr s1 8 (m + 8 * i) (p % 2 ^ 64) = s2 at hcv
      have hlive2 : ∀ y, s.mem.live y = true → s2.mem.live y = true := by
        intro y hy; rw [← e2, wr_mem, Mem.store_live]; exact g.live y hy
      have hbyte2 : ∀ y, s.mem.live y = true → y < m + 8 * i ∨ m + 8 * i + 8 ≤ y → s2.mem.byte y = s.mem.byte y := by
        intro y hy ho
        rw [← e2, wr_mem, Mem.store_byte_other]
        · exact g.byte y hy
        · omega
      have hnodes2 : ∀ t n, s.nodes t = some n → s2.nodes t = some n := by
        intro t n h; rw [← e2, wr_nodes]; exact g.nodes t n h
      have w2 : WF s2 := by rw [← e2]; exact wr_WF (g.wf w) _ _ _
      have hb2 : s2.mem.brk ≤ s.mem.brk + 96 := by rw [← e2, wr_mem, Mem.store_brk]; exact hb
      have hok2 : ∀ n a, s.mem.ok n a = true → s2.mem.ok n a = true := by
        intro n a h; rw [Mem.ok_iff] at h ⊢; exact fun y h1 h2 => hlive2 y (h y h1 h2)
      have hr2 : resolveGlobal "argv" .normal s2 = some x := by
        rw [← e2, wr_resolveGlobal]
        rw [g.more.resolve_other (fun b hb => by cases hb)]
        exact hr
      have hm2 : s2.mem.load 8 c = m := by
        rw [← hm]
        refine Mem.load_congr fun y y1 y2 => hbyte2 y ((Mem.ok_iff _ _ _).mp hc y y1 y2) (.inr (by omega))
      have room2 : Room s2 (2 * ps.length) := by
        refine ⟨by have := room.brk; omega, ?_, ?_⟩
        · rw [← e2, wr_ctxs]; exact g.more.ctxs_ne room.ctxs
        · intro y hy
          rw [← e2, wr_mem, Mem.store_live] at hy
          rw [← e2, wr_mem, Mem.store_brk]
          exact g.livelt room.livelt y hy
      have hok3 : s2.mem.ok (8 * (i + 1 + ps.length)) m = true := hok2 _ _ (by rw [show i + 1 + ps.length = i + (ps.length + 1) by omega]; exact hok)
      obtain ⟨s', hcv', hb', hmore, hnod', hliv', hbytes, hvals⟩ := ih w2 (ha.mono hnodes2) hr2 (hnodes2 _ _ hx) (hnodes2 _ _ hτ) (hnodes2 _ _ hbt)
        (hok2 _ _ hc) hm2 (by omega) hok3 (by omega) room2
      refine ⟨s', evalElems_cons hcv (noJump_of (hnodes2 _ _ h5) rfl) hcv', by simp only [List.length_cons]; omega, ?_, fun t n h => hnod' _ _ (hnodes2 _ _ h), fun y h => hliv' _ (hlive2 _ h), ?_, ?_⟩
      · intro b bs hmb hfree
        simp only [List.length_cons] at hfree
        refine hmore b bs ?_ fun y y1 y2 => hfree y y1 (by omega)
        rw [← e2]
        have := (hmb.trans g.more).wr 8 (m + 8 * i) (p % 2 ^ 64) (fun y y1 y2 => hfree y (by omega) (by omega))
        rwa [List.append_nil] at this
      · intro y hy ho
        simp only [List.length_cons] at ho
        rw [hbytes y (hlive2 y hy) (by omega), hbyte2 y hy (by omega)]
      · intro k q hk
        cases k with
        | zero =>
          simp only [List.getElem?_cons_zero, Option.some.injEq] at hk
          subst hk
          have : s'.mem.load 8 (m + 8 * (i + 0)) = s2.mem.load 8 (m + 8 * (i + 0)) := by
            refine Mem.load_congr fun y y1 y2 => ?_
            exact hbytes y (hlive2 y ((Mem.ok_iff _ _ _).mp hokI y (by omega) (by omega))) (.inl (by omega))
          rw [this, ← e2, wr_mem, Nat.add_zero, Mem.load_store]
          exact Nat.mod_eq_of_lt (Nat.mod_lt _ (by decide))
        | succ k =>
          simp only [List.getElem?_cons_succ] at hk
          have := hvals k q hk
          rwa [show i + 1 + k = i + (k + 1) by omega] at this

/-- `create_arguments` -/
theorem createArguments_conv {E : Env} {s : St} {argv : List Nat} (w : WF s) (hn : argv.length < 2 ^ 31)
    (hcap : s.mem.brk + 176 + 104 * argv.length < Mem.limit) (hc : s.ctxs ≠ []) (hl : LiveLt s.mem)
    (f1 : Fresh s "argc") (f2 : Fresh s "argv") :
    ∃ s' d1 d2 x y bt m, Conv E (fun R => createArguments R argv) s (.ok () s') ∧
      More s s' [⟨"argc", d1, some x⟩, ⟨"argv", d2, some y⟩] ∧ (∃ c, VarAt s' x .int (some argv.length) c) ∧
      ArrayAt s' y (some bt) (8 * argv.length) m ∧ (∃ e, s'.nodes bt = some (.ctype .ptr e)) ∧
      s'.mem.ok (8 * argv.length) m = true ∧
      (∀ k p, argv[k]? = some p → s'.mem.load 8 (m + 8 * k) = p % 2 ^ 64) ∧ s'.mem.brk ≤ s.mem.brk + 176 + 104 * argv.length := by
  have hlim : Mem.limit < 2 ^ 64 := by decide
  -- the trees
  obtain ⟨dA, id1, v1, asg, s1, e1, x1, a1⟩ := argcDecl_apply w argv.length
  obtain ⟨dV, id2, v2, arr, s2, e2, x2, a2⟩ := argvDecl_apply (x1.wf w) argv.length
  obtain ⟨as, s3, e3, x3, a3⟩ := argAssigns_apply argv (x2.wf (x1.wf w)) 0
  have x4 := addNode_ext (x3.wf (x2.wf (x1.wf w))) (.chain (dA :: dV :: as))
  have y4 := addNode_self s3 (.chain (dA :: dV :: as))
  have ht : argTrees argv s = .ok s3.next (addNode s3 (.chain (dA :: dV :: as))) := by
    simp only [argTrees, bind_apply, e1, e2, e3, mk_apply]
  have xs := x1.trans (x2.trans (x3.trans x4))
  have a1 := a1.mono (x2.trans (x3.trans x4)).nodes
  have a2 := a2.mono (x3.trans x4).nodes
  have a3 := a3.mono x4.nodes
  generalize addNode s3 (.chain (dA :: dV :: as)) = t0 at x4 y4 ht xs a1 a2 a3
  have w0 := xs.wf w
  have hmem : t0.mem = s.mem := xs.mem
  have m0 := xs.grow.more
  -- argc
  obtain ⟨x, t1, c1, m1, h1, b1⟩ := argc_conv (E := E) w0 a1 hn ⟨by rw [hmem]; omega, m0.ctxs_ne hc, m0.livelt hl⟩ (m0.fresh f1 (fun b hb => by cases hb))
  have m01 := m0.trans m1
  have w1 := m01.wf w
  have hb1 : t1.mem.brk = s.mem.brk + 48 := by rw [b1, hmem]
  -- argv
  obtain ⟨y, t2, bt, e, τ, m, c, c2, m2, n1, n2, n3, k1, k2, k3, k4, k5, k6⟩ := argv_conv (E := E) w1 (a2.mono m1.nodes) hn
    ⟨by rw [hb1]; omega, m01.ctxs_ne hc, m01.livelt hl⟩ (by rw [hb1]; omega)
    (m01.fresh f2 (fun b hb => by simp at hb; subst hb; simp))
  have m02 := m01.trans m2
  have w2 := m02.wf w
  have hres : resolveGlobal "argv" .normal t2 = some y := m02.resolve f2 hc (by simp [findId])
  obtain ⟨t3, c3, b3, hmore, hnod, hliv, hbytes, hvals⟩ := argAssigns_conv (E := E) argv w2 (a3.mono (m1.trans m2).nodes) hres n2 n3 n1 k1 k2 (by omega)
    (by rw [Nat.zero_add]; exact k3) (by omega) ⟨by omega, m02.ctxs_ne hc, m02.livelt hl⟩
  have hfree1 : ∀ z, m ≤ z → z < m + 8 * (0 + argv.length) → t1.mem.live z = false := by
    intro z z1 z2
    cases hz : t1.mem.live z with
    | false => rfl
    | true => have := m01.livelt hl z hz; omega
  have hfree0 : ∀ z, m ≤ z → z < m + 8 * (0 + argv.length) → s.mem.live z = false := by
    intro z z1 z2
    cases hz : s.mem.live z with
    | false => rfl
    | true => have := hl z hz; omega
  have m03 := hmore _ _ m02 hfree0
  have m13 := hmore _ _ m2 hfree1
  refine ⟨t3, id1, id2, x, y, bt, m, ?_, m03, h1.imp fun _ h => h.more m13, ?_, ?_, ?_, ?_, ?_⟩
  · unfold createArguments
    refine Conv.bind (Conv.fixed fun R => ht) ?_
    have : Conv E (fun R => evalElems R (dA :: dV :: as)) t0 (.ok () t3) := by
      refine evalElems_cons c1 (noJump_of (m1.nodes _ _ a1.id) rfl) (evalElems_cons c2 (noJump_of ((m1.trans m2).nodes _ _ a2.id) rfl) c3)
    refine this.congr fun R => ?_
    simp [evaluate, node_apply y4]
  · refine ⟨τ, c, hnod _ _ n2, hnod _ _ n3, ?_, ?_⟩
    · rw [Mem.ok_iff] at k1 ⊢; exact fun z z1 z2 => hliv z (k1 z z1 z2)
    · rw [← k2]
      exact (Mem.load_congr fun z z1 z2 => hbytes z ((Mem.ok_iff _ _ _).mp k1 z z1 z2) (.inr (by omega))).symm
  · exact ⟨e, hnod _ _ n1⟩
  · rw [Mem.ok_iff] at k3 ⊢; exact fun z z1 z2 => hliv z (k3 z z1 z2)
  · intro k p hk
    have := hvals k p hk
    rwa [Nat.zero_add] at this
  · omega

theorem _root_.Bic.More.breaks {s s' : St} {bs} (m : More s s' bs) : s'.ctxs.map (·.shouldBreak) = s.ctxs.map (·.shouldBreak) := by
  have h1 := congrArg (List.map (·.shouldBreak)) m.ctxs
  simp only [List.map_map] at h1
  have h2 : (fun c => c.shouldBreak) ∘ Ctx.core = fun c : Ctx => c.shouldBreak := rfl
  rw [h2] at h1
  rw [h1]
  cases s.ctxs <;> simp [bindAll, Ctx.core]

theorem _root_.Bic.More.flags {s s' : St} {bs} (m : More s s' bs) (hf : ∀ c ∈ s.ctxs, c.shouldBreak = false) :
    ∀ c ∈ s'.ctxs, c.shouldBreak = false := by
  intro c hc
  have : c.shouldBreak ∈ s'.ctxs.map (·.shouldBreak) := List.mem_map_of_mem hc
  rw [m.breaks, List.mem_map] at this
  obtain ⟨d, hd, he⟩ := this
  rw [← he]; exact hf d hd

/-- the scopes after a declaration -/
theorem _root_.Bic.More.evt {E : Env} {s s' : St} {bs t r} (m : More s s' bs) (h : Evl E s t r s') (hf : ∀ c ∈ s.ctxs, c.shouldBreak = false) :
    Evt E s t r s' := ⟨h, by simpa using congrArg List.length m.breaks, m.flags hf⟩

theorem pres_argAssigns {E : Env} (ps : List Nat) : ∀ i, Pres E (argAssigns i ps) := by
  induction ps with
  | nil => intro i; unfold argAssigns; exact Pres.pure _
  | cons p ps ih =>
    intro i
    unfold argAssigns getInteger getAddr
    have := ih (i + 1)
    repeat' pres1

theorem pres_createArguments {E : Env} {R : Rec} (hR : RPres E R) (ps : List Nat) : Pres E (createArguments R ps) := by
  have := pres_argAssigns (E := E) ps 0
  unfold createArguments argTrees argcDecl argvDecl getInteger
  refine Pres.bind ?_ fun c => pres_evaluate hR _
  repeat' pres1

/-- … is done in a sane state -/
theorem createArguments_sane {E : Env} {s s' : St} {ps bs} (h : Conv E (fun R => createArguments R ps) s (.ok () s')) (m : More s s' bs)
    (hs : Sane s) : Sane s' ∧ innerFn s'.ctxs = innerFn s.ctxs := by
  have ev := h.evolG (fun R hR => pres_createArguments hR ps) hs.inv
  have c := ev.same (by simpa using congrArg List.length m.breaks)
  exact ⟨⟨ev.inv, m.flags hs.flags, m.ctxs_ne hs.ne⟩, c.innerFn⟩

/-! ## What the script has -/

/-- `a` is the number of the arguments and `b` their array; `ps` are their addresses -/
structure GotArgs (s : St) (a b : String) (ps : List Nat) : Prop where
  argc : ∃ x c, resolveGlobal a .normal s = some x ∧ VarAt s x .int (some ps.length) c
  argv : ∃ y bt e m, resolveGlobal b .normal s = some y ∧ PtrTo s y (some bt) m ∧ s.nodes bt = some (.ctype .ptr e) ∧
    s.mem.ok (8 * ps.length) m = true ∧ ∀ k p, ps[k]? = some p → s.mem.load 8 (m + 8 * k) = p % 2 ^ 64

theorem elem_ok {s : St} {ps : List Nat} {m k p : Nat} (h : s.mem.ok (8 * ps.length) m = true) (hk : ps[k]? = some p) :
    s.mem.ok 8 (m + 8 * k) = true := by
  have := (List.getElem?_eq_some_iff.mp hk).1
  rw [Mem.ok_iff] at h ⊢
  exact fun x h1 h2 => h x (by omega) (by omega)

/-- … and keeps -/
theorem GotArgs.more {s s' : St} {a b ps bs} (h : GotArgs s a b ps) (x : More s s' bs) (ha : ∀ d ∈ bs, d.name ≠ a)
    (hb : ∀ d ∈ bs, d.name ≠ b) : GotArgs s' a b ps := by
  obtain ⟨⟨t, c, h1, h2⟩, y, bt, e, m, h3, h4, h5, h6, h7⟩ := h
  refine ⟨⟨t, c, by rw [x.resolve_other ha]; exact h1, h2.more x⟩, y, bt, e, m, by rw [x.resolve_other hb]; exact h3, h4.more x,
    x.nodes _ _ h5, x.ok h6, fun k p hk => ?_⟩
  rw [x.load (elem_ok h6 hk)]
  exact h7 k p hk

theorem GotArgs.argc_conv {E : Env} {s : St} {a b ps} (h : GotArgs s a b ps) {t : TId} (ht : s.nodes t = some (.ident a)) :
    ∃ r, Evl E s (some t) (some r) s ∧ Holds s r .int ps.length := by
  obtain ⟨x, c, h1, h2⟩ := h.argc
  obtain ⟨τ, hl⟩ := h2.at_
  exact ⟨x, ident_conv ht h1, τ, c, hl, h2.val _ rfl⟩

theorem GotArgs.argv_conv {E : Env} {s s1 : St} {a b ps} (h : GotArgs s a b ps) {t o : TId} {i : Ref} {y : TId} {k p : Nat}
    (ht : s.nodes t = some (.arrAccess (some o) i)) (ho : s.nodes o = some (.ident b)) (w : WF s1)
    (hi : Evl E s i (some y) s1) (g : Grow s s1) (room : Room s1 2) (hy : Denotes s1 y k) (hk : ps[k]? = some p) :
    ∃ r s', Evl E s (some t) (some r) s' ∧ Holds s' r .ptr (p % 2 ^ 64 : Nat) ∧ Grow s1 s' := by
  have hlim : Mem.limit < 2 ^ 64 := by decide
  obtain ⟨z, bt, e, m, h3, h4, h5, h6, h7⟩ := h.argv
  obtain ⟨r, s', hc, g', hn⟩ := arrAccess_conv_brk (E := E) ht (ident_conv ho h3) hi w room (h4.grow g) (g.nodes _ _ h5) hy
  have hok := elem_ok h6 hk
  have hlt : m + 8 * k < 2 ^ 64 := by
    have := room.livelt (m + 8 * k) (g.live _ (((Mem.ok_iff _ _ _).mp hok) _ (Nat.le_refl _) (by omega)))
    have := room.brk
    omega
  have hui : mpzGetUi (k : Int) = k := by unfold mpzGetUi; omega
  rw [hui, show CT.ptr.size * k = 8 * k from rfl, Nat.mod_eq_of_lt hlt] at hn
  have g2 := g.trans g'
  refine ⟨r, s', hc, ⟨bt, m + 8 * k, ⟨⟨_, _, hn.1⟩, ⟨e, g2.nodes _ _ h5⟩, .inr rfl, g2.ok hok⟩, ?_⟩, g'⟩
  show _ = CT.ptr.decode (s'.mem.load 8 (m + 8 * k))
  rw [g2.load hok, h7 k p hk]
  have : p % 2 ^ 64 < CT.ptr.modulus := Nat.mod_lt _ (by decide)
  simp [CT.decode, CT.isSigned]

/-! ## What `main` receives -/

/-- the call `main(argc, argv)` and the parameters `int a, char **b` of `main` -/
structure MainParams (nd : TId → Option Node) (args callArgs : Ref) (a b : String) : Prop where
  call : ∃ l i1 i2, callArgs = some l ∧ nd l = some (.chain [i1, i2]) ∧ nd i1 = some (.ident "argc") ∧ nd i2 = some (.ident "argv")
  params : ∃ ad d1 d2, args = some ad ∧ nd ad = some (.chain [d1, d2]) ∧
    (∃ sp j off, nd d1 = some (.decl (some sp) (some j) off) ∧ TypeSpecs nd sp .int ∧ nd j = some (.ident a)) ∧
    ∃ sp p1 p2 j off, nd d2 = some (.decl (some sp) (some p1) off) ∧ TypeSpecs nd sp .char ∧ nd p1 = some (.pointer (some p2)) ∧
      nd p2 = some (.pointer (some j)) ∧ nd j = some (.ident b)

theorem enterFn_fresh (s : St) (nm x : String) : Fresh (enterFn s nm) x := by
  intro c cs h d hd
  simp only [enterFn, List.cons.injEq] at h
  rw [← h.1] at hd
  simp at hd

theorem enterFn_resolve (s : St) (nm x : String) : resolveGlobal x .normal (enterFn s nm) = resolveGlobal x .normal s := rfl

theorem GotArgs.enter {s : St} {a b ps} (h : GotArgs s a b ps) (nm : String) : GotArgs (enterFn s nm) a b ps := by
  obtain ⟨⟨t, c, h1, h2⟩, y, bt, e, m, h3, h4, h5, h6, h7⟩ := h
  obtain ⟨⟨τ, hl⟩, v2, v3, v4⟩ := h2
  exact ⟨⟨t, c, h1, ⟨⟨τ, hl.lv, hl.ty, hl.int, hl.ok⟩, v2, v3, v4⟩⟩, y, bt, e, m, h3, ⟨h4.lv⟩, h5, h6, h7⟩

theorem int_copy (L : Nat) : CT.int.decode (CT.int.encode (CT.long.decode L)) = CT.int.decode (L % 256 ^ 4) := by
  have : CT.int.encode (CT.long.decode L) = L % 256 ^ 4 := by
    simp only [CT.encode, CT.decode, CT.modulus, CT.size, CT.isSigned]
    by_cases hL : 256 ^ 8 ≤ 2 * L <;> simp [hL] <;> omega
  rw [this]

/-- declaring `int a` -/
theorem declInt_conv {E : Env} {s : St} {d sp j : TId} {off : Nat} {a : String} (w : WF s) (hd : s.nodes d = some (.decl (some sp) (some j) off))
    (hs : TypeSpecs s.nodes sp .int) (hj : s.nodes j = some (.ident a)) (room : Room s 1) (fresh : Fresh s a) :
    ∃ x s', Evl E s (some d) (some j) s' ∧ More s s' [⟨a, j, some x⟩] ∧ VarAt s' x .int none s.mem.brk ∧
      s'.mem.brk = s.mem.brk + 48 := by
  have x1 := addNode_ext w (.ctype .int none)
  have y1 := addNode_self s (.ctype .int none)
  have w1 := x1.wf w
  have c0 := fun o => evalDecl_conv (E := E) (o := o) w hd hs
  have hb1 : (addNode s (.ctype .int none)).mem.brk = s.mem.brk := rfl
  generalize e1 : addNode s (.ctype .int none) = s1 at x1 y1 w1 c0 hb1
  have g2 := newVar_grow w1 (some s.next)
  have lv := newVar_lvAt w1 y1 (.inl (show integral .int from trivial))
  refine ⟨s1.next, _, c0 _ (eachDecl_one (x1.nodes _ _ hj) (fun l h => by cases h)
    (handleDecl_ident_conv w1 (x1.nodes _ _ hj) y1 (room.ext x1) (fresh.grow x1.grow).resolve)), ?_, ?_, ?_⟩
  · exact ((x1.grow.trans g2).more).trans (bindSt_more (newVar s1 (some s.next)) ⟨a, j, some s1.next⟩)
  · rw [← hb1]
    exact ⟨⟨s.next, lv.lv, lv.ty, lv.int, lv.ok⟩, trivial, newVar_ok (s := s1) (ty := some s.next) (by decide), fun _ h => by cases h⟩
  · show s1.mem.brk + 48 = _; rw [hb1]

/-- declaring `char **b` -/
theorem declPtr_conv {E : Env} {s : St} {d sp p1 p2 j : TId} {off : Nat} {b : String} (w : WF s)
    (hd : s.nodes d = some (.decl (some sp) (some p1) off)) (hs : TypeSpecs s.nodes sp .char)
    (hp1 : s.nodes p1 = some (.pointer (some p2))) (hp2 : s.nodes p2 = some (.pointer (some j)))
    (hj : s.nodes j = some (.ident b)) (room : Room s 1) (fresh : Fresh s b) :
    ∃ x τ bt e s', Evl E s (some d) (some j) s' ∧ More s s' [⟨b, j, some x⟩] ∧ LvAt s' x τ .ptr s.mem.brk ∧
      s'.nodes τ = some (.ctype .ptr (some bt)) ∧ s'.nodes bt = some (.ctype .ptr e) ∧ s'.mem.brk = s.mem.brk + 48 := by
  have x1 := addNode_ext w (.ctype .char none)
  have w1 := x1.wf w
  have c0 := fun o => evalDecl_conv (E := E) (o := o) w hd hs
  generalize e1 : addNode s (.ctype .char none) = s1 at x1 w1 c0
  have x2 := addNode_ext w1 (.ctype .ptr (some s.next))
  have y2 := addNode_self s1 (.ctype .ptr (some s.next))
  have w2 := x2.wf w1
  have c1 := fun o => resolvePtr_pointer (E := E) (o := o) (ty := some s.next) (x1.nodes _ _ hp1)
  generalize e2 : addNode s1 (.ctype .ptr (some s.next)) = s2 at x2 y2 w2 c1
  have x12 := x1.trans x2
  have x3 := addNode_ext w2 (.ctype .ptr (some s1.next))
  have y3 := addNode_self s2 (.ctype .ptr (some s1.next))
  have w3 := x3.wf w2
  have c2 := fun o => resolvePtr_pointer (E := E) (o := o) (ty := some s1.next) (x12.nodes _ _ hp2)
  generalize e3 : addNode s2 (.ctype .ptr (some s1.next)) = s3 at x3 y3 w3 c2
  have x13 := x12.trans x3
  have hb3 : s3.mem.brk = s.mem.brk := by rw [x13.mem]
  have hj3 := x13.nodes _ _ hj
  have g4 := newVar_grow w3 (some s2.next)
  have lv := newVar_lvAt w3 y3 (.inr rfl)
  refine ⟨s3.next, s2.next, s1.next, some s.next, _, c0 _ (eachDecl_one (x1.nodes _ _ hp1) (fun l h => by cases h)
    (handleDecl_resolve (c1 _ (c2 _ (resolvePtr_leaf hj3 (fun e h => by cases h)))) hj3 (fun e h => by cases h)
      (handleDecl_ident_conv w3 hj3 y3 (room.ext x13) (fresh.grow x13.grow).resolve))), ?_, ?_, ?_, ?_, ?_⟩
  · exact ((x13.grow.trans g4).more).trans (bindSt_more (newVar s3 (some s2.next)) ⟨b, j, some s3.next⟩)
  · rw [← hb3]; exact ⟨lv.lv, lv.ty, lv.int, lv.ok⟩
  · exact g4.nodes _ _ y3
  · exact (x3.grow.trans g4).nodes _ _ y2
  · show s3.mem.brk + 48 = _; rw [hb3]

/-- copying a pointer -/
theorem assignPtr_conv {E : Env} {s : St} {t i y z : TId} {x : String} {τ : TId} {c : Nat} {bt : Ref} {m : Nat}
    (hn : s.nodes t = some (.assign (some i) (some y))) (hi : s.nodes i = some (.ident x))
    (hr : resolveGlobal x .normal s = some z) (hz : LvAt s z τ .ptr c) (hy : PtrTo s y bt m) :
    Evl E s (some t) (some y) (Bic.wr s 8 c m) := by
  obtain ⟨τ', c', arr, sz, h1, h2, h3, h4⟩ := hy.lv
  refine Conv.evNode hn (Conv.bind (ident_conv hi hr) (Conv.bind (Conv.evNode h1 (Conv.const rfl)) (Conv.const ?_)))
  obtain ⟨arr', sz', hlv⟩ := hz.lv
  have hst : storeRaw 8 c m s = .ok () (Bic.wr s 8 c m) := storeRaw_apply hz.ok
  simp [node_apply hlv, typeOf_apply hz, CT.isInt, CT.isFloat, assignPtr, nodeR, node_apply h1, loadRaw, h3, lvFields_apply hz, ← h4, hst]

theorem main_receives {E : Env} {s : St} {args callArgs : Ref} {a b : String} {ps : List Nat} (w : WF s) (room : Room s 2)
    (hf : ∀ c ∈ s.ctxs, c.shouldBreak = false)
    (h : GotArgs s "argc" "argv" ps) (hp : MainParams s.nodes args callArgs a b) (hab : a ≠ b) (hav : a ≠ "argv") :
    ∃ s' ida idb xa xb, Bound E (enterFn s "main") args callArgs s' ∧ GotArgs s' a b ps ∧
      More (enterFn s "main") s' [⟨a, ida, some xa⟩, ⟨b, idb, some xb⟩] ∧ s'.mem.brk = s.mem.brk + 96 := by
  obtain ⟨⟨l, i1, i2, rfl, q1, q2, q3⟩, ad, d1, d2, rfl, q4, ⟨sp1, j1, off1, q5, q6, q7⟩, sp2, p1, p2, j2, off2, q8, q9, q10, q11, q12⟩ := hp
  have hE := h.enter "main"
  have fresh : ∀ x, Fresh (enterFn s "main") x := enterFn_fresh s "main"
  have wE : WF (enterFn s "main") := w
  have roomE : Room (enterFn s "main") 2 := ⟨room.brk, by simp [enterFn], room.livelt⟩
  have hfE : ∀ c ∈ (enterFn s "main").ctxs, c.shouldBreak = false := by
    intro c hc
    rcases List.mem_cons.mp hc with rfl | hc
    · rfl
    · exact hf c hc
  have n0 : (enterFn s "main").nodes = s.nodes := rfl
  have hbE : (enterFn s "main").mem.brk = s.mem.brk := rfl
  rw [← n0] at q1 q2 q3 q4 q5 q6 q7 q8 q9 q10 q11 q12
  generalize enterFn s "main" = s0 at *
  clear n0 w room hf h
  -- argc
  obtain ⟨x, c, r1, v1⟩ := hE.argc
  have e1 : Evl E s0 (some i1) (some x) s0 := ident_conv q2 r1
  obtain ⟨xa, s1, e2, m1, v2, b1⟩ := declInt_conv (E := E) wE q5 q6 q7 (roomE.mono (by omega)) (fresh a)
  have w1 := m1.wf wE
  have x2 := addNode_ext w1 (.assign (some j1) (some x))
  have y2 := addNode_self s1 (.assign (some j1) (some x))
  generalize hs2 : addNode s1 (.assign (some j1) (some x)) = s2 at x2 y2
  have m2 : More s0 s2 [⟨a, j1, some xa⟩] := by have := m1.trans x2.grow.more; rwa [List.append_nil] at this
  have hx2 := v1.more m2
  obtain ⟨τ, hl⟩ := hx2.at_
  obtain ⟨arr, sz, hlv⟩ := hl.lv
  have va := v2.grow x2.grow
  obtain ⟨τa, hla⟩ := va.at_
  have e3 := assign_conv (E := E) y2 (ident_conv (m2.nodes _ _ q7) (m2.resolve (fresh a) roomE.ctxs (by simp [findId])))
    (Conv.evNode hlv (Conv.const rfl)) hla trivial (.lv hlv hx2.wide)
  have hfree : ∀ z, s0.mem.brk ≤ z → z < s0.mem.brk + 8 → s0.mem.live z = false := roomE.fresh
  have hval : CT.int.decode (CT.int.encode (CT.long.decode (s2.mem.load 8 c))) = ps.length := by
    rw [int_copy, Mem.load_mod _ (by decide)]
    exact (hx2.val _ rfl).symm
  have va' := va.wr_self (CT.long.decode (s2.mem.load 8 c))
  rw [hval] at va'
  have m3 := m2.wr CT.int.size s0.mem.brk (CT.int.encode (CT.long.decode (s2.mem.load 8 c))) (fun z z1 z2 => hfree z z1 (by have : CT.int.size = 4 := rfl; omega))
  have hb3 : (Bic.wr s2 CT.int.size s0.mem.brk (CT.int.encode (CT.long.decode (s2.mem.load 8 c)))).mem.brk = s0.mem.brk + 48 := by
    rw [wr_mem, Mem.store_brk, x2.mem, b1]
  have m13 : More s1 s2 [] := x2.grow.more
  generalize hs3 : Bic.wr s2 CT.int.size s0.mem.brk (CT.int.encode (CT.long.decode (s2.mem.load 8 c))) = s3 at *
  have w3 := m3.wf wE
  have hf2 := m2.flags hfE
  have hf3 := m3.flags hfE
  -- argv
  obtain ⟨y, bt, e, m, r4, p4, n4, k4, k5⟩ := hE.argv
  have r4' : resolveGlobal "argv" .normal s3 = some y := by
    rw [m3.resolve_other (by simp; exact hav)]; exact r4
  have e4 : Evl E s3 (some i2) (some y) s3 := ident_conv (m3.nodes _ _ q3) r4'
  have room3 : Room s3 1 := ⟨by rw [hb3]; have := roomE.brk; omega, m3.ctxs_ne roomE.ctxs, m3.livelt roomE.livelt⟩
  obtain ⟨xb, τb, bt', e', s4, e5, m4, v4, t4, t5, b4⟩ := declPtr_conv (E := E) w3 (m3.nodes _ _ q8) (q9.mono m3.nodes) (m3.nodes _ _ q10)
    (m3.nodes _ _ q11) (m3.nodes _ _ q12) room3 (m3.fresh (fresh b) (by simp; exact hab))
  have w4 := m4.wf w3
  have x5 := addNode_ext w4 (.assign (some j2) (some y))
  have y5 := addNode_self s4 (.assign (some j2) (some y))
  generalize hs5 : addNode s4 (.assign (some j2) (some y)) = s5 at x5 y5
  have m35 : More s3 s5 [⟨b, j2, some xb⟩] := by have := m4.trans x5.grow.more; rwa [List.append_nil] at this
  have m05 := m3.trans m35
  have rb : resolveGlobal b .normal s5 = some xb := m05.resolve (fresh b) roomE.ctxs (by simp [findId, hab])
  have ra : resolveGlobal a .normal s5 = some xa := m05.resolve (fresh a) roomE.ctxs (by simp [findId])
  have v5 := v4.grow x5.grow
  have e6 := assignPtr_conv (E := E) y5 (m05.nodes _ _ q12) rb v5 (p4.more m05)
  have hmlt : m < 2 ^ 64 := by obtain ⟨_, _, _, _, _, _, _, rfl⟩ := p4.lv; exact Mem.load_lt _ _ _
  have hfree0 : ∀ z, s3.mem.brk ≤ z → z < s3.mem.brk + 8 → s0.mem.live z = false := by
    intro z z1 z2
    cases hz : s0.mem.live z with
    | false => rfl
    | true => have := roomE.livelt z hz; omega
  have m06 := m05.wr 8 s3.mem.brk m hfree0
  have m36 := m35.wr 8 s3.mem.brk m room3.fresh
  have hb5 : (Bic.wr s5 8 s3.mem.brk m).mem.load 8 s3.mem.brk = m := by
    rw [wr_mem, Mem.load_store]; exact Nat.mod_eq_of_lt hmlt
  refine ⟨Bic.wr s5 8 s3.mem.brk m, j1, j2, xa, xb, .inr ⟨ad, [d1, d2], [i1, i2], rfl, q4, chainElems_apply q1, ?_⟩, ⟨⟨xa, _, ra, va'.more m36⟩,
    xb, bt', e', m, rb, ?_, (x5.nodes _ _ t5), m06.ok k4, ?_⟩, m06, ?_⟩
  · refine .cons ⟨e1, rfl, hfE⟩ (m1.evt e2 hfE) (s3 := s3) (r := some x) ?_ (.cons (s1 := s3) ⟨e4, rfl, hf3⟩ (m4.evt e5 hf3) (s3 := Bic.wr s5 8 s3.mem.brk m) (r := some y) ?_ .nil)
    · rw [hs2]; exact ⟨e3, by rw [← hs3]; rfl, hf3⟩
    · rw [hs5]; exact ⟨e6, rfl, m35.flags hf3⟩
  · obtain ⟨arr', sz', hlv'⟩ := v5.lv
    exact ⟨τb, s3.mem.brk, arr', sz', hlv', x5.nodes _ _ t4, by rw [← v5.ok]; exact Mem.ok_congr (by simp) _ _, hb5.symm⟩
  · intro k p hk
    rw [m06.load (elem_ok k4 hk)]
    exact k5 k p hk
  · rw [wr_mem, Mem.store_brk, x5.mem, b4, hb3, hbE]

end Script
end Bic
