import Verif.Spec.Prog
import Verif.Proofs.Calls
import Verif.Proofs.Pointers
import Verif.Props.Assign
/-!
# Structured integer programs: the states of the evaluator against the store
-/

namespace Bic
open Spec

/-- what may be assigned: a computed value, which must fit into a `long` unless the
variable has at most 32 bits, or a variable that is at least as wide -/
def okAsg (σ : Store) (c : CT) (e : Expr) (v : Int) : Prop :=
  (computed e = true ∧ (width c ≤ 32 ∨ (-2 ^ 63 ≤ v ∧ v < 2 ^ 63))) ∨
  ∃ y d, e = .var y ∧ σ.Has y d (some v) ∧ width c ≤ width d

/-- no argument uses the name of an earlier parameter -/
def Avoid : List String → List (CT × String) → List Expr → Prop
  | seen, (_, x) :: ps, e :: es => (∀ y ∈ e.uses, y ∉ seen) ∧ Avoid (seen ++ [x]) ps es
  | _, _, _ => True

/-- the programs bic gets right: the operators where they agree with C, no value of a
condition a positive multiple of 2^63, no reading of values above those of `long` -/
def okRules : Rules :=
  ⟨okOp, okTruth, InRange .long, okAsg, False, fun _ => none, fun hid _ => hid = [], fun q es g => Avoid [] q.params es ∧ (g = .next ∨ g = .left)⟩

/-- `t` is a variable of type `c` at `a` with contents `v`; eight bytes are accessible -/
structure VarAt (s : St) (t : TId) (c : CT) (v : Option Int) (a : Nat) : Prop where
  at_ : ∃ τ, LvAt s t τ c a
  int : integral c
  wide : s.mem.ok 8 a = true
  val : ∀ w, v = some w → w = c.decode (s.mem.load c.size a)

theorem integral_size {c : CT} (h : integral c) : c.size ≤ 8 := by
  cases c <;> simp [integral] at h <;> decide

theorem VarAt.grow {s s' : St} {t c v a} (h : VarAt s t c v a) (g : Grow s s') : VarAt s' t c v a where
  at_ := by obtain ⟨τ, h⟩ := h.at_; exact ⟨τ, h.grow g⟩
  int := h.int
  wide := g.ok h.wide
  val w hw := by
    obtain ⟨τ, hl⟩ := h.at_
    rw [g.load hl.ok]; exact h.val w hw

/-- writing elsewhere -/
theorem VarAt.wr {s : St} {t c v a n b x} (h : VarAt s t c v a) (hn : n ≤ 8) (hd : a + 8 ≤ b ∨ b + 8 ≤ a) :
    VarAt (Bic.wr s n b x) t c v a where
  at_ := by obtain ⟨τ, h⟩ := h.at_; exact ⟨τ, h.wr _ _ _⟩
  int := h.int
  wide := by rw [← h.wide]; exact Mem.ok_congr (by simp) _ _
  val w hw := by
    have := integral_size h.int
    rw [wr_mem, Mem.load_store_disj _ (by omega)]
    exact h.val w hw

/-- writing into it -/
theorem VarAt.wr_self {s : St} {t c v a} (h : VarAt s t c v a) (x : Int) :
    VarAt (Bic.wr s c.size a (c.encode x)) t c (some (c.decode (c.encode x))) a where
  at_ := by obtain ⟨τ, h⟩ := h.at_; exact ⟨τ, h.wr _ _ _⟩
  int := h.int
  wide := by rw [← h.wide]; exact Mem.ok_congr (by simp) _ _
  val w hw := by
    cases hw
    rw [wr_mem, Mem.load_store, Nat.mod_eq_of_lt (show _ < 256 ^ c.size from CT.encode_lt c x)]

/-- the declarations of a scope and its variables, whose addresses are `as` -/
inductive FrameRel (s : St) : Frame → List Binding → List Nat → Prop
  | nil : FrameRel s [] [] []
  | var {x c v id t a fr bs as} : VarAt s t c v a → FrameRel s fr bs as →
      FrameRel s ((x, some ⟨c, v⟩) :: fr) (⟨x, id, some t⟩ :: bs) (a :: as)
  | other {x id r fr bs as} : FrameRel s fr bs as → FrameRel s ((x, none) :: fr) (⟨x, id, r⟩ :: bs) as

/-- the innermost scopes and the store -/
inductive StoreRel (s : St) : Store → List Ctx → List Nat → Prop
  | nil {cs} : StoreRel s [] cs []
  | cons {fr σ c cs as bs} : FrameRel s fr c.ids as → StoreRel s σ cs bs → StoreRel s (fr :: σ) (c :: cs) (as ++ bs)

def Apart (as : List Nat) : Prop := as.Pairwise fun a b => a + 8 ≤ b ∨ b + 8 ≤ a

/-- the scopes in which names are looked up: those that are open, and that of the headers -/
def lookups (s : St) : List Ctx := s.ctxs ++ s.includeCtx.toList

theorem lookups_cons {s : St} {c : Ctx} {cs : List Ctx} (h : s.ctxs = c :: cs) : lookups s = c :: (cs ++ s.includeCtx.toList) := by
  simp [lookups, h]

/-- the store as it is in the state -/
def Rel (s : St) (σ : Store) : Prop := ∃ as, StoreRel s σ (lookups s) as ∧ Apart as

theorem FrameRel.map {s s' : St} {fr bs as} (h : FrameRel s fr bs as)
    (hv : ∀ t c v a, a ∈ as → VarAt s t c v a → VarAt s' t c v a) : FrameRel s' fr bs as := by
  induction h with
  | nil => exact .nil
  | var h _ ih => exact .var (hv _ _ _ _ List.mem_cons_self h) (ih fun t c v a ha => hv t c v a (List.mem_cons_of_mem _ ha))
  | other _ ih => exact .other (ih hv)

theorem StoreRel.map {s s' : St} {σ cs cs' as} (h : StoreRel s σ cs as)
    (hc : cs'.map (·.ids) = cs.map (·.ids))
    (hv : ∀ t c v a, a ∈ as → VarAt s t c v a → VarAt s' t c v a) : StoreRel s' σ cs' as := by
  induction h generalizing cs' with
  | nil => exact .nil
  | @cons fr σ c cs as bs h1 _ ih =>
    cases cs' with
    | nil => simp at hc
    | cons c' cs' =>
      simp only [List.map_cons, List.cons.injEq] at hc
      refine .cons ?_ (ih hc.2 fun t c v a ha => hv t c v a (List.mem_append_right _ ha))
      rw [hc.1]
      exact h1.map fun t c v a ha => hv t c v a (List.mem_append_left _ ha)

theorem core_ids {l l' : List Ctx} (h : l'.map Ctx.core = l.map Ctx.core) : l'.map (·.ids) = l.map (·.ids) := by
  have := congrArg (List.map (fun c : Ctx => c.ids)) h
  simpa [List.map_map, Function.comp_def, Ctx.core] using this

theorem core_flags {l l' : List Ctx} (h : l'.map Ctx.core = l.map Ctx.core) :
    l'.map (·.shouldBreak) = l.map (·.shouldBreak) := by
  have := congrArg (List.map (fun c : Ctx => c.shouldBreak)) h
  simpa [List.map_map, Function.comp_def, Ctx.core] using this

theorem core_uids {l l' : List Ctx} (h : l'.map Ctx.core = l.map Ctx.core) :
    l'.map (·.uid) = l.map (·.uid) := by
  have := congrArg (List.map (fun c : Ctx => c.uid)) h
  simpa [List.map_map, Function.comp_def, Ctx.core] using this

theorem lookups_ids {s s' : St} (h : s'.ctxs.map (·.ids) = s.ctxs.map (·.ids)) (hi : s'.includeCtx = s.includeCtx) :
    (lookups s').map (·.ids) = (lookups s).map (·.ids) := by
  simp [lookups, h, hi]

theorem Grow.lookups {s s' : St} (g : Grow s s') : (lookups s').map (·.ids) = (lookups s).map (·.ids) := lookups_ids (core_ids g.ctxs) g.includeCtx

theorem findInChain_lookups (x : String) (s : St) : findInChain x .normal (lookups s) = resolveGlobal x .normal s := by
  have key : ∀ l : List Ctx, findInChain x .normal (l ++ s.includeCtx.toList) =
      match findInChain x .normal l with
      | some t => some t
      | none => match s.includeCtx with | some c => findId x (c.map .normal) | none => none := by
    intro l
    induction l with
    | nil => cases s.includeCtx with
      | none => rfl
      | some c => simp only [List.nil_append, Option.toList, findInChain]; cases findId x (c.map .normal) <;> rfl
    | cons c l ih =>
      simp only [List.cons_append, findInChain]
      cases findId x (c.map .normal) with
      | some t => rfl
      | none => exact ih
  exact key s.ctxs

theorem Rel.grow {s s' : St} {σ} (h : Rel s σ) (g : Grow s s') : Rel s' σ := by
  obtain ⟨as, h, ha⟩ := h
  exact ⟨as, h.map g.lookups fun t c v a _ h => h.grow g, ha⟩

theorem Apart.left {as bs : List Nat} (h : Apart (as ++ bs)) : Apart as := (List.pairwise_append.mp h).1
theorem Apart.right {as bs : List Nat} (h : Apart (as ++ bs)) : Apart bs := (List.pairwise_append.mp h).2.1

/-- finding a variable of a scope, and writing to it -/
theorem FrameRel.find {s : St} {fr bs as} (h : FrameRel s fr bs as) {x c v} (hf : Frame.find x fr = some (some ⟨c, v⟩))
    (ha : Apart as) : ∃ t a, findId x bs = some t ∧ VarAt s t c v a ∧ a ∈ as ∧
      ∀ s' w, (∀ t c v b, b ∈ as → (b + 8 ≤ a ∨ a + 8 ≤ b) → VarAt s t c v b → VarAt s' t c v b) →
        VarAt s' t c (some w) a → FrameRel s' (Frame.write x w fr) bs as := by
  induction h with
  | nil => cases hf
  | @var y c' v' id t a fr bs as h1 h2 ih =>
    unfold Apart at ha
    rw [List.pairwise_cons] at ha
    by_cases hy : y = x
    · rw [Frame.find, if_pos hy] at hf
      cases hf
      refine ⟨t, a, by simp [findId, hy], h1, List.mem_cons_self, ?_⟩
      intro s' w hv hw
      rw [Frame.write, if_pos hy]
      refine .var hw (h2.map fun t c v b hb => hv t c v b (List.mem_cons_of_mem _ hb) ?_)
      have := ha.1 b hb
      omega
    · rw [Frame.find, if_neg hy] at hf
      obtain ⟨t', a', e1, e2, e3, e4⟩ := ih hf ha.2
      refine ⟨t', a', by rw [findId, if_neg hy]; exact e1, e2, List.mem_cons_of_mem _ e3, ?_⟩
      intro s' w hv hw
      rw [Frame.write, if_neg hy]
      refine .var (hv _ _ _ _ List.mem_cons_self (ha.1 a' e3) h1)
        (e4 s' w (fun t c v b hb => hv t c v b (List.mem_cons_of_mem _ hb)) hw)
  | @other y id r fr bs as h2 ih =>
    by_cases hy : y = x
    · rw [Frame.find, if_pos hy] at hf; cases hf
    · rw [Frame.find, if_neg hy] at hf
      obtain ⟨t', a', e1, e2, e3, e4⟩ := ih hf ha
      refine ⟨t', a', by rw [findId, if_neg hy]; exact e1, e2, e3, ?_⟩
      intro s' w hv hw
      rw [Frame.write, if_neg hy]
      exact .other (e4 s' w hv hw)

theorem FrameRel.fresh {s : St} {fr bs as} (h : FrameRel s fr bs as) {x} (hf : Frame.find x fr = none) :
    ∀ b ∈ bs, b.name ≠ x := by
  induction h with
  | nil => intro b hb; cases hb
  | var _ _ ih | other _ ih =>
    unfold Frame.find at hf
    split at hf
    · cases hf
    · rename_i hy
      intro b hb
      rcases List.mem_cons.mp hb with rfl | hb
      · exact hy
      · exact ih hf b hb

theorem findId_absent {bs : List Binding} {x} (h : ∀ b ∈ bs, b.name ≠ x) : findId x bs = none := by
  induction bs with
  | nil => rfl
  | cons b bs ih =>
    rw [findId, if_neg (h b List.mem_cons_self)]
    exact ih fun b hb => h b (List.mem_cons_of_mem _ hb)

theorem StoreRel.find {s : St} {σ cs as} (h : StoreRel s σ cs as) {x c v} (hf : σ.Has x c v) (ha : Apart as) :
    ∃ t a, findInChain x .normal cs = some t ∧ VarAt s t c v a ∧ a ∈ as ∧
      ∀ s' w, (∀ t c v b, b ∈ as → (b + 8 ≤ a ∨ a + 8 ≤ b) → VarAt s t c v b → VarAt s' t c v b) →
        VarAt s' t c (some w) a → StoreRel s' (Store.write x w σ) cs as := by
  unfold Store.Has at hf
  induction h with
  | nil => cases hf
  | @cons fr σ k cs as bs h1 h2 ih =>
    have hap := List.pairwise_append.mp ha
    unfold Store.find at hf
    cases hfr : Frame.find x fr with
    | some u =>
      rw [hfr] at hf
      cases hf
      obtain ⟨t, a, e1, e2, e3, e4⟩ := h1.find hfr hap.1
      refine ⟨t, a, by simp [findInChain, Ctx.map, e1], e2, List.mem_append_left _ e3, ?_⟩
      intro s' w hv hw
      simp only [Store.write, hfr]
      refine .cons (e4 s' w (fun t c v b hb => hv t c v b (List.mem_append_left _ hb)) hw) ?_
      refine h2.map rfl fun t c v b hb => hv t c v b (List.mem_append_right _ hb) ?_
      have := hap.2.2 a e3 b hb
      omega
    | none =>
      rw [hfr] at hf
      obtain ⟨t, a, e1, e2, e3, e4⟩ := ih hf hap.2.1
      refine ⟨t, a, by simp [findInChain, Ctx.map, findId_absent (h1.fresh hfr), e1], e2, List.mem_append_right _ e3, ?_⟩
      intro s' w hv hw
      simp only [Store.write, hfr]
      refine .cons (h1.map fun t c v b hb => hv t c v b (List.mem_append_left _ hb) ?_)
        (e4 s' w (fun t c v b hb => hv t c v b (List.mem_append_right _ hb)) hw)
      exact hap.2.2 b hb a e3

/-- a variable of the store: the object it is, and what writing to it does -/
theorem Rel.find {s : St} {σ} (h : Rel s σ) {x c v} (hf : σ.Has x c v) :
    ∃ t a, resolveGlobal x .normal s = some t ∧ VarAt s t c v a ∧
      ∀ z : Int, Rel (wr s c.size a (c.encode z)) (σ.write x (c.decode (c.encode z))) := by
  obtain ⟨as, h, ha⟩ := h
  obtain ⟨t, a, e1, e2, e3, e4⟩ := h.find hf ha
  refine ⟨t, a, by rw [← findInChain_lookups, e1], e2, fun z => ⟨as, ?_, ha⟩⟩
  refine e4 _ _ (fun t c' v b hb hd h => h.wr (integral_size e2.int) hd) (e2.wr_self z)

theorem Rel.varIs {s : St} {σ} (h : Rel s σ) {x c v} (hf : σ.Has x c (some v)) (hr : InRange .long v) : VarIs s x v := by
  obtain ⟨t, a, h1, h2, _⟩ := h.find hf
  obtain ⟨τ, hl⟩ := h2.at_
  exact ⟨t, h1, .inr ⟨c, ⟨τ, a, hl, h2.val v rfl⟩, hr⟩⟩

theorem Rel.value {s : St} {σ} (h : Rel s σ) {e v} (hv : okRules.Value σ e v) : Val okOp okTruth (VarIs s) e v :=
  Val.mono (fun _ _ _ _ h => h) (fun _ _ h => h) (fun _ _ ⟨_, h1, h2⟩ => h.varIs h1 h2) hv

/-- what holds between statements: the store, and room for `n` more variables -/
structure Good (s : St) (σ : Store) (n : Nat) : Prop where
  wf : WF s
  flags : ∀ c ∈ s.ctxs, c.shouldBreak = false
  room : Room s n
  rel : Rel s σ

/-- the tree objects are still there -/
def Kept (s s' : St) : Prop := ∀ t n, s.nodes t = some n → s'.nodes t = some n

theorem Kept.refl (s : St) : Kept s s := fun _ _ h => h
theorem Kept.trans {s s' s'' : St} (h : Kept s s') (h' : Kept s' s'') : Kept s s'' := fun t n hn => h' t n (h t n hn)

theorem flags_of {l l' : List Ctx} (h : l'.map (·.shouldBreak) = l.map (·.shouldBreak))
    (hf : ∀ c ∈ l, c.shouldBreak = false) : ∀ c ∈ l', c.shouldBreak = false := by
  intro c hc
  have h1 : c.shouldBreak ∈ l'.map (·.shouldBreak) := List.mem_map.mpr ⟨c, hc, rfl⟩
  rw [h] at h1
  obtain ⟨d, hd, e⟩ := List.mem_map.mp h1
  rw [← e]; exact hf d hd

theorem Good.ext {s s' : St} {σ n} (h : Good s σ n) (x : Ext s s') : Good s' σ n where
  wf := x.wf h.wf
  flags := by rw [x.ctxs]; exact h.flags
  room := ⟨by rw [x.mem]; exact h.room.brk, by rw [x.ctxs]; exact h.room.ctxs, by rw [x.mem]; exact h.room.livelt⟩
  rel := h.rel.grow x.grow

theorem Good.mono {s : St} {σ n m} (h : Good s σ n) (hm : m ≤ n) : Good s σ m := ⟨h.wf, h.flags, h.room.mono hm, h.rel⟩

theorem Good.assoc {s : St} {σ a b c} (h : Good s σ (a + b + c)) : Good s σ (a + (b + c)) := by
  rw [← Nat.add_assoc]; exact h

theorem Good.enter {s : St} {σ n} (h : Good s σ n) (nm : String) : Good (enter s nm) ([] :: σ) n where
  wf := h.wf
  flags c hc := by
    rcases List.mem_cons.mp hc with rfl | hc
    · rfl
    · exact h.flags c hc
  room := ⟨h.room.brk, by simp [Spec.enter], h.room.livelt⟩
  rel := by
    obtain ⟨as, h1, h2⟩ := h.rel
    exact ⟨[] ++ as, .cons .nil (h1.map (cs' := lookups s) rfl fun t c v a _ h => ⟨by
      obtain ⟨τ, ⟨a1, a2, a3, a4⟩⟩ := h.at_; exact ⟨τ, ⟨a1, a2, a3, a4⟩⟩, h.int, h.wide, h.val⟩), h2⟩

theorem Good.leave {s : St} {fr σ n} (h : Good s (fr :: σ) n) (hne : (leave s).ctxs ≠ []) : Good (leave s) σ n where
  wf := h.wf
  flags c hc := h.flags c (List.mem_of_mem_tail hc)
  room := ⟨h.room.brk, hne, h.room.livelt⟩
  rel := by
    obtain ⟨as, h1, h2⟩ := h.rel
    cases hc : s.ctxs with
    | nil => simp [Spec.leave, hc] at hne
    | cons c cs =>
      rw [lookups_cons hc] at h1
      cases h1 with
      | @cons _ _ _ _ as bs h3 h4 =>
        refine ⟨bs, ?_, h2.right⟩
        refine h4.map (by simp [lookups, Spec.leave, hc]) fun t c v a _ h => ⟨by
          obtain ⟨τ, ⟨a1, a2, a3, a4⟩⟩ := h.at_; exact ⟨τ, ⟨a1, a2, a3, a4⟩⟩, h.int, h.wide, h.val⟩

/-! ## Expressions as statements -/

/-- `t` is the tree `u`, possibly in the list that the parser makes of an expression -/
inductive Wrap (nd : TId → Option Node) : TId → TId → Prop
  | self {t} : Wrap nd t t
  | list {t h u x} : nd t = some (.exprList (some h)) → nd h = some (.chain [u]) → Wrap nd u x → Wrap nd t x

theorem Wrap.mono {nd nd' : TId → Option Node} (h : ∀ t n, nd t = some n → nd' t = some n) {t u} (w : Wrap nd t u) :
    Wrap nd' t u := by
  induction w with
  | self => exact .self
  | list h1 h2 _ ih => exact .list (h _ _ h1) (h _ _ h2) ih

theorem Wrap.conv {E : Env} {s s' : St} {t u : TId} {r : Ref} (w : Wrap s.nodes t u)
    (h : Conv E (fun R => R.ev (some u)) s (.ok r s')) : Conv E (fun R => R.ev (some t)) s (.ok r s') := by
  induction w with
  | self => exact h
  | list h1 h2 _ ih =>
    refine Conv.evNode h1 ?_
    refine Conv.bind (s' := s) (Conv.const (chainElems_apply h2)) ?_
    exact Conv.bind (ih h) (Conv.pure _)

/-- the value of an expression that is just a variable is its object -/
theorem var_conv {E : Env} {s : St} {y : String} {q : TId} (hq : resolveGlobal y .normal s = some q) {T : Trees} {e : Expr}
    (h : ERepG s.nodes T e) : e = .var y →
    match T with
    | .one t => Conv E (fun R => R.ev (some t)) s (.ok (some q) s)
    | .many ts => ∀ acc, Conv E (fun R => forEachLast (fun t => R.ev (some t)) acc ts) s (.ok (some q) s) := by
  induction h with
  | var hn => intro h; cases h; exact ident_conv hn hq
  | list hn hc _ ih =>
    intro h
    refine Conv.evNode hn ?_
    exact Conv.bind (s' := s) (Conv.const (chainElems_apply hc)) (ih h none)
  | last _ ih => intro h acc; exact Conv.bind (ih h) (Conv.pure _)
  | _ => intro h; cases h

/-- the trees of assignments and steps -/
inductive ActRep (nd : TId → Option Node) : TId → Act → Prop
  | set {t u i r x e} : Wrap nd t u → nd u = some (.assign (some i) (some r)) → nd i = some (.ident x) → ERep nd r e →
      ActRep nd t (.set x e)
  | step {t u i x n d} : Wrap nd t u → nd u = some n →
      (n = .pInc (some i) ∧ d = 1 ∨ n = .inc (some i) ∧ d = 1 ∨ n = .pDec (some i) ∧ d = -1 ∨ n = .dec (some i) ∧ d = -1) →
      nd i = some (.ident x) → ActRep nd t (.step x d)

theorem ActRep.mono {nd nd' : TId → Option Node} (h : ∀ t n, nd t = some n → nd' t = some n) {t a} (r : ActRep nd t a) :
    ActRep nd' t a := by
  cases r with
  | set h1 h2 h3 h4 => exact .set (h1.mono h) (h _ _ h2) (h _ _ h3) (h4.mono h)
  | step h1 h2 h3 h4 => exact .step (h1.mono h) (h _ _ h2) h3 (h _ _ h4)

theorem Good.wr {s : St} {σ σ' n} (h : Good s σ n) (k a v) (hr : Rel (wr s k a v) σ') : Good (wr s k a v) σ' n where
  wf := h.wf
  flags := h.flags
  room := h.room.wr _ _ _
  rel := hr

/-- the result of evaluating a simple statement -/
def ActDone (E : Env) (s : St) (t : TId) (σ' : Store) (n : Nat) : Prop :=
  ∃ r s', Evt E s (some t) (some r) s' ∧ Good s' σ' n ∧ Kept s s' ∧ (∃ k, s'.nodes r = some k ∧ isJump k = false) ∧
    s'.ctxs = s.ctxs

/-- the result of evaluating `t` has the value `v` -/
def Value (s : St) (t : TId) (v : Int) : Prop := s.nodes t = some (.integer v) ∨ ∃ c a, VarAt s t c (some v) a

theorem Value.noJump {s : St} {t : TId} {v : Int} (h : Value s t v) : ∃ k, s.nodes t = some k ∧ isJump k = false := by
  rcases h with h | ⟨c, a, h⟩
  · exact ⟨_, h, rfl⟩
  · obtain ⟨τ, hl⟩ := h.at_
    obtain ⟨arr, sz, hlv⟩ := hl.lv
    exact ⟨_, hlv, rfl⟩

/-- the included files, the functions made for function pointers, the calls of library functions -/
def cfg (s : St) : List String × List (Nat × TId) × List Event := (s.includes, s.closures, s.events)

theorem Ext.cfg {s s' : St} (h : Ext s s') : Bic.cfg s' = Bic.cfg s := by
  unfold Bic.cfg
  rw [h.includes, h.closures, h.events]

/-- only a variable of the store is written to -/
def Touch (σ : Store) (s s' : St) : Prop :=
  ∃ x c v t a, σ.Has x c v ∧ resolveGlobal x .normal s = some t ∧ VarAt s t c v a ∧
    (∀ b, a + 8 ≤ b ∨ b + 8 ≤ a → s'.mem.load 8 b = s.mem.load 8 b ∧ s'.mem.ok 8 b = s.mem.ok 8 b) ∧ s'.includeCtx = s.includeCtx

theorem touch_wr {σ : Store} {s s2 : St} {x : String} {c : CT} {v t a} (z : Nat) (h1 : σ.Has x c v) (h2 : resolveGlobal x .normal s = some t)
    (h3 : VarAt s t c v a) (hm : s2.mem = s.mem) (hi : s2.includeCtx = s.includeCtx) : Touch σ s (wr s2 c.size a z) := by
  refine ⟨x, c, v, t, a, h1, h2, h3, fun b hb => ?_, hi⟩
  have := integral_size h3.int
  rw [wr_mem, Mem.load_store_disj _ (by omega), hm]
  exact ⟨rfl, Mem.ok_congr (by simp) _ _⟩

/-- the same with the value of the result -/
def ActGives (E : Env) (s : St) (t : TId) (σ σ' : Store) (n : Nat) (v : Int) : Prop :=
  ∃ r s', Evt E s (some t) (some r) s' ∧ Good s' σ' n ∧ Kept s s' ∧ Value s' r v ∧ s'.ctxs = s.ctxs ∧ cfg s' = cfg s ∧ Touch σ s s'

theorem ActGives.done {E : Env} {s : St} {t : TId} {σ σ' : Store} {n : Nat} {v : Int} (h : ActGives E s t σ σ' n v) : ActDone E s t σ' n := by
  obtain ⟨r, s', h1, h2, h3, h4, h5, _⟩ := h
  exact ⟨r, s', h1, h2, h3, h4.noJump, h5⟩

theorem Frame.find_write (x y : String) (w : Int) : ∀ fr : Frame, Frame.find y (Frame.write x w fr) =
    if y = x then (Frame.find y fr).map (Option.map fun u => ⟨u.ty, some w⟩) else Frame.find y fr
  | [] => by simp [Frame.write, Frame.find]
  | (z, v) :: fr => by
    have ih := Frame.find_write x y w fr
    unfold Frame.write
    by_cases hz : z = x
    · rw [if_pos hz]
      unfold Frame.find
      by_cases hy : z = y
      · subst hy; subst hz; simp
      · have : ¬ y = x := fun h => hy (by rw [hz, h])
        simp [hy, this]
    · rw [if_neg hz]
      unfold Frame.find
      by_cases hy : z = y
      · subst hy; simp [hz]
      · simp only [if_neg hy, ih]

theorem Store.find_write (x y : String) (w : Int) : ∀ σ : Store, Store.find y (Store.write x w σ) =
    if y = x then (Store.find y σ).map (Option.map fun u => ⟨u.ty, some w⟩) else Store.find y σ
  | [] => by simp [Store.write, Store.find]
  | fr :: σ => by
    have ih := Store.find_write x y w σ
    unfold Store.write
    cases hf : Frame.find x fr with
    | none =>
      simp only [Store.find]
      by_cases hy : y = x
      · subst hy
        simp only [hf, ih, if_true]
      · simp only [ih, if_neg hy]
    | some u =>
      simp only [Store.find, Frame.find_write]
      by_cases hy : y = x
      · subst hy
        simp [hf]
      · simp only [if_neg hy]

/-- assigning the variable `q` -/
theorem copy_conv {E : Env} {s : St} {σ : Store} {n : Nat} {u i r q : TId} {x : String} {c d : CT} {b : Nat} {v0 : Option Int} {v w : Int}
    (g : Good s σ n) (hu : s.nodes u = some (.assign (some i) (some r))) (hi : s.nodes i = some (.ident x))
    (hc : Conv E (fun R => R.ev (some r)) s (.ok (some q) s)) (j2 : VarAt s q d (some v) b) (hx : σ.Has x c v0)
    (hwd : width c ≤ width d) (hw : Converts c v w) :
    ∃ s', Evt E s (some u) (some q) s' ∧ Good s' (σ.write x w) n ∧ Kept s s' ∧ s'.ctxs = s.ctxs ∧ cfg s' = cfg s ∧
      (∀ y, resolveGlobal y .normal s' = resolveGlobal y .normal s) ∧ Touch σ s s' := by
  obtain ⟨t, a, k1, k2, k3⟩ := g.rel.find hx
  obtain ⟨τ, hl⟩ := k2.at_
  obtain ⟨τ', hl'⟩ := j2.at_
  obtain ⟨arr, sz, hlv⟩ := hl'.lv
  have h1 := assign_conv hu (ident_conv hi k1) hc hl k2.int (.lv hlv j2.wide)
  obtain ⟨z, s', w', e1, e2, e3⟩ := C08_assign_partial E c d k2.int j2.int hwd s s s u t q τ τ' (some i) (some r) a b v hu
    (ident_conv hi k1) hc hl hl' ((hl'.holds_iff v).mp ⟨_, _, hl', j2.val v rfl⟩) j2.wide
  have := Conv.unique h1 e1
  cases this
  have hz : w = c.decode (c.encode (CT.long.decode (s.mem.load 8 b))) := by
    rw [Converts.unique (.inl k2.int) hw e2]
    have h4 := ((hl.wr c.size a _).holds_iff w').mpr e3
    exact (h4.unique (hl.holds_wr _)).2
  exact ⟨_, ⟨h1, rfl, g.flags⟩, g.wr _ _ _ (by rw [hz]; exact k3 _), Kept.refl s, rfl, rfl, fun _ => rfl,
    touch_wr _ hx k1 k2 rfl rfl⟩

theorem set_conv {E : Env} {s : St} {σ : Store} {n : Nat} {u i r : TId} {x : String} {e : Expr} {c : CT} {v0 : Option Int} {v w : Int}
    (g : Good s σ n) (hu : s.nodes u = some (.assign (some i) (some r))) (hi : s.nodes i = some (.ident x))
    (hr : ERep s.nodes r e) (hx : σ.Has x c v0) (hv : okRules.Value σ e v) (ha : okAsg σ c e v) (hw : Converts c v w) :
    ActGives E s u σ (σ.write x w) n v := by
  rcases ha with ⟨hcomp, hfit⟩ | ⟨y, d, rfl, hy, hwd⟩
  · obtain ⟨q, s2, h1, h2, h3, h4⟩ := eval_full (E := E) g.wf (fun _ _ ⟨_, h1, h2⟩ => g.rel.varIs h1 h2) hv hr
    have g2 := g.ext h2
    obtain ⟨t, a, k1, k2, k3⟩ := g2.rel.find hx
    obtain ⟨τ, hl⟩ := k2.at_
    rw [h2.resolveGlobal] at k1
    have hq := h4.1 hcomp
    have := assign_conv hu (ident_conv hi k1) h1 hl k2.int (.int hq)
    have hz : w = c.decode (c.encode (mpzGetSi v)) :=
      Converts.unique (.inl k2.int) hw (getSi_converts k2.int hfit)
    refine ⟨q, _, ⟨this, by simp [h2.ctxs], by simpa [h2.ctxs] using g.flags⟩, g2.wr _ _ _ (by rw [hz]; exact k3 _), ?_, .inl hq,
      by simp [h2.ctxs], h2.cfg, ?_⟩
    · exact h2.nodes
    · obtain ⟨t', a', i1, i2, _⟩ := g.rel.find hx
      rw [k1] at i1
      cases i1
      obtain ⟨τ', hl'⟩ := i2.at_
      obtain ⟨_, _, n1⟩ := hl.lv
      obtain ⟨_, _, n2⟩ := hl'.lv
      have n3 := h2.nodes _ _ n2
      rw [n1] at n3
      cases n3
      exact touch_wr _ hx k1 i2 h2.mem h2.includeCtx
  · obtain ⟨q, b, j1, j2, _⟩ := g.rel.find hy
    obtain ⟨s', e1, e2, e3, e4, e5, e6, e7⟩ := copy_conv g hu hi (var_conv (E := E) j1 hr rfl) j2 hx hwd hw
    refine ⟨q, s', e1, e2, e3, .inr ?_, e4, e5, e7⟩
    have hv' : InRange d v := by
      obtain ⟨τ, hl⟩ := j2.at_
      exact Holds.inRange ⟨τ, b, hl, j2.val v rfl⟩
    have hy' : (σ.write x w).Has y d (some v) := by
      unfold Store.Has at hx hy ⊢
      rw [Store.find_write]
      by_cases hxy : y = x
      · subst hxy
        rw [hx] at hy
        injection hy with hy; injection hy with hy; injection hy with hy hy2
        subst hy
        rw [if_pos rfl, hx]
        have : w = v := Converts.unique (.inl j2.int) hw (Converts.self hv')
        rw [this]; rfl
      · rw [if_neg hxy]; exact hy
    obtain ⟨q', b', i1, i2, _⟩ := e2.rel.find hy'
    rw [e6, j1] at i1
    injection i1 with i1
    subst i1
    exact ⟨_, _, i2⟩

/-- `x++` and `x--` -/
def isPost : Node → Bool
  | .pInc _ | .pDec _ => true
  | _ => false

theorem step_conv {E : Env} {s : St} {σ : Store} {n : Nat} {u i : TId} {x : String} {nd : Node} {c : CT} {d v w : Int}
    (g : Good s σ n) (hu : s.nodes u = some nd)
    (hn : nd = .pInc (some i) ∧ d = 1 ∨ nd = .inc (some i) ∧ d = 1 ∨ nd = .pDec (some i) ∧ d = -1 ∨ nd = .dec (some i) ∧ d = -1)
    (hi : s.nodes i = some (.ident x)) (hx : σ.Has x c (some v)) (hw : Converts c (v + d) w) :
    ActGives E s u σ (σ.write x w) n (toPtrdiff (if isPost nd then v else w)) := by
  obtain ⟨t, a, k1, k2, k3⟩ := g.rel.find hx
  obtain ⟨τ, hl⟩ := k2.at_
  have hlv := evalLvalue_conv (E := E) (ident_conv hi k1) hl
  have hval := k2.val v rfl
  have hz : w = c.decode (c.encode (v + d)) :=
    Converts.unique (.inl k2.int) hw (CT.decode_encode_converts (.inl k2.int) _)
  subst hz
  have post : Conv E (fun R => evalPost E R d (some i)) s
      (.ok (some s.next) (wr (addNode s (.integer (toPtrdiff (c.decode (s.mem.load c.size a))))) c.size a (c.encode (v + d)))) := by
    unfold evalPost
    refine Conv.bind hlv (Conv.const ?_)
    simp [makeIntFromLV_apply hl, mkInt_apply, liveVarAdd_apply (hl.ext (addNode_ext g.wf _))]
    rw [hval]; rfl
  have pre : Conv E (fun R => evalPre E R d (some i)) s
      (.ok (some s.next) (addNode (wr s c.size a (c.encode (v + d)))
        (.integer (toPtrdiff (c.decode ((wr s c.size a (c.encode (v + d))).mem.load c.size a)))))) := by
    unfold evalPre
    refine Conv.bind hlv (Conv.const ?_)
    rw [hval] at *
    simp only [bind_apply, liveVarAdd_apply hl, makeIntFromLV_apply (hl.wr _ _ _), mkInt_apply]
    rfl
  have gpre := g.wr c.size a (c.encode (v + d)) (k3 _)
  have xpost := addNode_ext g.wf (.integer (toPtrdiff (c.decode (s.mem.load c.size a))))
  have gpost : Good (wr (addNode s (.integer (toPtrdiff (c.decode (s.mem.load c.size a))))) c.size a (c.encode (v + d)))
      (σ.write x (c.decode (c.encode (v + d)))) n := by
    have := addNode_ext gpre.wf (.integer (toPtrdiff (c.decode (s.mem.load c.size a))))
    exact gpre.ext this
  have donePost : ∀ {nd'}, s.nodes u = some nd' → (∀ R, evalNode E R u nd' = evalPost E R d (some i)) →
      ActGives E s u σ (σ.write x (c.decode (c.encode (v + d)))) n (toPtrdiff v) := by
    intro nd' h1 h2
    refine ⟨s.next, _, ⟨Conv.evNode h1 (post.congr fun R => by rw [h2]), rfl, g.flags⟩, gpost, xpost.nodes,
      .inl (by rw [hval]; exact addNode_self _ _), rfl, rfl, touch_wr _ hx k1 k2 rfl rfl⟩
  have donePre : ∀ {nd'}, s.nodes u = some nd' → (∀ R, evalNode E R u nd' = evalPre E R d (some i)) →
      ActGives E s u σ (σ.write x (c.decode (c.encode (v + d)))) n (toPtrdiff (c.decode (c.encode (v + d)))) := by
    intro nd' h1 h2
    refine ⟨s.next, _, ⟨Conv.evNode h1 (pre.congr fun R => by rw [h2]), rfl, g.flags⟩, gpre.ext (addNode_ext gpre.wf _),
      (addNode_ext gpre.wf _).nodes, .inl ?_, rfl, rfl, touch_wr (s2 := s) _ hx k1 k2 rfl rfl⟩
    have : c.decode ((wr s c.size a (c.encode (v + d))).mem.load c.size a) = c.decode (c.encode (v + d)) := by
      rw [wr_mem, Mem.load_store, Nat.mod_eq_of_lt (show _ < 256 ^ c.size from CT.encode_lt c _)]
    rw [this]
    exact addNode_self _ _
  rcases hn with ⟨rfl, rfl⟩ | ⟨rfl, rfl⟩ | ⟨rfl, rfl⟩ | ⟨rfl, rfl⟩
  · exact donePost hu fun R => rfl
  · exact donePre hu fun R => rfl
  · exact donePost hu fun R => rfl
  · exact donePre hu fun R => rfl

theorem act_conv {E : Env} {s : St} {σ σ' : Store} {n : Nat} {t : TId} {a : Act} (g : Good s σ n) (ht : ActRep s.nodes t a)
    (h : Acts okRules σ a σ') : ActDone E s t σ' n := by
  have wrap : ∀ {u}, Wrap s.nodes t u → ActDone E s u σ' n → ActDone E s t σ' n := by
    rintro u w ⟨r, s', ⟨h1, h2⟩, h3⟩
    exact ⟨r, s', ⟨w.conv h1, h2⟩, h3⟩
  cases h with
  | set h1 h2 h3 h4 =>
    cases ht with
    | set w e1 e2 e3 => exact wrap w (set_conv g e1 e2 e3 h1 h2 h3 h4).done
  | step h1 h2 =>
    cases ht with
    | step w e1 e2 e3 => exact wrap w (step_conv g e1 e2 e3 h1 h2).done

/-! ## Declarations -/

theorem FrameRel.wide {s : St} {fr bs as} (h : FrameRel s fr bs as) : ∀ a ∈ as, s.mem.ok 8 a = true := by
  induction h with
  | nil => intro a ha; cases ha
  | var h _ ih =>
    intro a ha
    rcases List.mem_cons.mp ha with rfl | ha
    · exact h.wide
    · exact ih a ha
  | other _ ih => exact ih

theorem StoreRel.wide {s : St} {σ cs as} (h : StoreRel s σ cs as) : ∀ a ∈ as, s.mem.ok 8 a = true := by
  induction h with
  | nil => intro a ha; cases ha
  | cons h1 _ ih =>
    intro a ha
    rcases List.mem_append.mp ha with ha | ha
    · exact h1.wide a ha
    · exact ih a ha

theorem below {m : Mem} (hl : LiveLt m) {a : Nat} (h : m.ok 8 a = true) : a + 8 ≤ m.brk := by
  rw [Mem.ok_iff] at h
  have := hl _ (h (a + 7) (by omega) (by omega))
  omega

theorem FrameRel.append {s : St} {fr bs as} (h : FrameRel s fr bs as) {x c v id t a} (hv : VarAt s t c v a) :
    FrameRel s (fr ++ [(x, some ⟨c, v⟩)]) (bs ++ [⟨x, id, some t⟩]) (as ++ [a]) := by
  induction h with
  | nil => exact .var hv .nil
  | var h1 _ ih => exact .var h1 ih
  | other _ ih => exact .other ih

def uids (s : St) : List Nat := s.ctxs.map (·.uid)

theorem bindCur_map (f : Ctx → α) (hf : ∀ c b, f { c with ids := c.ids ++ [b] } = f c) (b : Binding) (l : List Ctx) :
    (bindCur b l).map f = l.map f := by
  cases l with
  | nil => rfl
  | cons c l => simp [bindCur, hf]

theorem bump_map (f : Ctx → α) (hf : ∀ c a, f { c with allocs := c.allocs ++ [a] } = f c) (a : Nat) (l : List Ctx) :
    (bump a l).map f = l.map f := by
  cases l with
  | nil => rfl
  | cons c l => simp [bump, hf]

theorem declSt_kept {s : St} (w : WF s) (τ d x) : Kept s (declSt s τ d x) := (newVar_grow w _).nodes

theorem declSt_cfg (s : St) (τ d x) : cfg (declSt s τ d x) = cfg s := rfl

theorem declSt_uids (s : St) (τ d x) : uids (declSt s τ d x) = uids s := by
  simp only [uids, declSt]
  rw [bindCur_map _ (fun _ _ => rfl)]
  exact bump_map _ (fun _ _ => rfl) _ _

/-- the variable `x` comes into being -/
theorem declSt_good {s : St} {fr σ n τ d x c e} (g : Good s (fr :: σ) (n + 1)) (hτ : s.nodes τ = some (.ctype c e))
    (hc : integral c) (hx : Frame.find x fr = none) :
    Good (declSt s τ d x) ((fr ++ [(x, some ⟨c, none⟩)]) :: σ) n ∧ resolveCurrent x .normal s = none := by
  have gr := newVar_grow g.wf (some τ)
  obtain ⟨as, h1, h2⟩ := g.rel
  cases hcx : s.ctxs with
  | nil => exact absurd hcx g.room.ctxs
  | cons k ks =>
    rw [lookups_cons hcx] at h1
    cases h1 with
    | @cons _ _ _ _ as bs h3 h4 =>
      have hfr := findId_absent (h3.fresh hx)
      refine ⟨⟨gr.wf g.wf, ?_, ?_, ?_⟩, by simp [resolveCurrent, hcx, Ctx.map, hfr]⟩
      · refine flags_of ?_ g.flags
        simp only [declSt]
        rw [bindCur_map _ (fun _ _ => rfl)]
        exact bump_map _ (fun _ _ => rfl) _ _
      · have r2 := g.room.newVar g.wf (some τ)
        refine ⟨r2.brk, ?_, r2.livelt⟩
        simp [declSt, newVar, hcx, bump, bindCur]
      · have hv : VarAt (declSt s τ d x) s.next c none s.mem.brk := by
          refine ⟨⟨τ, ⟨false, 0, newVar_self _ _⟩, ⟨e, gr.nodes _ _ hτ⟩, .inl hc, ?_⟩, hc, ?_, fun w hw => by cases hw⟩
          · exact newVar_ok (ty := some τ) (Nat.le_trans (integral_size hc) (by omega))
          · exact newVar_ok (ty := some τ) (by omega)
        have old : ∀ t c v a, VarAt s t c v a → VarAt (declSt s τ d x) t c v a := by
          intro t c v a h
          have := h.grow gr
          obtain ⟨τ, ⟨a1, a2, a3, a4⟩⟩ := this.at_
          exact ⟨⟨τ, ⟨a1, a2, a3, a4⟩⟩, this.int, this.wide, this.val⟩
        refine ⟨(as ++ [s.mem.brk]) ++ bs, ?_, ?_⟩
        · have : (declSt s τ d x).ctxs =
              { k with ids := k.ids ++ [⟨x, d, some s.next⟩], allocs := k.allocs ++ [s.mem.brk] } :: ks := by
            simp [declSt, newVar, hcx, bump, bindCur]
          rw [lookups_cons this]
          exact .cons ((h3.map fun t c v a _ => old t c v a).append hv) (h4.map rfl fun t c v a _ => old t c v a)
        · have hb : ∀ a ∈ as ++ bs, a + 8 ≤ s.mem.brk := by
            intro a ha
            refine below g.room.livelt ?_
            rcases List.mem_append.mp ha with ha | ha
            · exact h3.wide a ha
            · exact h4.wide a ha
          have hp := List.pairwise_append.mp h2
          rw [List.append_assoc]
          refine List.pairwise_append.mpr ⟨hp.1, ?_, ?_⟩
          · rw [List.singleton_append, List.pairwise_cons]
            exact ⟨fun b hb' => .inr (hb b (List.mem_append_right _ hb')), hp.2.1⟩
          · intro a ha b hb'
            rcases List.mem_cons.mp hb' with rfl | hb'
            · exact .inl (hb a (List.mem_append_left _ ha))
            · exact hp.2.2 a ha b hb'

/-- the declarators of a declaration -/
inductive DsRep (nd : TId → Option Node) : List TId → List (String × Option Expr) → Prop
  | nil : DsRep nd [] []
  | plain {t x ts ds} : nd t = some (.ident x) → DsRep nd ts ds → DsRep nd (t :: ts) ((x, none) :: ds)
  | init {t i r x e ts ds} : nd t = some (.assign (some i) (some r)) → nd i = some (.ident x) → ERep nd r e →
      DsRep nd ts ds → DsRep nd (t :: ts) ((x, some e) :: ds)

theorem DsRep.mono {nd nd' : TId → Option Node} (h : ∀ t n, nd t = some n → nd' t = some n) {l ds} (r : DsRep nd l ds) :
    DsRep nd' l ds := by
  induction r with
  | nil => exact .nil
  | plain h1 _ ih => exact .plain (h _ _ h1) ih
  | init h1 h2 h3 _ ih => exact .init (h _ _ h1) (h _ _ h2) (h3.mono h) ih

theorem NoJump.kept {s s' : St} {r : Ref} (h : NoJump s r) (k : Kept s s') : NoJump s' r := by
  intro t ht
  obtain ⟨n, h1, h2⟩ := h t ht
  exact ⟨n, k _ _ h1, h2⟩

/-- the declarations of the innermost scope refer to the identifiers they were made with -/
def IdsNamed (s : St) : Prop := ∀ c cs, s.ctxs = c :: cs → ∀ b ∈ c.ids, s.nodes b.id = some (.ident b.name)

theorem IdsNamed.mono {s s' : St} (h : IdsNamed s) (k : Kept s s') (hc : s'.ctxs = s.ctxs) : IdsNamed s' :=
  fun c cs e b hb => k _ _ (h c cs (by rw [← hc, e]) b hb)

theorem declSt_named {s : St} {τ d x} (w : WF s) (h : IdsNamed s) (hd : s.nodes d = some (.ident x)) : IdsNamed (declSt s τ d x) := by
  intro c cs e b hb
  have k := declSt_kept w τ d x
  cases hcx : s.ctxs with
  | nil => simp [declSt, newVar, hcx, bump, bindCur] at e
  | cons k0 ks =>
    have : (declSt s τ d x).ctxs = { k0 with ids := k0.ids ++ [⟨x, d, some s.next⟩], allocs := k0.allocs ++ [s.mem.brk] } :: ks := by
      simp [declSt, newVar, hcx, bump, bindCur]
    rw [this] at e
    cases e
    rcases List.mem_append.mp hb with hb | hb
    · exact k _ _ (h _ _ hcx b hb)
    · cases List.mem_singleton.mp hb
      exact k _ _ hd

theorem declares_full {E : Env} {c : CT} {τ : TId} {σ σ' ds} (hc : integral c) (h : Declares okRules c σ ds σ') :
    ∀ {s l m acc}, DsRep s.nodes l ds → s.nodes τ = some (.ctype c none) → Good s σ (ds.length + m) → NoJump s acc →
    ∃ r s', Conv E (fun R => forEachLast (fun t => R.handleDecl (some t) (some τ)) acc l) s (.ok r s') ∧
      Good s' σ' m ∧ Kept s s' ∧ uids s' = uids s ∧ NoJump s' r ∧ cfg s' = cfg s ∧ (ds = [] → r = acc) ∧
      (∀ x, ds.getLast?.map (·.1) = some x → ∃ t, r = some t ∧ s'.nodes t = some (.ident x)) ∧ (IdsNamed s → IdsNamed s') ∧
      ((∀ d ∈ ds, d.2 = none) → s'.mem.byte = s.mem.byte) := by
  induction h with
  | nil =>
    intro s l m acc hl _ g hj
    cases hl
    refine ⟨acc, s, Conv.pure _, g.mono (by simp), Kept.refl s, rfl, hj, rfl, fun _ => rfl, by simp, id, fun _ => rfl⟩
  | @plain fr σ x ds σ' hx _ ih =>
    intro s l m acc hl hτ g hj
    cases hl with
    | @plain t _ ts _ h1 h2 =>
      have g0 : Good s (fr :: σ) ((ds.length + m) + 1) := g.mono (by simp; omega)
      obtain ⟨g1, hr⟩ := declSt_good (d := t) g0 hτ hc hx
      have k1 := declSt_kept g.wf τ t x
      have hd := handleDecl_ident_conv (E := E) g.wf h1 hτ (g0.room.mono (by omega)) hr
      obtain ⟨r, s', e1, e2, e3, e4, e5, e6, e7, e8, e9, e10⟩ := ih (acc := some t) (h2.mono k1) (k1 _ _ hτ) g1
        (by rintro _ h; cases h; exact ⟨_, k1 _ _ h1, rfl⟩)
      refine ⟨r, s', Conv.bind hd e1, e2, k1.trans e3, e4.trans (declSt_uids _ _ _ _), e5, e6.trans (declSt_cfg _ _ _ _), by simp, ?_,
        fun hn => e9 (declSt_named g.wf hn h1), fun hn => e10 fun d hd => hn d (List.mem_cons_of_mem _ hd)⟩
      cases ds with
      | nil => rintro _ ⟨⟩; exact ⟨t, e7 rfl, k1.trans e3 _ _ h1⟩
      | cons d ds => exact fun x hx => e8 x (by simpa using hx)
  | @init fr σ x e ds σ1 σ' hx ha _ ih =>
    intro s l m acc hl hτ g hj
    cases hl with
    | @init t i r _ _ ts _ h1 h2 h3 h4 =>
      have g0 : Good s (fr :: σ) ((ds.length + m) + 1) := g.mono (by simp; omega)
      obtain ⟨g1, hr⟩ := declSt_good (d := i) g0 hτ hc hx
      have k1 := declSt_kept g.wf τ i x
      cases ha with
      | set a1 a2 a3 a4 =>
        obtain ⟨q, s2, b1, b2, b3, _, b5, b6, _⟩ := set_conv (E := E) g1 (k1 _ _ h1) (k1 _ _ h2) (h3.mono k1) a1 a2 a3 a4
        have hd := handleDecl_assign_conv g.wf h1 h2 hτ (g0.room.mono (by omega)) hr b1.1
        have k2 := k1.trans b3
        have hu : uids s2 = uids s := by unfold uids; rw [b5]; exact declSt_uids _ _ _ _
        obtain ⟨r, s', e1, e2, e3, e4, e5, e6, e7, e8, e9, e10⟩ := ih (acc := some i) (h4.mono k2) (k2 _ _ hτ) b2
          (by rintro _ h; cases h; exact ⟨_, k2 _ _ h2, rfl⟩)
        refine ⟨r, s', Conv.bind hd e1, e2, k2.trans e3, e4.trans hu, e5, e6.trans (b6.trans (declSt_cfg _ _ _ _)), by simp, ?_,
          fun hn => e9 ((declSt_named g.wf hn h2).mono b3 b5),
          fun hn => absurd (hn _ List.mem_cons_self) (by simp)⟩
        cases ds with
        | nil => rintro _ ⟨⟩; exact ⟨i, e7 rfl, k2.trans e3 _ _ h2⟩
        | cons d ds => exact fun x hx => e8 x (by simpa using hx)

theorem declares_conv {E : Env} {c : CT} {τ : TId} {σ σ' ds} (hc : integral c) (h : Declares okRules c σ ds σ')
    {s l m acc} (hl : DsRep s.nodes l ds) (hτ : s.nodes τ = some (.ctype c none)) (g : Good s σ (ds.length + m)) (hj : NoJump s acc) :
    ∃ r s', Conv E (fun R => forEachLast (fun t => R.handleDecl (some t) (some τ)) acc l) s (.ok r s') ∧
      Good s' σ' m ∧ Kept s s' ∧ uids s' = uids s ∧ NoJump s' r ∧ cfg s' = cfg s ∧ (ds = [] → r = acc) ∧
      ∀ x, ds.getLast?.map (·.1) = some x → ∃ t, r = some t ∧ s'.nodes t = some (.ident x) := by
  obtain ⟨r, s', e1, e2, e3, e4, e5, e6, e7, e8, _⟩ := declares_full hc h hl hτ g hj
  exact ⟨r, s', e1, e2, e3, e4, e5, e6, e7, e8⟩

/-- the declarators of a declaration: a list, or a single one -/
def DeclsRep (nd : TId → Option Node) (decls : TId) (ds : List (String × Option Expr)) : Prop :=
  (∃ l, nd decls = some (.chain l) ∧ DsRep nd l ds) ∨ DsRep nd [decls] ds

theorem evt_uids {E : Env} {s s' : St} {t r : Ref} (h : Evl E s t r s') (hu : uids s' = uids s)
    (hf : ∀ c ∈ s'.ctxs, c.shouldBreak = false) : Evt E s t r s' := by
  refine ⟨h, ?_, hf⟩
  have := congrArg List.length hu
  simpa [uids] using this

theorem decl_conv {E : Env} {s : St} {σ σ' : Store} {m off : Nat} {t specs decls : TId} {c : CT} {ds} (hc : integral c)
    (ht : s.nodes t = some (.decl (some specs) (some decls) off)) (hs : TypeSpecs s.nodes specs c)
    (hd : DeclsRep s.nodes decls ds) (h : Declares okRules c σ ds σ') (g : Good s σ (ds.length + m)) :
    ∃ r s', Evt E s (some t) r s' ∧ Good s' σ' m ∧ Kept s s' ∧ uids s' = uids s ∧ NoJump s' r ∧ cfg s' = cfg s ∧
      ∀ x, ds.getLast?.map (·.1) = some x → ∃ t, r = some t ∧ s'.nodes t = some (.ident x) := by
  have x := addNode_ext g.wf (.ctype c none)
  have g1 := g.ext x
  have hu : uids (addNode s (.ctype c none)) = uids s := rfl
  rcases hd with ⟨l, hl, hd⟩ | hd
  · obtain ⟨r, s', e1, e2, e3, e4, e5, e6, _, e8⟩ := declares_conv (E := E) hc h (hd.mono x.nodes) (addNode_self _ _) g1
      (acc := none) (by simp [NoJump])
    refine ⟨r, s', evt_uids (evalDecl_conv g.wf ht hs ?_) (e4.trans hu) e2.flags, e2, Kept.trans x.nodes e3, e4.trans hu, e5, e6, e8⟩
    refine e1.of_eq fun R => ?_
    simp [eachDecl, peek_apply (x.nodes _ _ hl)]
  · obtain ⟨r, s', e1, e2, e3, e4, e5, e6, _, e8⟩ := declares_conv (E := E) hc h (hd.mono x.nodes) (addNode_self _ _) g1
      (acc := none) (by simp [NoJump])
    refine ⟨r, s', evt_uids (evalDecl_conv g.wf ht hs ?_) (e4.trans hu) e2.flags, e2, Kept.trans x.nodes e3, e4.trans hu, e5, e6, e8⟩
    have hnc : ∃ n, s.nodes decls = some n ∧ isChain n = false := by
      cases hd with
      | plain h1 _ => exact ⟨_, h1, rfl⟩
      | init h1 _ _ _ => exact ⟨_, h1, rfl⟩
    obtain ⟨n, hn, hn'⟩ := hnc
    refine e1.of_eq fun R => ?_
    cases n <;> simp [isChain] at hn' <;> simp [eachDecl, peek_apply (x.nodes _ _ hn), forEachLast] <;>
      cases R.handleDecl (some decls) (some s.next) (addNode s (.ctype c none)) <;> rfl

end Bic
