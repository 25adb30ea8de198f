import Verif.Spec.Control
import Verif.Proofs.Decl
import Verif.Proofs.Witness
/-!
# Statements: the code against the specification of the flow of control
-/

namespace Bic
open Spec

/-- evaluating an expression or a declaration, as the evaluator does it -/
def Evl (E : Env) (s : St) (t r : Option TId) (s' : St) : Prop := Conv E (fun R => R.ev t) s (.ok r s')

/-- … and no loop is left by `break` on the way (that would leave its scope open, see
C24) -/
def Evt (E : Env) (s : St) (t r : Option TId) (s' : St) : Prop :=
  Evl E s t r s' ∧ s'.ctxs.length = s.ctxs.length ∧ ∀ c ∈ s'.ctxs, c.shouldBreak = false

/-- the value of a condition: the integer it evaluates to, or the contents of the
variable it evaluates to (reading it makes an integer object) -/
def CondIs (E : Env) (s : St) (c : TId) (v : Int) (s' : St) : Prop :=
  ∃ r s1, Evt E s (some c) (some r) s1 ∧
    ((s1.nodes r = some (.integer v) ∧ s' = s1) ∨
     (∃ k w, Holds s1 r k w ∧ v = toPtrdiff w ∧ s' = addNode s1 (.integer v)))

/-- the language the evaluator implements as specified -/
def langOf (Q : Option TId → Prop) : Lang := ⟨okTruth, False, Q, False, False⟩

/-- any `return` -/
def AnyReturn : Option TId → Prop := fun _ => True

def okLang : Lang := langOf AnyReturn

/-- … with `return;` only -/
def voidLang : Lang := langOf (· = none)

/-- evaluating the expression of a `return` does not change the statement in such a way that it is not in the language -/
def Stable (E : Env) (Q : Option TId → Prop) : Prop :=
  ∀ {s s' : St} {t : TId} {e e' r : Option TId}, Q e → Evt E s e r s' → s.nodes t = some (.ret e) → s'.nodes t = some (.ret e') → Q e'

theorem stable_any (E : Env) : Stable E AnyReturn := fun _ _ _ _ => trivial

theorem stable_void (E : Env) : Stable E (· = none) := by
  rintro s s' t e e' r rfl h h1 h2
  have h3 : Conv E (fun R => R.ev none) s (.ok none s) := ⟨1, fun n hn => by cases n with | zero => omega | succ n => rfl⟩
  cases Conv.unique h.1 h3
  rw [h1] at h2
  cases h2
  rfl

theorem Conv.evolG {E : Env} {s s' : St} {f : Rec → M α} {a : α} (hf : ∀ R, RPres E R → Pres E (f R))
    (h : Conv E f s (.ok a s')) (hi : Inv s) : Evol E true s s' := by
  obtain ⟨n, h⟩ := h
  have e := hf _ (run_pres E n) s hi
  rw [h n (Nat.le_refl _)] at e
  exact e

theorem Conv.evolStop {E : Env} {s s' : St} {f : Rec → M α} {w : Stop} (hf : ∀ R, RPres E R → Pres E (f R))
    (h : Conv E f s (.stop w s')) (hi : Inv s) : Evol E false s s' := by
  obtain ⟨n, h⟩ := h
  have e := hf _ (run_pres E n) s hi
  rw [h n (Nat.le_refl _)] at e
  exact e

theorem Evol.same {E : Env} {s s' : St} (h : Evol E true s s') (hl : s'.ctxs.length = s.ctxs.length) :
    CtxsEvol s.ctxs s'.ctxs := by
  obtain ⟨top, rest, e, c, _⟩ := h.ctxs
  have := c.length
  rw [e, List.length_append] at hl
  have : top = [] := by
    cases top with
    | nil => rfl
    | cons _ _ => simp at hl; omega
  rw [e, this]; exact c

theorem CtxsEvol.innerFn {a b : List Ctx} (h : CtxsEvol a b) : innerFn b = innerFn a := by
  induction h with
  | nil => rfl
  | cons hc _ ih => simp [Bic.innerFn, hc.isFn, hc.uid, ih]

theorem CtxsEvol.ne {a b : List Ctx} (h : CtxsEvol a b) (ha : a ≠ []) : b ≠ [] := by
  cases h with
  | nil => exact ha
  | cons _ _ => simp

/-- the state is well formed and no loop is being left -/
structure Sane (s : St) : Prop where
  inv : Inv s
  flags : ∀ c ∈ s.ctxs, c.shouldBreak = false
  ne : s.ctxs ≠ []

theorem Evt.keep {E : Env} {s s' : St} {t r : Ref} (h : Evt E s t r s') (hs : Sane s) : Sane s' ∧ CtxsEvol s.ctxs s'.ctxs := by
  have ev := Conv.evol h.1 hs.inv
  have c := ev.same h.2.1
  exact ⟨⟨ev.inv, h.2.2, c.ne hs.ne⟩, c⟩

/-- in programs without `break` no loop is left -/
theorem Evl.tidy {E : Env} {s s' : St} {t r : Ref} (h : Evl E s t r s') (hi : Inv s) (hb : NoBrk s) : Evt E s t r s' := by
  have ev := Conv.evol h hi
  obtain ⟨top, rest, e, c, ht⟩ := ev.ctxs
  refine ⟨h, ?_, (ev.nobrk hb).2⟩
  rw [e, ht rfl hb, c.length]; rfl

theorem Sane.enter {s : St} (h : Sane s) (nm : String) : Sane (enter s nm) where
  inv := by
    obtain ⟨c, s', h1, _, _, h4, _⟩ := Pres.pushEvol (E := E0) h.inv nm
    have : s' = Spec.enter s nm := by
      have : pushCtx nm s = .ok () (Spec.enter s nm) := rfl
      rw [this] at h1; cases h1; rfl
    rw [← this]; exact h4
  flags := fun c hc => by
    rcases List.mem_cons.mp hc with rfl | hc
    · rfl
    · exact h.flags c hc
  ne := by simp [Spec.enter]

/-- after the statements of a scope that was opened in `s` -/
theorem Sane.leave {s s2 : St} (h : Sane s) {nm : String} (h2 : Sane s2)
    (c : CtxsEvol (Spec.enter s nm).ctxs s2.ctxs) :
    Sane (leave s2) ∧ CtxsEvol s.ctxs (leave s2).ctxs ∧ popCtx s2 = .ok () (leave s2) ∧
      ∃ k, curCtx s2 = .ok k s2 ∧ k.shouldBreak = false := by
  have hi := h2.inv
  have hb := h2.flags
  cases hc : s2.ctxs with
  | nil => rw [hc] at c; cases c
  | cons k cs =>
    rw [hc] at c
    have ct : CtxsEvol s.ctxs cs := by cases c with | cons _ h => exact h
    have e : (Spec.leave s2).ctxs = cs := by simp [Spec.leave, hc]
    have hne := ct.ne h.ne
    refine ⟨⟨⟨hi.wf, ?_, ?_⟩, ?_, by rw [e]; exact hne⟩, by rw [e]; exact ct, ?_, k, ?_, ?_⟩
    · have := hi.uids
      rw [hc] at this; rw [e]
      exact this.2.mono (Nat.le_of_lt this.1)
    · intro d hd
      rw [e] at hd
      exact hi.tags d (by rw [hc]; exact List.mem_cons_of_mem _ hd)
    · intro d hd
      rw [e] at hd
      exact hb d (by rw [hc]; exact List.mem_cons_of_mem _ hd)
    · cases cs with
      | nil => exact absurd rfl hne
      | cons k' cs => simp [popCtx, hc, Spec.leave]
    · simp [curCtx, hc]
    · exact hb k (by rw [hc]; exact List.mem_cons_self)

/-- what a `return` statement does to the program: its expression is replaced -/
def retNode (s : St) (t : TId) (r : Ref) : St :=
  { s with nodes := fun x => if x = t then some (.ret r) else s.nodes x }

/-- … and the value is kept in the scope of the call -/
def retSt (s : St) (t : TId) (r : Ref) (uid : Nat) : St :=
  { retNode s t r with ctxs := s.ctxs.map fun c => if c.uid = uid then { c with retval := r } else c }

/-- where `return` leads: to the call of the function `u`; outside of functions the
script ends -/
def Leaves (E : Env) (u : Option Nat) (s' : St) (t : TId) (r : Ref) (w : Stop) (s'' : St) : Prop :=
  match u with
  | some uid => w = .jump uid ∧ s'' = retSt s' t r uid
  | none => Conv E (fun R => cscriptExit R r) (retNode s' t r) (.stop w s'')

/-- `f` executes a `return` that gives `r` -/
def Returns (E : Env) (Q : Option TId → Prop) (f : Rec → M α) (s : St) (r : Ref) (s' : St) : Prop :=
  ∃ t e, s'.nodes t = some (.ret e) ∧ Q e ∧ ∀ w s'', Leaves E (innerFn s.ctxs) s' t r w s'' → Conv E f s (.stop w s'')

/-- in a function it jumps to the call -/
theorem Returns.jump {E : Env} {Q : Option TId → Prop} {f : Rec → M α} {s s' : St} {r : Ref} (h : Returns E Q f s r s') {uid : Nat}
    (hu : innerFn s.ctxs = some uid) : ∃ t e, s'.nodes t = some (.ret e) ∧ Q e ∧ Conv E f s (.stop (.jump uid) (retSt s' t r uid)) := by
  obtain ⟨t, e, h1, hq, h2⟩ := h
  exact ⟨t, e, h1, hq, h2 _ _ (by rw [hu]; exact ⟨rfl, rfl⟩)⟩

/-- what the evaluator does where the specification says that `k` ends as `f` -/
def Does (E : Env) (Q : Option TId → Prop) (s : St) (k : Code) (f : Flow) (s' : St) : Prop :=
  match k, f with
  | .stmt t, .next => ∃ r, Conv E (fun R => R.ev (some t)) s (.ok r s') ∧ NoJump s' r
  | .stmt t, .ret r =>
    (∃ e e', s.nodes t = some (.ret e) ∧ s'.nodes t = some (.ret e') ∧ Q e' ∧
      Conv E (fun R => R.ev (some t)) s (.ok (some t) (retNode s' t r))) ∨
    ((∃ n, s.nodes t = some n ∧ isJump n = false) ∧ Returns E Q (fun R => R.ev (some t)) s r s')
  | .block ts, .next => Conv E (fun R => evalElems R ts) s (.ok () s')
  | .block ts, .ret r => Returns E Q (fun R => evalElems R ts) s r s'
  | .body b, .next => Conv E (fun R => evaluate R b) s (.ok () s')
  | .body b, .ret r => Returns E Q (fun R => evaluate R b) s r s'
  | .loop c none b, .next => Conv E (fun R => R.loopWhile (some c) b) s (.ok none s')
  | .loop c none b, .ret r => Returns E Q (fun R => R.loopWhile (some c) b) s r s'
  | .loop c (some a) b, .next => Conv E (fun R => R.loopFor (some c) a b) s (.ok none s')
  | .loop c (some a) b, .ret r => Returns E Q (fun R => R.loopFor (some c) a b) s r s'
  | _, .brk => False

/-- the scopes after `k` -/
def Scopes (f : Flow) (s s' : St) : Prop :=
  match f with
  | .ret _ => Sane s' ∧ innerFn s'.ctxs = innerFn s.ctxs
  | _ => Sane s' ∧ CtxsEvol s.ctxs s'.ctxs

theorem Scopes.fn {f s s'} (h : Scopes f s s') : innerFn s'.ctxs = innerFn s.ctxs := by
  cases f with
  | ret _ => exact h.2
  | next => exact h.2.innerFn
  | brk => exact h.2.innerFn

theorem Scopes.sane {f s s'} (h : Scopes f s s') : Sane s' := by
  cases f with
  | ret _ => exact h.1
  | next => exact h.1
  | brk => exact h.1

theorem Scopes.after {f s s1 s'} (h : Scopes f s1 s') (c : CtxsEvol s.ctxs s1.ctxs) : Scopes f s s' := by
  cases f with
  | ret _ => exact ⟨h.1, h.2.trans c.innerFn⟩
  | next => exact ⟨h.1, c.trans h.2⟩
  | brk => exact ⟨h.1, c.trans h.2⟩

theorem innerFn_enter (s : St) (nm : String) : innerFn (enter s nm).ctxs = innerFn s.ctxs := rfl

theorem Scopes.closed {f s s' nm} (hs : Sane s) (h : Scopes f (enter s nm) s') : Scopes f s (close f s') := by
  cases f with
  | ret _ => exact ⟨h.1, h.2⟩
  | next => exact ⟨(hs.leave h.1 h.2).1, (hs.leave h.1 h.2).2.1⟩
  | brk => exact ⟨(hs.leave h.1 h.2).1, (hs.leave h.1 h.2).2.1⟩

theorem CondIs.conv {E : Env} {s s' : St} {c : TId} {v : Int} (h : CondIs E s c v s') :
    Conv E (fun R => convComparable R (some c)) s (.ok v s') := by
  obtain ⟨r, s1, h1, ⟨d, rfl⟩ | ⟨k, w, ⟨τ, a, hl, rfl⟩, rfl, rfl⟩⟩ := h
  · unfold convComparable
    exact Conv.bind h1.1 (Conv.const (by simp [node_apply d]))
  · obtain ⟨arr, sz, hlv⟩ := hl.lv
    unfold convComparable
    refine Conv.bind h1.1 (Conv.const ?_)
    simp only [bind_apply, node_apply hlv, typeOf_apply hl, isIntOrPtr hl.int, if_true,
      makeIntFromLV_apply hl, mkInt_apply]
    exact asInteger_apply (addNode_self _ _)

/-- in loops the condition is evaluated first, then converted -/
theorem CondIs.twice {E : Env} {s s' : St} {c : TId} {v : Int} (h : CondIs E s c v s') :
    Conv E (fun R => do let r ← R.ev (some c); convComparable R r) s (.ok v s') := by
  obtain ⟨r, s1, h1, h2⟩ := h
  refine Conv.bind h1.1 (CondIs.conv (E := E) ⟨r, s1, ⟨?_, rfl, h1.2.2⟩, h2⟩)
  rcases h2 with ⟨d, rfl⟩ | ⟨k, w, hl, rfl, rfl⟩
  · exact Denotes.ev (.inl d)
  · exact Denotes.ev (.inr ⟨k, w, hl, rfl⟩)

theorem CondIs.keep {E : Env} {s s' : St} {c : TId} {v : Int} (h : CondIs E s c v s') (hs : Sane s) :
    Sane s' ∧ CtxsEvol s.ctxs s'.ctxs := by
  have ev : Evol E true s s' := h.conv.evolG (fun _ hR => pres_convComparable hR _) hs.inv
  obtain ⟨r, s1, h1, h2⟩ := h
  have hc : s'.ctxs = s1.ctxs := by rcases h2 with ⟨_, rfl⟩ | ⟨_, _, _, _, rfl⟩ <;> rfl
  have c := ev.same (by rw [hc]; exact h1.2.1)
  exact ⟨⟨ev.inv, by rw [hc]; exact h1.2.2, c.ne hs.ne⟩, c⟩

theorem Returns.bind {E : Env} {Q : Option TId → Prop} {s s' : St} {f : Rec → M α} {g : Rec → α → M β} {r : Ref} (h : Returns E Q f s r s') :
    Returns E Q (fun R => f R >>= g R) s r s' := by
  obtain ⟨t, e, h1, hq, h2⟩ := h
  exact ⟨t, e, h1, hq, fun w s'' hl => (h2 w s'' hl).bind_stop⟩

theorem Returns.after {E : Env} {Q : Option TId → Prop} {s s1 s' : St} {f : Rec → M α} {g : Rec → α → M β} {a : α} {r : Ref}
    (h1 : Conv E f s (.ok a s1)) (hf : innerFn s1.ctxs = innerFn s.ctxs) (h : Returns E Q (fun R => g R a) s1 r s') :
    Returns E Q (fun R => f R >>= g R) s r s' := by
  obtain ⟨t, e, h3, hq, h2⟩ := h
  exact ⟨t, e, h3, hq, fun w s'' hl => h1.bind (h2 w s'' (by rw [hf]; exact hl))⟩

theorem Returns.of_eq {E : Env} {Q : Option TId → Prop} {s s1 s' : St} {f g : Rec → M α} {r : Ref} (h : Returns E Q f s1 r s')
    (hf : innerFn s1.ctxs = innerFn s.ctxs) (e : ∀ R, g R s = f R s1) : Returns E Q g s r s' := by
  obtain ⟨t, e', h3, hq, h2⟩ := h
  exact ⟨t, e', h3, hq, fun w s'' hl => (h2 w s'' (by rw [hf]; exact hl)).of_eq e⟩

theorem Returns.evNode {E : Env} {Q : Option TId → Prop} {s s' : St} {t : TId} {n : Node} {r : Ref} (ht : s.nodes t = some n)
    (h : Returns E Q (fun R => evalNode E R t n) s r s') : Returns E Q (fun R => R.ev (some t)) s r s' := by
  obtain ⟨t', e', h3, hq, h2⟩ := h
  exact ⟨t', e', h3, hq, fun w s'' hl => (h2 w s'' hl).evNode ht⟩

/-- one round of a loop and what comes after it -/
theorem loop_conv {E : Env} {s s1 s2 : St} {c : TId} {b : Ref} {v : Int} {nm : String} {K : Rec → M Ref} {o : Out Ref}
    (h : CondIs E s c v s1) (hv : mpzGetSi v ≠ 0) (hs : Sane s1)
    (hb : Conv E (fun R => evaluate R b) (enter s1 nm) (.ok () s2)) (hs2 : Sane s2)
    (hc : CtxsEvol (enter s1 nm).ctxs s2.ctxs) (hk : Conv E K (leave s2) o) :
    Conv E (fun R => (do
      let c ← R.ev (some c)
      let v ← convComparable R c
      if mpzGetSi v = 0 then pure none
      else do
        pushCtx nm
        evaluate R b
        let k ← curCtx
        if k.shouldBreak then pure none
        else do
          popCtx
          K R : M Ref)) s o := by
  obtain ⟨_, _, h3, k, h4, h5⟩ := hs.leave hs2 hc
  have h2 : Conv E (fun R => (do
      evaluate R b
      let k ← curCtx
      if k.shouldBreak then pure none
      else do
        popCtx
        K R : M Ref)) (enter s1 nm) o :=
    hb.bind (hk.of_eq fun R => by simp [h4, h5, h3])
  have h6 := Conv.bind (g := fun R v => (do
      if mpzGetSi v = 0 then pure none
      else do
        pushCtx nm
        evaluate R b
        let k ← curCtx
        if k.shouldBreak then pure none
        else do
          popCtx
          K R : M Ref)) h.twice (h2.of_eq fun R => by simp only [if_neg hv]; rfl)
  refine h6.of_eq fun R => ?_
  simp only [bind_apply]
  cases R.ev (some c) s <;> rfl

theorem loop_returns {E : Env} {Q : Option TId → Prop} {s s1 s2 : St} {c : TId} {b r : Ref} {v : Int} {nm : String} {K : Rec → M Ref}
    (h : CondIs E s c v s1) (hv : mpzGetSi v ≠ 0) (hf : innerFn s1.ctxs = innerFn s.ctxs)
    (hb : Returns E Q (fun R => evaluate R b) (enter s1 nm) r s2) :
    Returns E Q (fun R => (do
      let c ← R.ev (some c)
      let v ← convComparable R c
      if mpzGetSi v = 0 then pure none
      else do
        pushCtx nm
        evaluate R b
        let k ← curCtx
        if k.shouldBreak then pure none
        else do
          popCtx
          K R : M Ref)) s r s2 := by
  have h2 : Returns E Q (fun R => (do
      evaluate R b
      let k ← curCtx
      if k.shouldBreak then pure none
      else do
        popCtx
        K R : M Ref)) (enter s1 nm) r s2 := hb.bind
  have h6 := Returns.after (g := fun R v => (do
      if mpzGetSi v = 0 then pure none
      else do
        pushCtx nm
        evaluate R b
        let k ← curCtx
        if k.shouldBreak then pure none
        else do
          popCtx
          K R : M Ref)) h.twice hf (h2.of_eq (innerFn_enter s1 nm) fun R => by simp only [if_neg hv]; rfl)
  refine h6.of_eq rfl fun R => ?_
  simp only [bind_apply]
  cases R.ev (some c) s <;> rfl

theorem evaluate_chain {R : Rec} {s : St} {t : TId} {ts : List TId} (h : s.nodes t = some (.chain ts)) :
    evaluate R (some t) s = evalElems R ts s := by
  simp [evaluate, node_apply h]

theorem evaluate_single {R : Rec} {s : St} {t : TId} {n : Node} (h : s.nodes t = some n) (hn : isChain n = false) :
    evaluate R (some t) s = (R.ev (some t) >>= fun _ => pure ()) s := by
  cases n <;> simp [isChain] at hn <;> simp [evaluate, node_apply h]

/-- `return` in a list of statements -/
theorem evalElems_return {E : Env} {Q : Option TId → Prop} {s s' : St} {t : TId} {ts : List TId} {e' r : Ref}
    (hs' : s'.nodes t = some (.ret e')) (hq : Q e') (hf : innerFn s'.ctxs = innerFn s.ctxs)
    (h : Conv E (fun R => R.ev (some t)) s (.ok (some t) (retNode s' t r))) :
    Returns E Q (fun R => evalElems R (t :: ts)) s r s' := by
  refine ⟨t, e', hs', hq, fun w s'' hl => ?_⟩
  unfold evalElems
  refine h.bind ?_
  have hn : (retNode s' t r).nodes t = some (.ret r) := by simp [retNode]
  have hu : innerFn (retNode s' t r).ctxs = innerFn s.ctxs := hf
  cases hi : innerFn s.ctxs with
  | none =>
    rw [hi] at hl hu
    have hl : Conv E (fun R => cscriptExit R r) (retNode s' t r) (.stop w s'') := hl
    refine Conv.congr hl fun R => ?_
    simp [peek_apply hn, get, hu]
  | some uid =>
    rw [hi] at hl hu
    obtain ⟨rfl, rfl⟩ := hl
    refine Conv.fixed fun R => ?_
    simp [peek_apply hn, get, hu, setRetval, modify, stop, retSt]
    rfl

/-- The evaluator implements the specification, for runs without `break` and
without blocks directly in blocks. -/
theorem exec_doesQ {E : Env} {Q : Option TId → Prop} {s s' : St} {k : Code} {f : Flow} (hQ : Stable E Q)
    (h : Exec (langOf Q) (Evt E) (CondIs E) s k f s') : Sane s → Does E Q s k f s' ∧ Scopes f s s' := by
  induction h with
  | @expr s t n r s' hn hc he hj =>
    intro hs
    exact ⟨⟨r, he.1, hj⟩, he.keep hs⟩
  | brk h => exact absurd h id
  | @ret s t e r s' hq hn he =>
    intro hs
    obtain ⟨n', h1, h2⟩ := (Conv.evol he.1 hs.inv).nodes _ _ hn
    obtain ⟨hs', cs⟩ := he.keep hs
    have hret : ∃ e', n' = .ret e' := by
      have := h2.key
      cases n' <;> simp [mutKey] at this
      exact ⟨_, rfl⟩
    obtain ⟨e', rfl⟩ := hret
    refine ⟨.inl ⟨e, e', hn, h1, hQ hq he hn h1, ?_⟩, hs', cs.innerFn⟩
    refine Conv.evNode hn ?_
    unfold evalNode evalReturn
    exact Conv.bind he.1 (Conv.const rfl)
  | nested h => exact absurd h id
  | @cond s t c x y v b f s1 s' hn hc hv hx ih =>
    intro hs
    obtain ⟨hs1, cs⟩ := hc.keep hs
    obtain ⟨d, sc⟩ := ih (hs1.enter _)
    refine ⟨?_, (sc.closed hs1).after cs⟩
    have hz := mpzGetSi_truth hv
    have hb : ∀ R : Rec, (if mpzGetSi v = 0 then evaluate R y else evaluate R x) = evaluate R (if b then x else y) := by
      intro R
      cases b
      · rw [if_pos (hz.mpr rfl)]; rfl
      · rw [if_neg (fun h => by cases hz.mp h)]; rfl
    cases f with
    | brk => exact d.elim
    | next =>
      refine ⟨none, ?_, by simp [NoJump]⟩
      obtain ⟨_, _, hpop, _⟩ := hs1.leave sc.1 sc.2
      refine Conv.evNode hn ?_
      unfold evalNode evalIf
      refine Conv.bind hc.conv ?_
      have d : Conv E (fun R => evaluate R (if b then x else y)) (enter s1 "If statement") (.ok () s') := d
      have h2 := Conv.bind (g := fun R _ => (do popCtx; pure none : M Ref)) d (Conv.fixed (o := .ok none (leave s')) fun R => by simp [hpop])
      refine h2.of_eq fun R => ?_
      rw [hb]; rfl
    | ret r =>
      refine .inr ⟨⟨_, hn, rfl⟩, Returns.evNode hn ?_⟩
      unfold evalNode evalIf
      refine Returns.after hc.conv cs.innerFn ?_
      refine (Returns.bind (g := fun R _ => (do popCtx; pure none : M Ref)) d).of_eq (innerFn_enter _ _) fun R => ?_
      rw [hb]; rfl
  | @whileS s t c b f s' hn hx ih =>
    intro hs
    obtain ⟨d, sc⟩ := ih hs
    refine ⟨?_, sc⟩
    cases f with
    | brk => exact d.elim
    | next => exact ⟨none, Conv.evNode hn d, by simp [NoJump]⟩
    | ret r => exact .inr ⟨⟨_, hn, rfl⟩, Returns.evNode hn d⟩
  | @forS s t i n c a b r s1 f s' hn hi _ he hx ih =>
    intro hs
    obtain ⟨hs1, cs⟩ := he.keep hs
    obtain ⟨d, sc⟩ := ih hs1
    refine ⟨?_, sc.after cs⟩
    cases f with
    | brk => exact d.elim
    | next => exact ⟨none, Conv.evNode hn (Conv.bind he.1 d), by simp [NoJump]⟩
    | ret r => exact .inr ⟨⟨_, hn, rfl⟩, Returns.evNode hn (Returns.after he.1 cs.innerFn d)⟩
  | @stop s c a b v s' hc hv =>
    intro hs
    have hz : mpzGetSi v = 0 := (mpzGetSi_truth hv).mpr rfl
    refine ⟨?_, hc.keep hs⟩
    cases a with
    | none =>
      refine Conv.loopWhile ?_
      have h2 := Conv.bind (g := fun R v => (do
        if mpzGetSi v = 0 then pure none
        else do
          pushCtx "While Loop"
          evaluate R b
          let k ← curCtx
          if k.shouldBreak then pure none
          else do
            popCtx
            R.loopWhile (some c) b : M Ref)) hc.twice (Conv.fixed (o := .ok none s') fun R => by simp [hz])
      refine h2.of_eq fun R => ?_
      simp only [loopWhileStep, bind_apply]
      cases R.ev (some c) s <;> rfl
    | some a =>
      refine Conv.loopFor ?_
      have h2 := Conv.bind (g := fun R v => (do
        if mpzGetSi v = 0 then pure none
        else do
          pushCtx "For Loop"
          evaluate R b
          let k ← curCtx
          if k.shouldBreak then pure none
          else do
            popCtx
            let _ ← R.ev a
            R.loopFor (some c) a b : M Ref)) hc.twice (Conv.fixed (o := .ok none s') fun R => by simp [hz])
      refine h2.of_eq fun R => ?_
      simp only [loopForStep, bind_apply]
      cases R.ev (some c) s <;> rfl
  | @round s c b v f s1 s2 s' hc hv hb hl ihb ihl =>
    intro hs
    obtain ⟨hs1, cs⟩ := hc.keep hs
    have hz : mpzGetSi v ≠ 0 := fun h => by cases (mpzGetSi_truth hv).mp h
    obtain ⟨d, sc⟩ := ihb (hs1.enter _)
    obtain ⟨hsl, csl, _⟩ := hs1.leave sc.1 sc.2
    obtain ⟨d', sc'⟩ := ihl hsl
    refine ⟨?_, sc'.after (cs.trans csl)⟩
    cases f with
    | brk => exact d'.elim
    | next => exact Conv.loopWhile (loop_conv hc hz hs1 d sc.1 sc.2 d')
    | ret r =>
      obtain ⟨t, e, h1, hq, h2⟩ := d'
      exact ⟨t, e, h1, hq, fun w s'' hl =>
        Conv.loopWhile (loop_conv hc hz hs1 d sc.1 sc.2 (h2 w s'' (by rw [(cs.trans csl).innerFn]; exact hl)))⟩
  | @roundFor s c a b v r f s1 s2 s3 s' hc hv hb he hl ihb ihl =>
    intro hs
    obtain ⟨hs1, cs⟩ := hc.keep hs
    have hz : mpzGetSi v ≠ 0 := fun h => by cases (mpzGetSi_truth hv).mp h
    obtain ⟨d, sc⟩ := ihb (hs1.enter _)
    obtain ⟨hsl, csl, _⟩ := hs1.leave sc.1 sc.2
    obtain ⟨hs3, cs3⟩ := he.keep hsl
    obtain ⟨d', sc'⟩ := ihl hs3
    have ctot := (cs.trans csl).trans cs3
    refine ⟨?_, sc'.after ctot⟩
    cases f with
    | brk => exact d'.elim
    | next =>
      exact Conv.loopFor (loop_conv hc hz hs1 d sc.1 sc.2 (Conv.bind (g := fun R _ => R.loopFor (some c) a b) he.1 d'))
    | ret r =>
      obtain ⟨t, e, h1, hq, h2⟩ := d'
      exact ⟨t, e, h1, hq, fun w s'' hl => Conv.loopFor (loop_conv hc hz hs1 d sc.1 sc.2
        (Conv.bind (g := fun R _ => R.loopFor (some c) a b) he.1 (h2 w s'' (by rw [ctot.innerFn]; exact hl))))⟩
  | @left s c a b v s1 s' hc hv hb ih =>
    intro hs
    exact (ih ((hc.keep hs).1.enter _)).1.elim
  | @returned s c a b v r s1 s' hc hv hb ih =>
    intro hs
    obtain ⟨hs1, cs⟩ := hc.keep hs
    have hz : mpzGetSi v ≠ 0 := fun h => by cases (mpzGetSi_truth hv).mp h
    obtain ⟨d, sc⟩ := ih (hs1.enter _)
    refine ⟨?_, sc.1, sc.2.trans cs.innerFn⟩
    cases a with
    | none =>
      have := loop_returns (K := fun R => R.loopWhile (some c) b) hc hz cs.innerFn d
      obtain ⟨t, e, h1, hq, h2⟩ := this
      exact ⟨t, e, h1, hq, fun w s'' hl => Conv.loopWhile (h2 w s'' hl)⟩
    | some a =>
      have := loop_returns (K := fun R => do let _ ← R.ev a; R.loopFor (some c) a b) hc hz cs.innerFn d
      obtain ⟨t, e, h1, hq, h2⟩ := this
      exact ⟨t, e, h1, hq, fun w s'' hl => Conv.loopFor (h2 w s'' hl)⟩
  | nil => exact fun hs => ⟨Conv.pure (E := E) (), hs, .refl _⟩
  | @cons s t ts f s1 s' h1 h2 ih1 ih2 =>
    intro hs
    obtain ⟨⟨r, d, hj⟩, sc⟩ := ih1 hs
    obtain ⟨d', sc'⟩ := ih2 sc.1
    refine ⟨?_, sc'.after sc.2⟩
    have key : ∀ R : Rec, (do
        match ← peek r with
        | some (.ret e) => do
          match innerFn (← get).ctxs with
          | none => cscriptExit R e
          | some uid => do
            setRetval uid e
            Bic.stop (.jump uid)
        | some .brk => pure ()
        | _ => evalElems R ts : M Unit) s1 = evalElems R ts s1 := by
      intro R
      cases r with
      | none => simp [peek_none]
      | some q =>
        obtain ⟨n, hn, hjn⟩ := hj q rfl
        cases n <;> simp [isJump] at hjn <;> simp [peek_apply hn]
    cases f with
    | brk => exact d'.elim
    | next =>
      show Conv E (fun R => evalElems R (t :: ts)) s _
      unfold evalElems
      have d' : Conv E (fun R => evalElems R ts) s1 (.ok () s') := d'
      exact d.bind (Conv.of_eq d' key)
    | ret q =>
      show Returns E Q (fun R => evalElems R (t :: ts)) s _ _
      unfold evalElems
      exact Returns.after d sc.2.innerFn (Returns.of_eq d' rfl key)
  | @jump s t ts f s' hf h ih =>
    intro hs
    obtain ⟨d, sc⟩ := ih hs
    refine ⟨?_, sc⟩
    cases f with
    | next => exact absurd rfl hf
    | brk => exact d.elim
    | ret r =>
      rcases d with ⟨e, e', h1, h2, hq, h3⟩ | ⟨_, h⟩
      · exact evalElems_return h2 hq sc.2 h3
      · show Returns E Q (fun R => evalElems R (t :: ts)) s _ _
        unfold evalElems
        exact h.bind
  | none => exact fun hs => ⟨Conv.pure (E := E) (), hs, .refl _⟩
  | @braces s t ts f s' hn h ih =>
    intro hs
    obtain ⟨d, sc⟩ := ih hs
    refine ⟨?_, sc⟩
    cases f with
    | brk => exact d.elim
    | next =>
      have d : Conv E (fun R => evalElems R ts) s (.ok () s') := d
      exact Conv.of_eq d fun R => evaluate_chain hn
    | ret r => exact Returns.of_eq d rfl fun R => evaluate_chain hn
  | @single s t n f s' hn hc hj h ih =>
    intro hs
    obtain ⟨d, sc⟩ := ih hs
    refine ⟨?_, sc⟩
    have hj' : isJump n = false := by
      cases h : isJump n with
      | false => rfl
      | true => exact (hj h).elim
    cases f with
    | brk => exact d.elim
    | next =>
      obtain ⟨r, d, _⟩ := d
      exact Conv.of_eq (d.bind (Conv.pure ())) fun R => evaluate_single hn hc
    | ret r =>
      rcases d with ⟨e, e', h1, _⟩ | ⟨_, d⟩
      · rw [hn] at h1; cases h1; cases hj'
      · exact Returns.of_eq (Returns.bind (g := fun _ _ => pure ()) d) rfl fun R => evaluate_single hn hc

theorem exec_does {E : Env} {s s' : St} {k : Code} {f : Flow}
    (h : Exec okLang (Evt E) (CondIs E) s k f s') (hs : Sane s) : Does E AnyReturn s k f s' ∧ Scopes f s s' :=
  exec_doesQ (stable_any E) h hs

end Bic
