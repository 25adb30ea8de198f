import Verif.Proofs.ExprEval
/-!
# Assignment, increment, cast: what they do to the state
-/

namespace Bic
open Spec

/-- the state after writing `n` bytes at `a` -/
def wr (s : St) (n a v : Nat) : St := { s with mem := s.mem.store n a v }

@[simp] theorem wr_nodes (s n a v) : (wr s n a v).nodes = s.nodes := rfl
@[simp] theorem wr_next (s n a v) : (wr s n a v).next = s.next := rfl
@[simp] theorem wr_ctxs (s n a v) : (wr s n a v).ctxs = s.ctxs := rfl
@[simp] theorem wr_mem (s n a v) : (wr s n a v).mem = s.mem.store n a v := rfl

theorem wr_resolveGlobal (s n a v x ns) : resolveGlobal x ns (wr s n a v) = resolveGlobal x ns s := rfl

theorem wr_WF {s : St} (h : WF s) (n a v) : WF (wr s n a v) := h

theorem storeRaw_apply {s : St} {n a v : Nat} (h : s.mem.ok n a = true) :
    storeRaw n a v s = .ok () (wr s n a v) := by
  simp [storeRaw, h, wr]

theorem LvAt.wr {s : St} {t τ c a} (h : LvAt s t τ c a) (n b v) : LvAt (wr s n b v) t τ c a where
  lv := h.lv
  ty := h.ty
  int := h.int
  ok := by rw [← h.ok]; exact Mem.ok_congr (by simp) _ _

/-- after writing `c.encode x` into the variable it holds `x` converted -/
theorem LvAt.holds_wr {s : St} {t τ c a} (h : LvAt s t τ c a) (x : Int) :
    Holds (Bic.wr s c.size a (c.encode x)) t c (c.decode (c.encode x)) := by
  refine ⟨τ, a, h.wr _ _ _, ?_⟩
  rw [wr_mem, Mem.load_store, Nat.mod_eq_of_lt (show _ < 256 ^ c.size from CT.encode_lt c x)]

/-- the value `assign_integer` takes from the right hand side -/
inductive RVal (s : St) (q : TId) : Int → Prop
  | int {z} : s.nodes q = some (.integer z) → RVal s q (mpzGetSi z)
  | lv {ty a arr sz} : s.nodes q = some (.lv ty a arr sz) → s.mem.ok 8 a = true →
      RVal s q (CT.long.decode (s.mem.load 8 a))

theorem integral_notFp {c : CT} (h : integral c ∨ c = .ptr) : c.isFp = false := by
  rcases h with h | rfl
  · cases c <;> simp [integral] at h <;> rfl
  · rfl

theorem assignInteger_apply {E : Env} {s : St} {t τ c a q x} (h : LvAt s t τ c a) (hq : RVal s q x) :
    assignInteger E t (some q) s = .ok () (wr s c.size a (c.encode x)) := by
  have hf := integral_notFp h.int
  cases hq with
  | int hz =>
    simp [assignInteger, nodeR, node_apply hz, lvFields_apply h, typeOf_apply h, storeLong, hf,
      storeRaw_apply h.ok]
  | lv hz hok =>
    simp [assignInteger, nodeR, node_apply hz, lvFields_apply h, typeOf_apply h, storeLong, hf,
      storeRaw_apply h.ok, loadRaw, hok]

/-- `l = r` for an integer variable -/
theorem assign_conv {E : Env} {s s1 s2 : St} {t : TId} {l r : Ref} {x q : TId} {τ c a v}
    (hn : s.nodes t = some (.assign l r))
    (hl : Conv E (fun R => R.ev l) s (.ok (some x) s1))
    (hr : Conv E (fun R => R.ev r) s1 (.ok (some q) s2))
    (h : LvAt s2 x τ c a) (hi : integral c) (hq : RVal s2 q v) :
    Conv E (fun R => R.ev (some t)) s (.ok (some q) (wr s2 c.size a (c.encode v))) := by
  refine Conv.evNode hn ?_
  refine Conv.bind hl (Conv.bind hr (Conv.const ?_))
  obtain ⟨arr, sz, hlv⟩ := h.lv
  simp [node_apply hlv, typeOf_apply h, CT.isInt_iff.mpr hi, assignInteger_apply h hq]

/-- an identifier that resolves -/
theorem ident_conv {E : Env} {s : St} {t r : TId} {x : String} (hn : s.nodes t = some (.ident x))
    (hr : resolveGlobal x .normal s = some r) : Conv E (fun R => R.ev (some t)) s (.ok (some r) s) := by
  refine Conv.evNode hn (Conv.const ?_)
  simp [resolveIdG, idStr, nodeR, node_apply hn, get, hr]

/-- `++`/`--` on a variable -/
theorem liveVarAdd_apply {E : Env} {s : St} {t τ c a} (h : LvAt s t τ c a) (d : Int) :
    liveVarAdd E t d s =
      .ok () (wr s c.size a (c.encode (c.decode (s.mem.load c.size a) + d))) := by
  have hf := integral_notFp h.int
  simp [liveVarAdd, lvFields_apply h, typeOf_apply h, loadRaw, h.ok, hf, storeRaw_apply h.ok]

theorem evalLvalue_conv {E : Env} {s s' : St} {e : Ref} {x τ c a}
    (he : Conv E (fun R => R.ev e) s (.ok (some x) s')) (h : LvAt s' x τ c a) :
    Conv E (fun R => evalLvalue R e) s (.ok x s') := by
  obtain ⟨arr, sz, hlv⟩ := h.lv
  unfold evalLvalue
  refine Conv.bind he (Conv.const ?_)
  simp [node_apply hlv]

end Bic
