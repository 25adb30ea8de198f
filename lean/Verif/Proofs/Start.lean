import Verif.Model.Heap
import Verif.Proofs.Heap
import Verif.Proofs.Parts
import Verif.Proofs.Script
/-!
# The start of a script
-/

namespace Bic
open Spec Script

theorem initSt_WF (mem : Mem) : WF (initSt mem) := by
  intro t ht
  have ht : 6 ≤ t := ht
  match t, ht with
  | t + 6, _ => rfl

theorem initSt_Sane (mem : Mem) : Sane (initSt mem) where
  inv := ⟨initSt_WF mem, ⟨Nat.lt_succ_self 1, Nat.lt_succ_self 0, trivial⟩, by
    intro c hc
    simp only [initSt, List.mem_cons, List.not_mem_nil, or_false] at hc
    rcases hc with rfl | rfl <;> exact ⟨nofun, nofun⟩⟩
  flags := by
    intro c hc
    simp only [initSt, List.mem_cons, List.not_mem_nil, or_false] at hc
    rcases hc with rfl | rfl <;> rfl
  ne := nofun

theorem Sane.ext {s s' : St} (h : Sane s) (x : Ext s s') : Sane s' where
  inv := ⟨x.wf h.inv.wf, by rw [x.ctxs, x.nextUid]; exact h.inv.uids, by
    intro c hc
    rw [x.ctxs] at hc
    have := h.inv.tags c hc
    exact ⟨fun b hb v hv => (this.1 b hb v hv).imp fun n hn => ⟨x.nodes _ _ hn.1, hn.2⟩,
      fun b hb v hv => (this.2 b hb v hv).imp fun n hn => ⟨x.nodes _ _ hn.1, hn.2⟩⟩⟩
  flags := by rw [x.ctxs]; exact h.flags
  ne := by rw [x.ctxs]; exact h.ne

theorem Fresh.ext {s s' : St} {x : String} (h : Fresh s x) (e : Ext s s') : Fresh s' x := by
  intro c cs hc
  rw [e.ctxs] at hc
  exact h c cs hc

/-- the variables of a script that is started with `k` arguments -/
def argFrame (k : Nat) : Frame := [("argc", some ⟨.int, some (k : Int)⟩), ("argv", none)]

/-- the state when the script starts -/
theorem start_good {E : Env} {mem : Mem} {s : St} {ps : List Nat} {n : Nat} (x : Ext (initSt mem) s) (hl : LiveLt mem)
    (few : ps.length < 2 ^ 31) (cap : mem.brk + 176 + 104 * ps.length + 48 * n < Mem.limit) :
    ∃ s', Conv E (fun R => createArguments R ps) s (.ok () s') ∧ Good s' [argFrame ps.length] n ∧
      FnsAt (fun _ => none) s' [argFrame ps.length] ∧ Kept s s' := by
  have hs := (initSt_Sane mem).ext x
  have f : ∀ a, Fresh (initSt mem) a := by
    intro a c cs hc b hb
    cases hc
    cases hb
  have hm : s.mem = mem := x.mem
  obtain ⟨s', d1, d2, v, w, bt, m, h1, h2, ⟨c, h3⟩, h4⟩ := createArguments_conv (E := E) (argv := ps) hs.inv.wf few
    (by rw [hm]; omega) hs.ne (by rw [hm]; exact hl) ((f "argc").ext x) ((f "argv").ext x)
  have hb : s'.mem.brk ≤ s.mem.brk + 176 + 104 * ps.length := h4.2.2.2.2
  rw [hm] at hb
  have hs' := (createArguments_sane h1 h2 hs).1
  have hids : ∃ c0 cs, s'.ctxs = c0 :: cs ∧ c0.ids = [⟨"argc", d1, some v⟩, ⟨"argv", d2, some w⟩] := by
    have := h2.ctxs
    rw [x.ctxs] at this
    cases hc : s'.ctxs with
    | nil => exact absurd hc hs'.ne
    | cons c0 cs =>
      rw [hc] at this
      refine ⟨c0, cs, rfl, ?_⟩
      simp only [List.map_cons, initSt, bindAll, List.cons.injEq] at this
      have := congrArg Ctx.ids this.1
      simpa [Ctx.core] using this
  obtain ⟨c0, cs, e1, e2⟩ := hids
  refine ⟨s', h1, ⟨hs'.inv.wf, hs'.flags, ⟨by omega, hs'.ne, h2.livelt (by rw [hm]; exact hl)⟩, ⟨[c] ++ [], ?_, by simp [Apart]⟩⟩,
    ⟨hs', nofun, c0, by rw [e1]; rfl, nofun⟩, h2.nodes⟩
  rw [lookups_cons e1]
  refine .cons ?_ .nil
  rw [e2]
  exact .var h3 (.other .nil)

/-! ## What `__evaluate_cscript` finds in a script without `main` -/

theorem inspect_act {s : St} {t u : TId} {n n' : Node} (w : Wrap s.nodes t u) (h : s.nodes u = some n') (hn : ∀ a b c, n' ≠ .decl a b c)
    (ht : s.nodes t = some n) : ∀ a b c, n ≠ .decl a b c := by
  cases w with
  | self => rw [h] at ht; cases ht; exact hn
  | list h1 => rw [h1] at ht; cases ht; exact nofun

theorem inspect_code' {s : St} {t : TId} {n : Node} (h1 : s.nodes t = some n) (h2 : ∀ a b c, n ≠ .decl a b c) (f : Found) :
    inspectDecl t f s = .ok { f with hasNonDecls := true } s := by
  simp only [inspectDecl, bind_apply, node_apply h1]
  cases n <;> first | exact absurd rfl (h2 _ _ _) | rfl

theorem inspect_stmt {s : St} {t : TId} {p : Spec.Stmt} (h : SRep s.nodes (.stmt t) p) (f : Found) :
    ∃ b, inspectDecl t f s = .ok { f with hasNonDecls := b } s := by
  cases h with
  | act h1 h2 _ =>
    refine ⟨true, inspect_code' h2 ?_ f⟩
    cases h1 with
    | set a1 a2 => exact inspect_act a1 a2 nofun h2
    | step a1 a2 a3 =>
      refine inspect_act a1 a2 ?_ h2
      rcases a3 with ⟨rfl, _⟩ | ⟨rfl, _⟩ | ⟨rfl, _⟩ | ⟨rfl, _⟩ <;> exact nofun
  | call h1 h2 _ _ h5 _ => exact ⟨true, inspect_code' h5 (inspect_act h1 h2 nofun h5) f⟩
  | empty h1 => exact ⟨true, inspect_code' h1 nofun f⟩
  | cond h1 => exact ⟨true, inspect_code' h1 nofun f⟩
  | whileS h1 => exact ⟨true, inspect_code' h1 nofun f⟩
  | forS h1 => exact ⟨true, inspect_code' h1 nofun f⟩
  | ret h1 => exact ⟨true, inspect_code' h1 nofun f⟩
  | leave h1 => exact ⟨true, inspect_code' h1 nofun f⟩
  | nested h1 => exact ⟨true, inspect_code' h1 nofun f⟩
  | decl h1 _ h3 =>
    refine ⟨f.hasNonDecls, ?_⟩
    rcases h3 with ⟨l, h4, h5⟩ | h5
    · cases h5 with
      | nil => simp [inspectDecl, firstDeclarator, node_apply h1, peek_apply h4]
      | plain h6 => simp [inspectDecl, firstDeclarator, node_apply h1, peek_apply h4, peek_apply h6]
      | init h6 => simp [inspectDecl, firstDeclarator, node_apply h1, peek_apply h4, peek_apply h6]
    · cases h5 with
      | plain h6 => simp [inspectDecl, firstDeclarator, node_apply h1, peek_apply h6]
      | init h6 => simp [inspectDecl, firstDeclarator, node_apply h1, peek_apply h6]

theorem inspect_def {s : St} {t : TId} {g : String} {q : Proc} (h : DefRep s.nodes t g q) (hg : g ≠ "main") (f : Found) :
    inspectDecl t f s = .ok f s := by
  obtain ⟨specs, l, ks, v, off, c, t, fd, args, b, g1, g2, g3, g4, g5, g6, g7, g8, g9, g10⟩ := h
  simp [inspectDecl, firstDeclarator, node_apply g1, peek_apply g6, peek_apply g7, peek_apply g8, hg]

theorem inspect_parts {s : St} {ls us} (h : PartsRep s.nodes ls us) (hm : ∀ q, Part.proc "main" q ∉ us) : ∀ f : Found, f.hasMain = false →
    ∃ f', inspectDecls ls f s = .ok f' s ∧ f'.hasMain = false := by
  induction h with
  | nil => exact fun f hf => ⟨f, rfl, hf⟩
  | stmt h1 _ ih =>
    intro f hf
    obtain ⟨b, e⟩ := inspect_stmt h1 f
    obtain ⟨f', e', h2⟩ := ih (fun q hq => hm q (List.mem_cons_of_mem _ hq)) { f with hasNonDecls := b } hf
    exact ⟨f', by simp [inspectDecls, e, e'], h2⟩
  | proc h1 _ ih =>
    intro f hf
    obtain ⟨f', e', h2⟩ := ih (fun q hq => hm q (List.mem_cons_of_mem _ hq)) f hf
    refine ⟨f', ?_, h2⟩
    have e := inspect_def h1 (fun e => hm _ (by rw [e]; exact List.mem_cons_self)) f
    simp [inspectDecls, e, e']

/-! ## Running the script -/

theorem script_runs_good {E : Env} {G : String → Prop} {Φ' : String → Option Proc} {fr' : Frame} {us : List Part} {n m : Nat}
    {mem : Mem} {s : St} {ps : List Nat} {x : TId} {ls : List TId} (e : Ext (initSt mem) s) (hl : LiveLt mem)
    (few : ps.length < 2 ^ 31) (cap : mem.brk + 176 + 104 * ps.length + 48 * (n + m) < Mem.limit)
    (hx : s.nodes x = some (.chain ls)) (hr : PartsRep s.nodes ls us) (hm : ∀ q, Part.proc "main" q ∉ us) (ha : ∀ u ∈ us, u.Apart G)
    (h : RunParts okStatic (fun _ => none) (argFrame ps.length) us Φ' fr' n) :
    ∃ s', Conv E (fun R => evaluateCscript R x ps) s (.ok () s') ∧ Good s' [fr'] m ∧ FnsAt Φ' s' [fr'] ∧ s'.includes = [] := by
  obtain ⟨s1, h1, g, F, k⟩ := start_good (E := E) (n := n + m) e hl few cap
  obtain ⟨f', hf, hf'⟩ := inspect_parts hr hm ⟨0, false, false⟩ rfl
  obtain ⟨s', h2, g', _, _, F'⟩ := parts_ended (E := E) (m := m) h (hr.mono k) g F ⟨nofun, nofun, nofun⟩ ha
  obtain ⟨d, _⟩ := exec_does (h2 AnyReturn) F.sane
  have d : Conv E (fun R => evalElems R ls) s1 (.ok () s') := d
  have hi : s'.includes = [] := by
    rw [(d.evolG (fun R hR => pres_evalElems hR ls) F.sane.inv).includes,
      (h1.evolG (fun R hR => pres_createArguments hR ps) ((initSt_Sane mem).ext e).inv).includes, e.includes]
    rfl
  refine ⟨s', ?_, g', F', hi⟩
  unfold evaluateCscript
  refine Conv.bind (Conv.const (chainElems_apply hx)) (Conv.bind (Conv.const hf) ?_)
  have : Conv E (fun R => createArguments R ps >>= fun _ => evaluate R (some x)) s (.ok () s') := by
    refine Conv.bind h1 (d.congr fun R => ?_)
    rw [evaluate_chain (k _ _ hx)]
  refine this.congr fun R => ?_
  simp [hf']

theorem script_runs {E : Env} {G : String → Prop} {Φ' : String → Option Proc} {fr' : Frame} {us : List Part} {n : Nat}
    {mem : Mem} {s : St} {ps : List Nat} {x : TId} {ls : List TId} (e : Ext (initSt mem) s) (hl : LiveLt mem)
    (few : ps.length < 2 ^ 31) (cap : mem.brk + 176 + 104 * ps.length + 48 * n < Mem.limit)
    (hx : s.nodes x = some (.chain ls)) (hr : PartsRep s.nodes ls us) (hm : ∀ q, Part.proc "main" q ∉ us) (ha : ∀ u ∈ us, u.Apart G)
    (h : RunParts okStatic (fun _ => none) (argFrame ps.length) us Φ' fr' n) :
    ∃ s', Conv E (fun R => evaluateCscript R x ps) s (.ok () s') ∧ Rel s' [fr'] ∧ FnsAt Φ' s' [fr'] := by
  obtain ⟨s', h1, h2, h3, _⟩ := script_runs_good (E := E) (m := 0) e hl few cap hx hr hm ha h
  exact ⟨s', h1, h2.rel, h3⟩

end Bic
