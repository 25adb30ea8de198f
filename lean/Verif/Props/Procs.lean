import Verif.Proofs.Procs
import Verif.Props.Calls
/-!
# Programs with procedures (C85)

Procedures are functions of integer parameters that are called for their effect; they
may call each other and themselves.  `FnsAt Φ s σ` says that the procedures `Φ` are
declared in the outermost of the scopes that `σ` describes (there may be more, as that of
the builtins).
-/

namespace Bic
open Spec

/-- **C85**: programs with procedures leave the variables with the values C gives them -/
def C85_statement : Prop :=
  ∀ (E : Env) (Φ : String → Option Proc) (s : St) (σ σ' : Store) (p : Spec.Stmt) (k : Code) (n : Nat), Good s σ n →
    FnsAt Φ s σ → SRep s.nodes k p → Run (cRules.with Φ) σ p .next σ' n → ∃ s', Runs E s k s' ∧ Rel s' σ'

/-- What bic does: a procedure sees the variables of all its callers (`okRules` has
`sees hidden visible` only for `hidden = []`). -/
theorem C85_dynamic_partial {E : Env} {Φ : String → Option Proc} {s : St} {σ σ' : Store} {p : Spec.Stmt} {k : Code} {n : Nat}
    (g : Good s σ n) (F : FnsAt Φ s σ) (hr : SRep s.nodes k p) (h : Run (okRules.with Φ) σ p .next σ' n) :
    ∃ s', Runs E s k s' ∧ Rel s' σ' ∧ Kept s s' ∧ uids s' = uids s ∧ FnsAt Φ s' σ' := by
  obtain ⟨s', h1, h2, h3, h4⟩ := run_ended_procs (E := E) (m := 0) h hr g (.inr F)
  exact ⟨s', exec_runs (h1 _) F.sane, h2.rel, h3, h4, F.step (exec_keep (h1 _)) h3 (run_length h)⟩

/-- Procedures, recursive ones too, do what C says if every procedure uses its
parameters, its variables and names of `G` only, and no parameter and no variable of
an inner scope has a name of `G` (so the names of `G` are global); arguments do not
use the names of earlier parameters; the other restrictions are those of C34.  Missing
from C85: these restrictions, and procedures that end with `return e;`. -/
theorem C85_procedures_partial {E : Env} {Φ : String → Option Proc} {G : String → Prop} {s : St} {top σ' : Store} {glob : Frame}
    {p : Spec.Stmt} {k : Code} {n : Nat} (g : Good s (top ++ [glob]) n) (F : FnsAt Φ s (top ++ [glob])) (hr : SRep s.nodes k p)
    (hΦ : Separate Φ G) (hG : Clear G top) (hb : top ≠ [] → ∀ x ∈ p.binds, ¬ G x) (hi : ∀ x ∈ p.inners, ¬ G x)
    (h : Run (staticRules Φ) (top ++ [glob]) p .next σ' n) :
    ∃ s', Runs E s k s' ∧ Rel s' σ' ∧ Kept s s' ∧ uids s' = uids s ∧ FnsAt Φ s' σ' := by
  obtain ⟨t', g', rfl, _, _, _, h1⟩ := run_dynamic (loc := []) hΦ h rfl (fun _ => rfl) (by simpa using hG) hb hi
    (fun _ _ => .inr (by simp))
  exact C85_dynamic_partial g F hr h1

/-- … and nothing else -/
theorem C85_only_partial {E : Env} {Φ : String → Option Proc} {G : String → Prop} {s s' : St} {top σ' : Store} {glob : Frame}
    {p : Spec.Stmt} {k : Code} {n : Nat} (g : Good s (top ++ [glob]) n) (F : FnsAt Φ s (top ++ [glob])) (hr : SRep s.nodes k p)
    (hΦ : Separate Φ G) (hG : Clear G top) (hb : top ≠ [] → ∀ x ∈ p.binds, ¬ G x) (hi : ∀ x ∈ p.inners, ¬ G x)
    (h : Run (staticRules Φ) (top ++ [glob]) p .next σ' n) (hx : Runs E s k s') : Rel s' σ' := by
  obtain ⟨s1, h1, h2, _⟩ := C85_procedures_partial (E := E) g F hr hΦ hG hb hi h
  rw [hx.unique h1]; exact h2

/-- the rules are C's, for fewer programs -/
theorem static_c {Φ : String → Option Proc} {σ σ' : Store} {p f n} (h : Run (staticRules Φ) σ p f σ' n) :
    Run (cRules.with Φ) σ p f σ' n := by
  have hv : ∀ {σ e v}, (staticRules Φ).Value σ e v → (cRules.with Φ).Value σ e v := fun h =>
    Val.mono (fun _ _ _ _ h => h.1) (fun _ _ h => h.1) (fun _ _ ⟨c, h1, _⟩ => ⟨c, h1, trivial⟩) h
  have hs : (staticRules Φ).Sub (cRules.with Φ) := ⟨fun _ _ _ h => hv h, fun _ _ _ _ _ => trivial⟩
  induction h with
  | act h => exact .act (h.sub hs)
  | decl hi h => exact .decl hi (h.sub hs)
  | skip => exact .skip
  | seq _ _ ih1 ih2 => exact .seq ih1 ih2
  | stop _ h ih => exact .stop ih h
  | cond h1 h2 _ ih => exact .cond (hv h1) h2.1 ih
  | whileS _ ih => exact .whileS ih
  | forS ha _ ih => exact .forS (ha.sub hs) ih
  | last h1 h2 => exact .last (hv h1) h2.1
  | round h1 h2 _ _ ih1 ih2 => exact .round (hv h1) h2.1 ih1 ih2
  | roundFor h1 h2 _ ha _ ih1 ih2 => exact .roundFor (hv h1) h2.1 ih1 (ha.sub hs) ih2
  | returned h1 h2 _ h ih => exact .returned (hv h1) h2.1 ih h
  | leave => exact .leave
  | ret h1 => exact .ret (hv h1)
  | block h => exact h.elim
  | call h1 h2 h3 _ hP hnd _ ih => exact .call h1 h2 h3 trivial (hP.sub hs) hnd ih

/-! `int x; void f(int n) { if (n) { x = x + n; f(n - 1); return; } }`, called as `f(k);` -/

def prog85 (k : Nat) : List Node :=
  [.ctype .int none, .lv (some 0) 4096 false 0, .ident "x", .ident "n", .kw .int, .chain [4], .decl (some 5) (some 3) 0, -- 0 … 6
   .chain [6], .bin .add (some 2) (some 3), .assign (some 2) (some 8), .integer 1, .bin .sub (some 3) (some 10), .chain [11], -- 7 … 12
   .ident "f", .fnCall (some 13) (some 12), .chain [9, 14, 22], .ifS (some 3) (some 15) none, .chain [16], -- 13 … 17
   .fn (some 13) (some 7) none (some 17), .integer k, .chain [19], .fnCall (some 13) (some 20), .ret none]

def st85 (k : Nat) : St := stOf (prog85 k) [⟨"x", 2, some 1⟩, ⟨"f", 13, some 18⟩] (List.replicate 8 0)

def glob85 (v : Int) : Frame := [("x", some ⟨.int, some v⟩), ("f", none)]

def body85 : Spec.Stmt :=
  .seq (.cond (.var "n") (.seq (.act (.set "x" (.bin .add (.var "x") (.var "n"))))
    (.seq (.call "f" [.bin .sub (.var "n") (.lit 1)]) (.seq .leave .skip))) .skip) .skip

def procs85 (f : String) : Option Proc := if f = "f" then some ⟨[(.int, "n")], body85⟩ else none

theorem good85 (k : Nat) : Good (st85 k) [glob85 0] 1000 where
  wf := stOf_WF _ _ _
  flags := (stOf_Sane _ _ _).flags
  room := ⟨by show (memOf _).brk + 48 * 1000 < _; decide +kernel, by simp [st85, stOf], memOf_livelt _⟩
  rel := ⟨[4096] ++ [], .cons (.var ⟨⟨0, ⟨false, 0, rfl⟩, ⟨none, rfl⟩, .inl (by decide), by
      show (memOf _).ok _ _ = _; decide +kernel⟩, by decide, by show (memOf _).ok _ _ = _; decide +kernel,
      by intro w hw; cases hw; show _ = CT.int.decode ((memOf _).load _ _); decide +kernel⟩ (.other .nil)) .nil, by simp [Apart]⟩

theorem fns85 (k : Nat) : FnsAt procs85 (st85 k) [glob85 0] where
  sane := stOf_Sane _ _ _
  ne := nofun
  glob := by
    refine ⟨ctx1 [⟨"x", 2, some 1⟩, ⟨"f", 13, some 18⟩], rfl, fun f q hf => ?_⟩
    simp only [procs85] at hf
    split at hf
    · rename_i e
      cases hf
      subst e
      refine ⟨18, by decide, 13, some 7, none, 17, "f", rfl, rfl, .inr ⟨7, [6], rfl, rfl, by simp,
        .cons rfl ⟨[4], [.int], rfl, .cons rfl .nil, by decide, by decide⟩ rfl .nil⟩, ?_⟩
      exact .braces rfl (.cons (.cond rfl (.var rfl) (.braces rfl (.cons (.act (.set .self rfl rfl (.bin (o := .add) (l := 2) (r := 3) rfl
        (.var rfl) (.var rfl))) rfl rfl) (.cons (.call .self rfl rfl (.inr ⟨12, [11], rfl, rfl, by simp,
        .cons (.bin (o := .sub) (l := 3) (r := 10) rfl (.var rfl) (.lit rfl)) .nil⟩) rfl rfl) (.cons (.leave rfl) .nil)))) .none) .nil)
    · cases hf

theorem separate85 : Separate procs85 (fun x => x = "x" ∨ x = "f") := by
  constructor <;>
  · intro f q hf x hx
    simp only [procs85] at hf
    split at hf
    · cases hf
      revert hx
      simp [body85, Stmt.free, Expr.uses, Act.uses, Stmt.binds, Stmt.inners]
      try (intro hx; rcases hx with rfl | rfl | rfl | rfl | rfl <;> simp)
      try (rintro rfl; simp)
    · cases hf

/-- the sum of the numbers up to `k` -/
def sum85 : Nat → Int
  | 0 => 0
  | k + 1 => (k + 1 : Nat) + sum85 k

theorem sum85_bound (k : Nat) (hk : k ≤ 1000) : 0 ≤ sum85 k ∧ sum85 k ≤ 1000 * k := by
  induction k with
  | zero => simp [sum85]
  | succ k ih =>
    have := ih (by omega)
    simp only [sum85]
    omega

theorem int_range {v : Int} (h1 : -1000000 ≤ v) (h2 : v ≤ 2000000) : InRange .int v ∧ InRange .long v :=
  ⟨⟨by simp [lo, width, signed]; omega, by simp [hi, width, signed]; omega⟩,
   ⟨by simp [lo, width, signed]; omega, by simp [hi, width, signed]; omega⟩⟩

theorem run_count {L : Rules} {σ σ' : Store} {p f n m} (h : Run L σ p f σ' n) (e : n = m) : Run L σ p f σ' m := e ▸ h

/-- how the body ends with the argument `k` -/
def end85 (k : Nat) : End := if k = 0 then .next else .left

theorem end85_or (k : Nat) : end85 k = .next ∨ end85 k = .left := by
  unfold end85; split <;> simp

/-- the body with the argument `k` -/
theorem body_runs85 (k : Nat) : ∀ v : Int, 0 ≤ v → v + sum85 k ≤ 1000000 → k ≤ 1000 →
    Run (staticRules procs85) [[("n", some ⟨.int, some (k : Int)⟩)], glob85 v] body85 (end85 k)
      [[("n", some ⟨.int, some (k : Int)⟩)], glob85 (v + sum85 k)] k := by
  induction k with
  | zero =>
    intro v h1 h2 _
    have hz := int_range (v := 0) (by omega) (by omega)
    refine .seq (n := 0) (m := 0) (.cond (v := 0) (b := false) (fr := []) (.var ⟨.int, rfl, hz.2⟩) ⟨by simp [cTruth], by omega⟩ ?_) .skip
    simp only [sum85, Int.add_zero]
    exact .skip
  | succ k ih =>
    intro v h1 h2 hk
    have hs := sum85_bound k (by omega)
    simp only [sum85] at h2
    have hn := int_range (v := ((k + 1 : Nat) : Int)) (by omega) (by omega)
    have hv := int_range (v := v) (by omega) (by omega)
    have hw := int_range (v := v + ((k + 1 : Nat) : Int)) (by omega) (by omega)
    have hk' := int_range (v := ((k : Nat) : Int)) (by omega) (by omega)
    refine .stop (n := k + 1) (.cond (v := ((k + 1 : Nat) : Int)) (b := true) (fr := []) (.var ⟨.int, rfl, hn.2⟩)
      ⟨by simp [cTruth]; omega, by omega⟩ ?_) (by simp [end85])
    have hset : Acts (staticRules procs85) ([] :: [[("n", some ⟨.int, some ((k + 1 : Nat) : Int)⟩)], glob85 v])
        (.set "x" (.bin .add (.var "x") (.var "n")))
        ([] :: [[("n", some ⟨.int, some ((k + 1 : Nat) : Int)⟩)], glob85 (v + ((k + 1 : Nat) : Int))]) :=
      .set (c := .int) (u := some v) (v := v + ((k + 1 : Nat) : Int)) (w := v + ((k + 1 : Nat) : Int)) rfl
        (.bin (.var ⟨.int, rfl, hv.2⟩) (.var ⟨.int, rfl, hn.2⟩) ⟨rfl, trivial⟩) (.inl ⟨rfl, .inl (by decide)⟩) (conv_self hw.1)
    rw [if_pos rfl]
    refine run_count (Run.seq (n := 0) (m := k + 1) (.act hset) ?_) (by omega)
    have hsum : v + sum85 (k + 1) = (v + ((k + 1 : Nat) : Int)) + sum85 k := by simp only [sum85]; omega
    rw [hsum]
    have hcall := Run.call (L := staticRules procs85) (f := "f") (es := [.bin .sub (.var "n") (.lit 1)])
      (hid := [[], [("n", some ⟨.int, some ((k + 1 : Nat) : Int)⟩)]])
      (vis := [glob85 (v + ((k + 1 : Nat) : Int))]) (q := ⟨[(.int, "n")], body85⟩) (g := end85 k) rfl
      (by simp [Frame.names]) rfl ⟨by simp [Avoid, Expr.uses], end85_or k⟩
      (.cons (c := .int) (x := "n") (v := (k : Int)) (w := (k : Int)) (by decide)
        (.bin (.var ⟨.int, rfl, hn.2⟩) (.lit 1) ⟨by simp [cOp], trivial⟩) (.inl ⟨rfl, .inl (by decide)⟩) (conv_self hk'.1) .nil)
      (by simp [Frame.names]) (ih _ (by omega) (by omega) (by omega))
    have := Run.seq (b := .seq .leave .skip) hcall (.stop .leave nofun)
    simpa [Nat.add_comm, end85] using this

/-- `f(k);` adds the numbers up to `k` to `x`, for every `k` up to 900 -/
example (k : Nat) (hk : k ≤ 900) : ∃ s', Runs E0 (st85 k) (.stmt 21) s' ∧ Rel s' [glob85 (sum85 k)] := by
  have hs := sum85_bound k (by omega)
  have hr := int_range (v := (k : Int)) (by omega) (by omega)
  have hrun : Run (staticRules procs85) [glob85 0] (.call "f" [.lit k]) .next [glob85 (sum85 k)] (1 + k) := by
    have hb := body_runs85 k 0 (by omega) (by omega) (by omega)
    rw [Int.zero_add] at hb
    exact Run.call (L := staticRules procs85) (hid := []) (vis := [glob85 0]) (q := ⟨[(.int, "n")], body85⟩) (g := end85 k) rfl (by simp) rfl
      ⟨by simp [Avoid, Expr.uses], end85_or k⟩
      (.cons (c := .int) (x := "n") (v := (k : Int)) (w := (k : Int)) (by decide) (.lit _) (.inl ⟨rfl, .inl (by decide)⟩) (conv_self hr.1) .nil)
      (by simp [Frame.names]) hb
  obtain ⟨s', h1, h2, _⟩ := C85_procedures_partial (E := E0) (top := []) ((good85 k).mono (by omega)) (fns85 k)
    (.call (u := 21) (n := .fnCall (some 13) (some 20)) .self rfl rfl
      (.inr ⟨20, [19], rfl, rfl, by simp, .cons (.lit rfl) .nil⟩) rfl rfl) separate85
    (fun _ h => by simp at h) (fun h => absurd rfl h) (by simp [Stmt.inners]) hrun
  exact ⟨s', h1, h2⟩

/-! `int x; void g() { x = 1; }`, called from a function with a local variable `x`. -/

def progDyn : List Node :=
  [.ctype .int none, .lv (some 0) 4096 false 0, .lv (some 0) 4104 false 0, .ident "x", .integer 1, .assign (some 3) (some 4),
   .chain [5], .ident "g", .fn (some 7) none none (some 6), .fnCall (some 7) none]

def stDyn : St :=
  stIn progDyn [⟨"x", 3, some 2⟩] [⟨"x", 3, some 1⟩, ⟨"g", 7, some 8⟩] [0, 0, 0, 0, 0, 0, 0, 0, 7, 0, 0, 0, 0, 0, 0, 0]

def storeDyn (v : Int) : Store := [[("x", some ⟨.int, some 7⟩)], [("x", some ⟨.int, some v⟩), ("g", none)]]

theorem goodDyn : Good stDyn (storeDyn 0) 10 where
  wf := (stIn_Sane _ _ _ _).inv.wf
  flags := (stIn_Sane _ _ _ _).flags
  room := ⟨by show (memOf _).brk + 48 * 10 < _; decide +kernel, by simp [stDyn, stIn], memOf_livelt _⟩
  rel := ⟨[4104] ++ ([4096] ++ []), .cons (.var ⟨⟨0, ⟨false, 0, rfl⟩, ⟨none, rfl⟩, .inl (by decide), by
      show (memOf _).ok _ _ = _; decide +kernel⟩, by decide, by show (memOf _).ok _ _ = _; decide +kernel,
      by intro w hw; cases hw; show _ = CT.int.decode ((memOf _).load _ _); decide +kernel⟩ .nil)
    (.cons (.var ⟨⟨0, ⟨false, 0, rfl⟩, ⟨none, rfl⟩, .inl (by decide), by
      show (memOf _).ok _ _ = _; decide +kernel⟩, by decide, by show (memOf _).ok _ _ = _; decide +kernel,
      by intro w hw; cases hw; show _ = CT.int.decode ((memOf _).load _ _); decide +kernel⟩ (.other .nil)) .nil), by simp [Apart]⟩

def procDyn : Proc := ⟨[], .seq (.act (.set "x" (.lit 1))) .skip⟩

def procsDyn (f : String) : Option Proc := if f = "g" then some procDyn else none

theorem fnsDyn : FnsAt procsDyn stDyn (storeDyn 0) where
  sane := stIn_Sane _ _ _ _
  ne := nofun
  glob := by
    refine ⟨ctx1 [⟨"x", 3, some 1⟩, ⟨"g", 7, some 8⟩], rfl, fun f q hf => ?_⟩
    simp only [procsDyn] at hf
    split at hf
    · rename_i e
      cases hf
      subst e
      exact ⟨8, by decide, 7, none, none, 6, "g", rfl, rfl, .inl ⟨rfl, rfl⟩,
        .braces rfl (.cons (.act (.set .self rfl rfl (.lit rfl)) rfl rfl) .nil)⟩
    · cases hf

/-- C85 in full is false: `g` sets the variable of its caller. -/
theorem C85_refuted : ¬ C85_statement := by
  intro h
  have hrun : Run (cRules.with procsDyn) (storeDyn 0) (.call "g" []) .next (storeDyn 1) 0 :=
    Run.call (L := cRules.with procsDyn) (hid := [[("x", some ⟨.int, some 7⟩)]]) (vis := [[("x", some ⟨.int, some 0⟩), ("g", none)]])
      (q := procDyn) (g := .next) (n := 0) rfl (by simp [Frame.names]) rfl trivial .nil (by simp [Frame.names])
      (.seq (n := 0) (m := 0) (.act (.set (c := .int) (u := some 0) (v := 1) (w := 1) rfl (.lit 1) trivial (conv_self (by decide)))) .skip)
  obtain ⟨s', ⟨r, h1⟩, as, h2, _⟩ := h E0 procsDyn stDyn (storeDyn 0) (storeDyn 1) (.call "g" []) (.stmt 9) 0 (goodDyn.mono (by omega)) fnsDyn
    (.call .self rfl rfl (.inl ⟨rfl, rfl⟩) rfl rfl) hrun
  have h3 := Conv.computed (E := E0) (t := some 9) (s := stDyn) 40 (by decide +kernel)
  have h4 := (Out.ok.inj (Conv.unique h1 h3)).2
  cases hc : s'.ctxs with
  | nil =>
    have hsc : lookups s' = s'.includeCtx.toList := by simp [lookups, hc]
    have hinc : s'.includeCtx = none := by rw [h4]; rfl
    rw [hsc, hinc] at h2; cases h2
  | cons c cs =>
    rw [lookups_cons hc] at h2
    cases h2 with
    | cons h5 _ =>
      generalize hb : c.ids = bs at h5
      cases h5 with
      | @var _ _ _ id t a _ bs _ h6 _ =>
        have h7 := h6.val _ rfl
        obtain ⟨τ, ⟨⟨arr, sz, h8⟩, _⟩⟩ := h6.at_
        have hids : (s'.ctxs.head?.map (·.ids)) = some (⟨"x", id, some t⟩ :: bs) := by rw [hc, ← hb]; rfl
        rw [h4] at hids
        have e : (outSt stDyn ((run E0 40).ev (some 9) stDyn)).ctxs.head?.map (·.ids) = some [⟨"x", 3, some 2⟩] := by
          decide +kernel
        rw [e] at hids
        have ht : t = 2 := by simp at hids; exact hids.1.2.symm
        rw [ht, h4] at h8
        have e2 : (outSt stDyn ((run E0 40).ev (some 9) stDyn)).nodes 2 = some (.lv (some 0) 4104 false 0) := by decide +kernel
        rw [e2] at h8
        have ha : a = 4104 := by simp at h8; exact h8.2.1.symm
        rw [ha, h4] at h7
        revert h7
        decide +kernel

end Bic
