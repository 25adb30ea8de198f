import Verif.Proofs.Prog
import Verif.Props.Control
/-!
# Structured integer programs (C34)

`Spec.Run` executes programs on a store of nested scopes, as C does except that
computations are on unbounded integers; values are converted to the type of the
variable when they are assigned.  `SRep` relates programs to syntax trees, `Rel` the
store to the scopes and the memory of the interpreter.
-/

namespace Bic
open Spec

/-- the interpreter executes `k` from `s` to `s'` -/
def Runs (E : Env) (s : St) (k : Code) (s' : St) : Prop :=
  match k with
  | .stmt t => ∃ r, Conv E (fun R => R.ev (some t)) s (.ok r s')
  | .block ts => Conv E (fun R => evalElems R ts) s (.ok () s')
  | .body b => Conv E (fun R => evaluate R b) s (.ok () s')
  | .loop c none b => Conv E (fun R => R.loopWhile (some c) b) s (.ok none s')
  | .loop c (some a) b => Conv E (fun R => R.loopFor (some c) a b) s (.ok none s')

theorem exec_runs {E : Env} {s s' : St} {k : Code} (h : Exec okLang (Evt E) (CondIs E) s k .next s') (hs : Sane s) : Runs E s k s' := by
  obtain ⟨h5, _⟩ := exec_does h hs
  cases k with
  | stmt t => obtain ⟨r, h5, _⟩ := h5; exact ⟨r, h5⟩
  | block ts => exact h5
  | body b => exact h5
  | loop c a b => cases a <;> exact h5

theorem Runs.unique {E : Env} {s s1 s2 : St} {k : Code} (h1 : Runs E s k s1) (h2 : Runs E s k s2) : s1 = s2 := by
  cases k with
  | stmt t => obtain ⟨r, h1⟩ := h1; obtain ⟨q, h2⟩ := h2; exact (Out.ok.inj (Conv.unique h1 h2)).2
  | block ts => unfold Runs at h1 h2; exact (Out.ok.inj (Conv.unique h1 h2)).2
  | body b => unfold Runs at h1 h2; exact (Out.ok.inj (Conv.unique h1 h2)).2
  | loop c a b => cases a <;> (unfold Runs at h1 h2; exact (Out.ok.inj (Conv.unique h1 h2)).2)

/-- **C34**: programs leave the variables with the values C gives them; `Good s σ n`
says that `σ` is the store in `s` and that there is room for `n` more variables. -/
def C34_statement : Prop :=
  ∀ (E : Env) (s : St) (σ σ' : Store) (p : Spec.Stmt) (k : Code) (n : Nat), Sane s → Good s σ n → SRep s.nodes k p →
    Run cRules σ p .next σ' n → ∃ s', Runs E s k s' ∧ Rel s' σ'

/-- Programs that keep to the operators bic gets right (`okOp`: `/`, `%`, shifts on
operands where rounding does not matter), whose conditions are no multiples of 2^63
other than 0, that read no value above LONG_MAX, assign to 64-bit variables only
values of `long` or of variables of the same width, and have no block directly in a
block, leave the variables with the values C gives them.  Missing from C34: those
operands, and the blocks. -/
theorem C34_programs_partial {E : Env} {s : St} {σ σ' : Store} {p : Spec.Stmt} {k : Code} {n : Nat} (hs : Sane s)
    (g : Good s σ n) (hr : SRep s.nodes k p) (h : Run okRules σ p .next σ' n) :
    ∃ s', Runs E s k s' ∧ Rel s' σ' ∧ Kept s s' ∧ uids s' = uids s := by
  obtain ⟨s', h1, h2, h3, h4⟩ := run_ended (E := E) (m := 0) h hr g
  exact ⟨s', exec_runs (h1 _) hs, h2.rel, h3, h4⟩

/-- what a program that runs to its end does is determined: no other final store is possible -/
theorem C34_only_partial {E : Env} {s s' : St} {σ σ' : Store} {p : Spec.Stmt} {k : Code} {n : Nat} (hs : Sane s)
    (g : Good s σ n) (hr : SRep s.nodes k p) (h : Run okRules σ p .next σ' n) (hx : Runs E s k s') : Rel s' σ' := by
  obtain ⟨s1, h1, h2, _⟩ := C34_programs_partial (E := E) hs g hr h
  rw [hx.unique h1]; exact h2

/-! A program: `x = 2; while (x) { int y = x; x--; }` -/

/-- nodes of the example program -/
def prog34 : List Node :=
  [.ctype .int none, .lv (some 0) 4096 false 0, .ident "x", .integer 2, .assign (some 2) (some 3), -- 0 … 4
   .ident "y", .assign (some 5) (some 2), .kw .int, .chain [7], .chain [6], .decl (some 8) (some 9) 0, -- 5 … 10
   .pDec (some 2), .chain [10, 11], .whileS (some 2) (some 12), .chain [4, 13]]

def st34 : St := stOf prog34 [⟨"x", 2, some 1⟩] (List.replicate 8 0)

def store34 (v : Option Int) : Store := [[("x", some ⟨.int, v⟩)]]

theorem good34 (n : Nat) (hn : n ≤ 1000) (v : Option Int) (hv : ∀ w, v = some w → w = 0) (nodes : List Node)
    (h0 : nodes[0]? = some (.ctype .int none)) (h1 : nodes[1]? = some (.lv (some 0) 4096 false 0)) :
    Good (stOf nodes [⟨"x", 2, some 1⟩] (List.replicate 8 0)) (store34 v) n where
  wf := stOf_WF _ _ _
  flags := by intro c hc; simp [stOf] at hc; subst hc; rfl
  room := ⟨by
    show 4096 + (8 / 16 + 1) * 16 + 16 + 48 * n < 2 ^ 47
    omega, by simp [stOf], memOf_livelt _⟩
  rel := by
    refine ⟨[4096] ++ [], .cons (.var ⟨⟨0, ⟨⟨false, 0, h1⟩, ⟨none, h0⟩, .inl (by decide), ?_⟩⟩, by decide, ?_, ?_⟩ .nil) .nil, by simp [Apart]⟩
    · show (memOf (List.replicate 8 0)).ok _ _ = true
      decide +kernel
    · show (memOf (List.replicate 8 0)).ok _ _ = true
      decide +kernel
    · intro w hw
      rw [hv w hw]
      show 0 = CT.int.decode ((memOf (List.replicate 8 0)).load _ _)
      decide +kernel

/-- the program of the example -/
def src34 : Spec.Stmt :=
  .seq (.act (.set "x" (.lit 2)))
    (.seq (.whileS (.var "x") (.seq (.decl .int [("y", some (.var "x"))]) (.seq (.act (.step "x" (-1))) .skip))) .skip)

theorem rep34 : SRep st34.nodes (.body (some 14)) src34 := by
  refine .braces rfl (.cons (.act (.set .self rfl rfl (.lit rfl)) rfl rfl) (.cons (.whileS rfl (.loop (.var rfl) (.braces rfl
    (.cons (.decl rfl ⟨[7], [.int], rfl, .cons rfl .nil, by decide, by decide⟩ (.inl ⟨[6], rfl, .init rfl rfl (.var rfl) .nil⟩))
      (.cons (.act (.step .self rfl (.inr (.inr (.inl ⟨rfl, rfl⟩))) rfl) rfl rfl) .nil))))) .nil))

theorem conv_self {c : CT} {v : Int} (h : InRange c v) : Converts c v v := ⟨h, 0, by omega⟩

/-- one round of the loop of the example -/
theorem round34 {v : Int} (hv : 0 < v) (hv' : v ≤ 2) :
    Run okRules ([] :: store34 (some v))
      (.seq (.decl .int [("y", some (.var "x"))]) (.seq (.act (.step "x" (-1))) .skip)) .next
      ([("y", some ⟨.int, some v⟩)] :: store34 (some (v - 1))) 1 := by
  have hr : InRange .int v := ⟨by simp [lo, width, signed]; omega, by simp [hi, width, signed]; omega⟩
  have hr' : InRange .int (v + -1) := ⟨by simp [lo, width, signed]; omega, by simp [hi, width, signed]; omega⟩
  have hl : InRange .long v := ⟨by simp [lo, width, signed]; omega, by simp [hi, width, signed]; omega⟩
  refine .seq (n := 1) (m := 0) (.decl (by decide) (.init rfl (.set (c := .int) (u := none) (v := v) (w := v) rfl
    (.var ⟨.int, rfl, hl⟩) (.inr ⟨"x", .int, rfl, rfl, by decide⟩) (conv_self hr)) .nil)) ?_
  exact .seq (n := 0) (m := 0) (.act (.step (c := .int) (v := v) (w := v + -1) rfl (conv_self hr'))) .skip

theorem run34 : Run okRules (store34 none) src34 .next (store34 (some 0)) 2 := by
  have cond : ∀ v : Int, 0 ≤ v → v ≤ 2 → okRules.Value (store34 (some v)) (.var "x") v := fun v h1 h2 =>
    .var ⟨.int, rfl, ⟨by simp [lo, width, signed]; omega, by simp [hi, width, signed]; omega⟩⟩
  have tr : ∀ v : Int, 0 < v → v ≤ 2 → okTruth v true := fun v h1 h2 => ⟨by simp [cTruth]; omega, fun _ => by omega⟩
  refine .seq (n := 0) (m := 2) (.act (.set (c := .int) (u := none) (v := 2) (w := 2) rfl (.lit 2)
    (.inl ⟨rfl, .inl (by decide)⟩) (conv_self (by decide)))) ?_
  refine .seq (n := 2) (m := 0) (.whileS (.round (n := 1) (m := 1) (cond 2 (by omega) (by omega)) (tr 2 (by omega) (by omega))
    (round34 (by omega) (by omega)) (.round (n := 1) (m := 0) (cond 1 (by omega) (by omega)) (tr 1 (by omega) (by omega))
    (round34 (by omega) (by omega)) (.last (cond 0 (by omega) (by omega)) ⟨by simp [cTruth], by omega⟩)))) .skip

example : ∃ s', Runs E0 st34 (.body (some 14)) s' ∧ Rel s' (store34 (some 0)) ∧ Kept st34 s' ∧ uids s' = uids st34 :=
  C34_programs_partial (stOf_Sane _ _ _) (good34 2 (by omega) none (by simp) _ rfl rfl) rep34 run34

/-! `x = -7 / 2` gives -4. -/

def div34 : List Node :=
  [.ctype .int none, .lv (some 0) 4096 false 0, .ident "x", .integer (-7), .integer 2, .bin .div (some 3) (some 4),
   .assign (some 2) (some 5)]

theorem C34_refuted : ¬ C34_statement := by
  intro h
  have hs : Sane (stOf div34 [⟨"x", 2, some 1⟩] (List.replicate 8 0)) := stOf_Sane _ _ _
  obtain ⟨s', ⟨r, h1⟩, as, h2, _⟩ := h E0 _ (store34 (some 0)) (store34 (some (-3))) (.act (.set "x" (.bin .div (.lit (-7)) (.lit 2)))) (.stmt 6) 0 hs
    (good34 0 (by omega) _ (by simp) div34 rfl rfl)
    (.act (.set .self rfl rfl (.bin (o := .div) (l := 3) (r := 4) rfl (.lit rfl) (.lit rfl))) rfl rfl)
    (.act (.set (c := .int) (u := some 0) (v := -3) (w := -3) rfl
      (.bin (.lit _) (.lit _) ⟨-1, by simp [TruncDiv]⟩) trivial (conv_self (by decide))))
  have h3 := Conv.computed (E := E0) (t := some 6) (s := stOf div34 [⟨"x", 2, some 1⟩] (List.replicate 8 0)) 30 (by decide +kernel)
  have h4 := (Out.ok.inj (Conv.unique h1 h3)).2
  cases hc : s'.ctxs with
  | nil =>
    have hsc : lookups s' = s'.includeCtx.toList := by simp [lookups, hc]
    have hinc : s'.includeCtx = none := by rw [h4]; rfl
    rw [hsc, hinc] at h2; cases h2
  | cons c cs =>
    rw [lookups_cons hc] at h2
    cases h2 with
    | cons h5 _ =>
      generalize hb : c.ids = bs at h5
      cases h5 with
      | @var _ _ _ id t a _ bs _ h6 _ =>
        have h7 := h6.val _ rfl
        obtain ⟨τ, ⟨⟨arr, sz, h8⟩, _⟩⟩ := h6.at_
        have hids : (s'.ctxs.head?.map (·.ids)) = some (⟨"x", id, some t⟩ :: bs) := by rw [hc, ← hb]; rfl
        rw [h4] at hids
        have e : (outSt (stOf div34 [⟨"x", 2, some 1⟩] (List.replicate 8 0))
            ((run E0 30).ev (some 6) (stOf div34 [⟨"x", 2, some 1⟩] (List.replicate 8 0)))).ctxs.head?.map (·.ids) =
            some [⟨"x", 2, some 1⟩] := by decide +kernel
        rw [e] at hids
        have ht : t = 1 := by simp at hids; exact hids.1.2.symm
        rw [ht, h4] at h8
        have e2 : (outSt (stOf div34 [⟨"x", 2, some 1⟩] (List.replicate 8 0))
            ((run E0 30).ev (some 6) (stOf div34 [⟨"x", 2, some 1⟩] (List.replicate 8 0)))).nodes 1 =
            some (.lv (some 0) 4096 false 0) := by decide +kernel
        rw [e2] at h8
        have ha : a = 4096 := by simp at h8; exact h8.2.1.symm
        rw [ha, h4] at h7
        revert h7
        decide +kernel

end Bic
