import Verif.Spec.TypedProg
import Verif.Props.TypedWide
import Verif.Props.Source
import Verif.Props.ScriptMain
/-!
# C143: programs with the types of C
-/

namespace Bic
open Spec CSyn Script
open Bic.Parser (T K PT Der Rep build)
open Bic.Lexer (Reads Follows)
open CText (Text ascii)

/-- C143: programs leave the variables with the values C gives them, with the types C gives the parts of expressions. -/
def C143_statement : Prop :=
  ∀ (E : Env) (s : St) (σ σ' : Store) (p : Spec.Stmt) (k : Code) (n : Nat), Sane s → Good s σ n → SRep s.nodes k p →
    TRun cTyped σ p .next σ' n → ∃ s', Runs E s k s' ∧ Rel s' σ'

/-- the value of an expression whose variables have any integer type but `unsigned int`, `unsigned long` and `unsigned long long`; or of one
with variables of all types in which no value is changed by a conversion or by arithmetic modulo `2^width`, and none is above LONG_MAX.
`/` and `>>` where rounding does not matter. -/
def PlainValue (σ : Store) (e : Expr) (v : Int) : Prop :=
  (∃ c, TVal roundsSame Converts cTruth (fun x c v => σ.Vars x c v ∧ SignedLike c) e c v) ∨
  ((∃ c, TVal roundsSame KeptConv okTruth (fun x c v => σ.Vars x c v ∧ InRange .long v) e c v) ∧ InRange .long v)

/-- what may be assigned to a variable of type `c`: a value as above that is computed or that of a variable at least as wide; or, if `c` has at
most 32 bits, the value of any expression with `+`, `-`, `*`, `&`, `|`, `^`, `~` and `<<` by a constant on variables of all types, which may wrap
around; or that of such an expression without variables of type `unsigned int` whose mathematical value is a value of `long` -/
def PlainAsg (σ : Store) (c : CT) (e : Expr) (v : Int) : Prop :=
  (PlainValue σ e v ∧ (computed e = true ∨ ∃ y d, e = .var y ∧ σ.Has y d (some v) ∧ width c ≤ width d)) ∨
  (width c ≤ 32 ∧ ringExpr e ∧ computed e = true ∧ ∃ k, CTVal (fun x k v => σ.Vars x k v ∧ InRange .long v) e k v) ∨
  (ringExpr e ∧ computed e = true ∧ (∃ k, CTVal (fun x k v => σ.Vars x k v ∧ WideType k) e k v) ∧ ∃ m, okRules.Value σ e m ∧ InRange .long m)

/-- the programs bic gets right -/
def okTyped : TRules :=
  ⟨PlainValue, PlainAsg, False, fun _ => none,
    fun hid _ => hid = [], fun q es g => Avoid [] q.params es ∧ (g = .next ∨ g = .left)⟩

/-- the same for programs with the procedures `Φ`, which see the scopes of `S` -/
def okTypedFor (Φ : String → Option Proc) (S : Store → Store → Prop) : TRules := { okTyped with proc := Φ, sees := S }

def okRulesFor (Φ : String → Option Proc) (S : Store → Store → Prop) : Rules := { okRules with proc := Φ, sees := S }

/-- the same with procedures that see the outermost scope -/
def okTypedStatic : TRules := { okTyped with sees := fun _ v => v.length = 1 }

theorem PlainValue.ok {σ : Store} {e : Expr} {v : Int} (h : PlainValue σ e v) : okRules.Value σ e v ∧ InRange .long v := by
  rcases h with ⟨c, h⟩ | ⟨⟨c, h⟩, hv⟩
  · obtain ⟨h1, h2, h3⟩ := Spec.TVal.signed (fun x c v h => ⟨h.2, h.1.2.2⟩) h
    exact ⟨TVal.toVal (fun x c v h => ⟨c, h.1.1, wider (long_like h.2) h.1.2.2⟩) h3, wider (long_like h1) h2⟩
  · exact ⟨TVal.toVal (fun x c v h => ⟨c, h.1.1, h.2⟩) h, hv⟩

theorem okTruth_long {v : Int} {b : Bool} (hv : InRange .long v) (h : cTruth v b) : okTruth v b := by
  refine ⟨h, fun h0 => ?_⟩
  have h2 := hv.2
  simp [hi, width, signed] at h2
  omega

/-- a step in the common type with `int`, then converted, is a step converted -/
theorem step_converts {c : CT} (hc : integral c) {z r w : Int} (h : TResult Converts (common c .int) z r) (hw : Converts c r w) :
    Converts c z w := by
  unfold TResult at h
  split at h
  · rw [← h.1]; exact hw
  · next hs =>
    have hcc : common c .int = c := by revert hs hc; cases c <;> decide
    rw [hcc] at h
    obtain ⟨_, k, hk⟩ := h
    obtain ⟨h1, j, hj⟩ := hw
    exact ⟨h1, k + j, by rw [hk, hj, Int.add_mul]; omega⟩

/-- what is assigned has a value for which the untyped rules store the same -/
theorem PlainAsg.ok {σ : Store} {c : CT} {e : Expr} {v w : Int} (h : PlainAsg σ c e v) (hw : Converts c v w) :
    ∃ m, okRules.Value σ e m ∧ okAsg σ c e m ∧ Converts c m w := by
  rcases h with ⟨h1, h2⟩ | ⟨h1, h2, h3, k, h4⟩ | ⟨h2, h3, ⟨k, h4⟩, m, h5, hl⟩
  · have hb := (PlainValue.ok h1).2
    simp [InRange, lo, hi, width, signed] at hb
    exact ⟨v, (PlainValue.ok h1).1, h2.imp (fun h => ⟨h, .inr ⟨by omega, by omega⟩⟩) id, hw⟩
  · obtain ⟨_, m, h5, h6⟩ := ring_modulo (ρ' := fun x v => ∃ c, σ.Has x c (some v) ∧ InRange .long v)
      (fun x c v h => ⟨h.1.2.1, c, h.1.1, h.2⟩) h4 h2
    refine ⟨m, h5, .inl ⟨h3, .inl h1⟩, converts_of_congr hw ((m - v) / 2 ^ 32 * 2 ^ (32 - width c)) ?_⟩
    rw [Int.mul_assoc, ← Int.pow_add, Nat.sub_add_cancel h1]
    omega
  · obtain ⟨_, _, h6⟩ := ring_wide (op := okOp) (truth := okTruth) (ρ' := fun x v => ∃ c, σ.Has x c (some v) ∧ InRange .long v) (fun _ _ _ _ h => h.1)
      (fun x c v m h hm => ⟨h.2, h.1.2.2, by obtain ⟨d, hm, _⟩ := hm; have := hm.symm.trans h.1.1; simp at this; exact this.2⟩) h4 h5 h2
    have hc := width_le c
    refine ⟨m, h5, .inl ⟨h3, .inr ⟨hl.1, hl.2⟩⟩, converts_of_congr hw ((m - v) / 2 ^ 64 * 2 ^ (64 - width c)) ?_⟩
    rw [Int.mul_assoc, ← Int.pow_add, Nat.sub_add_cancel hc]
    omega

theorem TActs.ok {σ σ' : Store} {a : Act} {Φ S} (h : TActs (okTypedFor Φ S) σ a σ') : Acts (okRulesFor Φ S) σ a σ' := by
  cases h with
  | set h1 h2 h3 =>
    obtain ⟨m, k1, k2, k3⟩ := PlainAsg.ok h2 h3
    exact .set h1 k1 k2 k3
  | step h1 h2 h3 => exact .step h1.1 (step_converts h1.2.1 h2 h3)

theorem TDeclares.ok {c : CT} {σ σ' : Store} {ds} {Φ S} (h : TDeclares (okTypedFor Φ S) c σ ds σ') : Declares (okRulesFor Φ S) c σ ds σ' := by
  induction h with
  | nil => exact .nil
  | plain h _ ih => exact .plain h ih
  | init h h1 _ ih => exact .init h (TActs.ok h1) ih

theorem TParams.ok {σ : Store} {ps es fr} {Φ S} (h : TParams (okTypedFor Φ S) σ ps es fr) : Params (okRulesFor Φ S) σ ps es fr := by
  induction h with
  | nil => exact .nil
  | cons hc ha hw _ ih =>
    obtain ⟨m, k1, k2, k3⟩ := PlainAsg.ok ha hw
    exact .cons hc k1 k2 k3 ih

theorem TRun.ok {σ σ' : Store} {p : Spec.Stmt} {f : End} {n : Nat} {Φ S} (h : TRun (okTypedFor Φ S) σ p f σ' n) : Run (okRulesFor Φ S) σ p f σ' n := by
  have tr : ∀ {σ e v b}, (okTypedFor Φ S).value σ e v → cTruth v b → (okRulesFor Φ S).truth v b := fun h ht => okTruth_long (PlainValue.ok h).2 ht
  induction h with
  | act h => exact .act (TActs.ok h)
  | decl h h1 => exact .decl h (TDeclares.ok h1)
  | skip => exact .skip
  | seq _ _ h1 h2 => exact .seq h1 h2
  | stop _ hf h1 => exact .stop h1 hf
  | cond hv ht _ ih => exact .cond (PlainValue.ok hv).1 (tr hv ht) ih
  | whileS _ ih => exact .whileS ih
  | forS h _ ih => exact .forS (TActs.ok h) ih
  | last hv ht => exact .last (PlainValue.ok hv).1 (tr hv ht)
  | round hv ht _ _ h1 h2 => exact .round (PlainValue.ok hv).1 (tr hv ht) h1 h2
  | roundFor hv ht _ ha _ h1 h2 => exact .roundFor (PlainValue.ok hv).1 (tr hv ht) h1 (TActs.ok ha) h2
  | returned hv ht _ hf h1 => exact .returned (PlainValue.ok hv).1 (tr hv ht) h1 hf
  | ret hv => exact .ret (PlainValue.ok hv).1
  | leave => exact .leave
  | block h => exact h.elim
  | call h1 h2 h3 h4 h5 h6 _ ih => exact .call h1 h2 h3 h4 (TParams.ok h5) h6 ih

theorem TRunParts.ok {Φ Φ' : String → Option Proc} {fr fr' : Frame} {us n} (h : TRunParts okTypedStatic Φ fr us Φ' fr' n) :
    RunParts okStatic Φ fr us Φ' fr' n := by
  induction h with
  | @stmt Φ _ _ _ _ _ _ _ _ h _ ih => exact .stmt (TRun.ok (Φ := Φ) (S := fun _ v => v.length = 1) h) ih
  | nil => exact .nil
  | proc h _ ih => exact .proc h ih

/-- C143 for the programs of `okTyped`: variables of all integer types; in expressions either no `unsigned int`, `unsigned long` and
`unsigned long long`, or no value that wraps around, but what is assigned to variables may wrap around in the cases of `PlainAsg`. Steps
may wrap around in all types. Missing are other expressions that wrap around, the operands of `/` and `>>` where bic rounds differently, assignments of narrower variables, and blocks directly in blocks. -/
theorem C143_programs_partial {E : Env} {s : St} {σ σ' : Store} {p : Spec.Stmt} {k : Code} {n : Nat} (hs : Sane s)
    (g : Good s σ n) (hr : SRep s.nodes k p) (h : TRun okTyped σ p .next σ' n) :
    (∃ s', Runs E s k s' ∧ Rel s' σ' ∧ Kept s s' ∧ uids s' = uids s) ∧ ∀ s', Runs E s k s' → Rel s' σ' :=
  ⟨C34_programs_partial hs g hr (TRun.ok (Φ := fun _ => none) (S := fun hid _ => hid = []) h), fun _ hx => C34_only_partial hs g hr (TRun.ok (Φ := fun _ => none) (S := fun hid _ => hid = []) h) hx⟩

/-- the same from the text of a script -/
theorem C143_script_partial {E : Env} {s : St} {TN : List T → PT → List T → Prop} {σ σ' : Store} {p : Spec.Stmt} {i : List T}
    {n : Nat} (hs : Sane s) (g : Good s σ n) (hw : CSyn.Src cTable TN .items p i []) (h : TRun okTyped σ p .next σ' n) :
    (∃ t, Der .cscriptUnit i t []) ∧ ∀ t x, Der .cscriptUnit i t [] → Rep s.nodes (.t t (some x)) →
      (∃ s', Runs E s (.body (some x)) s' ∧ Rel s' σ') ∧ ∀ s', Runs E s (.body (some x)) s' → Rel s' σ' :=
  C79_script_partial hs g hw (TRun.ok (Φ := fun _ => none) (S := fun hid _ => hid = []) h)

/-- The same for scripts with procedures, from the text to the exit status, on the state `eval_init` makes; as in `C86_script_partial`. -/
theorem C143_text_partial {E : Env} {F : Lexer.Str → Nat} {mem : Mem} {ps : List Nat} {ty : CText.Str → Bool}
    {TN : List T → PT → List T → Prop} {us : List Part} {i : List T} {text : CText.Str} {G : String → Prop}
    {Φ' : String → Option Proc} {fr' : Frame} {n : Nat} (hl : LiveLt mem) (few : ps.length < 2 ^ 31)
    (cap : mem.brk + 176 + 104 * ps.length + 48 * n < Mem.limit) (ht : Text (Reads ty) Follows i text)
    (hw : WParts cTable TN False us i []) (hm : ∀ q, Part.proc "main" q ∉ us) (ha : ∀ u ∈ us, u.Apart G)
    (h : TRunParts okTypedStatic (fun _ => none) (argFrame ps.length) us Φ' fr' n) :
    (∃ t, Parses .cscript ty .cscriptUnit text t) ∧ ∀ t, Parses .cscript ty .cscriptUnit text t →
      ∃ x s s', build F t (initSt mem) = .ok (some x) s ∧ Conv E (fun R => evaluateCscript R x ps) s (.ok () s') ∧ Rel s' [fr'] ∧
        FnsAt Φ' s' [fr'] :=
  C86_script_partial hl few cap ht hw hm ha (TRunParts.ok h)

/-- The same for scripts with `main`: it runs after the initialisations and the variables have the values C gives them. (The exit status is 0, see
`C88_refuted`.) -/
theorem C143_main_partial {E : Env} {F : Lexer.Str → Nat} {mem : Mem} {ps : List Nat} {ty : CText.Str → Bool}
    {TN : List T → PT → List T → Prop} {us : List Part} {i : List T} {text : CText.Str} {G : String → Prop}
    {Φ' : String → Option Proc} {fr1 fr2 fr' : Frame} {b : Spec.Stmt} {g : End} {n m : Nat} (hl : LiveLt mem) (few : ps.length < 2 ^ 31)
    (cap : mem.brk + 176 + 104 * ps.length + 48 * (n + m) < Mem.limit) (ht : Text (Reads ty) Follows i text)
    (hw : WParts cTable TN False us i []) (hd : ∀ u ∈ us, u.Declares) (ha : ∀ u ∈ us, u.Apart G)
    (h : TRunParts okTypedStatic (fun _ => none) (argFrame ps.length) us Φ' fr1 n) (hq : Φ' "main" = some ⟨[], b⟩)
    (hm : ∀ q, Part.proc "main" q ∈ us → q = ⟨[], b⟩) (hb : TRun (okTypedStatic.with Φ') [[], fr1] b g [fr2, fr'] m) :
    (∃ t, Parses .cscript ty .cscriptUnit text t) ∧ ∀ t, Parses .cscript ty .cscriptUnit text t →
      ∃ x s s', build F t (initSt mem) = .ok (some x) s ∧ Conv E (fun R => evaluateCscript R x ps) s (.ok () s') ∧ Rel s' [fr'] :=
  C88_main_zero hl few cap ht hw hd ha (TRunParts.ok h) hq hm (TRun.ok (Φ := Φ') (S := fun _ v => v.length = 1) hb)

/-! ## The programs of `okTyped` are programs of C with the same outcome -/

theorem Spec.TVal.toC {ρ ρ' : String → CT → Int → Prop} (hρ : ∀ x c v, ρ x c v → ρ' x c v) {ok : BOp → Int → Int → Prop}
    {cv : CT → Int → Int → Prop} {truth : Int → Bool → Prop} (hcv : ∀ c x y, cv c x y → Converts c x y) (ht : ∀ x b, truth x b → cTruth x b)
    {e : Expr} {c : CT} {v : Int} (h : TVal ok cv truth ρ e c v) : CTVal ρ' e c v := by
  have hres : ∀ {c z v}, TResult cv c z v → TResult Converts c z v := by
    intro c z v h
    unfold TResult at h ⊢
    split
    · next hs => rwa [if_pos hs] at h
    · next hs => rw [if_neg hs] at h; exact hcv _ _ _ h
  induction h with
  | lit h => exact .lit h
  | var h => exact .var (hρ _ _ _ h)
  | arith ho _ _ hx hy hok hz hv iha ihb => exact .arith ho iha ihb (hcv _ _ _ hx) (hcv _ _ _ hy) trivial hz (hres hv)
  | shift ho _ _ hx h0 hy hs hok hz hv iha ihb => exact .shift ho iha ihb (hcv _ _ _ hx) h0 hy hs trivial hz (hres hv)
  | compare ho _ _ hx hy hz iha ihb => exact .compare ho iha ihb (hcv _ _ _ hx) (hcv _ _ _ hy) hz
  | compl _ hx hz hv ih => exact .compl ih (hcv _ _ _ hx) hz (hres hv)
  | lnot _ h ih => exact .lnot ih h
  | land_false _ hb ih => exact .land_false ih (hb.mono hρ)
  | land_true _ hx _ hv iha ihb => exact .land_true iha hx ihb hv
  | lor_true _ hx hb ih => exact .lor_true ih hx (hb.mono hρ)
  | lor_false _ _ hv iha ihb => exact .lor_false iha ihb hv
  | cond_true _ hx _ hb hv ihc iha => exact .cond_true ihc (ht _ _ hx) iha (hb.mono hρ) (hcv _ _ _ hv)
  | cond_false _ hx ha _ hv ihc iha => exact .cond_false ihc (ht _ _ hx) (ha.mono hρ) iha (hcv _ _ _ hv)
  | comma _ _ iha ihb => exact .comma iha ihb

theorem PlainValue.c {σ : Store} {e : Expr} {v : Int} (h : PlainValue σ e v) : ∃ c, CTVal σ.Vars e c v := by
  rcases h with ⟨c, h⟩ | ⟨⟨c, h⟩, _⟩
  · exact ⟨c, TVal.toC (fun _ _ _ h => h.1) (fun _ _ _ h => h) (fun _ _ h => h) h⟩
  · exact ⟨c, TVal.toC (fun _ _ _ h => h.1) (fun _ _ _ h => h.1) (fun _ _ h => h.1) h⟩

theorem PlainAsg.c {σ : Store} {c : CT} {e : Expr} {v : Int} (h : PlainAsg σ c e v) : ∃ c, CTVal σ.Vars e c v := by
  rcases h with h | ⟨_, _, _, k, h⟩ | ⟨_, _, ⟨k, h⟩, _⟩
  · exact h.1.c
  · exact ⟨k, TVal.monoVar (fun _ _ _ h => h.1) h⟩
  · exact ⟨k, TVal.monoVar (fun _ _ _ h => h.1) h⟩

theorem TActs.c {σ σ' : Store} {a : Act} {Φ S} (h : TActs (okTypedFor Φ S) σ a σ') : TActs (cTyped.with Φ) σ a σ' := by
  cases h with
  | set h1 h2 h3 => exact .set h1 (PlainAsg.c h2) h3
  | step h1 h2 h3 => exact .step h1 h2 h3

theorem TDeclares.c {c : CT} {σ σ' : Store} {ds} {Φ S} (h : TDeclares (okTypedFor Φ S) c σ ds σ') : TDeclares (cTyped.with Φ) c σ ds σ' := by
  induction h with
  | nil => exact .nil
  | plain h _ ih => exact .plain h ih
  | init h h1 _ ih => exact .init h (TActs.c h1) ih

theorem TParams.c {σ : Store} {ps es fr} {Φ S} (h : TParams (okTypedFor Φ S) σ ps es fr) : TParams (cTyped.with Φ) σ ps es fr := by
  induction h with
  | nil => exact .nil
  | cons hc ha hw _ ih => exact .cons hc (PlainAsg.c ha) hw ih

theorem TRun.c {σ σ' : Store} {p : Spec.Stmt} {f : End} {n : Nat} {Φ S} (hS : ∀ f q h v, Φ f = some q → S h v → v.length = 1)
    (h : TRun (okTypedFor Φ S) σ p f σ' n) : TRun (cTyped.with Φ) σ p f σ' n := by
  induction h with
  | act h => exact .act (TActs.c h)
  | decl h h1 => exact .decl h (TDeclares.c h1)
  | skip => exact .skip
  | seq _ _ h1 h2 => exact .seq h1 h2
  | stop _ hf h1 => exact .stop h1 hf
  | cond hv ht _ ih => exact .cond (PlainValue.c hv) ht ih
  | whileS _ ih => exact .whileS ih
  | forS h _ ih => exact .forS (TActs.c h) ih
  | last hv ht => exact .last (PlainValue.c hv) ht
  | round hv ht _ _ h1 h2 => exact .round (PlainValue.c hv) ht h1 h2
  | roundFor hv ht _ ha _ h1 h2 => exact .roundFor (PlainValue.c hv) ht h1 (TActs.c ha) h2
  | returned hv ht _ hf h1 => exact .returned (PlainValue.c hv) ht h1 hf
  | ret hv => exact .ret (PlainValue.c hv)
  | leave => exact .leave
  | block h => exact h.elim
  | call h1 h2 h3 _ h5 h6 _ ih => exact .call h1 h2 (hS _ _ _ _ h1 h3) trivial (TParams.c h5) h6 ih

/-- the restricted rules are C's: the outcomes in the theorems above are those of C -/
theorem okTyped_c {σ σ' : Store} {p : Spec.Stmt} {f : End} {n : Nat} (h : TRun okTyped σ p f σ' n) : TRun cTyped σ p f σ' n :=
  TRun.c (Φ := fun _ => none) (S := fun hid _ => hid = []) (by simp) h

theorem okTypedStatic_c {Φ Φ' : String → Option Proc} {fr fr' : Frame} {us n} (h : TRunParts okTypedStatic Φ fr us Φ' fr' n) :
    TRunParts cTyped Φ fr us Φ' fr' n := by
  induction h with
  | nil => exact .nil
  | @stmt Φ _ _ _ _ _ _ _ _ h _ ih => exact .stmt (TRun.c (Φ := Φ) (S := fun _ v => v.length = 1) (fun _ _ _ _ _ h => h) h) ih
  | proc h _ ih => exact .proc h ih

/-! ## `x = 2; while (x) { int y = x; x--; }` -/

theorem store34_vars {v : Int} (h0 : 0 ≤ v) (h2 : v ≤ 2) : (store34 (some v)).Vars "x" .int v :=
  ⟨rfl, trivial, by simp [lo, width, signed]; omega, by simp [hi, width, signed]; omega⟩

theorem plain34 {v : Int} (h0 : 0 ≤ v) (h2 : v ≤ 2) : PlainValue (store34 (some v)) (.var "x") v :=
  .inl ⟨.int, .var ⟨store34_vars h0 h2, ⟨trivial, by decide⟩⟩⟩

theorem tround34 {v : Int} (hv : 0 < v) (hv' : v ≤ 2) :
    TRun okTyped ([] :: store34 (some v))
      (.seq (.decl .int [("y", some (.var "x"))]) (.seq (.act (.step "x" (-1))) .skip)) .next
      ([("y", some ⟨.int, some v⟩)] :: store34 (some (v - 1))) 1 := by
  have hr : InRange .int v := ⟨by simp [lo, width, signed]; omega, by simp [hi, width, signed]; omega⟩
  have hr' : InRange .int (v + -1) := ⟨by simp [lo, width, signed]; omega, by simp [hi, width, signed]; omega⟩
  refine .seq (n := 1) (m := 0) (.decl (by decide) (.init rfl (.set (c := .int) (u := none) (v := v) (w := v) rfl
    (.inl ⟨.inl ⟨.int, .var ⟨⟨rfl, trivial, hr⟩, ⟨trivial, by decide⟩⟩⟩, .inr ⟨"x", .int, rfl, rfl, by decide⟩⟩) (conv_self hr)) .nil)) ?_
  exact .seq (n := 0) (m := 0) (.act (.step (c := .int) (v := v) (r := v + -1) (w := v + -1) ⟨rfl, trivial, hr⟩
    (by rw [show common .int .int = .int from by decide]; exact ⟨rfl, hr'⟩) (conv_self hr'))) .skip

theorem trun34 : TRun okTyped (store34 none) src34 .next (store34 (some 0)) 2 := by
  have tr : ∀ v : Int, 0 < v → cTruth v true := fun v h1 => by simp [cTruth]; omega
  refine .seq (n := 0) (m := 2) (.act (.set (c := .int) (u := none) (v := 2) (w := 2) rfl
    (.inl ⟨.inl ⟨.int, .lit (.inl ⟨rfl, by decide⟩)⟩, .inl rfl⟩) (conv_self (by decide)))) ?_
  refine .seq (n := 2) (m := 0) (.whileS (.round (n := 1) (m := 1) (plain34 (by omega) (by omega)) (tr 2 (by omega))
    (tround34 (by omega) (by omega)) (.round (n := 1) (m := 0) (plain34 (by omega) (by omega)) (tr 1 (by omega))
    (tround34 (by omega) (by omega)) (.last (plain34 (by omega) (by omega)) (by simp [cTruth]))))) .skip

example : ∃ s', Runs E0 st34 (.body (some 14)) s' ∧ Rel s' (store34 (some 0)) ∧ Kept st34 s' ∧ uids s' = uids st34 :=
  (C143_programs_partial (stOf_Sane _ _ _) (good34 2 (by omega) none (by simp) _ rfl rfl) rep34 trun34).1

/-! ## `int x = 0; void f(int n) { if (n) { x = x + n; f(n - 1); return; } } f(900);` -/

theorem trun_count {L : TRules} {σ σ' : Store} {p f n m} (h : TRun L σ p f σ' n) (e : n = m) : TRun L σ p f σ' m := e ▸ h

theorem tbody_runs86 (a k : Nat) : ∀ v : Int, 0 ≤ v → v + sum85 k ≤ 1000000 → k ≤ 1000 →
    TRun (okTypedStatic.with procs86) [[("n", some ⟨.int, some (k : Int)⟩)], glob86 a v] body85 (end85 k)
      [[("n", some ⟨.int, some (k : Int)⟩)], glob86 a (v + sum85 k)] k := by
  have hcom : common .int .int = .int := by decide
  have hlike : SignedLike .int := ⟨trivial, by decide⟩
  induction k with
  | zero =>
    intro v h1 h2 _
    have hz := int_range (v := 0) (by omega) (by omega)
    refine .seq (n := 0) (m := 0) (.cond (v := 0) (b := false) (fr := []) (.inl ⟨.int, .var ⟨⟨rfl, trivial, hz.1⟩, hlike⟩⟩) (by simp [cTruth]) ?_) .skip
    simp only [sum85, Int.add_zero]
    exact .skip
  | succ k ih =>
    intro v h1 h2 hk
    have hs := sum85_bound k (by omega)
    simp only [sum85] at h2
    have hn := int_range (v := ((k + 1 : Nat) : Int)) (by omega) (by omega)
    have hv := int_range (v := v) (by omega) (by omega)
    have hw := int_range (v := v + ((k + 1 : Nat) : Int)) (by omega) (by omega)
    have hk' := int_range (v := ((k : Nat) : Int)) (by omega) (by omega)
    have h1' := int_range (v := 1) (by omega) (by omega)
    refine .stop (n := k + 1) (.cond (v := ((k + 1 : Nat) : Int)) (b := true) (fr := []) (.inl ⟨.int, .var ⟨⟨rfl, trivial, hn.1⟩, hlike⟩⟩)
      (by simp [cTruth]; omega) ?_) (by simp [end85])
    have hset : TActs (okTypedStatic.with procs86) ([] :: [[("n", some ⟨.int, some ((k + 1 : Nat) : Int)⟩)], glob86 a v])
        (.set "x" (.bin .add (.var "x") (.var "n")))
        ([] :: [[("n", some ⟨.int, some ((k + 1 : Nat) : Int)⟩)], glob86 a (v + ((k + 1 : Nat) : Int))]) := by
      refine .set (c := .int) (u := some v) (v := v + ((k + 1 : Nat) : Int)) (w := v + ((k + 1 : Nat) : Int)) rfl
        (.inl ⟨.inl ⟨_, .arith (c := .int) (d := .int) (x := v) (y := ((k + 1 : Nat) : Int)) (x' := v) (y' := ((k + 1 : Nat) : Int))
          (z := v + ((k + 1 : Nat) : Int)) rfl (.var ⟨⟨rfl, trivial, hv.1⟩, hlike⟩) (.var ⟨⟨rfl, trivial, hn.1⟩, hlike⟩) ?_ ?_ trivial
          (by simp only [cOp]) ?_⟩, .inl rfl⟩) (conv_self hw.1)
      · rw [hcom]; exact conv_self hv.1
      · rw [hcom]; exact conv_self hn.1
      · rw [hcom]; exact ⟨rfl, hw.1⟩
    rw [if_pos rfl]
    refine trun_count (TRun.seq (n := 0) (m := k + 1) (.act hset) ?_) (by omega)
    have hsum : v + sum85 (k + 1) = (v + ((k + 1 : Nat) : Int)) + sum85 k := by simp only [sum85]; omega
    rw [hsum]
    have harg : PlainValue ([[], [("n", some ⟨.int, some ((k + 1 : Nat) : Int)⟩)]] ++ [glob86 a (v + ((k + 1 : Nat) : Int))])
        (.bin .sub (.var "n") (.lit 1)) (k : Int) := by
      refine .inl ⟨_, .arith (c := .int) (d := .int) (x := ((k + 1 : Nat) : Int)) (y := 1) (x' := ((k + 1 : Nat) : Int)) (y' := 1) (z := (k : Int))
        rfl (.var ⟨⟨rfl, trivial, hn.1⟩, hlike⟩) (.lit (.inl ⟨rfl, h1'.1⟩)) ?_ ?_ trivial (by simp [cOp]) ?_⟩
      · rw [hcom]; exact conv_self hn.1
      · rw [hcom]; exact conv_self h1'.1
      · rw [hcom]; exact ⟨rfl, hk'.1⟩
    have hcall := TRun.call (L := okTypedStatic.with procs86) (f := "f") (es := [.bin .sub (.var "n") (.lit 1)])
      (hid := [[], [("n", some ⟨.int, some ((k + 1 : Nat) : Int)⟩)]])
      (vis := [glob86 a (v + ((k + 1 : Nat) : Int))]) (q := proc86) (g := end85 k) rfl
      (by simp [Frame.names]) rfl ⟨by simp [Avoid, Expr.uses, proc86], end85_or k⟩
      (.cons (c := .int) (x := "n") (v := (k : Int)) (w := (k : Int)) (by decide) (.inl ⟨harg, .inl rfl⟩) (conv_self hk'.1) .nil)
      (by simp [Frame.names]) (ih _ (by omega) (by omega) (by omega))
    have := TRun.seq (b := .seq .leave .skip) hcall (.stop .leave nofun)
    simpa [Nat.add_comm, end85, proc86] using this

theorem trun86 (a : Nat) : TRunParts okTypedStatic (fun _ => none) (argFrame a) parts86 procs86 (glob86 a (sum85 900)) 902 := by
  have hs := sum85_bound 900 (by omega)
  have hr := int_range (v := 900) (by omega) (by omega)
  have h0 := int_range (v := 0) (by omega) (by omega)
  have hb := tbody_runs86 a 900 0 (by omega) (by omega) (by omega)
  rw [Int.zero_add] at hb
  refine .stmt (n := 1) (m := 901) (.decl (by decide) (.init rfl (.set (c := .int) (u := none) (v := 0) (w := 0) rfl
    (.inl ⟨.inl ⟨.int, .lit (.inl ⟨rfl, h0.1⟩)⟩, .inl rfl⟩) (conv_self h0.1)) .nil)) (.proc rfl (.stmt (n := 901) (m := 0) ?_ .nil))
  exact TRun.call (L := okTypedStatic.with procs86) (hid := []) (vis := [glob86 a 0]) (q := proc86) (g := end85 900) (n := 900) rfl (by simp) rfl
      ⟨by simp [Avoid, Expr.uses, proc86], end85_or _⟩
      (.cons (c := .int) (x := "n") (v := 900) (w := 900) (by decide) (.inl ⟨.inl ⟨.int, .lit (.inl ⟨rfl, hr.1⟩)⟩, .inl rfl⟩) (conv_self hr.1) .nil)
      (by simp [Frame.names]) hb

example (E : Env) (F : Lexer.Str → Nat) (mem : Mem) (ps : List Nat) (hl : LiveLt mem) (few : ps.length < 2 ^ 31)
    (cap : mem.brk + 176 + 104 * ps.length + 48 * 902 < Mem.limit) :
    ∃ t x s s', Parses .cscript (fun _ => false) .cscriptUnit
        (ascii "int x = 0; void f(int n) { if (n) { x = x + n; f(n - 1); return; } } f(900);") t ∧
      build F t (initSt mem) = .ok (some x) s ∧ Conv E (fun R => evaluateCscript R x ps) s (.ok () s') ∧ Rel s' [glob86 ps.length 405450] := by
  have e : sum85 900 = 405450 := by decide +kernel
  rw [← words86_text, ← e]
  obtain ⟨⟨t, h1⟩, h2⟩ := C143_text_partial (E := E) (F := F) (G := fun x => x = "x" ∨ x = "f") hl few cap (TextCheck.okW_text words86_ok) src86
    (by simp [parts86]) (by
      simp only [parts86, List.mem_cons, List.not_mem_nil, or_false, forall_eq_or_imp, forall_eq]
      refine ⟨by simp [Part.Apart, Stmt.inners], ?_, by simp [Part.Apart, Stmt.inners]⟩
      refine ⟨?_, ?_, ?_⟩
      · intro x hx
        simp [proc86, body85, Stmt.free, Expr.uses, Act.uses, Stmt.binds] at hx ⊢
        rcases hx with rfl | rfl | rfl | rfl | rfl <;> simp
      · simp [proc86]
      · simp [proc86, body85, Stmt.binds, Stmt.inners]) (trun86 ps.length)
  obtain ⟨x, s, s', h3, h4, h5, _⟩ := h2 t h1
  exact ⟨t, x, s, s', h1, h3, h4, h5⟩

/-! ## `int x = 1; void g() { x = x + 4; } int main() { g(); return x; }` -/

theorem tparts_run88 (a : Nat) : TRunParts okTypedStatic (fun _ => none) (argFrame a) parts88 procs88 (glob88 a 1) 1 :=
  .stmt (n := 1) (m := 0) (.decl (by decide) (.init rfl (.set (c := .int) (u := none) (v := 1) (w := 1) rfl
    (.inl ⟨.inl ⟨.int, .lit (.inl ⟨rfl, by decide⟩)⟩, .inl rfl⟩) (conv_self (by decide))) .nil)) (.proc rfl (.proc rfl .nil))

theorem tmain_run88 (a : Nat) : TRun (okTypedStatic.with procs88) [[], glob88 a 1] bodyMain (.ret 5) [[], glob88 a 5] 0 := by
  have hlike : SignedLike .int := ⟨trivial, by decide⟩
  refine .seq (n := 0) (m := 0) (TRun.call (L := okTypedStatic.with procs88) (hid := [[]]) (vis := [glob88 a 1]) (q := ⟨[], bodyG⟩) (g := .next) (n := 0)
    rfl (by simp [Frame.names]) rfl ⟨by simp [Avoid], .inl rfl⟩ .nil (by simp [Frame.names]) (fr' := []) (vis' := [glob88 a 5])
    (.seq (n := 0) (m := 0) (.act ?_) .skip)) (.stop (.ret (.inl ⟨.int, .var ⟨⟨rfl, trivial, by decide⟩, hlike⟩⟩)) nofun)
  exact .set (c := .int) (u := some 1) (v := 5) (w := 5) rfl (.inl ⟨.inl ⟨_, .arith (c := .int) (d := .int) (x := 1) (y := 4) (x' := 1) (y' := 4) (z := 5) rfl
    (.var ⟨⟨rfl, trivial, by decide⟩, hlike⟩) (.lit (.inl ⟨rfl, by decide⟩)) (conv_self (by decide)) (conv_self (by decide)) trivial (by simp [cOp])
    ⟨rfl, by decide⟩⟩, .inl rfl⟩) (conv_self (by decide))

example (E : Env) (F : Lexer.Str → Nat) (mem : Mem) (ps : List Nat) (hl : LiveLt mem) (few : ps.length < 2 ^ 31)
    (cap : mem.brk + 176 + 104 * ps.length + 48 < Mem.limit) :
    (∃ t, Parses .cscript (fun _ => false) .cscriptUnit (TextCheck.textW words88) t) ∧
      ∀ t, Parses .cscript (fun _ => false) .cscriptUnit (TextCheck.textW words88) t →
      ∃ x s s', build F t (initSt mem) = .ok (some x) s ∧ Conv E (fun R => evaluateCscript R x ps) s (.ok () s') ∧ Rel s' [glob88 ps.length 5] :=
  C143_main_partial hl few cap (TextCheck.okW_text words88_ok) src88 (by simp [parts88, Part.Declares]) apart88 (tparts_run88 _) rfl once88
    (tmain_run88 _)

/-! ## With `unsigned x = 0`, `x = (x - 1) > 0` makes `x` 0. -/

def wrap143 : List Node :=
  [.ctype .uint none, .lv (some 0) 4096 false 0, .ident "x", .integer 1, .bin .sub (some 2) (some 3), .integer 0,
   .cmp .gt (some 4) (some 5), .assign (some 2) (some 6), .pDec (some 2),
   .integer 7, .bin .sub (some 4) (some 9), .assign (some 2) (some 10)]

def st143 : St := stOf wrap143 [⟨"x", 2, some 1⟩] (List.replicate 8 0)

def store143 (v : Int) : Store := [[("x", some ⟨.uint, some v⟩)]]

theorem good143 : Good st143 (store143 0) 0 where
  wf := stOf_WF _ _ _
  flags := by intro c hc; simp [st143, stOf] at hc; subst hc; rfl
  room := ⟨by
    show 4096 + (8 / 16 + 1) * 16 + 16 + 48 * 0 < 2 ^ 47
    omega, by simp [st143, stOf], memOf_livelt _⟩
  rel := by
    refine ⟨[4096] ++ [], .cons (.var ⟨⟨0, ⟨⟨false, 0, rfl⟩, ⟨none, rfl⟩, .inl (by decide), ?_⟩⟩, by decide, ?_, ?_⟩ .nil) .nil, by simp [Apart]⟩
    · show (memOf (List.replicate 8 0)).ok _ _ = true
      decide +kernel
    · show (memOf (List.replicate 8 0)).ok _ _ = true
      decide +kernel
    · intro w hw
      cases hw
      show 0 = CT.uint.decode ((memOf (List.replicate 8 0)).load _ _)
      decide +kernel

/-- `x--` wraps around, as in C -/
example : ∃ s', Runs E0 st143 (.stmt 8) s' ∧ Rel s' (store143 4294967295) ∧ Kept st143 s' ∧ uids s' = uids st143 :=
  (C143_programs_partial (p := .act (.step "x" (-1))) (stOf_Sane _ _ _) good143 (.act (.step .self rfl (.inr (.inr (.inl ⟨rfl, rfl⟩))) rfl) rfl rfl)
    (.act (.step (σ := store143 0) (c := .uint) (v := 0) (r := 4294967295) (w := 4294967295) ⟨rfl, trivial, by decide⟩
      (show Converts .uint (-1) 4294967295 from ⟨by decide, -1, by decide⟩) (conv_self (by decide))))).1

/-- `x = x - 1 - 7` wraps around, as in C -/
example : ∃ s', Runs E0 st143 (.stmt 11) s' ∧ Rel s' (store143 4294967288) ∧ Kept st143 s' ∧ uids s' = uids st143 := by
  refine (C143_programs_partial (p := .act (.set "x" (.bin .sub (.bin .sub (.var "x") (.lit 1)) (.lit 7)))) (stOf_Sane _ _ _) good143
    (.act (.set .self rfl rfl (.bin (o := .sub) (l := 4) (r := 9) rfl (.bin (o := .sub) (l := 2) (r := 3) rfl (.var rfl) (.lit rfl)) (.lit rfl))) rfl rfl)
    (.act (.set (σ := store143 0) (c := .uint) (v := 4294967288) (w := 4294967288) (u := some 0) rfl
      (.inr (.inl ⟨by decide, by simp [ringExpr], rfl, .uint, ?_⟩)) (conv_self (by decide))))).1
  refine .arith (o := .sub) (c := .uint) (d := .int) (x := 4294967295) (y := 7) (x' := 4294967295) (y' := 7) (z := 4294967288) rfl ?_
    (.lit (.inl ⟨rfl, by decide⟩)) (conv_self (by decide)) (conv_self (by decide)) trivial (by simp [cOp])
    (show Converts .uint 4294967288 4294967288 from conv_self (by decide))
  exact .arith (o := .sub) (c := .uint) (d := .int) (x := 0) (y := 1) (x' := 0) (y' := 1) (z := -1) rfl (.var ⟨⟨rfl, trivial, by decide⟩, by decide⟩)
    (.lit (.inl ⟨rfl, by decide⟩)) (conv_self (by decide)) (conv_self (by decide)) trivial (by simp [cOp])
    (show Converts .uint (-1) 4294967295 from ⟨by decide, -1, by decide⟩)

def src143 : Expr := .bin .gt (.bin .sub (.var "x") (.lit 1)) (.lit 0)

theorem value143 : cTyped.value (store143 0) src143 1 := by
  refine ⟨.int, .compare (c := .uint) (d := .int) (x := 4294967295) (y := 0) (x' := 4294967295) (y' := 0) rfl ?_ (.lit (.inl ⟨rfl, by decide⟩))
    (conv_self (by decide)) (conv_self (by decide)) (by simp [cOp, isTruth])⟩
  exact .arith (o := .sub) (c := .uint) (d := .int) (x := 0) (y := 1) (x' := 0) (y' := 1) (z := -1) rfl (.var ⟨rfl, trivial, by decide⟩)
    (.lit (.inl ⟨rfl, by decide⟩)) (conv_self (by decide)) (conv_self (by decide)) trivial (by simp [cOp])
    (show Converts .uint (-1) 4294967295 from ⟨by decide, -1, by decide⟩)

theorem C143_refuted : ¬ C143_statement := by
  intro h
  obtain ⟨s', ⟨r, h1⟩, as, h2, _⟩ := h E0 st143 (store143 0) (store143 1) (.act (.set "x" src143)) (.stmt 7) 0 (stOf_Sane _ _ _) good143
    (.act (.set .self rfl rfl (.cmp (o := .gt) (l := 4) (r := 5) rfl (.bin (o := .sub) (l := 2) (r := 3) rfl (.var rfl) (.lit rfl)) (.lit rfl))) rfl rfl)
    (.act (.set (c := .uint) (u := some 0) (v := 1) (w := 1) rfl value143 (conv_self (by decide))))
  have h3 := Conv.computed (E := E0) (t := some 7) (s := st143) 30 (by decide +kernel)
  have h4 := (Out.ok.inj (Conv.unique h1 h3)).2
  cases hc : s'.ctxs with
  | nil =>
    have hsc : lookups s' = s'.includeCtx.toList := by simp [lookups, hc]
    have hinc : s'.includeCtx = none := by rw [h4]; rfl
    rw [hsc, hinc] at h2; cases h2
  | cons c cs =>
    rw [lookups_cons hc] at h2
    cases h2 with
    | cons h5 _ =>
      generalize hb : c.ids = bs at h5
      cases h5 with
      | @var _ _ _ id t a _ bs _ h6 _ =>
        have h7 := h6.val _ rfl
        obtain ⟨τ, ⟨⟨arr, sz, h8⟩, _⟩⟩ := h6.at_
        have hids : (s'.ctxs.head?.map (·.ids)) = some (⟨"x", id, some t⟩ :: bs) := by rw [hc, ← hb]; rfl
        rw [h4] at hids
        have e : (outSt st143 ((run E0 30).ev (some 7) st143)).ctxs.head?.map (·.ids) = some [⟨"x", 2, some 1⟩] := by decide +kernel
        rw [e] at hids
        have ht : t = 1 := by simp at hids; exact hids.1.2.symm
        rw [ht, h4] at h8
        have e2 : (outSt st143 ((run E0 30).ev (some 7) st143)).nodes 1 = some (.lv (some 0) 4096 false 0) := by decide +kernel
        rw [e2] at h8
        have ha : a = 4096 := by simp at h8; exact h8.2.1.symm
        rw [ha, h4] at h7
        revert h7
        decide +kernel

end Bic
