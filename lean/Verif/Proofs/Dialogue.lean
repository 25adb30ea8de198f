import Verif.Spec.Dialogue
import Verif.Model.ReplLoop
import Verif.Proofs.Source
import Verif.Proofs.Heap
import Verif.Props.Lexical
import Verif.Props.Text
import Verif.Props.ReplText
import Verif.Props.Grammar
/-!
# Lines typed at the REPL
-/

namespace Bic.Repl
open Spec CSyn
open Lexer (Target LSt Tok Reads Follows Lex)
open _root_.Bic.Parser (PT N T K Der Rep ofTok build nameStr nt rep_single we_der specs_der' rep_kws decls_der specs_kw resolveKws_gives)
open Printer (Floats Prints PP decimal digits)
open CText (Text)

/-! ## Decimal texts -/

theorem digits_dec {ds : Str} (h : CText.Digits ds) (h0 : ds = [48] ∨ ds.head? ≠ some 48) : digits (CText.decVal ds) = ds := by
  obtain ⟨hne, hd⟩ := h
  have key : ∀ n, ∀ ds : Str, ds.length = n + 1 → (∀ c ∈ ds, CText.isDigit c = true) → (ds = [48] ∨ ds.head? ≠ some 48) →
      digits (CText.decVal ds) = ds ∧ (ds ≠ [48] → 0 < CText.decVal ds) := by
    intro n
    induction n with
    | zero =>
      intro ds hl hd h0
      match ds, hl with
      | [c], _ =>
        have hc := hd c (by simp)
        have : ∀ c : UInt8, CText.isDigit c = true → digits (c.toNat - 48) = [c] ∧ (c ≠ 48 → 0 < c.toNat - 48) := by
          intro c hc
          have h1 : 48 ≤ c.toNat ∧ c.toNat ≤ 57 := by
            simp only [CText.isDigit, Bool.and_eq_true, decide_eq_true_eq, UInt8.le_iff_toNat_le] at hc
            exact hc
          refine ⟨?_, fun h => ?_⟩
          · unfold digits
            rw [if_pos (by omega)]
            have : 48 + (c.toNat - 48) = c.toNat := by omega
            rw [this]
            simp
          · have : c.toNat ≠ 48 := fun e => h (UInt8.toNat_inj.mp e)
            omega
        have e : CText.decVal [c] = c.toNat - 48 := by simp [CText.decVal]
        rw [e]
        exact ⟨(this c hc).1, fun h => (this c hc).2 fun e => h (by rw [e])⟩
    | succ n ih =>
      intro ds hl hd h0
      have hne : ds ≠ [] := by intro e; rw [e] at hl; simp at hl
      obtain ⟨l, c, rfl⟩ : ∃ l c, ds = l ++ [c] := ⟨ds.dropLast, ds.getLast hne, (List.dropLast_concat_getLast hne).symm⟩
      have hl' : l.length = n + 1 := by simpa using hl
      have hne' : l ≠ [] := by intro e; rw [e] at hl'; simp at hl'
      have h1 : l.head? ≠ some 48 := by
        rcases h0 with h0 | h0
        · rw [h0] at hl; simp at hl
        · match l, hne' with
          | a :: l, _ => simpa using h0
      obtain ⟨i1, i2⟩ := ih l hl' (fun c hc => hd c (by simp [hc])) (.inr h1)
      have hpos := i2 (by rintro rfl; exact h1 rfl)
      have hc := hd c (by simp)
      have hc' : 48 ≤ c.toNat ∧ c.toNat ≤ 57 := by
        simp only [CText.isDigit, Bool.and_eq_true, decide_eq_true_eq, UInt8.le_iff_toNat_le] at hc
        exact hc
      have e : CText.decVal (l ++ [c]) = 10 * CText.decVal l + (c.toNat - 48) := by simp [CText.decVal]
      refine ⟨?_, fun _ => by omega⟩
      rw [e]
      unfold digits
      rw [if_neg (by omega)]
      have e1 : (10 * CText.decVal l + (c.toNat - 48)) / 10 = CText.decVal l := by omega
      have e2 : 48 + (10 * CText.decVal l + (c.toNat - 48)) % 10 = c.toNat := by omega
      rw [e1, e2, i1]
      simp
  have hpos : 0 < ds.length := List.length_pos_iff.mpr hne
  exact (key (ds.length - 1) ds (by omega) hd h0).1

theorem decVal_pos {ds : Str} (h : CText.Digits ds) (h0 : ds.head? ≠ some 48) : 0 < CText.decVal ds := by
  rcases Nat.eq_zero_or_pos (CText.decVal ds) with e | e
  · have := digits_dec h (.inr h0)
    rw [e] at this
    have h1 : digits 0 = [48] := by decide +kernel
    rw [h1] at this
    rw [← this] at h0
    exact absurd rfl h0
  · exact e

/-- what is printed is the only decimal text -/
theorem decimal_unique {v : Int} {t : Str} (h : Decimal v t) : t = decimal v := by
  obtain ⟨ds, h1, h2, ⟨rfl, rfl⟩ | ⟨rfl, h3, rfl⟩⟩ := h
  · unfold decimal
    rw [if_neg (by omega)]
    exact (digits_dec h1 h2).symm
  · have h4 : ds.head? ≠ some 48 := h2.resolve_left h3
    have := decVal_pos h1 h4
    unfold decimal
    rw [if_pos (by omega)]
    have e : (-(CText.decVal ds : Int)).natAbs = CText.decVal ds := by omega
    rw [e, digits_dec h1 h2]

/-! ## Printing -/

theorem prints_int {fl : Floats} {s : St} {r : TId} {v : Int} (h : s.nodes r = some (.integer v) ∨ ∃ c, integral c ∧ Holds s r c v) (out : Str) :
    Prints fl s r out ↔ out = decimal v := by
  rcases h with h | ⟨c, hint, h⟩
  · constructor
    · rintro (⟨h1, _⟩ | ⟨h1, _, h2⟩)
      · rw [h] at h1; cases h1
      · cases h2 with
        | integer h2 => rw [h] at h2; cases h2; rfl
        | other h2 h3 => rw [h] at h2; cases h2; cases h3
        | _ h2 => rw [h] at h2; cases h2
    · rintro rfl
      exact .one h nofun (.integer h)
  · have hp := Lexer.print_holds hint h
    obtain ⟨τ, a, hl, hv⟩ := h
    obtain ⟨arr, sz, h1⟩ := hl.lv
    obtain ⟨e, h2⟩ := hl.ty
    unfold Printer.ppInt at hp
    simp only [h1, h2] at hp
    have hf : ∃ f, Printer.fmtOf c = some f := by
      have := hint
      cases c <;> first | exact ⟨_, rfl⟩ | exact absurd this (by decide)
    obtain ⟨f, hf⟩ := hf
    have hnfp : c.isFp = false := by
      have := hint
      cases c <;> first | rfl | exact absurd this (by decide)
    have hnp : c ≠ .ptr := by
      have := hint
      rintro rfl
      exact absurd this (by decide)
    rw [hf] at hp
    simp only [Option.map_some, Option.some.injEq] at hp
    constructor
    · rintro (⟨h3, _⟩ | ⟨h3, _, h4⟩)
      · rw [h1] at h3; cases h3
      · cases h4 with
        | lvInt j1 j2 j3 =>
          rw [h1] at j1; cases j1
          rw [h2] at j2; cases j2
          rw [hf] at j3; cases j3
          exact hp
        | lvFp j1 j2 j3 =>
          rw [h1] at j1; cases j1
          rw [h2] at j2; cases j2
          rw [hnfp] at j3; cases j3
        | lvPtr j1 j2 =>
          rw [h1] at j1; cases j1
          rw [h2] at j2; cases j2
          exact absurd rfl hnp
        | lvStr j1 j2 =>
          rw [h1] at j1; cases j1
          rw [h2] at j2; cases j2
          exact absurd rfl hnp
        | lvOther j1 j2 j3 =>
          rw [h1] at j1; cases j1
          rw [h2] at j2; cases j2
          exact absurd rfl (j3 _ _)
        | other j1 j2 => rw [h1] at j1; cases j1; cases j2
        | _ j1 => rw [h1] at j1; cases j1
    · rintro rfl
      rw [← hp]
      exact .one h1 nofun (.lvInt h1 h2 hf hl.ok)

theorem prints_value {fl : Floats} {s : St} {r : TId} {v : Int} (h : Value s r v) (out : Str) : Prints fl s r out ↔ out = decimal v := by
  refine prints_int ?_ out
  rcases h with h | ⟨c, a, h⟩
  · exact .inl h
  · obtain ⟨τ, hl⟩ := h.at_
    exact .inr ⟨c, h.int, τ, a, hl, h.val v rfl⟩

theorem prints_ident {fl : Floats} {s : St} {r : TId} {x : String} (h : s.nodes r = some (.ident x)) (out : Str) :
    Prints fl s r out ↔ out = CText.ascii x := by
  constructor
  · rintro (⟨h1, _⟩ | ⟨h1, _, h2⟩)
    · rw [h] at h1; cases h1
    · cases h2 with
      | ident h2 => rw [h] at h2; cases h2; rfl
      | other h2 h3 => rw [h] at h2; cases h2; cases h3
      | _ h2 => rw [h] at h2; cases h2
  · rintro rfl
    exact .one h nofun (.ident h)

/-! ## Evaluation -/

/-- what bic shows: for an assignment the value before its conversion (C10), and only values of `long`
for a step -/
def bicShows : Shows := ⟨fun v _ z => z = v, InRange .long⟩

/-- the objects of an input -/
inductive InputRep (nd : TId → Option Node) : TId → Input → Prop
  | expr {t e} : ERep nd t e → InputRep nd t (.expr e)
  | set {t u i r x e} : Wrap nd t u → nd u = some (.assign (some i) (some r)) → nd i = some (.ident x) → ERep nd r e →
      InputRep nd t (.set x e)
  | post {t u i x n d} : Wrap nd t u → nd u = some n → (n = .pInc (some i) ∧ d = 1 ∨ n = .pDec (some i) ∧ d = -1) →
      nd i = some (.ident x) → InputRep nd t (.post x d)
  | pre {t u i x n d} : Wrap nd t u → nd u = some n → (n = .inc (some i) ∧ d = 1 ∨ n = .dec (some i) ∧ d = -1) →
      nd i = some (.ident x) → InputRep nd t (.pre x d)
  | decl {t specs decls off c ds} : nd t = some (.decl (some specs) (some decls) off) → TypeSpecs nd specs c →
      DeclsRep nd decls ds → InputRep nd t (.decl c ds)
  | empty {t} : nd t = some .empty → InputRep nd t .empty

/-- what evaluating an input and printing the result gives -/
def Shown (E : Env) (fl : Floats) (s : St) (t : TId) (out : Str) (s' : St) : Prop :=
  (∃ r o, Conv E (fun R => R.ev (some t)) s (.ok (some r) s') ∧ out = o ++ [10] ∧ ∀ o', Prints fl s' r o' ↔ o' = o) ∨
  (Conv E (fun R => R.ev (some t)) s (.ok none s') ∧ out = [])

theorem input_keeps {E : Env} (fl : Floats) {s : St} {σ σ' : Store} {n m : Nat} {t : TId} {p : Input} {out : Str} (g : Good s σ (n + m))
    (ht : InputRep s.nodes t p) (h : Reply okRules bicShows σ p out σ' n) :
    ∃ s', Shown E fl s t out s' ∧ Good s' σ' m ∧ cfg s' = cfg s ∧ (n = 0 → Bic.Kept s s' ∧ s'.ctxs = s.ctxs ∧ (Touch σ s s' ∨ Ext s s')) ∧
      Bic.Kept s s' ∧ s'.ctxs.length = s.ctxs.length := by
  have act : ∀ {u v σ'} {z : Str}, Wrap s.nodes t u → ActGives E s u σ σ' m v → Decimal v z →
      ∃ s', Shown E fl s t (z ++ [10]) s' ∧ Good s' σ' m ∧ cfg s' = cfg s ∧ ((0 : Nat) = 0 → Bic.Kept s s' ∧ s'.ctxs = s.ctxs ∧ (Touch σ s s' ∨ Ext s s')) ∧
        Bic.Kept s s' ∧ s'.ctxs.length = s.ctxs.length := by
    rintro u v σ' z w ⟨r, s', h1, h2, h3, h4, h5, h6, h7⟩ hz
    refine ⟨s', .inl ⟨r, _, w.conv h1.1, rfl, fun o => ?_⟩, h2, h6, fun _ => ⟨h3, h5, .inl h7⟩, h3, by rw [h5]⟩
    rw [decimal_unique hz]
    exact prints_value h4 o
  cases h with
  | expr hv hd =>
    cases ht with
    | expr ht =>
      have g' : Good s σ m := g.mono (by omega)
      obtain ⟨r, s', h1, h2, _, h4⟩ := eval_full (E := E) g.wf (fun _ _ ⟨_, h1, h2⟩ => g.rel.varIs h1 h2) hv ht
      refine ⟨s', .inl ⟨r, _, h1, rfl, fun o => ?_⟩, g'.ext h2, h2.cfg, fun _ => ⟨h2.nodes, h2.ctxs, .inr h2⟩, h2.nodes, by rw [h2.ctxs]⟩
      rw [decimal_unique hd]
      refine prints_value ?_ o
      rcases h4.2 with h4 | ⟨y, ⟨c, h4, _⟩, h5⟩
      · exact .inl h4
      · obtain ⟨q, a, j1, j2, _⟩ := (g'.ext h2).rel.find h4
        rw [h5] at j1
        cases j1
        exact .inr ⟨_, _, j2⟩
  | set h1 h2 h3 h4 h5 h6 =>
    cases ht with
    | set w e1 e2 e3 =>
      cases h5
      exact act w (set_conv (g.mono (by omega)) e1 e2 e3 h1 h2 h3 h4) h6
  | post h1 h2 h3 h4 =>
    cases ht with
    | post w e1 e2 e3 =>
      have := step_conv (E := E) (n := m) (g.mono (by omega)) e1
        (by rcases e2 with e2 | e2; exacts [.inl e2, .inr (.inr (.inl e2))]) e3 h1 h2
      refine act w ?_ h4
      rcases e2 with ⟨rfl, rfl⟩ | ⟨rfl, rfl⟩ <;> (rw [← toPtrdiff_of_inRange h3]; exact this)
  | pre h1 h2 h3 h4 =>
    cases ht with
    | pre w e1 e2 e3 =>
      have := step_conv (E := E) (n := m) (g.mono (by omega)) e1
        (by rcases e2 with e2 | e2; exacts [.inr (.inl e2), .inr (.inr (.inr e2))]) e3 h1 h2
      refine act w ?_ h4
      rcases e2 with ⟨rfl, rfl⟩ | ⟨rfl, rfl⟩ <;>
        (simp only [isPost, Bool.false_eq_true, if_false, toPtrdiff_of_inRange h3] at this; exact this)
  | decl hc h1 h2 =>
    cases ht with
    | decl e1 e2 e3 =>
      obtain ⟨r, s', a1, a2, a3, _, _, a6, a7⟩ := decl_conv (E := E) hc e1 e2 e3 h1 g
      obtain ⟨q, rfl, hq⟩ := a7 _ (by rw [h2]; rfl)
      refine ⟨s', .inl ⟨q, _, a1.1, rfl, fun o => prints_ident hq o⟩, a2, a6, fun h0 => ?_, a3, a1.2.1⟩
      rw [List.length_eq_zero_iff.mp h0] at h2
      cases h2
  | empty =>
    cases ht with
    | empty e => exact ⟨s, .inr ⟨Conv.evNode e (Conv.const rfl), rfl⟩, g.mono (by omega), rfl, fun _ => ⟨fun _ _ h => h, rfl, .inr (Ext.refl s)⟩, fun _ _ h => h, rfl⟩

theorem input_conv {E : Env} (fl : Floats) {s : St} {σ σ' : Store} {n m : Nat} {t : TId} {p : Input} {out : Str} (g : Good s σ (n + m))
    (ht : InputRep s.nodes t p) (h : Reply okRules bicShows σ p out σ' n) :
    ∃ s', Shown E fl s t out s' ∧ Good s' σ' m ∧ s'.includes = s.includes ∧ (n = 0 → Bic.Kept s s' ∧ s'.ctxs = s.ctxs ∧ (Touch σ s s' ∨ Ext s s')) := by
  obtain ⟨s', h1, h2, h3, h4, _⟩ := input_keeps (E := E) fl g ht h
  exact ⟨s', h1, h2, congrArg Prod.fst h3, h4⟩

/-! ## Parsing -/

theorem expression_shape {i t r} (h : Der .expression i t r) : ∃ l, t = .exprList l := by
  cases h <;> exact ⟨_, rfl⟩

theorem input_der {TN p i} (h : WInput cTable TN p i) :
    ∃ t, Der .replUnit i (.chain [t]) [] ∧ typedefNames t = [] ∧ (∀ s, t ≠ .cppInclude s) ∧
      ∀ {nd : TId → Option Node} {u}, Rep nd (.t t (some u)) → InputRep nd u p := by
  have key : ∀ {i t}, Der .assignment i t [.p .semi] →
      (∀ {nd : TId → Option Node} {u v}, Rep nd (.t t (some v)) → Wrap nd u v → InputRep nd u p) →
      ∃ t, Der .replUnit i (.chain [t]) [] ∧ typedefNames t = [] ∧ (∀ s, t ≠ .cppInclude s) ∧
        ∀ {nd : TId → Option Node} {u}, Rep nd (.t t (some u)) → InputRep nd u p := by
    intro i t h1 h2
    refine ⟨_, .ruOne (.rsExpr (.esExpr (.exOne h1))), rfl, nofun, ?_⟩
    intro nd u hu
    obtain ⟨x, _, v, e, _, h3, h4⟩ := rep_single hu
    cases e
    exact h2 h3 h4
  cases h with
  | expr h =>
    obtain ⟨t, h1, h2⟩ := we_der h
    obtain ⟨l, rfl⟩ := expression_shape h1
    refine ⟨_, .ruOne (.rsExpr (.esExpr h1)), rfl, nofun, ?_⟩
    intro nd u hu
    obtain ⟨v, e, h3⟩ := h2 hu
    cases e
    exact .expr h3
  | @set s e i h =>
    obtain ⟨t, h1, h2⟩ := we_der h
    refine key (.asOp (k := .assign) (f := fun l r => .assign l r) (.uPostfix (.poPrimary .pIdent)) rfl h1) ?_
    intro nd u v hr hx
    cases hr with
    | assign h3 h4 h5 =>
      cases h4 with
      | ident h4 =>
        obtain ⟨v, rfl, h6⟩ := h2 h5
        exact .set hx h3 h4 h6
  | @setOp s o bo e i ho h =>
    obtain ⟨t, h1, h2⟩ := we_der h
    have fin : ∀ op : BinOp, bo = BOp.ofBin op → ∀ {nd : TId → Option Node} {u v : TId},
        Rep nd (.t (.assign (.ident s) (.bin op (.ident s) t)) (some v)) → Wrap nd u v →
        InputRep nd u (.set (nameStr s) (.bin bo (.var (nameStr s)) e)) := by
      rintro op rfl nd u v hr hx
      cases hr with
      | assign h3 h4 h5 =>
        cases h4 with
        | ident h4 =>
          cases h5 with
          | bin h6 h7 h8 =>
            cases h7 with
            | ident h7 =>
              obtain ⟨v, rfl, h9⟩ := h2 h8
              exact .set hx h3 h4 (.bin h6 (.var h7) h9)
    cases o <;> simp only [Asg.op, Option.some.injEq, reduceCtorEq] at ho <;> subst ho
    case add => exact key (.asOp (k := .addA) (.uPostfix (.poPrimary .pIdent)) rfl h1) (fin .add rfl)
    case sub => exact key (.asOp (k := .subA) (.uPostfix (.poPrimary .pIdent)) rfl h1) (fin .sub rfl)
    case div => exact key (.asOp (k := .divA) (.uPostfix (.poPrimary .pIdent)) rfl h1) (fin .div rfl)
    case shl => exact key (.asOp (k := .shlA) (.uPostfix (.poPrimary .pIdent)) rfl h1) (fin .lshift rfl)
    case shr => exact key (.asOp (k := .shrA) (.uPostfix (.poPrimary .pIdent)) rfl h1) (fin .rshift rfl)
    case xor => exact key (.asOp (k := .xorA) (.uPostfix (.poPrimary .pIdent)) rfl h1) (fin .xor rfl)
  | pInc =>
    refine key (Parser.nt_down (p := 2) (q := 16) (.poInc (.poPrimary .pIdent)) (by omega) (by omega)) ?_
    intro nd u v hr hx
    cases hr with
    | pInc h3 h4 => cases h4 with | ident h4 => exact .post hx h3 (.inl ⟨rfl, rfl⟩) h4
  | pDec =>
    refine key (Parser.nt_down (p := 2) (q := 16) (.poDec (.poPrimary .pIdent)) (by omega) (by omega)) ?_
    intro nd u v hr hx
    cases hr with
    | pDec h3 h4 => cases h4 with | ident h4 => exact .post hx h3 (.inr ⟨rfl, rfl⟩) h4
  | inc =>
    refine key (Parser.nt_down (p := 2) (q := 15) (.uOp (k := .incr) rfl (.uPostfix (.poPrimary .pIdent))) (by omega) (by omega)) ?_
    intro nd u v hr hx
    cases hr with
    | inc h3 h4 => cases h4 with | ident h4 => exact .pre hx h3 (.inl ⟨rfl, rfl⟩) h4
  | dec =>
    refine key (Parser.nt_down (p := 2) (q := 15) (.uOp (k := .decr) rfl (.uPostfix (.poPrimary .pIdent))) (by omega) (by omega)) ?_
    intro nd u v hr hx
    cases hr with
    | dec h3 h4 => cases h4 with | ident h4 => exact .pre hx h3 (.inr ⟨rfl, rfl⟩) h4
  | @decl ws c ds i j hs hg hd =>
    obtain ⟨h1, -⟩ := specs_der' hs
    obtain ⟨us, -, h3, -, h4⟩ := decls_der hd
    refine ⟨_, .ruOne (.rsDecl (.dcDecl h1 h3)), ?_, nofun, ?_⟩
    · have : hasTypedef (.chain (ws.map .kw)) = false := by
        simp only [hasTypedef, List.any_eq_false, List.mem_map]
        rintro _ ⟨w, hw, rfl⟩
        have := specs_kw hs w hw
        cases w <;> first | exact absurd this (by decide) | simp
      simp [typedefNames, this]
    · intro nd u hx
      obtain ⟨g1, g2⟩ := resolveKws_gives (specs_kw hs) hg
      cases hx with
      | decl h5 h6 h7 =>
        cases h6 with
        | chain h8 h9 =>
          cases h7 with
          | chain h10 h11 => exact .decl h5 ⟨_, _, h8, rep_kws h9, g1, g2⟩ (.inl ⟨_, h10, h4 h11⟩)
  | empty =>
    refine ⟨_, .ruOne (.rsExpr .esEmpty), rfl, nofun, ?_⟩
    intro nd u hx
    cases hx with | empty h => exact .empty h

/-! ## Lines -/

theorem LexTo.lex {tg : Target} {ty : Str → Bool} {st e : LSt} {s : Str} {ts : List Tok} (h : LexTo tg ty st s ts e) :
    Lex tg ty st s ts (some e.mode) := by
  induction h with
  | eof h => exact .eof h
  | tok h _ ih => exact .tok h ih
  | skip h _ ih => exact .skip h ih

theorem lex_to {tg : Target} {ty : Str → Bool} {st : LSt} {s : Str} {ts : List Tok} {m : Lexer.Mode} (h : Lex tg ty st s ts (some m)) :
    ∃ e, LexTo tg ty st s ts e ∧ e.mode = m := by
  generalize ho : some m = o at h
  induction h with
  | eof h => cases ho; exact ⟨_, .eof h, rfl⟩
  | err => cases ho
  | tok h _ ih => obtain ⟨e, h1, h2⟩ := ih ho; exact ⟨e, .tok h h1, h2⟩
  | skip h _ ih => obtain ⟨e, h1, h2⟩ := ih ho; exact ⟨e, .skip h h1, h2⟩

/-- the first tokens are those of the whole text -/
theorem LexSome.prefix {tg : Target} {ty : Str → Bool} {st e e' : LSt} {s : Str} {ts ts' : List Tok} (h : LexSome tg ty st s ts e)
    (h' : LexTo tg ty st s ts' e') : ts <+: ts' := by
  induction h generalizing ts' with
  | nil => exact List.nil_prefix
  | tok h _ ih =>
    cases h' with
    | eof h1 => rw [h] at h1; cases h1
    | tok h1 h2 => rw [h] at h1; cases h1; exact List.prefix_cons_inj _ |>.mpr (ih h2)
    | skip h1 _ => rw [h] at h1; cases h1
  | skip h _ ih =>
    cases h' with
    | eof h1 => rw [h] at h1; cases h1
    | tok h1 _ => rw [h] at h1; cases h1
    | skip h1 h2 => rw [h] at h1; cases h1; exact ih h2

theorem map_some_inj {α : Type} {l l' : List α} (h : l.map some = l'.map some) : l = l' :=
  List.map_injective_iff.mpr (Option.some_injective α) h

/-- a text that is accepted: with one tree only, and not rejected -/
theorem accepts_lex {ty : Str → Bool} {lx : LSt} {line : Str} {i : List T} {t : PT} (hm : lx.mode = .initial)
    (hl : ∃ toks, toks.map Parser.ofTok = i.map some ∧ ∀ b, Lexer.Lex .repl ty ⟨.initial, b⟩ line toks (some .initial)) (hd : Der .replUnit i t []) :
    (∃ lx', Accepts ty lx line t lx') ∧ (∀ t' lx', Accepts ty lx line t' lx' → t' = t ∧ lx'.mode = .initial) ∧
      ∀ toks lx', ¬ Rejects ty lx line toks lx' := by
  obtain ⟨m, b⟩ := lx
  cases hm
  obtain ⟨toks, h1, h2⟩ := hl
  obtain ⟨e, h3, h4⟩ := lex_to (h2 b)
  refine ⟨⟨e, toks, i, h3, h1, hd⟩, ?_, ?_⟩
  · rintro t' lx' ⟨toks', i', j1, j2, j3⟩
    obtain ⟨e1, e2⟩ := Lex.unique h3.lex j1.lex
    subst e1
    obtain rfl := map_some_inj (h1.symm.trans j2)
    refine ⟨C73_repl j3 hd, ?_⟩
    rw [h4] at e2
    exact (Option.some.inj e2).symm
  · intro toks'' lx' hr
    cases hr with
    | @token t' _ j1 _ j2 =>
      obtain ⟨rest, rfl⟩ := j1.prefix h3
      refine j2 ?_
      rw [List.map_append] at h1
      obtain ⟨i1, i2, rfl, k1, k2⟩ := List.map_eq_append_iff.mp h1.symm
      exact ⟨i1, i2, t, k1.symm, hd⟩
    | early j1 _ j2 =>
      obtain ⟨rfl, -⟩ := Lex.unique h3.lex j1.lex
      exact j2 i t h1 hd

theorem addNames_nil {t : PT} {ty : Str → Bool} (h : typedefNames t = []) : addNames t ty = ty := by
  funext x
  simp [addNames, h]

/-- parsing such a text -/
theorem doParse_lex {F : Str → Nat} {ty : Str → Bool} {st : St} {line : Str} {i : List T} {t : PT} (w : WF st)
    (hl : ∃ toks, toks.map Parser.ofTok = i.map some ∧ ∀ b, Lexer.Lex .repl ty ⟨.initial, b⟩ line toks (some .initial)) (hd : Der .replUnit i (.chain [t]) []) :
    ∃ y s', Ext st s' ∧ Rep s'.nodes (.t t (some y)) ∧ ∀ lx : LSt, lx.mode = .initial →
      (∃ lx', DoParse F ⟨lx, ty, st⟩ line (some y) ⟨lx', addNames t ty, s'⟩) ∧
      ∀ z r', DoParse F ⟨lx, ty, st⟩ line z r' → z = some y ∧ r'.st = s' ∧ r'.ty = addNames t ty ∧ r'.lx.mode = .initial := by
  obtain ⟨x, s', b1, b2, b3, b4⟩ := Parser.build_makes (F := F) _ (Parser.der_full hd).2 st w
  cases b3 with
  | chain c1 c2 =>
    obtain ⟨y, rfl, hy⟩ := Parser.rep_one c2
    refine ⟨y, s', b2, hy, fun lx hm => ?_⟩
    obtain ⟨⟨lx', h1⟩, h2, h3⟩ := accepts_lex (lx := lx) hm hl hd
    refine ⟨⟨lx', .one h1 b1 c1⟩, ?_⟩
    intro z r' hz
    cases hz with
    | one j1 j2 j3 =>
      obtain ⟨e1, e2⟩ := h2 _ _ j1
      cases e1
      rw [b1] at j2
      cases j2
      rw [c1] at j3
      cases j3
      exact ⟨rfl, rfl, rfl, e2⟩
    | rejected j1 _ => exact absurd j1 (h3 _ _)

theorem doParse_of {F : Str → Nat} {ty : Str → Bool} {st : St} {line : Str} {i : List T} {t : PT} (w : WF st)
    (ht : Text (Reads ty) Follows i line) (hd : Der .replUnit i (.chain [t]) []) :
    ∃ y s', Ext st s' ∧ Rep s'.nodes (.t t (some y)) ∧ ∀ lx : LSt, lx.mode = .initial →
      (∃ lx', DoParse F ⟨lx, ty, st⟩ line (some y) ⟨lx', addNames t ty, s'⟩) ∧
      ∀ z r', DoParse F ⟨lx, ty, st⟩ line z r' → z = some y ∧ r'.st = s' ∧ r'.ty = addNames t ty ∧ r'.lx.mode = .initial :=
  doParse_lex w (Lexer.C81_tokens_partial .repl ty ht) hd

/-- the object of a statement that is not an `#include` -/
theorem rep_node {nd : TId → Option Node} {t : PT} {y : TId} (h : Rep nd (.t t (some y))) (ht : ∀ s, t ≠ .cppInclude s) :
    ∃ n, nd y = some n ∧ ∀ s, n ≠ .cppInclude s := by
  cases h with
  | cppInclude => exact absurd rfl (ht _)
  | _ => exact ⟨_, by assumption, by intro _ h; cases h⟩

theorem lastLine_of {f text : Str} {ty : Str → Bool} {i : List T} (h : LastLine f text) (ht : Text (Reads ty) Follows i text) (hi : i ≠ []) :
    ∃ line', runCppOnLine f = some line' ∧ Text (Reads ty) Follows i line' := by
  have hne : f ≠ [newline] := by
    rintro rfl
    obtain ⟨_, before, h2, _⟩ := h
    have := congrArg List.length h2
    simp at this
    have e : text = [] := List.length_eq_zero_iff.mp (by omega)
    subst e
    obtain ⟨toks, j1, j2⟩ := Lexer.C81_tokens_partial .repl ty ht
    have := (Lex.unique (j2 []) (.eof rfl)).1
    subst this
    exact hi (List.map_eq_nil_iff.mp j1.symm)
  have := C65_last_line_partial f text h hne
  split at this
  · exact ⟨_, this, ht⟩
  · exact ⟨_, this, .space (by decide) ht⟩

theorem der_nonempty {i : List T} {t : PT} (h : Der .replUnit i t []) : i ≠ [] := by
  rintro rfl
  exact absurd (Parser.start h) (by simp [Parser.st])

/-- parsing a line twice: as it was typed, and what the preprocessor makes of it, with the type names the
first parse has added -/
theorem parseLine_of {F : Str → Nat} {cpp : List String → Str → Str} {r : RSt} {line text : Str} {i0 i : List T} {t0 t : PT}
    (w : WF r.st) (hm : r.lx.mode = .initial) (ht0 : Text (Reads r.ty) Follows i0 line) (d0 : Der .replUnit i0 (.chain [t0]) [])
    (hi0 : ∀ s, t0 ≠ .cppInclude s) (hcpp : LastLine (cpp r.st.includes line) text)
    (ht : Text (Reads (addNames t0 r.ty)) Follows i text) (d : Der .replUnit i (.chain [t]) []) :
    ∃ y s', Ext r.st s' ∧ Rep s'.nodes (.t t (some y)) ∧
      (∃ lx', ParseLine F cpp r line (some y) ⟨lx', addNames t (addNames t0 r.ty), s'⟩) ∧
      ∀ z r', ParseLine F cpp r line z r' →
        z = some y ∧ r'.st = s' ∧ r'.ty = addNames t (addNames t0 r.ty) ∧ r'.lx.mode = .initial := by
  obtain ⟨lx, ty, st⟩ := r
  obtain ⟨y0, s1, x1, k1, f1⟩ := doParse_of (F := F) w ht0 d0
  obtain ⟨⟨lx1, p1⟩, u1⟩ := f1 lx hm
  obtain ⟨n0, hn0, hn0'⟩ := rep_node k1 hi0
  obtain ⟨line', hl1, hl2⟩ := lastLine_of hcpp ht (der_nonempty d)
  obtain ⟨y, s2, x2, k2, f2⟩ := doParse_of (F := F) (x1.wf w) hl2 d
  obtain ⟨⟨lx2, p2⟩, -⟩ := f2 lx1 (u1 _ _ p1).2.2.2
  refine ⟨y, s2, x1.trans x2, k2, ⟨lx2, .line p1 hn0 hn0' (by show runCppOnLine (cpp s1.includes line) = _; rw [x1.includes]; exact hl1) p2⟩, ?_⟩
  intro z r' hz
  cases hz with
  | rejected j => exact absurd (u1 _ _ j).1 (by simp)
  | header j1 j2 =>
    obtain ⟨a1, a2, _⟩ := u1 _ _ j1
    cases a1
    rw [a2, hn0] at j2
    cases j2
    exact absurd rfl (hn0' _)
  | @line _ _ r1 l' _ _ j1 j2 j3 j4 j5 =>
    obtain ⟨a1, a2, a3, a4⟩ := u1 _ _ j1
    obtain ⟨lx, ty, st⟩ := r1
    cases a2
    cases a3
    rw [x1.includes, hl1] at j4
    cases j4
    exact (f2 lx a4).2 _ _ j5

/-- a line typed, and what is shown for it -/
theorem line_of {E : Env} {fl : Floats} {F : Str → Nat} {cpp : List String → Str → Str} {r : RSt} {line text out : Str} {σ σ' : Store}
    {n m : Nat} {TN} {p0 p : Input} {i0 i : List T} (hm : r.lx.mode = .initial) (g : Good r.st σ (n + m))
    (ht0 : Text (Reads r.ty) Follows i0 line) (hw0 : WInput cTable TN p0 i0) (hcpp : LastLine (cpp r.st.includes line) text)
    (ht : Text (Reads r.ty) Follows i text) (hw : WInput cTable TN p i) (h : Reply okRules bicShows σ p out σ' n) :
    (∃ r', Line E fl F cpp r line (.shows out) r') ∧
    ∀ a r', Line E fl F cpp r line a r' → a = .shows out ∧ r'.lx.mode = .initial ∧ r'.ty = r.ty ∧ r'.st.includes = r.st.includes ∧
      Good r'.st σ' m := by
  obtain ⟨t0, d1, d2, d3, _⟩ := input_der hw0
  obtain ⟨t, e1, e2, e3, e4⟩ := input_der hw
  have := parseLine_of (F := F) (cpp := cpp) (text := text) (i := i) g.wf hm ht0 d1 d3 hcpp (by rw [addNames_nil d2]; exact ht) e1
  rw [addNames_nil e2, addNames_nil d2] at this
  obtain ⟨y, s', x, k, ⟨lx', p1⟩, up⟩ := this
  obtain ⟨s3, c1, c2, c3, _⟩ := input_conv (E := E) fl (g.ext x) (e4 k) h
  have c3 := c3.trans x.includes
  constructor
  · rcases c1 with ⟨q, o, c1, rfl, c4⟩ | ⟨c1, rfl⟩
    · exact ⟨_, .value p1 c1 ((c4 o).mpr rfl)⟩
    · exact ⟨_, .nothing p1 c1⟩
  · intro a r' hr'
    cases hr' with
    | rejected j => obtain ⟨a1, _⟩ := up _ _ j; cases a1
    | value j1 j2 j3 =>
      obtain ⟨a1, a2, a3, a4⟩ := up _ _ j1
      cases a1
      rw [a2] at j2
      rcases c1 with ⟨q, o, c1, rfl, c4⟩ | ⟨c1, rfl⟩
      · cases Conv.unique c1 j2
        rw [(c4 _).mp j3]
        exact ⟨rfl, a4, a3, c3, c2⟩
      · cases Conv.unique c1 j2
    | nothing j1 j2 =>
      obtain ⟨a1, a2, a3, a4⟩ := up _ _ j1
      cases a1
      rw [a2] at j2
      rcases c1 with ⟨q, o, c1, rfl, c4⟩ | ⟨c1, rfl⟩
      · cases Conv.unique c1 j2
      · cases Conv.unique c1 j2
        exact ⟨rfl, a4, a3, c3, c2⟩
    | ends j1 j2 =>
      obtain ⟨a1, a2, _⟩ := up _ _ j1
      cases a1
      rw [a2] at j2
      rcases c1 with ⟨q, o, c1, _⟩ | ⟨c1, _⟩
      · cases Conv.unique c1 j2
      · cases Conv.unique c1 j2

end Bic.Repl
