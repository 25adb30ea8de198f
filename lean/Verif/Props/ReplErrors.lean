import Verif.Props.ReplTypedef
/-!
# C91: lines the REPL rejects
-/

namespace Bic.Parser

/-- what is left is a part of the input -/
theorem Der.rest {n i t r} (h : Der n i t r) : ∀ x ∈ r, x ∈ i := by
  induction h with
  | _ => first | (intro x hx; simp_all; done) | grind

end Bic.Parser

namespace Bic.Lexer

/-- the actions on `sl_buf` -/
def Action.buffers : Action → Bool
  | .strText | .strChar _ | .strOct | .strEsc | .strEnd => true
  | _ => false

theorem rule_buffers {tg : Target} : ∀ r ∈ rules tg, r.act.buffers = true → r.modes = [.strLit] := by
  cases tg <;> decide +kernel

theorem rule_strBegin {tg : Target} : ∀ r ∈ rules tg, r.act = .strBegin → r.re = Re.chr 34 := by
  cases tg <;> simp [rules, ignored, keywords, directives, values, operators, word, ignore]

def Action.compoundOk : Action → Bool
  | .beginCompound n => n == "STRUCT" || n == "UNION"
  | _ => true

theorem rule_compound {tg : Target} : ∀ r ∈ rules tg, r.act.compoundOk = true := by
  cases tg <;> decide +kernel

/-- one match: by a rule, or a byte is skipped; which one does not depend on `sl_buf` -/
theorem next_cases (tg : Target) (T : Str → Bool) (m : Mode) {s : Str} (hs : s ≠ []) :
    (∃ w rest r, s = w ++ rest ∧ r ∈ rules tg ∧ m ∈ r.modes ∧ Matches r.re w ∧
      ∀ b, next tg T ⟨m, b⟩ s = act T ⟨m, b⟩ r.act w rest) ∨
    ∀ b, next tg T ⟨m, b⟩ s = .skip ⟨m, b⟩ s.tail := by
  have h := pick_spec m s (rules tg)
  cases e : pick m s (rules tg) with
  | none =>
    right
    intro b
    cases s with
    | nil => exact absurd rfl hs
    | cons c s => simp only [next, e, List.tail_cons]
  | some p =>
    obtain ⟨n, a⟩ := p
    left
    rw [e] at h
    obtain ⟨w, r, rfl, rfl, hc⟩ := h
    obtain ⟨rest, rfl⟩ := hc.1
    obtain ⟨_, ⟨h1, h2, _⟩, _, before, after, hr, _⟩ := id hc
    exact ⟨w, rest, r, rfl, by rw [hr]; simp, h1, h2, fun b => next_of_chosen (st := ⟨m, b⟩) hc⟩

/-- states of the lexer that do not differ in what they read: `sl_buf` is in use only within a string -/
def Sim (a b : LSt) : Prop := a.mode = b.mode ∧ (a.mode = .strLit → a.buf = b.buf)

inductive StepSim : Step → Step → Prop
  | eof : StepSim .eof .eof
  | err : StepSim .err .err
  | tok {t a b r} : Sim a b → StepSim (.tok t a r) (.tok t b r)
  | skip {a b r} : Sim a b → StepSim (.skip a r) (.skip b r)

theorem next_sim {tg : Target} {T : Str → Bool} {a b : LSt} (h : Sim a b) (s : Str) : StepSim (next tg T a s) (next tg T b s) := by
  obtain ⟨m, x⟩ := a
  obtain ⟨m', y⟩ := b
  obtain ⟨h1, h2⟩ := h
  cases h1
  by_cases hs : s = []
  · subst hs; exact .eof
  rcases next_cases tg T m hs with ⟨w, rest, r, rfl, hr, hm, _, hn⟩ | hn
  · rw [hn, hn]
    have hb : r.act.buffers = true → x = y := by
      intro hb
      refine h2 ?_
      rw [rule_buffers r hr hb] at hm
      simpa using hm
    have h3 : Sim ⟨m, x⟩ ⟨m, y⟩ := ⟨rfl, h2⟩
    cases ha : r.act <;> rw [ha] at hb <;> simp only [act]
    case char => split; exacts [.tok h3, .err]
    case ident => split <;> exact .tok h3
    case strEnd => rw [hb rfl]; exact .tok ⟨rfl, nofun⟩
    case strBegin => exact .skip ⟨rfl, fun _ => rfl⟩
    all_goals first
      | exact .skip h3
      | exact .tok h3
      | exact .tok ⟨rfl, nofun⟩
      | exact .err
      | exact .skip ⟨rfl, fun _ => by rw [hb rfl]⟩
  · rw [hn, hn]; exact .skip ⟨rfl, h2⟩

/-- without `"` the lexer leaves the initial start condition only after `struct` and `union` -/
theorem next_calm {tg : Target} {T : Str → Bool} {b s : Str} (hq : (34 : Byte) ∉ s) :
    (∀ t st rest, next tg T ⟨.initial, b⟩ s = .tok t st rest → (34 : Byte) ∉ rest ∧ (t ≠ .tok "STRUCT" → t ≠ .tok "UNION" → st.mode = .initial)) ∧
    ∀ st rest, next tg T ⟨.initial, b⟩ s = .skip st rest → (34 : Byte) ∉ rest ∧ st.mode = .initial := by
  by_cases hs : s = []
  · subst hs; exact ⟨nofun, nofun⟩
  rcases next_cases tg T .initial hs with ⟨w, rest, r, rfl, hr, hm, hw, hn⟩ | hn
  · have hrest : (34 : Byte) ∉ rest := fun h => hq (List.mem_append_right _ h)
    have hb : r.act.buffers = false := by
      cases e : r.act.buffers with
      | false => rfl
      | true =>
        rw [rule_buffers r hr e] at hm
        simp at hm
    have hbeg : r.act ≠ .strBegin := by
      intro e
      rw [rule_strBegin r hr e] at hw
      rw [chr_iff.mp hw] at hq
      simp at hq
    have hcomp := rule_compound r hr
    rw [hn]
    cases ha : r.act <;> rw [ha] at hb hbeg hcomp <;> simp only [act]
    case strBegin => exact absurd rfl hbeg
    case beginCompound n =>
      refine ⟨fun t st rest' h => ?_, nofun⟩
      cases h
      refine ⟨hrest, fun h1 h2 => ?_⟩
      simp only [Action.compoundOk, Bool.or_eq_true, beq_iff_eq] at hcomp
      rcases hcomp with rfl | rfl
      · exact absurd rfl h1
      · exact absurd rfl h2
    case char =>
      refine ⟨fun t st rest' h => ?_, fun st rest' h => ?_⟩ <;> split at h <;> cases h
      exact ⟨hrest, fun _ _ => rfl⟩
    case ident =>
      refine ⟨fun t st rest' h => ?_, fun st rest' h => ?_⟩ <;> split at h <;> cases h <;> exact ⟨hrest, fun _ _ => rfl⟩
    all_goals first
      | (cases hb; done)
      | (refine ⟨fun t st rest' h => ?_, nofun⟩; cases h; exact ⟨hrest, fun _ _ => rfl⟩)
      | (refine ⟨nofun, fun st rest' h => ?_⟩; cases h; exact ⟨hrest, rfl⟩)
      | exact ⟨nofun, nofun⟩
  · rw [hn]
    refine ⟨nofun, fun st rest h => ?_⟩
    cases h
    exact ⟨fun h => hq (List.mem_of_mem_tail h), rfl⟩

end Bic.Lexer

namespace Bic.Parser

theorem declSpec_typedef {i r} (h : Der .declSpec i (.kw .typedef) r) : .p .typedef ∈ i := by
  cases h with
  | dsStorage h =>
    cases h with
    | @storage k _ _ h => cases k <;> first | exact List.mem_cons_self | cases h
  | dsType h =>
    cases h with
    | @typeKw k _ _ h => cases k <;> cases h
    | typeStruct h => cases h
    | typeEnum h => cases h
  | dsQual h => cases h with | @qual k _ _ h => cases k <;> cases h
  | dsFn h => cases h

theorem declSpecs_typedef {i t r} (h : Der .declSpecs i t r) : ∀ ts, t = .chain ts → PT.kw .typedef ∈ ts → .p .typedef ∈ i := by
  generalize hn : N.declSpecs = n at h
  induction h with
  | dsOne h _ =>
    intro ts e hm
    cases e
    rw [List.mem_singleton] at hm
    subst hm
    exact declSpec_typedef h
  | dsMore h h' ih _ =>
    intro ts e hm
    cases e
    rcases List.mem_append.mp hm with hm | hm
    · exact ih rfl _ rfl hm
    · rw [List.mem_singleton] at hm
      subst hm
      exact h.rest _ (declSpec_typedef h')
  | _ => cases hn

theorem replUnit_typedef {i t r} (h : Der .replUnit i t r) : ∀ ts u x, t = .chain ts → u ∈ ts → x ∈ Repl.typedefNames u → .p .typedef ∈ i := by
  have one : ∀ {i t r x}, Der .replStmt i t r → x ∈ Repl.typedefNames t → .p .typedef ∈ i := by
    intro i t r x h hx
    cases h with
    | rsExpr h => cases h <;> first | cases hx | (rename_i h; obtain ⟨l, rfl⟩ := Repl.expression_shape h; cases hx)
    | rsInc => cases hx
    | rsInspect => cases hx
    | rsDecl h =>
      cases h with
      | dcEmpty => cases hx
      | @dcDecl i s j d r h1 h2 =>
        unfold Repl.typedefNames at hx
        split at hx
        · rename_i specs ds e
          cases e
          split at hx
          · rename_i ht
            unfold Repl.hasTypedef at ht
            split at ht
            · obtain ⟨w, hw, hw'⟩ := List.any_eq_true.mp ht
              split at hw'
              · exact declSpecs_typedef h1 _ rfl hw
              · cases hw'
            · cases ht
          · cases hx
        · cases hx
  generalize hn : N.replUnit = n at h
  induction h with
  | ruOne h _ =>
    intro ts u x e hu hx
    cases e
    rw [List.mem_singleton] at hu
    subst hu
    exact one h hx
  | ruMore h h' ih _ =>
    intro ts u x e hu hx
    cases e
    rcases List.mem_append.mp hu with hu | hu
    · exact ih rfl _ _ _ rfl hu hx
    · rw [List.mem_singleton] at hu
      subst hu
      exact h.rest _ (one h' hx)
  | _ => cases hn

theorem ofTok_typedef {t : Lexer.Tok} (h : ofTok t = some (.p .typedef)) : t = .tok "TYPEDEF" := by
  cases t with
  | tok n =>
    have h1 : tokNames.lookup n = some .typedef := by
      change (tokNames.lookup n).map T.p = _ at h
      cases hl : tokNames.lookup n with
      | none => rw [hl] at h; cases h
      | some k => rw [hl] at h; cases h; rfl
    obtain ⟨l1, l2, h2, _⟩ := List.lookup_eq_some_iff.mp h1
    have h3 : ∀ p ∈ tokNames, p.2 = .typedef → p.1 = "TYPEDEF" := by decide +kernel
    have := h3 (n, .typedef) (by rw [h2]; simp) rfl
    exact congrArg _ this
  | _ => cases h

end Bic.Parser

namespace Bic.Repl
open Lexer (LSt Tok Sim StepSim next_sim next_calm Target)
open _root_.Bic.Parser (Der PT T ofTok)
open Printer (Floats)
open CText (ascii)
open Spec

theorem LexTo.sim {tg : Target} {ty : Str → Bool} {a b e : LSt} {s : Str} {ts : List Tok} (h : LexTo tg ty a s ts e) (hs : Sim a b) :
    ∃ e', LexTo tg ty b s ts e' ∧ Sim e e' := by
  induction h generalizing b with
  | @eof st s h =>
    have := next_sim (tg := tg) (T := ty) hs s
    rw [h] at this
    generalize hn : Lexer.next tg ty b s = n at this
    cases this
    exact ⟨b, .eof hn, hs⟩
  | @tok st s t st' rest ts e h _ ih =>
    have := next_sim (tg := tg) (T := ty) hs s
    rw [h] at this
    generalize hn : Lexer.next tg ty b s = n at this
    cases this with
    | tok hs' => obtain ⟨e', h1, h2⟩ := ih hs'; exact ⟨e', .tok hn h1, h2⟩
  | @skip st s st' rest ts e h _ ih =>
    have := next_sim (tg := tg) (T := ty) hs s
    rw [h] at this
    generalize hn : Lexer.next tg ty b s = n at this
    cases this with
    | skip hs' => obtain ⟨e', h1, h2⟩ := ih hs'; exact ⟨e', .skip hn h1, h2⟩

theorem LexSome.sim {tg : Target} {ty : Str → Bool} {a b e : LSt} {s : Str} {ts : List Tok} (h : LexSome tg ty a s ts e) (hs : Sim a b) :
    ∃ e', LexSome tg ty b s ts e' ∧ Sim e e' := by
  induction h generalizing b with
  | nil => exact ⟨b, .nil, hs⟩
  | @tok st s t st' rest ts e h _ ih =>
    have := next_sim (tg := tg) (T := ty) hs s
    rw [h] at this
    generalize hn : Lexer.next tg ty b s = n at this
    cases this with
    | tok hs' => obtain ⟨e', h1, h2⟩ := ih hs'; exact ⟨e', .tok hn h1, h2⟩
  | @skip st s st' rest t ts e h _ ih =>
    have := next_sim (tg := tg) (T := ty) hs s
    rw [h] at this
    generalize hn : Lexer.next tg ty b s = n at this
    cases this with
    | skip hs' => obtain ⟨e', h1, h2⟩ := ih hs'; exact ⟨e', .skip hn h1, h2⟩

/-- states of the REPL that differ at most in the buffer of the lexer -/
def RSim (r q : RSt) : Prop := Sim r.lx q.lx ∧ r.ty = q.ty ∧ r.st = q.st

theorem Sim.symm {a b : LSt} (h : Sim a b) : Sim b a := ⟨h.1.symm, fun e => (h.2 (h.1.trans e)).symm⟩
theorem RSim.symm {r q : RSt} (h : RSim r q) : RSim q r := ⟨Sim.symm h.1, h.2.1.symm, h.2.2.symm⟩

theorem DoParse.sim {F : Str → Nat} {r q : RSt} (hs : RSim r q) {line : Str} {z : Ref} {r' : RSt} (h : DoParse F r line z r') :
    ∃ q', DoParse F q line z q' ∧ RSim r' q' := by
  obtain ⟨lx, ty, st⟩ := r
  obtain ⟨lx', ty', st'⟩ := q
  obtain ⟨h1, h2, h3⟩ := hs
  cases h2
  cases h3
  cases h with
  | one ha hb hc =>
    obtain ⟨toks, i, j1, j2, j3⟩ := ha
    obtain ⟨e', k1, k2⟩ := j1.sim h1
    exact ⟨_, .one ⟨toks, i, k1, j2, j3⟩ hb hc, k2, rfl, rfl⟩
  | rejected hr hty =>
    cases hr with
    | token j1 j2 j3 =>
      obtain ⟨e', k1, k2⟩ := j1.sim h1
      exact ⟨_, .rejected (.token k1 j2 j3) hty, k2, rfl, rfl⟩
    | early j1 j2 j3 =>
      obtain ⟨e', k1, k2⟩ := j1.sim h1
      exact ⟨_, .rejected (.early k1 j2 j3) hty, k2, rfl, rfl⟩

theorem ParseLine.sim {F : Str → Nat} {cpp : List String → Str → Str} {r q : RSt} (hs : RSim r q) {line : Str} {z : Ref} {r' : RSt}
    (h : ParseLine F cpp r line z r') : ∃ q', ParseLine F cpp q line z q' ∧ RSim r' q' := by
  cases h with
  | rejected h => obtain ⟨q', h1, h2⟩ := h.sim hs; exact ⟨q', .rejected h1, h2⟩
  | header h h' => obtain ⟨q', h1, h2⟩ := h.sim hs; exact ⟨q', .header h1 (h2.2.2 ▸ h'), h2⟩
  | line h1 h2 h3 h4 h5 =>
    obtain ⟨q1, j1, j2⟩ := h1.sim hs
    obtain ⟨q', k1, k2⟩ := h5.sim j2
    exact ⟨q', .line j1 (j2.2.2 ▸ h2) h3 (j2.2.2 ▸ h4) k1, k2⟩

theorem Line.sim {E : Env} {fl : Floats} {F : Str → Nat} {cpp : List String → Str → Str} {r q : RSt} (hs : RSim r q) {line : Str}
    {a : Answer} {r' : RSt} (h : Line E fl F cpp r line a r') : ∃ q', Line E fl F cpp q line a q' ∧ RSim r' q' := by
  cases h with
  | rejected h => obtain ⟨q', h1, h2⟩ := h.sim hs; exact ⟨q', .rejected h1, h2⟩
  | value h1 h2 h3 =>
    obtain ⟨q', j1, j2⟩ := h1.sim hs
    exact ⟨_, .value j1 (j2.2.2 ▸ h2) h3, j2.1, j2.2.1, rfl⟩
  | nothing h1 h2 =>
    obtain ⟨q', j1, j2⟩ := h1.sim hs
    rw [j2.2.2] at h2
    exact ⟨_, .nothing j1 h2, j2.1, j2.2.1, rfl⟩
  | ends h1 h2 =>
    obtain ⟨q', j1, j2⟩ := h1.sim hs
    rw [j2.2.2] at h2
    exact ⟨_, .ends j1 h2, j2.1, j2.2.1, rfl⟩

/-- C91: a line that is rejected has no effect on how the lines after it are answered. -/
def C91_statement : Prop :=
  ∀ (E : Env) (fl : Floats) (F : Str → Nat) (cpp : List String → Str → Str) (r r' : RSt) (line : Str), r.lx.mode = .initial → WF r.st →
    DoParse F r line none r' → ∀ l a, (∃ q, Line E fl F cpp r' l a q) ↔ ∃ q, Line E fl F cpp r l a q

theorem LexTo.calm {tg : Target} {ty : Str → Bool} {a e : LSt} {s : Str} {ts : List Tok} (h : LexTo tg ty a s ts e) (hm : a.mode = .initial)
    (hq : (34 : UInt8) ∉ s) (h1 : .tok "STRUCT" ∉ ts) (h2 : .tok "UNION" ∉ ts) : e.mode = .initial := by
  induction h with
  | eof => exact hm
  | @tok st s t st' rest ts e h _ ih =>
    obtain ⟨m, b⟩ := st
    cases hm
    obtain ⟨k1, k2⟩ := (next_calm (tg := tg) (T := ty) (b := b) hq).1 _ _ _ h
    simp only [List.mem_cons, not_or] at h1 h2
    exact ih (k2 (Ne.symm h1.1) (Ne.symm h2.1)) k1 h1.2 h2.2
  | @skip st s st' rest ts e h _ ih =>
    obtain ⟨m, b⟩ := st
    cases hm
    obtain ⟨k1, k2⟩ := (next_calm (tg := tg) (T := ty) (b := b) hq).2 _ _ h
    exact ih k2 k1 h1 h2

theorem LexSome.calm {tg : Target} {ty : Str → Bool} {a e : LSt} {s : Str} {ts : List Tok} (h : LexSome tg ty a s ts e) (hm : a.mode = .initial)
    (hq : (34 : UInt8) ∉ s) (h1 : .tok "STRUCT" ∉ ts) (h2 : .tok "UNION" ∉ ts) : e.mode = .initial := by
  induction h with
  | nil => exact hm
  | @tok st s t st' rest ts e h _ ih =>
    obtain ⟨m, b⟩ := st
    cases hm
    obtain ⟨k1, k2⟩ := (next_calm (tg := tg) (T := ty) (b := b) hq).1 _ _ _ h
    simp only [List.mem_cons, not_or] at h1 h2
    exact ih (k2 (Ne.symm h1.1) (Ne.symm h2.1)) k1 h1.2 h2.2
  | @skip st s st' rest t ts e h _ ih =>
    obtain ⟨m, b⟩ := st
    cases hm
    obtain ⟨k1, k2⟩ := (next_calm (tg := tg) (T := ty) (b := b) hq).2 _ _ h
    exact ih k2 k1 h1 h2

theorem LexTo.some {tg : Target} {ty : Str → Bool} {a e : LSt} {s : Str} {ts : List Tok} (h : LexTo tg ty a s ts e) :
    ∃ e', LexSome tg ty a s ts e' := by
  induction h with
  | eof => exact ⟨_, .nil⟩
  | tok h _ ih => obtain ⟨e', h1⟩ := ih; exact ⟨e', .tok h h1⟩
  | @skip st s st' rest ts e h _ ih =>
    obtain ⟨e', h1⟩ := ih
    cases ts with
    | nil => exact ⟨_, .nil⟩
    | cons t ts => exact ⟨e', .skip h h1⟩

theorem LexSome.front {tg : Target} {ty : Str → Bool} {a e : LSt} {s : Str} {t : Tok} {ts : List Tok} (h : LexSome tg ty a s (ts ++ [t]) e) :
    ∃ e', LexSome tg ty a s ts e' := by
  generalize hl : ts ++ [t] = l at h
  induction h generalizing ts with
  | nil => cases ts <;> cases hl
  | tok h _ ih =>
    cases ts with
    | nil => exact ⟨_, .nil⟩
    | cons t' ts =>
      cases hl
      obtain ⟨e', h1⟩ := ih rfl
      exact ⟨e', .tok h h1⟩
  | skip h _ ih =>
    cases ts with
    | nil => exact ⟨_, .nil⟩
    | cons t' ts =>
      obtain ⟨e', h1⟩ := ih hl
      exact ⟨e', .skip h h1⟩

/-- C91 for lines without `"` and the words `struct`, `union` and `typedef`. -/
theorem C91_rejected_partial {E : Env} {fl : Floats} {F : Str → Nat} {cpp : List String → Str → Str} {r r' : RSt} {line : Str}
    (hm : r.lx.mode = .initial) (hq : (34 : UInt8) ∉ line)
    (hw : ∀ toks e, LexSome .repl r.ty r.lx line toks e → .tok "STRUCT" ∉ toks ∧ .tok "UNION" ∉ toks ∧ .tok "TYPEDEF" ∉ toks)
    (h : DoParse F r line none r') :
    r'.st = r.st ∧ r'.ty = r.ty ∧ r'.lx.mode = .initial ∧ ∀ l a, (∃ q, Line E fl F cpp r' l a q) ↔ ∃ q, Line E fl F cpp r l a q := by
  have key : ∀ {toks lx' ty'}, (∃ e, LexSome .repl r.ty r.lx line toks e) → lx'.mode = .initial →
      (∀ x, ty' x = true ↔ r.ty x = true ∨ Added toks x) → ty' = r.ty ∧ RSim ⟨lx', ty', r.st⟩ r := by
    rintro toks lx' ty' ⟨e, h1⟩ h2 h3
    have : ty' = r.ty := by
      funext x
      rw [Bool.eq_iff_iff, h3]
      refine or_iff_left ?_
      rintro ⟨i, j, ts, t, k1, k2, k3, k4⟩
      have := Parser.replUnit_typedef k2 _ _ _ rfl k3 k4
      have h4 : Option.some (T.p .typedef) ∈ toks.map ofTok := by
        rw [k1]
        exact List.mem_map.mpr ⟨_, List.mem_append_left _ this, rfl⟩
      obtain ⟨t', h5, h6⟩ := List.mem_map.mp h4
      rw [Parser.ofTok_typedef h6] at h5
      exact (hw _ _ h1).2.2 h5
    refine ⟨this, ⟨h2.trans hm.symm, ?_⟩, this, rfl⟩
    show lx'.mode = _ → _
    rw [h2]
    exact nofun
  have fin : ∀ {lx' ty'}, lx'.mode = .initial → ty' = r.ty ∧ RSim ⟨lx', ty', r.st⟩ r →
      (⟨lx', ty', r.st⟩ : RSt).st = r.st ∧ (⟨lx', ty', r.st⟩ : RSt).ty = r.ty ∧ (⟨lx', ty', r.st⟩ : RSt).lx.mode = .initial ∧
      ∀ l a, (∃ q, Line E fl F cpp ⟨lx', ty', r.st⟩ l a q) ↔ ∃ q, Line E fl F cpp r l a q := by
    rintro lx' ty' h1 ⟨h2, h3⟩
    refine ⟨rfl, h2, h1, fun l a => ⟨?_, ?_⟩⟩
    · rintro ⟨q, h⟩
      obtain ⟨q', h4, _⟩ := h.sim h3
      exact ⟨q', h4⟩
    · rintro ⟨q, h⟩
      obtain ⟨q', h4, _⟩ := h.sim h3.symm
      exact ⟨q', h4⟩
  cases h with
  | rejected hr hty =>
    cases hr with
    | token j1 j2 j3 =>
      have hi := j1.calm hm hq (hw _ _ j1).1 (hw _ _ j1).2.1
      exact fin hi (key j1.front hi hty)
    | early j1 j2 j3 =>
      obtain ⟨e', j4⟩ := j1.some
      have hi := j1.calm hm hq (hw _ _ j4).1 (hw _ _ j4).2.1
      exact fin hi (key ⟨e', j4⟩ hi hty)

theorem viable_nil : Viable [] := ⟨[], [.p .semi], _, rfl, .ruOne (.rsExpr .esEmpty)⟩

theorem unit_rparen {i t r} (h : Der .replUnit i t r) : ∀ j, i ≠ .p .rparen :: j := by
  generalize hn : Parser.N.replUnit = n at h
  induction h with
  | ruOne h _ =>
    rintro j rfl
    cases h with
    | rsExpr h => exact absurd (Parser.start h) (by simp [Parser.st, Parser.eHd, Parser.hd, Parser.unaryAction])
    | rsDecl h => exact absurd (Parser.start h) (by simp [Parser.st, Parser.sHd, Parser.storageAction, Parser.typeAction, Parser.qualAction, Parser.structAction])
  | ruMore h _ ih _ => exact ih rfl
  | _ => cases hn

/-- the line `)` is rejected -/
theorem paren91 {F : Str → Nat} : DoParse F r89 [41] none r89 := by
  have h1 : Lexer.next .repl r89.ty r89.lx [41] = .tok (.tok ")") r89.lx [] := by decide +kernel
  refine .rejected (toks := []) (.token (t := .tok ")") (.tok h1 .nil) viable_nil ?_) ?_
  · rintro ⟨i, j, t, h2, h3⟩
    match i, h2 with
    | [u], h2 =>
      have : u = .p .rparen := by
        have h4 : ofTok (.tok ")") = some (.p .rparen) := by decide +kernel
        simp only [List.nil_append, List.map_cons, h4, List.map_nil, List.cons.injEq, Option.some.injEq, and_true] at h2
        exact h2.symm
      subst this
      exact unit_rparen h3 _ rfl
  · intro x
    refine (or_iff_left ?_).symm
    rintro ⟨i, j, ts, t, h2, h3, _⟩
    cases i with
    | nil => exact der_nonempty h3 rfl
    | cons u i => cases h2

/-- after the rejected line `)` everything is as if it had not been typed -/
example (fl : Floats) (F : Str → Nat) : DoParse F r89 [41] none r89 ∧
    ∀ r', DoParse F r89 [41] none r' → r'.st = r89.st ∧ r'.ty = r89.ty ∧ r'.lx.mode = .initial ∧
      ∀ l a, (∃ q, Line E0 fl F cpp89 r' l a q) ↔ ∃ q, Line E0 fl F cpp89 r89 l a q := by
  refine ⟨paren91, fun r' h => C91_rejected_partial rfl (by decide) ?_ h⟩
  have h1 : Lexer.next .repl r89.ty r89.lx [41] = .tok (.tok ")") r89.lx [] := by decide +kernel
  have h2 : Lexer.next .repl r89.ty r89.lx [] = .eof := by decide +kernel
  intro toks e h
  cases h with
  | nil => simp
  | tok h h' =>
    rw [h1] at h
    cases h
    cases h' with
    | nil => decide
    | tok h => rw [h2] at h; cases h
    | skip h => rw [h2] at h; cases h
  | skip h => rw [h1] at h; cases h

def open91 : LSt := ⟨.strLit, []⟩

theorem quote91 : LexTo .repl r89.ty r89.lx [34] [] open91 :=
  .skip (st' := open91) (rest := []) (by decide +kernel) (.eof (by decide +kernel))

/-- C91 is false: after the line `"` the lexer is inside a string, and `x;` is not answered. -/
theorem C91_refuted : ¬ C91_statement := by
  intro h
  have hr : DoParse (fun _ => 0) r89 [34] none ⟨open91, r89.ty, r89.st⟩ := by
    refine .rejected (.early quote91 viable_nil ?_) ?_
    · intro i t h1 h2
      cases i with
      | nil => exact der_nonempty h2 rfl
      | cons => cases h1
    · intro x
      refine (or_iff_left ?_).symm
      rintro ⟨i, j, ts, t, h2, h3, _⟩
      cases i with
      | nil => exact der_nonempty h3 rfl
      | cons u i => cases h2
  have h1 := h E0 ⟨fun _ => [], fun _ _ => []⟩ (fun _ => 0) cpp89 r89 _ [34] rfl (good89 0 (by omega)).wf hr (ascii "x;") (.shows (ascii "0" ++ [10]))
  have hok := ok89
  simp only [Bool.and_eq_true] at hok
  have h2 : ∃ q, Line E0 ⟨fun _ => [], fun _ _ => []⟩ (fun _ => 0) cpp89 r89 (ascii "x;") (.shows (ascii "0" ++ [10])) q := by
    obtain ⟨⟨r', h2, _⟩, _⟩ := C89_dialogue_partial (E := E0) (fl := ⟨fun _ => [], fun _ _ => []⟩) (F := fun _ => 0) (r := r89) (cpp := cpp89)
      (TN := fun _ _ _ => False) (n := 0) rfl (good89 0 (by omega)) (typed1 hok.1.1.2 (by decide +kernel) (.expr (e := .var "x") ⟨.ident [120], .ident, .ident⟩) .nil)
      (.cons (n := 0) (m := 0) (out := [48] ++ [10]) (.expr (v := 0) (.var ⟨.int, rfl, show InRange .long _ by decide⟩)
        ⟨[48], by unfold CText.Digits; decide, .inl rfl, .inl ⟨rfl, by decide⟩⟩) .nil)
    cases h2 with
    | cons h2 _ => exact ⟨_, h2⟩
  obtain ⟨q, h3⟩ := h1.mpr h2
  have none1 : ∀ {y q}, ¬ DoParse (fun _ => 0) ⟨open91, r89.ty, r89.st⟩ (ascii "x;") (some y) q := by
    intro y q h4
    cases h4 with
    | one ha =>
      obtain ⟨toks, i, j1, j2, j3⟩ := ha
      have h5 : Lexer.next .repl r89.ty open91 (ascii "x;") = .skip ⟨.strLit, ascii "x;"⟩ [] := by decide +kernel
      have h6 : Lexer.next .repl r89.ty ⟨.strLit, ascii "x;"⟩ [] = .eof := by decide +kernel
      have : toks = [] := by
        cases j1 with
        | eof => rfl
        | tok h => rw [h5] at h; cases h
        | skip h h' =>
          rw [h5] at h
          cases h
          cases h' with
          | eof => rfl
          | tok h => rw [h6] at h; cases h
          | skip h => rw [h6] at h; cases h
      subst this
      cases i with
      | nil => exact der_nonempty j3 rfl
      | cons => cases j2
  generalize ha : Answer.shows (ascii "0" ++ [10]) = a at h3
  cases h3 with
  | rejected => exact absurd ha (by simp [ascii])
  | value h3 =>
    cases h3 with
    | header h4 => exact none1 h4
    | line h4 => exact none1 h4
  | nothing => exact absurd ha (by simp [ascii])
  | ends => cases ha

end Bic.Repl
