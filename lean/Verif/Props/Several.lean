import Verif.Model.Several
import Verif.Props.HeaderFail
import Verif.Props.ReplErrors
/-!
# C132: several statements on one line
-/

namespace Bic.Repl
open Spec CSyn
open _root_.Bic.Parser (PT T Der Rep build)
open Printer (Floats)
open CText (Text ascii)
open Lexer (Reads Follows)

/-- the statements whose tokens are `i`, one after the other -/
inductive Stmts : List T → List PT → Prop
  | nil : Stmts [] []
  | cons {i t j ts} : Der .replStmt i t j → Stmts j ts → Stmts i (t :: ts)

theorem Stmts.more {i j : List T} {ts us : List PT} (h : Der .replUnit i (.chain ts) j) (hu : Stmts j us) : Der .replUnit i (.chain (ts ++ us)) [] := by
  induction hu generalizing ts with
  | nil => simpa using h
  | cons h1 _ ih => simpa using ih (.ruMore h h1)

theorem Stmts.unit {i : List T} {ts : List PT} (h : Stmts i ts) (hn : ts ≠ []) : Der .replUnit i (.chain ts) [] := by
  cases h with
  | nil => exact absurd rfl hn
  | cons h1 h2 => exact Stmts.more (.ruOne h1) h2

theorem Stmts.noTypedef {i : List T} {ts : List PT} (h : Stmts i ts) (hty : T.p .typedef ∉ i) : ∀ t ∈ ts, typedefNames t = [] := by
  intro t ht
  have hd := h.unit (by rintro rfl; cases ht)
  exact List.eq_nil_iff_forall_not_mem.mpr fun x hx => hty (Parser.replUnit_typedef hd _ _ _ rfl ht hx)

/-- parsing a text of several statements -/
theorem tooMany_of {F : Str → Nat} {r : RSt} {line : Str} {i : List T} {ts : List PT} (w : WF r.st) (hm : r.lx.mode = .initial)
    (ht : Text (Reads r.ty) Follows i line) (hs : Stmts i ts) (h2 : 2 ≤ ts.length) (hty : T.p .typedef ∉ i) :
    (∃ r', TooMany F r line r') ∧ (∀ r', TooMany F r line r' → Untouched r.st r'.st) ∧ ∀ z r', ¬ DoParse F r line z r' := by
  have hd := hs.unit (by rintro rfl; simp at h2)
  obtain ⟨x, s', b1, b2, b3, b4⟩ := Parser.build_makes (F := F) _ (Parser.der_full hd).2 r.st w
  obtain ⟨⟨lx', h3⟩, h4, h5⟩ := accepts_lex (lx := r.lx) hm (Lexer.C81_tokens_partial .repl r.ty ht) hd
  cases b3 with
  | chain c1 c2 =>
    refine ⟨⟨_, .mk h2 (hs.noTypedef hty) h3 b1⟩, ?_, ?_⟩
    · rintro r' ⟨_, _, j1, j2⟩
      obtain ⟨e1, _⟩ := h4 _ _ j1
      cases e1
      rw [b1] at j2
      cases j2
      exact ⟨b2.mem, b2.ctxs, b2.includeCtx, b2.events⟩
    · intro z r' hz
      cases hz with
      | one j1 =>
        obtain ⟨e1, _⟩ := h4 _ _ j1
        cases e1
        simp at h2
      | rejected j1 _ => exact absurd j1 (h5 _ _)

/-- a line all of whose handlings end the process -/
theorem session_ends {E : Env} {fl : Floats} {F : Str → Nat} {cpp : List String → Str → Str} {hdr : List String → Option Str} {r : RSt} {line : Str}
    {w : Stop} (h1 : ∃ r', LineM E fl F cpp hdr r line (.ends w) r')
    (h2 : ∀ a r', LineM E fl F cpp hdr r line a r' → a = .ends w ∧ Untouched r.st r'.st) (ls : List Str) :
    (∃ r', SessionM E fl F cpp hdr r (line :: ls) [] (some w) r') ∧
    ∀ os w' r', SessionM E fl F cpp hdr r (line :: ls) os w' r' → os = [] ∧ w' = some w ∧ Untouched r.st r'.st := by
  obtain ⟨r', h1⟩ := h1
  refine ⟨⟨r', .ends h1⟩, ?_⟩
  intro os w' r' hs
  cases hs with
  | cons j _ => exact absurd (h2 _ _ j).1 (by simp)
  | ends j =>
    obtain ⟨e, u⟩ := h2 _ _ j
    cases e
    exact ⟨rfl, rfl, u⟩

theorem line_parse {E : Env} {fl : Floats} {F : Str → Nat} {cpp : List String → Str → Str} {hdr : List String → Option Str} {r r' : RSt} {line : Str}
    {a : Answer} (h : LineI E fl F cpp hdr r line a r') : ∃ z r1, ParseLine F cpp r line z r1 := by
  cases h with
  | header j => exact ⟨_, _, j⟩
  | other _ j =>
    cases j with
    | rejected j | value j | nothing j | ends j => exact ⟨_, _, j⟩

/-- C132: a line of several statements ends bic with 1 before any of them is evaluated: the session has no other run, no later line is read,
nothing is shown, and memory and scopes are as before. -/
theorem C132_typed {E : Env} {fl : Floats} {F : Str → Nat} {cpp : List String → Str → Str} {hdr : List String → Option Str} {r : RSt} {line : Str}
    {i : List T} {ts : List PT} (w : WF r.st) (hm : r.lx.mode = .initial) (ht : Text (Reads r.ty) Follows i line) (hs : Stmts i ts)
    (h2 : 2 ≤ ts.length) (hty : T.p .typedef ∉ i) (ls : List Str) :
    (∃ r', SessionM E fl F cpp hdr r (line :: ls) [] (some (.exit 1)) r') ∧
    ∀ os w r', SessionM E fl F cpp hdr r (line :: ls) os w r' → os = [] ∧ w = some (.exit 1) ∧ Untouched r.st r'.st := by
  obtain ⟨⟨r', k1⟩, k2, k3⟩ := tooMany_of (F := F) w hm ht hs h2 hty
  refine session_ends ⟨r', .typed k1⟩ ?_ ls
  intro a r' hl
  cases hl with
  | typed j => exact ⟨rfl, k2 _ j⟩
  | expanded j => exact absurd j (k3 _ _)
  | returns j =>
    obtain ⟨z, r1, j⟩ := line_parse j
    cases j with
    | rejected j | header j | line j => exact absurd j (k3 _ _)

/-- C132: and so does a line of one statement of which the preprocessor makes several. -/
theorem C132_expanded {E : Env} {fl : Floats} {F : Str → Nat} {cpp : List String → Str → Str} {hdr : List String → Option Str} {r : RSt}
    {line text : Str} {i0 i : List T} {t0 : PT} {ts : List PT} (w : WF r.st) (hm : r.lx.mode = .initial)
    (ht0 : Text (Reads r.ty) Follows i0 line) (hs0 : Stmts i0 [t0]) (hi0 : ∀ s, t0 ≠ .cppInclude s) (hty0 : T.p .typedef ∉ i0)
    (hcpp : LastLine (cpp r.st.includes line) text) (ht : Text (Reads r.ty) Follows i text) (hs : Stmts i ts)
    (h2 : 2 ≤ ts.length) (hty : T.p .typedef ∉ i) (ls : List Str) :
    (∃ r', SessionM E fl F cpp hdr r (line :: ls) [] (some (.exit 1)) r') ∧
    ∀ os w r', SessionM E fl F cpp hdr r (line :: ls) os w r' → os = [] ∧ w = some (.exit 1) ∧ Untouched r.st r'.st := by
  obtain ⟨lx, ty, st⟩ := r
  have hn : ts ≠ [] := by rintro rfl; simp at h2
  have d0 := hs0.unit (by simp)
  obtain ⟨y0, s1, x1, k1, f1⟩ := doParse_of (F := F) w ht0 d0
  rw [addNames_nil (hs0.noTypedef hty0 _ (by simp))] at f1
  obtain ⟨⟨lx1, p1⟩, u1⟩ := f1 lx hm
  obtain ⟨n0, hn0, hn0'⟩ := rep_node k1 hi0
  obtain ⟨line', hl1, hl2⟩ := lastLine_of hcpp ht (der_nonempty (hs.unit hn))
  have e1 : s1.includes = st.includes := x1.includes
  have fm : ∀ r1 : RSt, r1.st = s1 → r1.ty = ty → r1.lx.mode = .initial →
      (∃ r', TooMany F r1 line' r') ∧ (∀ r', TooMany F r1 line' r' → Untouched st r'.st) ∧ ∀ z r', ¬ DoParse F r1 line' z r' := by
    rintro ⟨lx1, ty1, s1'⟩ e2 e3 e4
    dsimp only at e2 e3
    subst e2 e3
    obtain ⟨m1, m2, m3⟩ := tooMany_of (F := F) (r := ⟨lx1, ty1, s1'⟩) (x1.wf w) e4 hl2 hs h2 hty
    refine ⟨m1, fun r' h => ?_, m3⟩
    obtain ⟨a, b, c, d⟩ := m2 r' h
    exact ⟨a.trans x1.mem, b.trans x1.ctxs, c.trans x1.includeCtx, d.trans x1.events⟩
  have hlast : ∀ r1 : RSt, r1.st = s1 → ∀ l, runCppOnLine (cpp r1.st.includes line) = some l → l = line' := by
    intro r1 e l h
    rw [e, e1] at h
    exact Option.some.inj (h.symm.trans hl1)
  obtain ⟨⟨r', k2⟩, _, _⟩ := fm _ rfl rfl (u1 _ _ p1).2.2.2
  refine session_ends ⟨r', .expanded p1 hn0 hn0' (by rw [e1]; exact hl1) k2⟩ ?_ ls
  intro a r' hl
  cases hl with
  | typed j =>
    obtain ⟨j1, j2, j3, j4⟩ := j
    have := (accepts_lex hm (Lexer.C81_tokens_partial .repl ty ht0) d0).2.1 _ _ j3
    cases this.1
    simp at j1
  | expanded q1 q2 q3 q4 q5 =>
    obtain ⟨b1, b2, b3, b4⟩ := u1 _ _ q1
    cases hlast _ b2 _ q4
    exact ⟨rfl, (fm _ b2 b3 b4).2.1 _ q5⟩
  | returns j =>
    obtain ⟨z, r1, j⟩ := line_parse j
    cases j with
    | rejected j => exact absurd (u1 _ _ j).1 (by simp)
    | header q1 q2 =>
      obtain ⟨b1, b2, _⟩ := u1 _ _ q1
      cases b1
      rw [b2, hn0] at q2
      cases q2
      exact absurd rfl (hn0' _)
    | line q1 q2 q3 q4 q5 =>
      obtain ⟨b1, b2, b3, b4⟩ := u1 _ _ q1
      cases hlast _ b2 _ q4
      exact absurd q5 ((fm _ b2 b3 b4).2.2 _ _)

/-- C132: lines that are one statement, and of which the preprocessor makes one, are the lines the other properties are about. -/
theorem C132_single {E : Env} {fl : Floats} {F : Str → Nat} {cpp : List String → Str → Str} {hdr : List String → Option Str} {r : RSt}
    {line text : Str} {i0 i : List T} {t0 t : PT} (w : WF r.st) (hm : r.lx.mode = .initial) (ht0 : Text (Reads r.ty) Follows i0 line)
    (hs0 : Stmts i0 [t0]) (hcpp : LastLine (cpp r.st.includes line) text) (ht : Text (Reads (addNames t0 r.ty)) Follows i text) (hs : Stmts i [t])
    (a : Answer) (r' : RSt) : LineM E fl F cpp hdr r line a r' ↔ LineI E fl F cpp hdr r line a r' := by
  refine ⟨fun h => ?_, .returns⟩
  obtain ⟨lx, ty, st⟩ := r
  have d0 := hs0.unit (by simp)
  cases h with
  | returns j => exact j
  | typed j =>
    obtain ⟨j1, j2, j3, j4⟩ := j
    cases ((accepts_lex hm (Lexer.C81_tokens_partial .repl ty ht0) d0).2.1 _ _ j3).1
    simp at j1
  | @expanded y n r1 l1 r2 q1 q2 q3 q4 q5 =>
    obtain ⟨y0, s1, x1, k1, f1⟩ := doParse_of (F := F) w ht0 d0
    obtain ⟨b1, b2, b3, b4⟩ := (f1 lx hm).2 _ _ q1
    obtain ⟨line', hl1, hl2⟩ := lastLine_of hcpp ht (der_nonempty (hs.unit (by simp)))
    have e1 : s1.includes = st.includes := x1.includes
    rw [b2, e1] at q4
    cases hl1.symm.trans q4
    obtain ⟨j1, j2, j3, j4⟩ := q5
    rw [b3] at j3
    cases ((accepts_lex b4 (Lexer.C81_tokens_partial .repl _ hl2) (hs.unit (by simp))).2.1 _ _ j3).1
    simp at j1

open TextCheck

def two132 : W89 := [idn [120] Lexer.name_x, kw .semi ";", sp, idn [121] name_y, kw .semi ";", kw .semi ";"]

theorem two132_ok : okW two132 = true := by decide +kernel

theorem stmts132 : Stmts (toksW two132) [.exprList (.chain [.ident [120]]), .exprList (.chain [.ident [121]]), .empty] :=
  .cons (.rsExpr (.esExpr (one_expr _ _))) (.cons (.rsExpr (.esExpr (one_expr _ _))) (.cons (.rsExpr .esEmpty) .nil))

/-- `x; y;;` and then `x;` -/
example (E : Env) (fl : Floats) (F : Str → Nat) (hdr : List String → Option Str) : textW two132 = ascii "x; y;;" ∧
    (∃ r', SessionM E fl F cpp89 hdr r89 [textW two132, textW var89] [] (some (.exit 1)) r') ∧
    ∀ os w r', SessionM E fl F cpp89 hdr r89 [textW two132, textW var89] os w r' → os = [] ∧ w = some (.exit 1) ∧ Untouched r89.st r'.st :=
  ⟨by decide +kernel, C132_typed (r := r89) (stOf_WF _ _ _) rfl (okW_text two132_ok) stmts132 (by decide) (by decide) _⟩

/-- a macro `x` that stands for `x; y;` -/
example (E : Env) (fl : Floats) (F : Str → Nat) (hdr : List String → Option Str) :
    ∃ r', SessionM E fl F (fun hs _ => cpp89 hs (textW two132)) hdr r89 [textW var89] [] (some (.exit 1)) r' :=
  (C132_expanded (r := r89) (i0 := toksW var89) (i := toksW two132) (text := textW two132) (stOf_WF _ _ _) rfl
    (okW_text (by decide +kernel)) (.cons (.rsExpr (.esExpr (one_expr _ _))) .nil) nofun (by decide)
    (lastLine89 (by decide +kernel)) (okW_text two132_ok) stmts132 (by decide) (by decide) _).1

end Bic.Repl
