import Verif.Props.Headers
/-!
# C129: `#include` lines that fail
-/

namespace Bic.Repl
open Spec CSyn
open _root_.Bic.Parser (nameStr)
open Printer (Floats)
open CText (IncLine ascii)

/-- Nothing the session has made is lost or changed from `s` to `s'`. -/
structure Untouched (s s' : St) : Prop where
  memory : s'.mem = s.mem
  scopes : s'.ctxs = s.ctxs
  headers : s'.includeCtx = s.includeCtx
  output : s'.events = s.events

/-- an `#include` line all of whose evaluations end the same way -/
theorem include_ends {E : Env} {fl : Floats} {F : Str → Nat} {cpp : List String → Str → Str} {hdr : List String → Option Str} {r : RSt} {line : Str}
    {w : Stop} (wf : WF r.st) (hm : r.lx.mode = .initial) (hi : IncLine (fun c => Lexer.incByte c = true) line)
    (h1 : ∀ r', r'.ty = r.ty → r'.st.includes = r.st.includes → Include E F hdr r' (nameStr line) (.ends w) ⟨r'.lx, r'.ty, chained r'.st (nameStr line)⟩)
    (h2 : ∀ r' a r'', r'.ty = r.ty → r'.st.includes = r.st.includes → Include E F hdr r' (nameStr line) a r'' →
      a = .ends w ∧ r''.st = chained r'.st (nameStr line)) (ls : List Str) :
    (∃ r', SessionI E fl F cpp hdr r (line :: ls) [] (some w) r') ∧
    ∀ os w' r', SessionI E fl F cpp hdr r (line :: ls) os w' r' → os = [] ∧ w' = some w ∧ Untouched r.st r'.st := by
  obtain ⟨y, s1, x, k, ⟨lx1, p1⟩, u1⟩ := parse_include (F := F) (cpp := cpp) wf hm hi
  have key : ∀ a r', LineI E fl F cpp hdr r line a r' → a = .ends w ∧ Untouched r.st r'.st := by
    intro a r' hl
    cases hl with
    | other hno => exact absurd k (hno _ _ _ p1)
    | header j1 j2 j3 =>
      obtain ⟨a1, a2, a3, a4⟩ := u1 _ _ j1
      cases a1
      rw [a2, k] at j2
      cases j2
      obtain ⟨b1, b2⟩ := h2 _ _ _ a3 (by rw [a2]; exact x.includes) j3
      refine ⟨b1, ?_⟩
      rw [b2, a2]
      exact ⟨x.mem, x.ctxs, x.includeCtx, x.events⟩
  refine ⟨⟨_, .ends (.header p1 k (h1 _ rfl x.includes))⟩, ?_⟩
  intro os w' r' hs
  cases hs with
  | cons j _ => exact absurd (key _ _ j).1 (by simp)
  | ends j =>
    obtain ⟨e, u⟩ := key _ _ j
    cases e
    exact ⟨rfl, rfl, u⟩

/-- C129: if the preprocessor fails, the `#include` line ends bic with 1: the session has no other run, no later line is read, nothing is shown,
and memory and scopes are as before. -/
theorem C129_failed {E : Env} {fl : Floats} {F : Str → Nat} {cpp : List String → Str → Str} {hdr : List String → Option Str} {r : RSt} {line : Str}
    (wf : WF r.st) (hm : r.lx.mode = .initial) (hi : IncLine (fun c => Lexer.incByte c = true) line)
    (hh : hdr (r.st.includes ++ [nameStr line]) = none) (ls : List Str) :
    (∃ r', SessionI E fl F cpp hdr r (line :: ls) [] (some (.exit 1)) r') ∧
    ∀ os w r', SessionI E fl F cpp hdr r (line :: ls) os w r' → os = [] ∧ w = some (.exit 1) ∧ Untouched r.st r'.st := by
  refine include_ends wf hm hi (fun r' _ e => .failed (by rw [e]; exact hh)) (fun r' a r'' _ e j => ?_) ls
  cases j with
  | failed => exact ⟨rfl, rfl⟩
  | rejected q | done q | ends q => rw [e, hh] at q; cases q

/-- C129: and so it does, with a message, if the grammar has no parse of what the preprocessor printed. -/
theorem C129_rejected {E : Env} {fl : Floats} {F : Str → Nat} {cpp : List String → Str → Str} {hdr : List String → Option Str} {r : RSt}
    {line text : Str} (wf : WF r.st) (hm : r.lx.mode = .initial) (hi : IncLine (fun c => Lexer.incByte c = true) line)
    (hh : hdr (r.st.includes ++ [nameStr line]) = some text) (hp : ¬ ∃ t, StartParses r.ty text t) (ls : List Str) :
    (∃ r', SessionI E fl F cpp hdr r (line :: ls) [] (some (.die "Parsing of preprocessor output failed\n")) r') ∧
    ∀ os w r', SessionI E fl F cpp hdr r (line :: ls) os w r' →
      os = [] ∧ w = some (.die "Parsing of preprocessor output failed\n") ∧ Untouched r.st r'.st := by
  refine include_ends wf hm hi (fun r' e1 e => .rejected (by rw [e]; exact hh) (by rw [e1]; exact hp)) (fun r' a r'' e1 e j => ?_) ls
  cases j with
  | failed q => rw [e, hh] at q; cases q
  | rejected => exact ⟨rfl, rfl⟩
  | done q1 q2 | ends q1 q2 =>
    rw [e, hh] at q1
    cases q1
    rw [e1] at q2
    exact absurd ⟨_, q2⟩ hp

/-- `#include <a.h>`, with no such header, and `y;` -/
example (E : Env) (fl : Floats) (F : Str → Nat) :
    (∃ r', SessionI E fl F cpp89 (fun _ => none) r89 [line105 97, ascii "y;"] [] (some (.exit 1)) r') ∧
    ∀ os w r', SessionI E fl F cpp89 (fun _ => none) r89 [line105 97, ascii "y;"] os w r' → os = [] ∧ w = some (.exit 1) ∧ Untouched r89.st r'.st :=
  C129_failed (good105 0 (by omega)).wf rfl (inc105 97 (by decide) (by decide) (by decide)) rfl _

/-- a header with nothing but macros -/
example (E : Env) (fl : Floats) (F : Str → Nat) :
    ∃ r', SessionI E fl F cpp89 hdr106 r89 [line105 97, ascii "y;"] [] (some (.die "Parsing of preprocessor output failed\n")) r' :=
  (C129_rejected (good105 0 (by omega)).wf rfl (inc105 97 (by decide) (by decide) (by decide)) rfl
    (by
      rintro ⟨t, h⟩
      have := (startParses_of (.marker (mark105_ok 97 (by decide) (by decide) (by decide)) (.text .nil)) t).mp h
      exact absurd (Parser.start this) (by simp only [Parser.st]; decide)) _).1

end Bic.Repl
