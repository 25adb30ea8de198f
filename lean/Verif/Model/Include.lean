import Verif.Model.Startup
/-!
# `#include` at the REPL (evaluate.c:2549-2596, repl.c:399-431)

The evaluator collects the `#include` lines.  For every new one it has all of them preprocessed, parses the output like
a script and evaluates it in a scope of its own, which replaces that of the headers before.
-/

namespace Bic.Repl
open _root_.Bic.Parser (PT build)
open Printer (Floats)

/-- the last lines of `eval_cpp_include` (2580-2592): the declarations are evaluated in a new scope while there is no
scope of headers; then it is the scope of the headers.  That its parent is set to NULL (2592) is how `resolveGlobal`
looks names up in it. -/
def evalHeaders (R : Rec) (x : TId) : M Unit := do
  pushCtx "Include file declarations"
  modify fun s => { s with includeCtx := none }
  evaluate R (some x)
  modify fun s => { s with includeCtx := s.ctxs.head? }
  popCtx

/-- a new CPP_INCLUDE object with the line at the end of `include_chain` (2552, 2566-2567) -/
def chained (s : St) (h : String) : St :=
  { s with nodes := (fun x => if x = s.next then some (.cppInclude h) else s.nodes x), next := s.next + 1, includes := s.includes ++ [h] }

/-- `Include E F hdr r h a r'`: the evaluation of the line `h`, whose answer is `a`.  `hdr` is what `run_cpp` gives for
these lines (preprocess.c:13-81): `none` if it fails, which ends the process with 1.  Simplifications: the parser and
the lexer of scripts are in their initial states, the headers make no type names (2573-2574 and 2578), and what the parser has made of a text
it rejects is left out. -/
inductive Include (E : Env) (F : Str → Nat) (hdr : List String → Option Str) (r : RSt) (h : String) : Answer → RSt → Prop
  | failed : hdr (r.st.includes ++ [h]) = none → Include E F hdr r h (.ends (.exit 1)) ⟨r.lx, r.ty, chained r.st h⟩
  | rejected {text} : hdr (r.st.includes ++ [h]) = some text → (¬ ∃ t, StartParses r.ty text t) →
      Include E F hdr r h (.ends (.die "Parsing of preprocessor output failed\n")) ⟨r.lx, r.ty, chained r.st h⟩
  | done {text t x s s'} : hdr (r.st.includes ++ [h]) = some text → StartParses r.ty text t → build F t (chained r.st h) = .ok (some x) s →
      Conv E (fun R => evalHeaders R x) s (.ok () s') → Include E F hdr r h (.shows []) ⟨r.lx, r.ty, s'⟩
  | ends {text t x s w s'} : hdr (r.st.includes ++ [h]) = some text → StartParses r.ty text t → build F t (chained r.st h) = .ok (some x) s →
      Conv E (fun R => evalHeaders R x) s (.stop w s') → Include E F hdr r h (.ends w) ⟨r.lx, r.ty, s'⟩

/-- the body of the loop of `bic_repl` (463-484), with `#include`, which `Line` leaves out -/
inductive LineI (E : Env) (fl : Floats) (F : Str → Nat) (cpp : List String → Str → Str) (hdr : List String → Option Str) (r : RSt) (line : Str) :
    Answer → RSt → Prop
  | header {y r' h a r''} : ParseLine F cpp r line (some y) r' → r'.st.nodes y = some (.cppInclude h) → Include E F hdr r' h a r'' →
      LineI E fl F cpp hdr r line a r''
  | other {a r'} : (∀ y r1 h, ParseLine F cpp r line (some y) r1 → r1.st.nodes y ≠ some (.cppInclude h)) → Line E fl F cpp r line a r' →
      LineI E fl F cpp hdr r line a r'

/-- the lines typed one after the other, what is printed, and how the process ends, if it does -/
inductive SessionI (E : Env) (fl : Floats) (F : Str → Nat) (cpp : List String → Str → Str) (hdr : List String → Option Str) :
    RSt → List Str → List Str → Option Stop → RSt → Prop
  | nil {r} : SessionI E fl F cpp hdr r [] [] none r
  | cons {r l o r1 ls os w r2} : LineI E fl F cpp hdr r l (.shows o) r1 → SessionI E fl F cpp hdr r1 ls os w r2 →
      SessionI E fl F cpp hdr r (l :: ls) (o :: os) w r2
  | ends {r l w r1 ls} : LineI E fl F cpp hdr r l (.ends w) r1 → SessionI E fl F cpp hdr r (l :: ls) [] (some w) r1

end Bic.Repl
