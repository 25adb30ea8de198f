import Verif.Model.Include
/-!
# Several statements on one line (repl.c:371-397)

`repl_do_parse` ends bic with 1 when the line it has parsed is more than one statement.  `DoParse`, `Line` and `LineI` are about the lines for
which it returns; the relations here add the lines for which it does not.
-/

namespace Bic.Repl
open _root_.Bic.Parser (PT build)
open Printer (Floats)

/-- `repl_do_parse` (371-397) when it exits (386-391): the objects of the line have been made.  Simplification: only lines that make no type names,
for one made by the first statement would be known to the lexer in the second (parser.m4:622-630). -/
inductive TooMany (F : Str → Nat) (r : RSt) (line : Str) : RSt → Prop
  | mk {ts lx' x s'} : 2 ≤ ts.length → (∀ t ∈ ts, typedefNames t = []) → Accepts r.ty r.lx line (.chain ts) lx' →
      build F (.chain ts) r.st = .ok (some x) s' → TooMany F r line ⟨lx', r.ty, s'⟩

/-- the body of the loop of `bic_repl` (463-484): `repl_parse_line` (399-431) exits in its first or its second parse, or it returns -/
inductive LineM (E : Env) (fl : Floats) (F : Str → Nat) (cpp : List String → Str → Str) (hdr : List String → Option Str) (r : RSt) (line : Str) :
    Answer → RSt → Prop
  | typed {r'} : TooMany F r line r' → LineM E fl F cpp hdr r line (.ends (.exit 1)) r'
  | expanded {y n r' line' r''} : DoParse F r line (some y) r' → r'.st.nodes y = some n → (∀ h, n ≠ .cppInclude h) →
      runCppOnLine (cpp r'.st.includes line) = some line' → TooMany F r' line' r'' → LineM E fl F cpp hdr r line (.ends (.exit 1)) r''
  | returns {a r'} : LineI E fl F cpp hdr r line a r' → LineM E fl F cpp hdr r line a r'

/-- the lines typed one after the other, what is printed, and how the process ends, if it does -/
inductive SessionM (E : Env) (fl : Floats) (F : Str → Nat) (cpp : List String → Str → Str) (hdr : List String → Option Str) :
    RSt → List Str → List Str → Option Stop → RSt → Prop
  | nil {r} : SessionM E fl F cpp hdr r [] [] none r
  | cons {r l o r1 ls os w r2} : LineM E fl F cpp hdr r l (.shows o) r1 → SessionM E fl F cpp hdr r1 ls os w r2 →
      SessionM E fl F cpp hdr r (l :: ls) (o :: os) w r2
  | ends {r l w r1 ls} : LineM E fl F cpp hdr r l (.ends w) r1 → SessionM E fl F cpp hdr r (l :: ls) [] (some w) r1

end Bic.Repl
