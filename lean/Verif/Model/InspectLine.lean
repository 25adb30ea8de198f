import Verif.Model.Several
import Verif.Model.Inspect
/-!
# `?name` at the REPL (evaluate.c:1009-1016, repl.c:463-484)
-/

namespace Bic.Repl
open Printer (Floats)
open Inspect (EvalInspect Locus)

/-- the body of the loop of `bic_repl` (463-484), with `?name`, which `Line` leaves out: the inspector prints, and `eval_inspect` returns NULL, for
which nothing more is printed (475-478).  `loc` and `oth` are as in `Inspects`. -/
inductive LineQ (E : Env) (oth : Node → Str) (fl : Floats) (loc : TId → Option Locus) (F : Str → Nat) (cpp : List String → Str → Str)
    (hdr : List String → Option Str) (r : RSt) (line : Str) : Answer → RSt → Prop
  | inspect {y i x r' out s'} : ParseLine F cpp r line (some y) r' → r'.st.nodes y = some (.inspect (some i)) → r'.st.nodes i = some (.ident x) →
      EvalInspect E oth fl loc r'.st x (.shows out s') → LineQ E oth fl loc F cpp hdr r line (.shows out) ⟨r'.lx, r'.ty, s'⟩
  | crash {y i x r' out} : ParseLine F cpp r line (some y) r' → r'.st.nodes y = some (.inspect (some i)) → r'.st.nodes i = some (.ident x) →
      EvalInspect E oth fl loc r'.st x (.crash out) → LineQ E oth fl loc F cpp hdr r line (.ends (.ub "tLOCUS of no locus")) r'
  | other {a r'} : (∀ y i r1, ParseLine F cpp r line (some y) r1 → r1.st.nodes y ≠ some (.inspect i)) → LineM E fl F cpp hdr r line a r' →
      LineQ E oth fl loc F cpp hdr r line a r'

end Bic.Repl
