import Verif.Model.ReplLoop
import Verif.Model.Cscript
/-!
# The startup file of the REPL (repl.c:433-461, main.c:144-165)

`main` sets up the evaluator and calls `bic_repl`, which evaluates `~/.bic` like a script, if it can be read, and
then reads lines.
-/

namespace Bic.Repl
open Lexer (Lex)
open _root_.Bic.Parser (PT ofTok build Der)
open Script (evaluateCscript)

/-- the lexer and the parser of scripts accept the text (cscript.c:27-57) -/
def StartParses (ty : Str → Bool) (text : Str) (t : PT) : Prop :=
  ∃ toks i, (∃ m, Lex .cscript ty Lexer.start text toks (some m)) ∧ toks.map ofTok = i.map some ∧ Der .cscriptUnit i t []

/-- `Started E F mem ty file r`: the REPL reads its first line in the state `r`.  `file` is what the preprocessor
makes of `~/.bic`, and the address of the file's name, which is the only argument (repl.c:454): `none` if the file
can not be read.  If the parser rejects the file, `evaluate_cscript` returns 254, which `evaluate_startup_file`
ignores.  The lexer of the REPL is another one than that of scripts.  Simplifications: the file makes no type names
(`ty` stays), and the objects the parser has made for a file it rejects are left out. -/
inductive Started (E : Env) (F : Str → Nat) (mem : Mem) (ty : Str → Bool) : Option (Str × Nat) → RSt → Prop
  | none : Started E F mem ty none ⟨Lexer.start, ty, initSt mem⟩
  | rejected {text p} : (¬ ∃ t, StartParses ty text t) → Started E F mem ty (some (text, p)) ⟨Lexer.start, ty, initSt mem⟩
  | file {text p t x s s'} : StartParses ty text t → build F t (initSt mem) = .ok (some x) s →
      Conv E (fun R => evaluateCscript R x [p]) s (.ok () s') → Started E F mem ty (some (text, p)) ⟨Lexer.start, ty, s'⟩

end Bic.Repl
