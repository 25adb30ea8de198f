import Verif.Spec.Clang

/-!
# The tokens of `c.lang`

Computed by the kernel with the lexer of `Model/LangGen.lean`.
-/

namespace Bic.LangGen
open Spec

set_option maxRecDepth 100000 in
/-- `c.lang` is the description `clangDesc` -/
theorem clang_lex : lex clangText = clangDesc.flatMap Form.toks := by decide +kernel

end Bic.LangGen
