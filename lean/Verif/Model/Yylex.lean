import Verif.Model.Lexer
import Verif.Model.Parser
/-!
# From the lexer to the parser (lex.m4:148-258, parser.m4:84-94)

The actions of lex.m4 return the tokens that parser.m4 declares: a named one (`return BREAK;`) or the
code of a character (`return '(';`).  `ofTok` is this correspondence, by the names both files use.
`'` (lex.m4:223) is returned as well, but no production has it; the quote has no counterpart in `K`.
-/

namespace Bic.Parser
open Lexer (Tok)

/-- the names of the tokens without a value: `%token` in parser.m4:84-91, characters in the productions
(lex.m4:148-184 and 215-258 return them) -/
def tokNames : List (String × K) :=
  [("(", .lparen), (")", .rparen), ("[", .lbrack), ("]", .rbrack), ("{", .lbrace), ("}", .rbrace), (".", .dot),
   ("PTR_ACCESS", .arrow), ("INC", .incr), ("DEC", .decr), ("!", .bang), ("&", .amp), ("*", .star), ("~", .tilde), ("/", .slash),
   ("%", .percent), ("+", .plus), ("-", .minus), ("SHIFT_LEFT", .shl), ("SHIFT_RIGHT", .shr), ("<", .lt), (">", .gt),
   ("LESS_OR_EQUAL", .le), ("GREATER_OR_EQUAL", .ge), ("EQUATE", .eqeq), ("NOT_EQUATE", .ne), ("^", .caret), ("|", .bar),
   ("BOOL_OP_AND", .andand), ("BOOL_OP_OR", .oror), ("?", .question), (":", .colon), ("=", .assign), ("ADD_ASSIGN", .addA),
   ("SUB_ASSIGN", .subA), ("DIV_ASSIGN", .divA), ("LSHIFT_ASSIGN", .shlA), ("RSHIFT_ASSIGN", .shrA), ("XOR_ASSIGN", .xorA),
   (",", .comma), (";", .semi), ("ELLIPSIS", .ellipsis), ("SIZEOF", .sizeof), ("TYPEDEF", .typedef), ("EXTERN", .extern),
   ("STATIC", .static), ("AUTO", .auto), ("REGISTER", .register), ("VOID", .void), ("CHAR", .char), ("SHORT", .short), ("INT", .int),
   ("LONG", .long), ("FLOAT", .float), ("DOUBLE", .double), ("SIGNED", .signed), ("UNSIGNED", .unsigned), ("BOOL", .bool),
   ("STRUCT", .struct), ("UNION", .union), ("ENUM", .enum), ("IF", .if_), ("ELSE", .else_), ("WHILE", .while_), ("FOR", .for_),
   ("RETURN", .return_), ("BREAK", .break_), ("REPL", .repl), ("CASE", .case), ("CONTINUE", .continue), ("DEFAULT", .default),
   ("DO", .do_), ("GOTO", .goto), ("SWITCH", .switch)]

/-- what the parser sees of a token -/
def ofTok : Tok → Option T
  | .tok n => (tokNames.lookup n).map .p
  | .ident s => some (.ident s)
  | .typeName s => some (.typeName s)
  | .integer v => some (.integer v)
  | .floatCst s => some (.floatCst s)
  | .string s => some (.string s)
  | .cPreInc s => some (.cPreInc s)

end Bic.Parser
