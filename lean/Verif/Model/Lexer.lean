/-!
# The lexer (lex.m4)

flex turns the rules of lex.m4:138-258 into an automaton.  Modelled here are the rules with flex's
way to choose between them: the rule that matches most of the input wins, among those the first
one; input no rule matches is copied to the output a character at a time (the default rule).
Regular expressions are matched by derivatives.

Texts are lists of bytes without NUL (`repl_scan_string` takes a C string).  Not modelled: source
locations, `handle_line_marker` (it sets the location only), flex's buffering.  Declaring a type
name while the parser runs changes `is_typename`; here the set of type names is a parameter.
-/

namespace Bic.Lexer

abbrev Byte := UInt8
abbrev Str := List Byte

/-- the bytes of a text in the source of bic (ASCII) -/
def bytes (s : String) : Str := s.toList.map fun c => UInt8.ofNat c.toNat

/-! ## Regular expressions -/

inductive Re where
  | nil
  | eps
  | cls (p : Byte → Bool)
  | seq (a b : Re)
  | alt (a b : Re)
  | star (a : Re)

namespace Re

/-- the empty text matches -/
def nullable : Re → Bool
  | .nil => false
  | .eps => true
  | .cls _ => false
  | .seq a b => a.nullable && b.nullable
  | .alt a b => a.nullable || b.nullable
  | .star _ => true

/-- no text matches, as far as one can see without looking at classes -/
def isNone : Re → Bool
  | .nil => true
  | _ => false

def mkSeq (a b : Re) : Re :=
  match a, b with
  | .nil, _ => .nil
  | _, .nil => .nil
  | .eps, b => b
  | a, b => .seq a b

def mkAlt (a b : Re) : Re :=
  match a, b with
  | .nil, b => b
  | a, .nil => a
  | a, b => .alt a b

/-- what has to follow the byte `c` -/
def deriv (c : Byte) : Re → Re
  | .nil => .nil
  | .eps => .nil
  | .cls p => if p c then .eps else .nil
  | .seq a b => if a.nullable then mkAlt (mkSeq (a.deriv c) b) (b.deriv c) else mkSeq (a.deriv c) b
  | .alt a b => mkAlt (a.deriv c) (b.deriv c)
  | .star a => mkSeq (a.deriv c) (.star a)

/-- the length of the longest prefix that matches -/
def longest (r : Re) : Str → Option Nat
  | [] => if r.nullable then some 0 else none
  | c :: s =>
    match (r.deriv c).longest s with
    | some n => some (n + 1)
    | none => if r.nullable then some 0 else none

def chr (c : Byte) : Re := .cls (· == c)
def lit : Str → Re
  | [] => .eps
  | c :: s => .seq (chr c) (lit s)
def plus (r : Re) : Re := .seq r (.star r)
def opt (r : Re) : Re := .alt r .eps

end Re

/-! ## The rules -/

/-- start conditions (lex.m4:135-136) -/
inductive Mode where
  | initial | strLit | compound
deriving DecidableEq, Repr

/-- which of the two generated lexers -/
inductive Target where
  | repl | cscript
deriving DecidableEq, Repr

/-- what is done with the text a rule has matched; `ret` returns a token without a value -/
inductive Action where
  | skip
  | ret (tok : String)
  | beginCompound (tok : String)
  | structId
  | structBrace
  | include
  | lineMarker
  | ident
  | int10
  | float
  | int0
  | char
  | strBegin
  | strText
  | strChar (c : Byte)
  | strOct
  | strEsc
  | strEnd
  | bogus
  | newlineInStr
deriving DecidableEq, Repr

structure Rule where
  modes : List Mode
  re : Re
  act : Action

def isL (c : Byte) : Bool := (97 ≤ c && c ≤ 122) || (65 ≤ c && c ≤ 90) || c == 95
def isD (c : Byte) : Bool := 48 ≤ c && c ≤ 57
def isX (c : Byte) : Bool := isD c || (65 ≤ c && c ≤ 70) || (97 ≤ c && c ≤ 102)
def isOct (c : Byte) : Bool := 48 ≤ c && c ≤ 55
def isBlank (c : Byte) : Bool := c == 32 || c == 9
/-- what may stand in a string literal for itself -/
def isPlain (c : Byte) : Bool := !(c == 92 || c == 34 || c == 10)
/-- `.`: everything but a newline -/
def isAny (c : Byte) : Bool := c != 10

open Re

def blanks : Re := .star (.cls isBlank)
def anys : Re := .star (.cls isAny)
def litS (s : String) : Re := lit (bytes s)
def word (s : String) (tok : String) : Rule := ⟨[.initial], litS s, .ret tok⟩
def ignore (r : Re) : Rule := ⟨[.initial], r, .skip⟩

/-- `{L}({L}|{D})*` -/
def identRe : Re := .seq (.cls isL) (.star (.alt (.cls isL) (.cls isD)))
/-- `-?[0-9]+` -/
def intRe : Re := .seq (opt (chr 45)) (plus (.cls isD))
/-- `-?[0-9]+\.[0-9]+` -/
def floatRe : Re := .seq (opt (chr 45)) (.seq (plus (.cls isD)) (.seq (chr 46) (plus (.cls isD))))
/-- `0x{X}+` -/
def hexRe : Re := .seq (litS "0x") (plus (.cls isX))
/-- `L?'(\\.|[^\\'\n])+'` -/
def charRe : Re :=
  .seq (opt (chr 76)) (.seq (chr 39) (.seq
    (plus (.alt (.seq (chr 92) (.cls isAny)) (.cls fun c => !(c == 92 || c == 39 || c == 10)))) (chr 39)))

/-- the rules before the keywords (139-147) -/
def ignored : List Rule :=
  [ignore (.seq (litS "__attribute__") (.seq blanks (.seq (litS "((") (.seq anys (litS "))"))))),
   ignore (litS "_Nullable"),
   ignore (litS "_Nonnull"),
   ignore (.seq (opt (litS "__")) (litS "restrict")),
   ignore (.seq (litS "__asm") (.seq (opt (litS "__")) (.seq blanks (.seq (litS "(") (.seq anys (litS ")")))))),
   ignore (litS "__extension__"),
   ignore (litS "volatile"),
   ignore (.seq (opt (litS "__")) (.seq (litS "inline") (opt (litS "__"))))]

/-- the keywords (148-184), with the rules for what follows `struct` and `union` -/
def keywords : List Rule :=
  [word "auto" "AUTO", word "break" "BREAK", word "case" "CASE", word "char" "CHAR", word "<REPL>" "REPL",
   ignore (litS "const"), word "continue" "CONTINUE", word "default" "DEFAULT", word "do" "DO", word "double" "DOUBLE",
   word "else" "ELSE", word "enum" "ENUM", word "extern" "EXTERN", word "float" "FLOAT", word "for" "FOR", word "goto" "GOTO",
   word "if" "IF", word "int" "INT", word "_Bool" "BOOL", word "long" "LONG", word "register" "REGISTER",
   word "return" "RETURN", word "short" "SHORT", word "signed" "SIGNED", word "sizeof" "SIZEOF", word "static" "STATIC",
   ⟨[.initial], litS "struct", .beginCompound "STRUCT"⟩,
   ⟨[.compound], identRe, .structId⟩,
   ⟨[.compound], litS "{", .structBrace⟩,
   word "switch" "SWITCH", word "typedef" "TYPEDEF",
   ⟨[.initial], litS "union", .beginCompound "UNION"⟩,
   word "unsigned" "UNSIGNED", word "void" "VOID", word "while" "WHILE"]

/-- REPL_ONLY (187) and CSCRIPT_ONLY (190) -/
def directives : Target → List Rule
  | .repl => [⟨[.initial], .seq (litS "#include") (.seq blanks (.seq (chr 60) (.seq
      (plus (.alt (.cls isL) (.alt (.cls isD) (.alt (chr 46) (chr 47))))) (chr 62)))), .include⟩]
  | .cscript => [⟨[.initial], .seq (chr 35) (.seq blanks (.seq (plus (.cls isD)) (.seq blanks (.seq (chr 34) (.seq
      (plus (.cls fun c => isL c || isD c || c == 45 || c == 46 || c == 47 || c == 60 || c == 62 || c == 32))
      (.seq (chr 34) (.star (.cls fun c => c == 32 || (49 ≤ c && c ≤ 52))))))))), .lineMarker⟩]

/-- names, constants and strings (192-210) -/
def values : List Rule :=
  [⟨[.initial], identRe, .ident⟩,
   ⟨[.initial], intRe, .int10⟩,
   ⟨[.initial], floatRe, .float⟩,
   ⟨[.initial], hexRe, .int0⟩,
   ⟨[.initial], charRe, .char⟩,
   ⟨[.initial], chr 34, .strBegin⟩,
   ⟨[.strLit], .star (.cls isPlain), .strText⟩,
   ⟨[.strLit], litS "\\n", .strChar 10⟩,
   ⟨[.strLit], litS "\\t", .strChar 9⟩,
   ⟨[.strLit], .seq (chr 92) (.star (.cls isOct)), .strOct⟩,
   ⟨[.strLit], .seq (chr 92) (.cls fun c => c == 92 || c == 34), .strEsc⟩,
   ⟨[.strLit], chr 34, .strEnd⟩,
   ⟨[.strLit], .seq (chr 92) (.cls isAny), .bogus⟩,
   ⟨[.strLit], chr 10, .newlineInStr⟩]

/-- blanks and operators (212-258) -/
def operators : List Rule :=
  [⟨[.initial, .compound], .cls fun c => c == 32 || c == 9 || c == 13, .skip⟩,
   ⟨[.initial, .compound], chr 10, .skip⟩,
   word "..." "ELLIPSIS", word "==" "EQUATE", word "!=" "NOT_EQUATE", word "=" "=", word "(" "(", word ")" ")", word ";" ";",
   word "," ",", word "'" "'", word ":" ":", word "[" "[", word "]" "]", word "." ".", word "<=" "LESS_OR_EQUAL",
   word ">=" "GREATER_OR_EQUAL", word "+=" "ADD_ASSIGN", word "-=" "SUB_ASSIGN", word "/=" "DIV_ASSIGN",
   word "<<=" "LSHIFT_ASSIGN", word ">>=" "RSHIFT_ASSIGN", word "^=" "XOR_ASSIGN", word "<" "<", word ">" ">", word "!" "!",
   word "+" "+", word "-" "-", word "*" "*", word "/" "/", word "%" "%", word "{" "{", word "}" "}", word "&" "&", word "|" "|",
   word "?" "?", word "^" "^", word "~" "~", word "<<" "SHIFT_LEFT", word ">>" "SHIFT_RIGHT", word "++" "INC", word "--" "DEC",
   word "->" "PTR_ACCESS", word "&&" "BOOL_OP_AND", word "||" "BOOL_OP_OR"]

/-- all rules, in their order -/
def rules (tg : Target) : List Rule := ignored ++ keywords ++ directives tg ++ values ++ operators

/-- flex: the first of the rules with the longest match; a rule that matches nothing does not
count -/
def pick (m : Mode) (s : Str) : List Rule → Option (Nat × Action)
  | [] => none
  | r :: rs =>
    match (if m ∈ r.modes then r.re.longest s else none), pick m s rs with
    | some (n + 1), some (k, a) => if n + 1 < k then some (k, a) else some (n + 1, r.act)
    | some (n + 1), none => some (n + 1, r.act)
    | _, p => p

/-! ## The actions -/

/-- tokens with their values -/
inductive Tok where
  | tok (name : String)
  | ident (s : Str)
  | typeName (s : Str)
  | integer (v : Int)
  | floatCst (s : Str)
  | string (s : Str)
  | cPreInc (s : Str)
deriving DecidableEq, Repr

/-- the state of the lexer: start condition and `sl_buf` -/
structure LSt where
  mode : Mode
  buf : Str
deriving DecidableEq, Repr

inductive Step where
  | eof
  | tok (t : Tok) (st : LSt) (rest : Str)
  | skip (st : LSt) (rest : Str)
  /-- `lex_err` (86-94) exits -/
  | err
deriving DecidableEq, Repr

def digit (c : Byte) : Nat :=
  if isD c then c.toNat - 48 else if 97 ≤ c then c.toNat - 87 else c.toNat - 55

/-- the value of digits in a base, as `mpz_init_set_str` and `strtol` read them -/
def natOf (base : Nat) (s : Str) : Nat := s.foldl (fun n c => n * base + digit c) 0

/-- `mpz_init_set_str(…, 10)` on a text the rule matches -/
def int10 : Str → Int
  | 45 :: s => -(natOf 10 s : Int)
  | s => natOf 10 s

/-- `lex_char` (96-120): `none` is `lex_err`; a `char` is signed -/
def lexChar (s : Str) : Option Int :=
  if !(s.length == 3 || s.length == 4) then none
  else if s.getD 0 0 != 39 then none
  else if s.getD 1 0 != 92 then some (Int.bmod (s.getD 1 0).toNat 256)
  else
    match s.getD 2 0 with
    | 110 => some 10
    | 92 => some 92
    | 114 => some 13
    | _ => none

/-- `sl_append_char` (78-84): NUL is the empty string -/
def appendChar (buf : Str) (c : Byte) : Str := if c = 0 then buf else buf ++ [c]

/-- `strtol(s, 0, 8)` on octal digits, converted to `char`: larger values give LONG_MAX -/
def octChar (s : Str) : Byte :=
  if natOf 8 s < 2 ^ 63 then UInt8.ofNat (natOf 8 s) else 255

/-- the actions, for the text `s` and what follows it -/
def act (T : Str → Bool) (st : LSt) (a : Action) (s rest : Str) : Step :=
  match a with
  | .skip | .lineMarker => .skip st rest
  | .ret t => .tok (.tok t) st rest
  | .beginCompound t => .tok (.tok t) { st with mode := .compound } rest
  | .structId => .tok (.ident s) { st with mode := .initial } rest
  | .structBrace => .tok (.tok "{") { st with mode := .initial } rest
  | .include => .tok (.cPreInc s) st rest
  | .ident => if T s then .tok (.typeName s) st rest else .tok (.ident s) st rest
  | .int10 => .tok (.integer (int10 s)) st rest
  | .float => .tok (.floatCst s) st rest
  | .int0 => .tok (.integer (natOf 16 (s.drop 2))) st rest
  | .char =>
    match lexChar s with
    | some v => .tok (.integer v) st rest
    | none => .err
  | .strBegin => .skip ⟨.strLit, []⟩ rest
  | .strText => .skip { st with buf := st.buf ++ s } rest
  | .strChar c => .skip { st with buf := appendChar st.buf c } rest
  | .strOct => .skip { st with buf := appendChar st.buf (octChar (s.drop 1)) } rest
  | .strEsc => .skip { st with buf := appendChar st.buf (s.getD 1 0) } rest
  | .strEnd => .tok (.string st.buf) ⟨.initial, st.buf⟩ rest
  | .bogus | .newlineInStr => .err

/-- one match -/
def next (tg : Target) (T : Str → Bool) (st : LSt) (s : Str) : Step :=
  match s with
  | [] => .eof
  | c :: s' =>
    match pick st.mode (c :: s') (rules tg) with
    | some (n, a) => act T st a ((c :: s').take n) ((c :: s').drop n)
    | none => .skip st s'

/-- The tokens of a text.  The last index is the start condition the lexer is in when the end of the text is reached,
`none` when it stops with an error before. -/
inductive Lex (tg : Target) (T : Str → Bool) : LSt → Str → List Tok → Option Mode → Prop
  | eof {st s} : next tg T st s = .eof → Lex tg T st s [] (some st.mode)
  | err {st s} : next tg T st s = .err → Lex tg T st s [] none
  | tok {st s t st' rest ts ok} : next tg T st s = .tok t st' rest → Lex tg T st' rest ts ok → Lex tg T st s (t :: ts) ok
  | skip {st s st' rest ts ok} : next tg T st s = .skip st' rest → Lex tg T st' rest ts ok → Lex tg T st s ts ok

/-- the lexer at the beginning of a token -/
def start : LSt := ⟨.initial, []⟩

end Bic.Lexer
