/-!
# Names the lexer takes for type names (typename.c; parser.m4:34-59)

Trees are those of declarators only; a chain is the list of its elements (see
`ListC` for the pointer structure).  `get_identifier` copies of the names are the
names themselves.
-/

namespace Bic.Typename

/-- a declarator as built by parser.m4 (674-760, 660-672 for initialisers); `null` is the NULL
of an abstract declarator, `other` stands for the remaining tree types -/
inductive Dcl where
  | ident (x : String)
  | pointer (d : Dcl)
  | fn (d : Dcl)
  | array (d : Dcl)
  | assign (d : Dcl)
  | null
  | other

/-- a declaration: is `T_TYPEDEF` among the specifiers (parser.m4:57), and tDECL_DECLS -/
structure Decl where
  typedef : Bool
  decls : List Dcl

/-- the static variables of typename.c (4-11) -/
structure TN where
  typeNames : List String
  includeTypeNames : List String
  inInclude : Bool

/-- `__add_typename` (typename.c:13-18) -/
def addName (x : String) (s : TN) : TN :=
  if s.inInclude then { s with includeTypeNames := s.includeTypeNames ++ [x] }
  else { s with typeNames := s.typeNames ++ [x] }

/-- `add_typename` (typename.c:20-29) -/
def addTypename : Dcl → TN → TN
  | .ident x, s => addName x s
  | .pointer d, s => addTypename d s
  | _, s => s

/-- `typename_set_include_file`, `typename_unset_include_file` (typename.c:31-39) -/
def setInclude (b : Bool) (s : TN) : TN := { s with inInclude := b }

/-- `reset_include_typenames` (typename.c:41-44) -/
def resetInclude (s : TN) : TN := { s with includeTypeNames := [] }

/-- `typename_init` (typename.c:46-55); C initialises the flag with 0 -/
def init : TN :=
  let s : TN := { typeNames := [], includeTypeNames := [], inInclude := false }
  let s := resetInclude s
  let s := addTypename (.ident "__builtin_va_list") s
  addTypename (.ident "_Float128") s

/-- `is_typename` (typename.c:57-72) -/
def isTypename (x : String) (s : TN) : Bool :=
  s.typeNames.any (· == x) || s.includeTypeNames.any (· == x)

/-- `find_ids_to_map_to_typenames` (parser.m4:34-53) on a declarator -/
def findIds : Dcl → TN → TN
  | .ident x, s => addTypename (.ident x) s
  | .pointer d, s => findIds d s
  | .fn d, s => findIds d s
  | .array d, s => findIds d s
  | _, s => s

/-- `maybe_add_typenames` (parser.m4:55-59), called for every declaration with declarators
(parser.m4:628); on a T_DECL `find_ids_to_map_to_typenames` goes through the declarators -/
def maybeAdd (d : Decl) (s : TN) : TN :=
  if d.typedef then d.decls.foldl (fun s x => findIds x s) s else s

/-- what happens to the type names while bic runs: a declaration of the program is
parsed, or an `#include` is evaluated, whose text contains declarations -/
inductive Event where
  | decl (d : Decl)
  | incl (ds : List Decl)

/-- parser.m4:621-630 for the program, `eval_cpp_include` (evaluate.c:2572-2577) for headers.
If a header cannot be parsed `cscripterror` exits. -/
def step (s : TN) : Event → TN
  | .decl d => maybeAdd d s
  | .incl ds =>
    let s := resetInclude s
    let s := setInclude true s
    let s := ds.foldl (fun s d => maybeAdd d s) s
    setInclude false s

def runs (es : List Event) : TN := es.foldl step init

end Bic.Typename
