/-!
# The generators: from a language description to tree fields and accessors

Model of `/repo/src/lang_lexer.lpp`, `/repo/src/lang.h`, `/repo/src/lang.cpp` and of the
parts of `gentree.cpp`, `genaccess.cpp`, `gengc.cpp` and `gentypes.cpp` that choose what is
emitted.  These programs run when the interpreter is built: they read `c.lang` and write
the declaration of the tree fields, the accessor macros and the traversal of the collector.

Simplifications:
* the iteration order of `std::unordered_map` is not specified; here it is the order of
  insertion, and no theorem depends on it;
* the source positions (`token_loc`) only occur in messages and are left out;
* characters that no rule matches are copied to the output by flex and skipped; the copy is
  left out.  Texts containing NUL (where `strlen` would stop) are not modelled.
-/

namespace Bic.LangGen

/-- the tokens (lang.h:80-90); `lexval` (lang_lexer.lpp:37-38) is part of the token -/
inductive Tok where
  | deftype | defctype | defbasetypes | defspecifier
  | ident (s : String)
  | str (s : String)
  | ignore | self | lp | rp
deriving DecidableEq, Repr

/-- how reading a description ends: `perror` (lang.cpp:7-12) exits, `unordered_map::at`
(lang.cpp:150) throws -/
inductive Res (α : Type) where
  | ok (a : α)
  | error
  | thrown
deriving DecidableEq, Repr

/-! ## The lexer -/

/-- `{L}` (lang_lexer.lpp:23) -/
def isL (c : Char) : Bool := ('a' ≤ c && c ≤ 'z') || ('A' ≤ c && c ≤ 'Z') || c == '_'
/-- `{L}|{D}` (lang_lexer.lpp:23-24) -/
def isLD (c : Char) : Bool := isL c || ('0' ≤ c && c ≤ '9')

/-- the rest of a string literal (lang_lexer.lpp:37), after the opening quote: its text and
what follows; `none` when no closing quote is found.  `.` does not match a newline. -/
def strTail : List Char → List Char → Option (List Char × List Char)
  | [], _ => none
  | '"' :: cs, acc => some (acc.reverse, cs)
  | '\\' :: c :: cs, acc => if c = '\n' then none else strTail cs (c :: '\\' :: acc)
  | ['\\'], _ => none
  | c :: cs, acc => strTail cs (c :: acc)

/-- an identifier or keyword (lang_lexer.lpp:31-34, 38): of two rules matching the same text
the first is taken, a longer match is preferred -/
def word (w : String) : Tok :=
  if w = "deftype" then .deftype
  else if w = "defctype" then .defctype
  else if w = "defbasetypes" then .defbasetypes
  else if w = "defspecifier" then .defspecifier
  else .ident w

/-- `yylex` until the end of the file (lang_lexer.lpp:31-42), with a budget of characters -/
def lexN : Nat → List Char → List Tok
  | 0, _ => []
  | _, [] => []
  | n + 1, c :: cs =>
    if c = '(' then .lp :: lexN n cs
    else if c = ')' then .rp :: lexN n cs
    else if c = '"' then
      match strTail cs [] with
      | some (s, rest) => .str (String.ofList s) :: lexN n rest
      | none => lexN n cs
    else if isL c then word (String.ofList (c :: cs.takeWhile isLD)) :: lexN n (cs.dropWhile isLD)
    else if c = ':' then
      if "ignore".toList.isPrefixOf cs then .ignore :: lexN n (cs.drop 6)
      else if "self".toList.isPrefixOf cs then .self :: lexN n (cs.drop 4)
      else lexN n cs
    else lexN n cs

/-- all tokens of a file -/
def lex (text : List Char) : List Tok := lexN text.length text

/-! ## Pools of fields -/

/-- `struct BaseType` (lang.h:8-12) -/
structure BaseType where
  type : String
  name : String
  isTree : Bool
deriving DecidableEq, Repr

/-- `struct InstantiatedType` (lang.h:15-19) -/
structure Inst where
  memberName : String
  baseType : BaseType
deriving DecidableEq, Repr

/-- `struct TypePool` (lang.h:43-53) -/
structure Pool where
  base : BaseType
  pool : List Inst
deriving DecidableEq, Repr

/-- `TypePool::alloc` (lang.cpp:30-40): a new field -/
def Pool.alloc (p : Pool) : Inst × Pool :=
  let i : Inst := ⟨p.base.name ++ toString p.pool.length, p.base⟩
  (i, { p with pool := p.pool ++ [i] })

/-- `TypeAllocator::alloc` (lang.cpp:52-61); `cur` is `currentPool_`, which was copied from the
pool (47-50): the fields other tree types use are taken first -/
def allocFrom (p : Pool) (cur : List Inst) : Inst × Pool × List Inst :=
  match cur with
  | [] => let (i, p') := p.alloc; (i, p', [])
  | i :: rest => (i, p, rest)

/-! ## The description -/

/-- `struct TreeType` (lang.h:23-32) -/
structure TreeType where
  name : String
  friendly : String
  propPrefix : String
  props : List (String × Inst)
deriving DecidableEq, Repr

/-- `TreeType::getPropAccessor` (lang.h:27-30) -/
def TreeType.accessor (t : TreeType) (p : String) : String := t.propPrefix ++ "_" ++ p

/-- `struct CType` (lang.h:34-39) -/
structure CType where
  tree : TreeType
  ctype : String
  format : String
  member : String
  ffi : String
deriving DecidableEq, Repr

/-- `struct SpecifierMap` (lang.h:63-66) -/
structure SpecifierMap where
  type : String
  specifiers : List (List String)
deriving DecidableEq, Repr

/-- `struct lang` (lang.h:68-78) -/
structure Lang where
  treeTypes : List TreeType
  treeCTypes : List CType
  specMaps : List SpecifierMap
  ignored : List String
  selfs : List String
  pools : List (String × Pool)
  treePool : Pool
deriving DecidableEq, Repr

/-- the constructor (lang.h:77) -/
def Lang.empty : Lang := ⟨[], [], [], [], [], [], ⟨⟨"tree", "t", true⟩, []⟩⟩

/-- `unordered_map::insert`: nothing happens when the key is present -/
def insert {α : Type} (k : String) (v : α) (m : List (String × α)) : List (String × α) :=
  if m.any (·.1 == k) then m else m ++ [(k, v)]

/-- replace the value of a key that is present -/
def update {α : Type} (k : String) (v : α) (m : List (String × α)) : List (String × α) :=
  m.map fun e => if e.1 == k then (k, v) else e

/-! ## The parser -/

/-- `handle_defbasetype` (lang.cpp:63-96) -/
def parseBaseTypes : List Tok → Lang → Res (Lang × List Tok)
  | .rp :: ts, l => .ok (l, ts)
  | .lp :: .ident n :: .str t :: .rp :: ts, l =>
    parseBaseTypes ts { l with pools := insert n ⟨⟨t, n, false⟩, []⟩ l.pools }
  | _, _ => .error

/-- the variables of `parsePropList` (lang.cpp:119-129) -/
structure PropSt where
  pools : List (String × Pool)
  treePool : Pool
  /-- `typeAllocators` -/
  allocs : List (String × List Inst)
  /-- `treeAllocator` -/
  treeCur : List Inst
  props : List (String × Inst)

/-- a property of a base type (lang.cpp:147-153); `propNamePrefix` is always empty (124) -/
def addData (n k : String) (s : PropSt) : Option PropSt :=
  match s.allocs.lookup k, s.pools.lookup k with
  | some cur, some p =>
    let (i, p', cur') := allocFrom p cur
    some { s with pools := update k p' s.pools, allocs := update k cur' s.allocs, props := insert n i s.props }
  | _, _ => none

/-- a property that is a tree (lang.cpp:154-156) -/
def addTree (n : String) (s : PropSt) : PropSt :=
  let (i, p', cur') := allocFrom s.treePool s.treeCur
  { s with treePool := p', treeCur := cur', props := insert n i s.props }

/-- the loop of `parsePropList` (lang.cpp:139-160), with `getDataBaseType` (98-117) -/
def parseProps : List Tok → PropSt → Res (PropSt × List Tok)
  | .rp :: ts, s => .ok (s, ts)
  | .lp :: .str n :: .ident k :: .rp :: ts, s =>
    match addData n k s with
    | some s' => parseProps ts s'
    | none => .thrown
  | .str n :: ts, s => parseProps ts (addTree n s)
  | _, _ => .error

/-- `parsePropList` (lang.cpp:119-161), `token` being the first of the tokens -/
def parsePropList (ts : List Tok) (l : Lang) : Res (Lang × String × List (String × Inst) × List Tok) :=
  match ts with
  | .str pre :: .lp :: ts =>
    match parseProps ts ⟨l.pools, l.treePool, l.pools.map fun e => (e.1, e.2.pool), l.treePool.pool, []⟩ with
    | .ok (s, ts) => .ok ({ l with pools := s.pools, treePool := s.treePool }, pre, s.props, ts)
    | .error => .error
    | .thrown => .thrown
  | _ => .error

/-- the end of `handle_deftype` (lang.cpp:177-188) and `handle_defctype` (224-235) -/
def parseTypeTail (ts : List Tok) (name friendly : String) (l : Lang) : Res (Lang × TreeType × List Tok) :=
  match ts with
  | .rp :: ts => .ok (l, ⟨name, friendly, "", []⟩, ts)
  | ts =>
    match parsePropList ts l with
    | .ok (l, pre, props, .rp :: ts) => .ok (l, ⟨name, friendly, pre, props⟩, ts)
    | .ok _ => .error
    | .error => .error
    | .thrown => .thrown

/-- `handle_deftype` (lang.cpp:163-188) -/
def parseType (ts : List Tok) (l : Lang) : Res (Lang × List Tok) :=
  match ts with
  | .ident n :: .str fr :: ts =>
    match parseTypeTail ts n fr l with
    | .ok (l, t, ts) => .ok ({ l with treeTypes := l.treeTypes ++ [t] }, ts)
    | .error => .error
    | .thrown => .thrown
  | _ => .error

/-- `handle_defctype` (lang.cpp:190-235) -/
def parseCType (ts : List Tok) (l : Lang) : Res (Lang × List Tok) :=
  match ts with
  | .ident n :: .str fr :: .str c :: .str fmt :: .str mem :: .ident ffi :: ts =>
    match parseTypeTail ts n fr l with
    | .ok (l, t, ts) => .ok ({ l with treeCTypes := l.treeCTypes ++ [⟨t, c, fmt, mem, ffi⟩] }, ts)
    | .error => .error
    | .thrown => .thrown
  | _ => .error

/-- `handle_specifier_list` (lang.cpp:237-255) -/
def parseSpecList : List Tok → List String → Res (List String × List Tok)
  | .rp :: ts, acc => .ok (acc, ts)
  | .ident x :: ts, acc => parseSpecList ts (acc ++ [x])
  | _, _ => .error

/-- the lists of `handle_defspecifier` (lang.cpp:271-281), with a budget -/
def parseSpecLists : Nat → List Tok → List (List String) → Res (List (List String) × List Tok)
  | _, .rp :: ts, acc => .ok (acc, ts)
  | n + 1, .lp :: ts, acc =>
    match parseSpecList ts [] with
    | .ok (x, ts) => parseSpecLists n ts (acc ++ [x])
    | .error => .error
    | .thrown => .thrown
  | _, _, _ => .error

/-- `handle_defspecifier` (lang.cpp:257-307) -/
def parseSpecifier (ts : List Tok) (l : Lang) : Res (Lang × List Tok) :=
  match ts with
  | .ident n :: .lp :: ts =>
    match parseSpecLists ts.length ts [] with
    | .ok (xs, .rp :: ts) => .ok ({ l with specMaps := l.specMaps ++ [⟨n, xs⟩] }, ts)
    | .thrown => .thrown
    | _ => .error
  | .ignore :: .ident x :: .rp :: ts => .ok ({ l with ignored := l.ignored ++ [x] }, ts)
  | .self :: .ident x :: .rp :: ts => .ok ({ l with selfs := l.selfs ++ [x] }, ts)
  | _ => .error

/-- one round of the loop of `lang_parse` (lang.cpp:314-342) after the opening parenthesis -/
def parseForm (ts : List Tok) (l : Lang) : Res (Lang × List Tok) :=
  match ts with
  | .deftype :: ts => parseType ts l
  | .defctype :: ts => parseCType ts l
  | .defbasetypes :: ts => parseBaseTypes ts l
  | .defspecifier :: ts => parseSpecifier ts l
  | _ => .error

/-- `lang_parse` (lang.cpp:309-343), with a budget -/
def parseN : Nat → List Tok → Lang → Res Lang
  | _, [], l => .ok l
  | n + 1, .lp :: ts, l =>
    match parseForm ts l with
    | .ok (l, ts) => parseN n ts l
    | .error => .error
    | .thrown => .thrown
  | _, _, _ => .error

/-- `lang_read` (lang.cpp:345-350) on the tokens of a file -/
def parse (ts : List Tok) : Res Lang := parseN ts.length ts Lang.empty

/-- `lang_read` (lang.cpp:345-350) -/
def read (text : List Char) : Res Lang := parse (lex text)

/-! ## What is generated -/

/-- all tree types, in the order of `outputTreeAccessMacros` (genaccess.cpp:34-42) -/
def Lang.types (l : Lang) : List TreeType := l.treeTypes ++ l.treeCTypes.map (·.tree)

/-- the fields of `struct tree_data` (gentree.cpp:3-14, `TypePool::emitDeclarations`,
lang.cpp:23-28): C type and name -/
def Lang.fields (l : Lang) : List (String × String) :=
  (l.pools.flatMap fun e => e.2.pool.map fun i => (i.baseType.type, i.memberName)) ++
    l.treePool.pool.map fun i => (i.baseType.type, i.memberName)

/-- one accessor macro (genaccess.cpp:27-29): its name, the type checked and the field accessed -/
structure Macro where
  name : String
  check : String
  field : String
deriving DecidableEq, Repr

/-- `outputProps` (genaccess.cpp:19-32) -/
def TreeType.macros (t : TreeType) : List Macro := t.props.map fun e => ⟨t.accessor e.1, t.name, e.2.memberName⟩

/-- tree-access.h (genaccess.cpp:34-42) -/
def Lang.macros (l : Lang) : List Macro := l.types.flatMap TreeType.macros

/-- `outputGCMarkProps` (gengc.cpp:5-22): the accessors whose trees `mark_object` marks for a
type; `CHAIN_HEAD` has its own case (63-70) -/
def TreeType.marked (t : TreeType) : List String :=
  if t.name = "CHAIN_HEAD" then [] else (t.props.filter (·.2.baseType.isTree)).map fun e => t.accessor e.1

end Bic.LangGen
