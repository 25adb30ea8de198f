import Verif.Model.LangGen
import Verif.Model.Printer
/-!
# Dumping trees

Model of what the functions written by `/repo/src/gendump.cpp` and `/repo/src/gendot.cpp` print, with
the primitives of `/repo/src/tree-dump-primitives.h`: `bic -T` and `bic -D` (main.c:125-132,
cscript.c:205-215).

Simplifications:
* the functions are generated from a language description; here they are interpreters of the
  description, one case per tree type;
* a tree is given with all it refers to (so shared trees occur several times, as they are dumped
  several times); cyclic trees, whose dump does not end, are not modelled;
* names of the description are taken to be printed as they are: a percent sign or a backslash in a
  prefix or a property name would be interpreted by `fprintf` or by the C compiler;
* floating point values and the values of live variables are given by the text printed for them
  (`%Ff`, the formats of the C types, `<Unprintable>`), a field nothing is printed for
  by the name of its type;
* strings are given up to their NUL; a null `char *` is not modelled;
* the order of the properties of a type is that of the description (`Model/LangGen.lean`).
-/

namespace Bic.Dump
open LangGen
open Bic.Lexer (Str bytes)
open Bic.Printer (decimal digits pointerText)

/-- the base types nothing is printed for (tree-dump-primitives.h:36-39, 71-85) -/
inductive Hidden where
  | jmpBuf | cif | types | closure
deriving DecidableEq

/-- their names (c.lang:5, 9-11) -/
def Hidden.base : Hidden → String
  | .jmpBuf => "jmp_buf"
  | .cif => "ffi_cif"
  | .types => "ffi_types"
  | .closure => "ffi_closure"

/-- a field that is not a tree -/
inductive Datum where
  | str (s : Str)
  | int (v : Int)
  | float (printed : Str)
  | flag (b : Bool)
  | size (n : Nat)
  | ptr (a : Nat)
  | comp (isStruct : Bool)
  | live (printed : Str)
  | hidden (h : Hidden)

/-- the base type (c.lang:1-13) a datum belongs to -/
def Datum.base : Datum → String
  | .str _ => "string"
  | .int _ => "integer"
  | .float _ => "ffloat"
  | .flag _ => "flag"
  | .size _ => "sz"
  | .ptr _ => "ptr"
  | .comp _ => "comp_decl_type"
  | .live _ => "live_var_val"
  | .hidden h => h.base

/-- `tree_dump_…` (tree-dump-primitives.h:10-97); `dot` is `dt == DOT` -/
def Datum.print (dot : Bool) : Datum → Str
  | .str s => if dot then s else 34 :: s ++ [34]
  | .int v => decimal v
  | .float t => t
  | .flag b => if b then bytes "true" else bytes "false"
  | .size n => digits n
  | .ptr a => pointerText a
  | .comp b => if b then bytes "struct" else bytes "union"
  | .live t => t
  | .hidden _ => []

/-- a tree with what it refers to, or the content of a field; `α` are the addresses -/
inductive Obj (α : Type) where
  | null
  | data (d : Datum)
  /-- a `CHAIN_HEAD` with the trees `for_each_tree` finds -/
  | chain (a : α) (es : List (Obj α))
  /-- any other tree: its type and its fields, in the order of the properties -/
  | node (a : α) (t : TreeType) (vs : List (Obj α))

/-- `tree_print_indent` (gendump.cpp:10-15, gendot.cpp:12-17) -/
def indent (d : Nat) : Str := List.replicate (d * 2) 32

/-- `hasPrintedTree` (gendump.cpp:25, 44) -/
def hasTree (t : TreeType) : Bool := t.props.any (·.2.baseType.isTree)

/-- what stands before the name of a property (gendump.cpp:33-39) -/
def sep (d : Nat) (first : Bool) : Str := if first then [] else 10 :: indent d ++ bytes "     "

/-- what stands after the properties (gendump.cpp:52-56) -/
def closing (d : Nat) (t : TreeType) : Str := (if hasTree t then 10 :: indent d else []) ++ bytes ">"

mutual
/-- `__tree_dump_1` (gendump.cpp:17-58): the case of the type of the tree; that of `CHAIN_HEAD`
(c.lang:230) has no properties -/
def dump1 {α} (d : Nat) : Obj α → Str
  | .node _ t vs => 10 :: indent d ++ bytes "<tree " ++ bytes t.name ++ dumpProps d t true t.props vs ++ closing d t
  | .chain _ _ => 10 :: indent d ++ bytes "<tree " ++ bytes "CHAIN_HEAD" ++ bytes ">"
  | .null => []
  | .data _ => []
/-- `__tree_dump` (gendump.cpp:74-98); for a field that is not a tree the primitive (46-48) -/
def dump {α} (d : Nat) : Obj α → Str
  | .null => indent d ++ bytes "<null>\n"
  | .data x => x.print false
  | .chain _ es => 10 :: indent d ++ bytes "<chain" ++ dumpElems (d + 1) es ++ 10 :: indent d ++ bytes ">"
  | .node _ t vs => 10 :: indent d ++ bytes "<tree " ++ bytes t.name ++ dumpProps d t true t.props vs ++ closing d t
/-- the loop over a chain (gendump.cpp:89-90) -/
def dumpElems {α} (d : Nat) : List (Obj α) → Str
  | [] => []
  | e :: es => dump1 d e ++ dumpElems d es
/-- the loop over the properties (gendump.cpp:32-50) -/
def dumpProps {α} (d : Nat) (t : TreeType) (first : Bool) : List (String × Inst) → List (Obj α) → Str
  | p :: ps, v :: vs =>
    sep d first ++ bytes " " ++ bytes (t.accessor p.1) ++ bytes ": " ++ dump (d + 1) v ++ dumpProps d t false ps vs
  | _, _ => []
end

/-- `tree_dump` (gendump.cpp:100-104) -/
def treeDump {α} (o : Obj α) : Str := dump 0 o ++ bytes "\n"

/-! ## The graph -/

/-- the name of a node of the graph: `tree_%p` or `tree_%p_val` -/
inductive Id where
  | tree (a : Nat)
  | val (a : Nat)
deriving DecidableEq

/-- a line of the graph; the attributes for the looks (colours, styles) are left out, and so is the
indentation -/
inductive Stmt where
  /-- `… [label="…"];` -/
  | node (i : Id) (label : Str)
  /-- `… -> … [label="…"];` -/
  | edge (i j : Id) (label : Str)
  /-- `… -> … [ltail=…, lhead=…];` -/
  | next (i j : Id)
  /-- `subgraph cluster_…_… {` -/
  | sub (a n : Nat)
  /-- `}` -/
  | close
deriving DecidableEq

/-- the address of a tree -/
def Obj.addr : Obj Nat → Nat
  | .chain a _ => a
  | .node a _ _ => a
  | _ => 0

/-- the edge for a property that is a tree (gendot.cpp:33-44).  For a chain without elements the loop
variable is left at the chain itself (list.h:37-40). -/
def treeEdge (a : Nat) (label : Str) : Obj Nat → List Stmt
  | .chain b [] => [.edge (.tree a) (.tree b) label]
  | .chain _ (e :: _) => [.edge (.tree a) (.tree e.addr) label]
  | .node b _ _ => [.edge (.tree a) (.tree b) label]
  | .null => []
  | .data _ => []

/-- the dashed edge to the next element (gendot.cpp:91-95) -/
def nextEdge (last : Option Nat) (b : Nat) : List Stmt :=
  match last with
  | some l => [.next (.tree l) (.tree b)]
  | none => []

mutual
/-- `__tree_dump_dot_1` (gendot.cpp:19-58) -/
def dot1 : Obj Nat → List Stmt
  | .node a t vs => .node (.tree a) (bytes t.name) :: dotProps a t.props vs
  | .chain a _ => [.node (.tree a) (bytes "CHAIN_HEAD")]
  | .null => []
  | .data _ => []
/-- `__tree_dump_dot` (gendot.cpp:74-103) -/
def dot : Obj Nat → List Stmt
  | .null => []
  | .data _ => []
  | .chain a es => dotElems a none 0 es
  | .node a t vs => .node (.tree a) (bytes t.name) :: dotProps a t.props vs
/-- the loop over a chain (gendot.cpp:84-99); `last` is `last_chain`, `n` is `subgraph_no` -/
def dotElems (a : Nat) (last : Option Nat) (n : Nat) : List (Obj Nat) → List Stmt
  | [] => []
  | e :: es => .sub a n :: dot1 e ++ .close :: nextEdge last e.addr ++ dotElems a (some e.addr) (n + 1) es
/-- the loop over the properties (gendot.cpp:30-55) -/
def dotProps (a : Nat) : List (String × Inst) → List (Obj Nat) → List Stmt
  | p :: ps, v :: vs =>
    (match v with
      | .data x => [.node (.val a) (x.print true), .edge (.tree a) (.val a) (bytes p.1)]
      | v => treeEdge a (bytes p.1) v ++ dot v) ++ dotProps a ps vs
  | _, _ => []
end

/-- `tree_dump_dot` (gendot.cpp:105-112) without the first and the last lines -/
def treeDot (o : Obj Nat) : List Stmt := dot o

end Bic.Dump
