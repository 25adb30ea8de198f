import Verif.Model.ListC
/-!
# The REPL's text handling (repl.c) and completion

C strings are lists of bytes without the final NUL.  `malloc`, `calloc` and `strdup`
always succeed.  Not modelled: readline, the process structure of `bic_completion`
(repl.c:269-328) other than the pipe, parsing.
-/

namespace Bic.Repl

abbrev Byte := UInt8
abbrev Str := List Byte

def dot : Byte := 46
def minus : Byte := 45
def greater : Byte := 62
def newline : Byte := 10

/-! ## Splitting member accesses -/

/-- `strstr(s, "->")` is not NULL -/
def hasArrow : Str → Bool
  | a :: b :: s => (a == minus && b == greater) || hasArrow (b :: s)
  | _ => false

/-- the loop of `is_compound_access` (repl.c:55-62), from `i` down to 1 -/
def icaLoop (text : Str) : Nat → Bool
  | 0 => false
  | i + 1 =>
    if text.getD (i + 1) 0 = dot then true
    else if hasArrow (text.drop (i + 1)) then true
    else icaLoop text i

/-- `is_compound_access` (repl.c:48-65) -/
def isCompoundAccess (text : Str) : Bool :=
  if text.length < 2 then false else icaLoop text (text.length - 1)

/-- `struct completion_comp_access` (repl.c:67-73) -/
structure CompAccess where
  obj : Str
  op : Str
  mem : Str
  deref : Bool
deriving DecidableEq, Repr

/-- the loop of `split_compound_access_text` (repl.c:82-104), from `i` down to 1; `text[i]` at
the length of the text is the final NUL -/
def splitLoop (text : Str) : Nat → Option CompAccess → Option CompAccess
  | 0, acc => acc
  | i + 1, acc =>
    if text.getD (i + 1) 0 = dot then some ⟨text.take (i + 1), [dot], text.drop (i + 2), false⟩
    else if hasArrow (text.drop (i + 1)) then
      splitLoop text i (some ⟨text.take (i + 1), [minus, greater], text.drop (i + 3), true⟩)
    else splitLoop text i acc

/-- `split_compound_access_text` (repl.c:75-110) -/
def split (text : Str) : Option CompAccess := splitLoop text text.length none

/-- the text `get_compound_completion_object` (repl.c:112-124) parses: `obj;` or `*(obj);` -/
def objectText (c : CompAccess) : Str :=
  (if c.deref then [42, 40] ++ c.obj ++ [41] else c.obj) ++ [59]

/-! ## Sending matches through a pipe -/

/-- a `size_t` in memory -/
def encodeSize (n : Nat) : List Byte :=
  [n, n / 256, n / 256 ^ 2, n / 256 ^ 3, n / 256 ^ 4, n / 256 ^ 5, n / 256 ^ 6, n / 256 ^ 7].map UInt8.ofNat

def decodeSize (bs : List Byte) : Nat := bs.foldr (fun b n => b.toNat + 256 * n) 0

/-- the writes of `send_matches` (repl.c:217-238); the list is what precedes the NULL in `matches`.
A NULL `matches` is sent like an empty array. -/
def send (matches' : List Str) : List (List Byte) :=
  encodeSize matches'.length :: matches'.flatMap fun m => [encodeSize (m.length + 1), m ++ [0]]

/-- a write that has not been read completely; `atomic`: it was of at most PIPE_BUF bytes -/
structure Write where
  atomic : Bool
  data : List Byte

/-- 4096 on Linux -/
def pipeBuf : Nat := 4096

/-- the pipe after the writes (the child writes, the parent reads; POSIX, `write`: writes of at
most PIPE_BUF bytes are atomic) -/
def pipe (ws : List (List Byte)) : List Write := ws.map fun w => ⟨decide (w.length ≤ pipeBuf), w⟩

/-- `Read p k bs p'`: `read(fd, buf, k)` on the pipe `p` may put the bytes `bs` into the buffer
and leave `p'`.  It may return fewer bytes than wanted: when later writes have not
happened yet, or when only a part of a long write has. -/
inductive Read : List Write → Nat → List Byte → List Write → Prop
  /-- nothing wanted -/
  | zero {p} : Read p 0 [] p
  /-- all writers have closed the pipe -/
  | eof {k} : Read [] k [] []
  /-- a part of the next write, or all of it -/
  | part {w ws k bs rest} : bs ≠ [] → bs.length ≤ k → bs ++ rest = w.data →
      (w.atomic = true → bs.length = min k w.data.length) →
      Read (w :: ws) k bs (if rest = [] then ws else ⟨w.atomic, rest⟩ :: ws)
  /-- all of the next write and something of what follows -/
  | more {w ws k bs p} : w.data.length < k → Read ws (k - w.data.length) bs p →
      Read (w :: ws) k (w.data ++ bs) p

/-- the buffer of `k` bytes after the read; what was not read is whatever was there -/
def ReadBuf (p : List Write) (k : Nat) (buf : List Byte) (p' : List Write) : Prop :=
  ∃ bs junk, Read p k bs p' ∧ buf = bs ++ junk ∧ buf.length = k

/-- the loop of `recieve_matches` (repl.c:253-261) with `n` rounds to go, and the buffers filled -/
inductive RecvLoop : Nat → List Write → List (List Byte) → Prop
  | done {p} : RecvLoop 0 p []
  | next {n p b p1 m p2 ms} : ReadBuf p 8 b p1 → ReadBuf p1 (decodeSize b) m p2 → RecvLoop n p2 ms →
      RecvLoop (n + 1) p (m :: ms)

/-- `recieve_matches` (repl.c:240-267); `none` is NULL.  The loop counter is an int, more
than 2^31 - 1 matches are undefined behaviour: no result. -/
inductive Receive (p : List Write) : Option (List (List Byte)) → Prop
  | null {b p1} : ReadBuf p 8 b p1 → decodeSize b = 0 → Receive p none
  | some {b p1 ms} : ReadBuf p 8 b p1 → decodeSize b ≠ 0 → decodeSize b < 2 ^ 31 → RecvLoop (decodeSize b) p1 ms →
      Receive p (some ms)

/-! ## The last line of the preprocessor's output -/

/-- the `do` loop of `run_cpp_on_line` (repl.c:348-356) with the file at the position; `none` is the
exit after the failing `fseek`; the result is the position and `line_len` -/
def cppLoop (f : Str) : Nat → Nat → Option (Nat × Nat)
  | p + 2, len =>
    if f.getD p 0 ≠ newline ∧ p + 1 - 1 ≠ 0 then cppLoop f (p + 1) (len + 1) else some (p + 1, len + 1)
  | _, _ => none

/-- `run_cpp_on_line` (repl.c:336-369) on the output of the preprocessor; `fgetc` at the end of
the file gives EOF, as a char 255 -/
def runCppOnLine (f : Str) : Option Str :=
  match cppLoop f f.length 0 with
  | some (pos, len) => some ((List.range len).map fun i => f.getD (pos - 1 + i) 255)
  | none => none

/-! ## Completion of identifiers -/

open ListC

/-- The trees completion looks at: `left` gives the identifier of a map entry (tEMAP_LEFT), `str`
the text of an identifier (tID_STR). -/
structure Ids where
  left : Nat → Nat
  str : Nat → Str

/-- the loop of `match_identifiers_for_idmap` (repl.c:136-147): `list_for_each` over the map while
identifiers are put into `chain`.  `none`: NULL is dereferenced, or the loop has not
ended after `fuel` rounds. -/
def matchLoop (ids : Ids) (chain : Nat) (pre : Str) (map : Nat) : Nat → Ptr → Heap → Option Heap
  | 0, _, _ => none
  | _ + 1, none, _ => none
  | n + 1, some i, h =>
    if i = map then some h
    else
      -- strncmp(tID_STR(id), prefix, strlen(prefix)) == 0
      (if (ids.str (ids.left i)).take pre.length = pre then treeChain (ids.left i) chain h else some h) >>= fun h =>
        matchLoop ids chain pre map n (h.next i) h

/-- `match_identifiers_for_idmap(chain, idmap, prefix)` (repl.c:136-147) -/
def matchIds (ids : Ids) (chain map : Nat) (pre : Str) (fuel : Nat) (h : Heap) : Option Heap :=
  matchLoop ids chain pre map fuel (h.next map) h

/-- `find_global_identifiers` (evaluate.c:211-226): `maps` are the identifier maps of the current
scope, its parents, and the scope of the headers if there is one; `chain` is the new
CHAIN_HEAD -/
def findGlobal (ids : Ids) (chain : Nat) (maps : List Nat) (pre : Str) (fuel : Nat) (h : Heap) : Option Heap := do
  let h ← treeMake chain h
  maps.foldlM (fun h m => matchIds ids chain m pre fuel h) h

/-- `create_matches_array` (repl.c:149-190); `none` is NULL, otherwise the strings before the
final NULL -/
def createMatches (original : Str) (names : List Str) : Option (List Str) :=
  match names with
  | [] => none
  | [x] => some [x]
  | _ => some (original :: names)

/-- `do_identifier_completion` (repl.c:210-215).  `none`: no result; `some none` is NULL. -/
def complete (ids : Ids) (chain : Nat) (maps : List Nat) (text : Str) (fuel : Nat) (h : Heap) :
    Option (Heap × Option (List Str)) := do
  let h ← findGlobal ids chain maps text fuel h
  let l ← forEach h chain fuel
  pure (h, createMatches text (l.map ids.str))

end Bic.Repl
