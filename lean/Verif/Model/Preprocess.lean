import Verif.Model.Lexer
/-!
# Running the preprocessor (preprocess.c)

Not modelled: making temporary files, failing system calls, the preprocessor itself.
-/

namespace Bic.Preprocess

open Bic.Lexer (Str bytes)

/-- a buffer of `cap` bytes that holds a string -/
structure Buf where
  cap : Nat
  str : Str

/-- `malloc(n)` and `buf[0] = '\0'` (60-61, 68-69); `none` if there is no room for the NUL -/
def Buf.new (n : Nat) : Option Buf := if 0 < n then some ⟨n, []⟩ else none

/-- `strcat`; `none` is a write behind the end of the buffer -/
def strcat (b : Buf) (s : Str) : Option Buf := if b.str.length + s.length + 1 ≤ b.cap then some ⟨b.cap, b.str ++ s⟩ else none

/-- the first loop over `include_dirs` (57-58), with `size_t` arithmetic -/
def includeLen : List Str → Nat → Nat
  | [], n => n
  | d :: ds, n => includeLen ds ((n + (d.length + 4) % 2 ^ 64) % 2 ^ 64)

/-- the second loop (63-66) -/
def catDirs : List Str → Buf → Option Buf
  | [], b => some b
  | d :: ds, b => do
    let b ← strcat b (bytes " -I ")
    let b ← strcat b d
    catDirs ds b

/-- `include_dir_opts` (54-70); `dirs` is `include_dirs`, `none` if it is NULL -/
def includeDirOpts : Option (List Str) → Option Str
  | some ds => do
    let b ← Buf.new ((includeLen ds 0 + 1) % 2 ^ 64)
    let b ← catDirs ds b
    pure b.str
  | none => do
    let b ← Buf.new 1
    pure b.str

/-- the command (72-73) -/
def command (opts dirOpts cppFile outFile : Str) : Str :=
  bytes "gcc " ++ opts ++ bytes " " ++ dirOpts ++ bytes " " ++ cppFile ++ bytes " > " ++ outFile

/-- what is written to the file (44-52) -/
def fileText (includes : List Str) (line : Option Str) : Str :=
  includes.foldl (fun t i => t ++ i ++ bytes "\n") [] ++ line.getD []

/-- `preprocessor_add_include_dir` (100-112) -/
def addIncludeDir (dirs : Option (List Str)) (d : Str) : Option (List Str) := some (dirs.getD [] ++ [d])

end Bic.Preprocess
