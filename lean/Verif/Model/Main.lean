/-!
# The command line, `/repo/src/main.c`

Line numbers refer to `/repo/src/main.c`.  Words are lists of characters.
-/

namespace Bic.Script

abbrev Word := List Char

/-- what `getopt` finds in one word `-…` -/
inductive Opt where
  /-- only flags without a value -/
  | flags
  /-- an option with a value: the option, the value, whether the value is the next word -/
  | value (c : Char) (a : Word) (separate : Bool)
  /-- `exit(n)` -/
  | exit (n : Nat)

/-- One word with options: `getopt(argc, argv, "vTDl:s:I:")` (105) together with the
`switch` (106-136) for the options without a value.  `cs` are the characters after the
dash still to be read, `next` is the next word.  An option without its value and an
unknown option give `?` (133-135). -/
def readWord (next : Option Word) : Word → Opt
  | [] => .flags
  | c :: cs =>
    if c = 'v' then .exit 0
    else if c = 'T' ∨ c = 'D' then readWord next cs
    else if c = 'l' ∨ c = 's' ∨ c = 'I' then
      match cs with
      | _ :: _ => .value c cs false
      | [] =>
        match next with
        | some a => .value c a true
        | none => .exit 1
    else .exit 1

/-- how `parse_args` ends -/
inductive Cmd where
  /-- the script and the `optind` that is returned -/
  | script (name : Word) (optind : Nat)
  /-- no script: the REPL is started -/
  | repl
  | exit (n : Nat)

/-- `parse_args` (101-140).  The words from index `i` on are read; `skip` says that the
first of them is the value of an option.  Words that are not options are passed over;
that `getopt` moves them behind the options later does not concern the words from
`optind` on.  (`POSIXLY_CORRECT` is taken not to be set.)  `libOk` says which libraries
can be opened (107-114). -/
def parseArgs (libOk : Word → Bool) : Bool → List Word → Nat → Cmd
  | _, [], _ => .repl
  | true, _ :: ws, i => parseArgs libOk false ws (i + 1)
  | false, w :: ws, i =>
    match w with
    | '-' :: c :: cs =>
      if c = '-' ∧ cs = [] then .repl
      else
        match readWord ws.head? (c :: cs) with
        | .flags => parseArgs libOk false ws (i + 1)
        | .exit n => .exit n
        | .value o a sep =>
          if o = 's' then .script a (if sep then i + 2 else i + 1)
          else if o = 'l' ∧ libOk a = false then .exit 1
          else parseArgs libOk sep ws (i + 1)
    | _ => parseArgs libOk false ws (i + 1)

/-- `main` (144-165): the script and the arguments `evaluate_cscript` receives, `argv`
being the words of the command line (`argv[0]` is the name of the program). -/
def runScript (libOk : Word → Bool) (argv : List Word) : Option (Word × List Word) :=
  match parseArgs libOk false argv.tail 1 with
  | .script f optind => some (f, argv.drop (optind - 1))
  | _ => none

end Bic.Script
