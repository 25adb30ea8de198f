import Verif.Model.LangGen
/-!
# The generators of `ctypes.def` and `ffi-types.c`

Model of `outputTreeDefCtype` (`/repo/src/genctypes.cpp:3-21`) and `outputFFITypes`
(`/repo/src/genffitypes.cpp:3-31`): the texts they write for a description.  Not modelled: `main` and
`usage` of both programs, failing `fopen` and `fprintf`.
-/

namespace Bic.LangGen

/-- the comment at the top of `ctypes.def` (genctypes.cpp:7-11) -/
def ctypesHead : List Char :=
  ("/*\n" ++
   " * ctypes.def - C type definition for the `tree' structure.\n" ++
   " *\n" ++
   " * Automatically generated by genctypes. DO NOT EDIT.\n" ++
   " */\n\n").toList

/-- one line of `ctypes.def` (genctypes.cpp:13-17) -/
def CType.defLine (c : CType) : List Char :=
  "DEFCTYPE(".toList ++ (c.tree.name.toList ++ (", \"".toList ++ (c.tree.friendly.toList ++ ("\", ".toList ++ (c.ctype.toList ++
    (", ".toList ++ (c.format.toList ++ (", ".toList ++ (c.member.toList ++ ")\n".toList)))))))))

/-- `outputTreeDefCtype` (genctypes.cpp:3-21) -/
def Lang.ctypesDef (l : Lang) : List Char := ctypesHead ++ l.treeCTypes.flatMap CType.defLine

/-- the text before the cases of `ffi-types.c` (genffitypes.cpp:7-16) -/
def ffiHead : List Char :=
  ("/*\n" ++
   " * ffi-types.c - match a tree ctype to an ffi type.\n" ++
   " *\n" ++
   " * automatically generated by genffitypes. do not edit.\n" ++
   " */\n\n" ++
   " #include \"ffi-types.h\"\n" ++
   "\n" ++
   "ffi_type *get_ffi_type(enum tree_type ctype)\n" ++
   "{\n" ++
   "    switch(ctype) {\n").toList

/-- one case of `get_ffi_type` (genffitypes.cpp:18-20) -/
def CType.ffiCase (c : CType) : List Char :=
  "    case ".toList ++ (c.tree.name.toList ++ (":\n        return &".toList ++ (c.ffi.toList ++ ";\n".toList)))

/-- the text behind the cases (genffitypes.cpp:22-26) -/
def ffiTail : List Char :=
  ("    default:\n" ++
   "         fprintf(stderr, \"Error: could not resolve ctype into ffi type.\\n\");\n" ++
   "         exit(1);\n" ++
   "    }\n" ++
   "}\n").toList

/-- `outputFFITypes` (genffitypes.cpp:3-31) -/
def Lang.ffiTypes (l : Lang) : List Char := ffiHead ++ (l.treeCTypes.flatMap CType.ffiCase ++ ffiTail)

end Bic.LangGen
