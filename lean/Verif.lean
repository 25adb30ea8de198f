import Verif.Model.Eval
import Verif.Model.Build
import Verif.Spec.Bits
import Verif.Proofs.Evol
import Verif.Proofs.Decl
import Verif.Props.Expr
import Verif.Props.Assign
import Verif.Props.Steps
import Verif.Props.Scope
import Verif.Props.Pointers
import Verif.Props.Structs
import Verif.Props.Specifiers
import Verif.Props.Lists
import Verif.Props.Control
import Verif.Props.Prog
import Verif.Props.Calls
import Verif.Props.Static
import Verif.Props.Redecl
import Verif.Props.Enum
import Verif.Props.Typename
import Verif.Props.ReplText
import Verif.Props.Pipe
import Verif.Props.Complete
import Verif.Props.Lexical
import Verif.Props.Literals
import Verif.Props.ExtCall
import Verif.Props.Script
import Verif.Props.LangGen
import Verif.Props.Clang
import Verif.Props.Lazy
import Verif.Props.PtrAssign
import Verif.Props.Grammar
import Verif.Props.Source
import Verif.Props.Text
import Verif.Props.ScriptText
import Verif.Props.Attribute
import Verif.Props.Errors
import Verif.Props.Procs
import Verif.Props.ScriptProcs
import Verif.Props.VoidList
import Verif.Props.Dialogue
import Verif.Props.ReplTypedef
import Verif.Props.ReplErrors
import Verif.Props.CastConst
import Verif.Props.Incomplete
import Verif.Props.PrintValue
import Verif.Props.Inspect
import Verif.Props.Preprocess
import Verif.Props.StructText
import Verif.Props.EnumText
import Verif.Props.StructDialogue
import Verif.Props.ArrayDialogue
import Verif.Props.PtrDialogue
import Verif.Props.Startup
import Verif.Props.Library
import Verif.Props.Headers
import Verif.Props.StaticLine
import Verif.Props.StrDialogue
import Verif.Props.TypedefPtr
import Verif.Props.Dump
import Verif.Props.PtrArith
import Verif.Props.FnPtr
import Verif.Props.Extern
import Verif.Props.Arrow
import Verif.Props.Links
import Verif.Props.Forward
import Verif.Props.Retag
import Verif.Props.StructAssign
import Verif.Props.TypedefStruct
import Verif.Props.CTypesGen
import Verif.Props.Proto
import Verif.Props.Builtin
import Verif.Props.ArrayTypes
import Verif.Props.Bits
import Verif.Props.HeaderFail
import Verif.Spec.AbstractDecl
import Verif.Props.AbstractDecl
import Verif.Model.Several
import Verif.Model.InspectLine
import Verif.Props.Several
import Verif.Props.InspectLine
import Verif.Props.ForDecl
import Verif.Props.ForParts
import Verif.Props.InitList
import Verif.Props.FloatAssign
import Verif.Props.FloatOps
import Verif.Props.FloatCast
import Verif.Props.FloatStep
import Verif.Props.TypedExpr
import Verif.Props.TypedAssign
import Verif.Props.TypedProg
import Verif.Props.TypedDialogue
import Verif.Props.TypedOne
import Verif.Props.TypedWide
import Verif.Props.Gc
