import Verif.Model.LangGen
/-!
# Language descriptions as a tree

What a description says, independently of how it is read.
-/

namespace Bic.LangGen.Spec

/-- what a property is: a tree, or an object of a base type -/
inductive Kind where
  | tree
  | data (base : String)
deriving DecidableEq

/-- a property: `"name"` or `("name" base)` -/
structure PropDecl where
  name : String
  kind : Kind
deriving DecidableEq

/-- the properties of a type: the prefix of the accessors and the list -/
structure Body where
  pre : String
  props : List PropDecl
deriving DecidableEq

inductive Form where
  /-- `(defbasetypes (name "C type") …)` -/
  | base (l : List (String × String))
  /-- `(deftype name "friendly" ["prefix" (…)])` -/
  | type (name friendly : String) (body : Option Body)
  /-- `(defctype name "friendly" "ctype" "format" "member" ffi ["prefix" (…)])` -/
  | ctype (name friendly c fmt mem ffi : String) (body : Option Body)
  /-- `(defspecifier type ((…) …))` -/
  | spec (type : String) (lists : List (List String))
  | ignore (x : String)
  | self (x : String)

/-! ## How it is written -/

def baseToks : List (String × String) → List Tok
  | [] => [.rp]
  | (n, t) :: l => .lp :: .ident n :: .str t :: .rp :: baseToks l

def propToks : List PropDecl → List Tok
  | [] => [.rp]
  | ⟨n, .tree⟩ :: l => .str n :: propToks l
  | ⟨n, .data k⟩ :: l => .lp :: .str n :: .ident k :: .rp :: propToks l

def bodyToks : Option Body → List Tok
  | none => [.rp]
  | some b => .str b.pre :: .lp :: (propToks b.props ++ [.rp])

def listToks (l : List String) : List Tok := .lp :: (l.map Tok.ident ++ [.rp])

def Form.toks : Form → List Tok
  | .base l => .lp :: .defbasetypes :: baseToks l
  | .type n fr b => .lp :: .deftype :: .ident n :: .str fr :: bodyToks b
  | .ctype n fr c fmt mem ffi b => .lp :: .defctype :: .ident n :: .str fr :: .str c :: .str fmt :: .str mem :: .ident ffi :: bodyToks b
  | .spec n ls => .lp :: .defspecifier :: .ident n :: .lp :: (ls.flatMap listToks ++ [.rp, .rp])
  | .ignore x => [.lp, .defspecifier, .ignore, .ident x, .rp]
  | .self x => [.lp, .defspecifier, .self, .ident x, .rp]

/-! ## What it says -/

/-- the base types a description declares, in order -/
def bases (d : List Form) : List (String × String) := d.flatMap fun f => match f with | .base l => l | _ => []

/-- the C type of a kind of property: of two declarations of a base type the first counts -/
def cType (d : List Form) : Kind → Option String
  | .tree => some "tree"
  | .data k => (bases d).lookup k

/-- the types with properties a description declares: name, prefix, properties -/
def types (d : List Form) : List (String × Body) :=
  d.filterMap fun f => match f with
    | .type n _ (some b) => some (n, b)
    | .ctype n _ _ _ _ _ (some b) => some (n, b)
    | _ => none

/-- the kind of the property `p`: of two declarations of a property the first counts -/
def kindOf (b : Body) (p : String) : Option Kind := (b.props.find? (·.name = p)).map (·.kind)

end Bic.LangGen.Spec
