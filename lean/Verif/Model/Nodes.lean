import Verif.Model.Parser
/-!
# The objects of a syntax tree

`Rep nd` says how the trees of Model.Parser lie in the heap: each `tree_make(T_…)` of an action of
parser.m4 is one object whose fields the action sets (c.lang:1-380 lists the fields), NULL is no
object, a T_CHAIN_HEAD holds its elements in order.  Fields that no action sets are zero (`tree_make`,
tree.c:5-11; `alloc_tree`, gc.c:202-208, uses calloc): the return type of a T_FN, the offset of a T_DECL, the size of
a struct.  Several places of a tree may share an object, as the left side of `+=` does.
-/

namespace Bic.Parser
open Lexer (Str)

/-- the characters of an identifier as the evaluator sees them -/
def nameStr (s : Str) : String := String.ofList (s.map fun b => Char.ofNat b.toNat)

/-- a byte of a string literal as it lies in memory -/
def byteOf (b : Lexer.Byte) : Bic.Byte := ⟨b.toNat, b.toNat_lt⟩

/-- a tree and the reference to its object, or the trees of a chain and its elements -/
inductive Obj where
  | t (p : PT) (r : Ref)
  | l (ps : List PT) (rs : List TId)

/-- the objects of a tree (see above) -/
inductive Rep (nd : TId → Option Node) : Obj → Prop
  | null : Rep nd (.t .null none)
  | integer {v t} : nd t = some (.integer v) → Rep nd (.t (.integer v) (some t))
  | flt {s b t} : nd t = some (.flt b) → Rep nd (.t (.flt s) (some t))
  | ident {s t} : nd t = some (.ident (nameStr s)) → Rep nd (.t (.ident s) (some t))
  | str {s t} : nd t = some (.str (s.map byteOf)) → Rep nd (.t (.str s) (some t))
  | chain {ts t ls} : nd t = some (.chain ls) → Rep nd (.l ts ls) → Rep nd (.t (.chain ts) (some t))
  | nil : Rep nd (.l [] [])
  | cons {p ps t ls} : Rep nd (.t p (some t)) → Rep nd (.l ps ls) → Rep nd (.l (p :: ps) (t :: ls))
  | fnCall {f a t x y} : nd t = some (.fnCall x y) → Rep nd (.t f x) → Rep nd (.t a y) → Rep nd (.t (.fnCall f a) (some t))
  | arrAccess {f a t x y} : nd t = some (.arrAccess x y) → Rep nd (.t f x) → Rep nd (.t a y) →
      Rep nd (.t (.arrAccess f a) (some t))
  | pInc {e t x} : nd t = some (.pInc x) → Rep nd (.t e x) → Rep nd (.t (.pInc e) (some t))
  | pDec {e t x} : nd t = some (.pDec x) → Rep nd (.t e x) → Rep nd (.t (.pDec e) (some t))
  | inc {e t x} : nd t = some (.inc x) → Rep nd (.t e x) → Rep nd (.t (.inc e) (some t))
  | dec {e t x} : nd t = some (.dec x) → Rep nd (.t e x) → Rep nd (.t (.dec e) (some t))
  | compAccess {f a t x y} : nd t = some (.compAccess x y) → Rep nd (.t f x) → Rep nd (.t a y) →
      Rep nd (.t (.compAccess f a) (some t))
  | negate {e t x} : nd t = some (.negate x) → Rep nd (.t e x) → Rep nd (.t (.negate e) (some t))
  | addr {e t x} : nd t = some (.addr x) → Rep nd (.t e x) → Rep nd (.t (.addr e) (some t))
  | deref {e t x} : nd t = some (.deref x) → Rep nd (.t e x) → Rep nd (.t (.deref e) (some t))
  | onesComp {e t x} : nd t = some (.onesComp x) → Rep nd (.t e x) → Rep nd (.t (.onesComp e) (some t))
  | sizeof {e t x} : nd t = some (.sizeof x) → Rep nd (.t e x) → Rep nd (.t (.sizeof e) (some t))
  | cast {f a t x y} : nd t = some (.cast x y) → Rep nd (.t f x) → Rep nd (.t a y) → Rep nd (.t (.cast f a) (some t))
  | bin {o f a t x y} : nd t = some (.bin o x y) → Rep nd (.t f x) → Rep nd (.t a y) → Rep nd (.t (.bin o f a) (some t))
  | cmp {o f a t x y} : nd t = some (.cmp o x y) → Rep nd (.t f x) → Rep nd (.t a y) → Rep nd (.t (.cmp o f a) (some t))
  | lOr {f a t x y} : nd t = some (.lOr x y) → Rep nd (.t f x) → Rep nd (.t a y) → Rep nd (.t (.lOr f a) (some t))
  | lAnd {f a t x y} : nd t = some (.lAnd x y) → Rep nd (.t f x) → Rep nd (.t a y) → Rep nd (.t (.lAnd f a) (some t))
  | infix {c f a t z x y} : nd t = some (.infix z x y) → Rep nd (.t c z) → Rep nd (.t f x) → Rep nd (.t a y) →
      Rep nd (.t (.infix c f a) (some t))
  | assign {f a t x y} : nd t = some (.assign x y) → Rep nd (.t f x) → Rep nd (.t a y) → Rep nd (.t (.assign f a) (some t))
  | exprList {c t x} : nd t = some (.exprList x) → Rep nd (.t c x) → Rep nd (.t (.exprList c) (some t))
  | decl {f a t x y} : nd t = some (.decl x y 0) → Rep nd (.t f x) → Rep nd (.t a y) → Rep nd (.t (.decl f a) (some t))
  | kw {k t} : nd t = some (.kw k) → Rep nd (.t (.kw k) (some t))
  | compound {b f a t x y} : nd t = some (.compound x y 0 false b) → Rep nd (.t f x) → Rep nd (.t a y) →
      Rep nd (.t (.compound b f a) (some t))
  | enumr {f a t x y} : nd t = some (.enumr x y) → Rep nd (.t f x) → Rep nd (.t a y) → Rep nd (.t (.enumr f a) (some t))
  | bitfield {f a t x y} : nd t = some (.bitfield x y) → Rep nd (.t f x) → Rep nd (.t a y) →
      Rep nd (.t (.bitfield f a) (some t))
  | pointer {q e t x} : nd t = some (.pointer x) → Rep nd (.t e x) → Rep nd (.t (.pointer q e) (some t))
  | array {q f a t x y} : nd t = some (.array x y) → Rep nd (.t f x) → Rep nd (.t a y) → Rep nd (.t (.array f q a) (some t))
  | fn {d a b t x y z} : nd t = some (.fn x y none z) → Rep nd (.t d x) → Rep nd (.t a y) → Rep nd (.t b z) →
      Rep nd (.t (.fn d a b) (some t))
  | variadic {t} : nd t = some .variadic → Rep nd (.t .variadic (some t))
  | typeSpec {f a t x y} : nd t = some (.typeSpec x y) → Rep nd (.t f x) → Rep nd (.t a y) →
      Rep nd (.t (.typeSpec f a) (some t))
  | empty {t} : nd t = some .empty → Rep nd (.t .empty (some t))
  | cppInclude {s t} : nd t = some (.cppInclude (nameStr s)) → Rep nd (.t (.cppInclude s) (some t))
  | inspect {e t x} : nd t = some (.inspect x) → Rep nd (.t e x) → Rep nd (.t (.inspect e) (some t))
  | repl {t} : nd t = some .repl → Rep nd (.t .repl (some t))
  | ifS {c f a t z x y} : nd t = some (.ifS z x y) → Rep nd (.t c z) → Rep nd (.t f x) → Rep nd (.t a y) →
      Rep nd (.t (.ifS c f a) (some t))
  | whileS {f a t x y} : nd t = some (.whileS x y) → Rep nd (.t f x) → Rep nd (.t a y) → Rep nd (.t (.whileS f a) (some t))
  | forS {i c a b t x y z w} : nd t = some (.forS x y z w) → Rep nd (.t i x) → Rep nd (.t c y) → Rep nd (.t a z) →
      Rep nd (.t b w) → Rep nd (.t (.forS i c a b) (some t))
  | brk {t} : nd t = some .brk → Rep nd (.t .brk (some t))
  | ret {e t x} : nd t = some (.ret x) → Rep nd (.t e x) → Rep nd (.t (.ret e) (some t))

end Bic.Parser
