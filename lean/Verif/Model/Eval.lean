import Verif.Model.Gmp
import Verif.Model.Tree
import Verif.Model.Spec
/-!
# The evaluator, `/repo/src/evaluate.c`

Line numbers without a file name refer to `/repo/src/evaluate.c`.  Functions are
written in the order of their dependencies.  Recursive calls go through a record
`Rec` of the functions that take part in the recursion; `run` ties the knot with
a fuel index, `Out.fuel` being its own outcome.
-/

namespace Bic

/-! ## Access to tree objects -/

/-- read a tree object -/
def node (t : TId) : M Node := fun s =>
  match s.nodes t with
  | some n => .ok n s
  | none => .stop (.ub "dangling tree") s

/-- `TYPE(t)` and field access through a pointer: NULL is a crash. -/
def nodeR : Ref → M Node
  | none => ub "NULL tree dereferenced"
  | some t => node t

/-- `is_T_X(t)` style tests (tree.h:170-181): NULL is "no". -/
def peek : Ref → M (Option Node)
  | none => pure none
  | some t => do pure (some (← node t))

/-- overwrite a tree object in place -/
def setNode (t : TId) (n : Node) : M Unit :=
  modify fun s => { s with nodes := fun x => if x = t then some n else s.nodes x }

/-- `tree_make` (tree.c:5-11) followed by setting the fields. -/
def mk (n : Node) : M TId := fun s =>
  .ok s.next { s with nodes := (fun x => if x = s.next then some n else s.nodes x),
                      next := s.next + 1 }

/-- a new T_INTEGER -/
def mkInt (v : Int) : M Ref := do pure (some (← mk (.integer v)))

/-- elements visited by `for_each_tree(i, t)` (tree.h:153-155): nothing for NULL,
the elements for a CHAIN_HEAD, nothing for a tree that is not in a chain. -/
def chainElems (r : Ref) : M (List TId) := do
  match ← peek r with
  | some (.chain es) => pure es
  | _ => pure []

/-! ## Memory -/

/-- read `n` bytes at `a` -/
def loadRaw (n a : Nat) : M Nat := fun s =>
  if s.mem.ok n a then .ok (s.mem.load n a) s else .stop (.ub "invalid read") s

/-- write `n` bytes at `a` -/
def storeRaw (n a v : Nat) : M Unit := fun s =>
  if s.mem.ok n a then .ok () { s with mem := s.mem.store n a v }
  else .stop (.ub "invalid write") s

/-- `malloc`; its result is used unchecked everywhere (e.g. 296), so failure is a
crash. -/
def mallocM (n : Nat) : M Nat := fun s =>
  match s.mem.malloc n with
  | some (a, m) => .ok a { s with mem := m }
  | none => .stop (.ub "malloc failed") s

/-! ## Contexts (50-118) -/

/-- the current context; there always is one after `eval_init` -/
def curCtx : M Ctx := fun s =>
  match s.ctxs with
  | c :: _ => .ok c s
  | [] => .stop (.ub "no context") s

/-- modify the current context -/
def modCur (f : Ctx → Ctx) : M Unit := fun s =>
  match s.ctxs with
  | c :: cs => .ok () { s with ctxs := f c :: cs }
  | [] => .stop (.ub "no context") s

/-- `pop_ctx` (54-64) -/
def popCtx : M Unit := fun s =>
  match s.ctxs with
  | _ :: c :: cs => .ok () { s with ctxs := c :: cs }
  | _ => .stop (.exit 1) s

/-- `push_ctx` (66-83) -/
def pushCtx (name : String) : M Unit := fun s =>
  .ok () { s with
    ctxs := { uid := s.nextUid, name, ids := [], structs := [], unions := [], allocs := [],
              retval := none, shouldBreak := false, isFn := false } :: s.ctxs,
    nextUid := s.nextUid + 1 }

/-- `track_alloc` (85-94): the E_ALLOC chain is the list of addresses. -/
def trackAlloc (a : Nat) : M Unit :=
  modCur fun c => { c with allocs := c.allocs ++ [a] }

/-! ## Identifiers (120-289) -/

/-- `tID_STR`; on a tree that is not an identifier it reads a foreign field. -/
def idStr (r : Ref) : M String := do
  match ← nodeR r with
  | .ident s => pure s
  | _ => ub "tID_STR of non-identifier"

/-- `__resolve_id` (128-137): first mapping with that name. -/
def findId (name : String) : List Binding → Ref
  | [] => none
  | b :: bs => if b.name = name then b.val else findId name bs

/-- `enum idmap_type` (121-126). -/
inductive NS where
  | normal | struct | union
deriving DecidableEq, Repr

/-- the map selected in `resolve_id` (139-157) -/
def Ctx.map (c : Ctx) : NS → List Binding
  | .normal => c.ids
  | .struct => c.structs
  | .union => c.unions

/-- the walk over `cur_ctx` and its parents (168-177) -/
def findInChain (name : String) (ns : NS) : List Ctx → Ref
  | [] => none
  | c :: cs =>
    match findId name (c.map ns) with
    | some t => some t
    | none => findInChain name ns cs

/-- `__resolve_identifier` with SCOPE_GLOBAL (159-188) -/
def resolveGlobal (name : String) (ns : NS) (s : St) : Ref :=
  match findInChain name ns s.ctxs with
  | some t => some t
  | none =>
    match s.includeCtx with
    | some c => findId name (c.map ns)
    | none => none

/-- `__resolve_identifier` with SCOPE_CURRENT_CTX (163-164) -/
def resolveCurrent (name : String) (ns : NS) (s : St) : Ref :=
  match s.ctxs with
  | c :: _ => findId name (c.map ns)
  | [] => none

/-- `resolve_identifier(id, SCOPE_GLOBAL)` (190-194) -/
def resolveIdG (id : Ref) : M Ref := do
  let n ← idStr id
  pure (resolveGlobal n .normal (← get))

/-- `resolve_identifier(id, SCOPE_CURRENT_CTX)` (190-194) -/
def resolveIdC (id : Ref) : M Ref := do
  let n ← idStr id
  pure (resolveCurrent n .normal (← get))

/-- the name space of a compound declaration (203-206) -/
def compNS (isStruct : Bool) : NS := if isStruct then .struct else .union

/-- append a mapping to a name space of the current context
(`__map_identifer`, 228-239; non-identifiers die) -/
def mapIn (ns : NS) (id : Ref) (val : Ref) : M Unit := do
  match id with
  | none => ub "NULL tree dereferenced"
  | some i =>
    match ← node i with
    | .ident s =>
      let b : Binding := { name := s, id := i, val := val }
      modCur fun c =>
        match ns with
        | .normal => { c with ids := c.ids ++ [b] }
        | .struct => { c with structs := c.structs ++ [b] }
        | .union => { c with unions := c.unions ++ [b] }
    | _ => die "Attempted to map non-identifier"

/-- `map_identifier` (257-264).  Simplification: for a tree that is not an
identifier the name comparison reads a foreign field; the model calls this `ub`
also when the map is empty (where the code dies). -/
def mapIdentifier (id : Ref) (val : Ref) : M Unit := do
  match ← resolveIdC id with
  | some _ => die "Attempted to map already existing identifier"
  | none => mapIn .normal id val

/-- `eval_identifier` (278-289) -/
def evalIdentifier (t : TId) : M Ref := do
  match ← resolveIdG (some t) with
  | some o => pure (some o)
  | none => die "Could not resolve identifier"

/-! ## Live variables (291-360) -/

/-- `sizeof(union value)` (tree.h:53-58): the size of `long double`. -/
def unionValueSize : Nat := 16

/-- `make_live_var` (291-307) -/
def makeLiveVar (ty : Ref) : M TId := do
  let a ← mallocM unionValueSize
  let t ← mk (.lv ty a false 0)
  trackAlloc a
  pure t

/-- fields of a T_LIVE_VAR: type and address of the value -/
def lvFields (t : TId) : M (Ref × Nat) := do
  match ← node t with
  | .lv ty a _ _ => pure (ty, a)
  | _ => ub "live variable field of another tree"

/-- `TYPE(tLV_TYPE(var))` as a C type; `none` if it is another tree type -/
def typeOf (ty : Ref) : M (Option CT) := do
  match ← nodeR ty with
  | .ctype c _ => pure (some c)
  | _ => pure none

/-- `make_int_from_live_var` (309-336) -/
def makeIntFromLV (t : TId) : M Ref := do
  let (ty, a) ← lvFields t
  match ← typeOf ty with
  | some c =>
    if c.isInt || c = .ptr then do
      let raw ← loadRaw c.size a
      mkInt (toPtrdiff (c.decode raw))
    else die "Could not create integer type from live var."
  | none => die "Could not create integer type from live var."

/-- the idiom `if (is_T_LIVE_VAR(x)) x = make_int_from_live_var(x);` -/
def liveToInt (r : Ref) : M Ref := do
  match r with
  | none => pure none
  | some t =>
    match ← node t with
    | .lv _ _ _ _ => makeIntFromLV t
    | _ => pure (some t)

/-- the idiom `if (!is_T_INTEGER(x)) eval_die(…)`, yielding `tINT_VAL(x)` -/
def asInteger (r : Ref) (msg : String) : M Int := do
  match ← peek r with
  | some (.integer v) => pure v
  | _ => die msg

/-! ## Recursion scheme -/

/-- The mutually recursive functions of the evaluator. -/
structure Rec where
  /-- `__evaluate_1` (2635-2713) -/
  ev : Ref → M Ref
  /-- the `do … while (1)` of `eval_loop_while` (2013-2034) -/
  loopWhile : Ref → Ref → M Ref
  /-- the `do … while (1)` of `eval_loop_for` (1983-2006) -/
  loopFor : Ref → Ref → Ref → M Ref
  /-- `resolve_ptr_type` (evaluate.h:6-14) -/
  resolvePtr : Ref → Ref → M (Ref × Ref)
  /-- `handle_declarator` (743-821) -/
  handleDecl : Ref → Ref → M Ref
  /-- `map_typedef` (823-854) -/
  mapTypedef : Ref → Ref → M Ref
  /-- `instantiate_struct` (706-720) -/
  instStruct : Ref → Nat → M TId
  /-- `get_alignment_for_type` (2125-2169) -/
  alignment : Ref → M Nat

section
variable (E : Env) (R : Rec)

/-- `convert_to_comparable_type` (338-361); the result's `tINT_VAL`. -/
def convComparable (t : Ref) : M Int := do
  match ← R.ev t with
  | none => ub "TYPE of NULL"
  | some e =>
    match ← node e with
    | .integer v => pure v
    | .lv ty _ _ _ =>
      match ← typeOf ty with
      | some c =>
        if c.isInt || c = .ptr then do
          let r ← makeIntFromLV e
          asInteger r "unreachable"
        else die "Could not convert live var type to comparable type"
      | none => die "Could not convert live var type to comparable type"
    | _ => die "Could not convert type to comparable type"

/-! ## Sizes and declarations -/

/-- `get_size_of_type` (241-255) -/
def getSizeOfType (ty : Ref) : M Nat := do
  match ← peek ty with
  | some (.compound _ _ (sz + 1) _ _) => pure (sz + 1)
  | _ => do
    let szof ← mk (.sizeof ty)
    match ← R.ev (some szof) with
    | none => ub "tLV_VAL of NULL"
    | some r =>
      let (_, a) ← lvFields r
      loadRaw 8 a

/-- `get_array_size` (608-622); `szRef` is `tARRAY_SZ(array_decl)`.  `size_t`
arithmetic. -/
def getArraySize (szRef : Ref) (base : Ref) : M Nat := do
  let each ← getSizeOfType R base
  let n ← R.ev szRef
  let n ← liveToInt n
  let v ← asInteger n "Attempted to create array with non-constant size"
  pure ((each * mpzGetUi v) % 2 ^ 64)

/-- `instantiate_array` (624-646); `d` is `tARRAY_DECL(array_decl)`. -/
def instantiateArray (d : Ref) (base : Ref) (mem length : Nat) : M TId := do
  let p ← mk (.ctype .ptr none)
  match ← peek d with
  | some (.ident _) => do
    setNode p (.ctype .ptr base)
    let t ← makeLiveVar (some p)
    let (ty, a) ← lvFields t
    storeRaw 8 a mem
    setNode t (.lv ty a true length)
    pure t
  | _ => die "Unknown array name type"

/-- one element of the loop of the generated `resolve_decl_specs_to_type`
(genspecresolver.cpp:28-92): `ident`, `compound`, `enumerator` specifiers are
returned as they are. -/
def resolveSpecsLoop : Nat → List TId → M Ref
  | bs, [] =>
    match switchBits clangTable clangKeys bs with
    | some (.c c) => do pure (some (← mk (.ctype c none)))
    | some .void => do pure (some (← mk .void))
    | none => die "Unknown combination of declaration specifiers"
  | bs, t :: ts => do
    match ← node t with
    | .kw k =>
      if ignoredSpec k then resolveSpecsLoop bs ts
      else match addSpec clangTable clangKeys bs k with
        | some bs' => resolveSpecsLoop bs' ts
        | none => die "bad specifier"
    | .ident _ => pure (some t)
    | .compound _ _ _ _ _ => pure (some t)
    | .enumr _ _ => pure (some t)
    | _ => die "unknown type specifier found in specifier list"

/-- `resolve_decl_specs_to_type` -/
def resolveSpecs (specs : Ref) : M Ref := do
  resolveSpecsLoop 0 (← chainElems specs)

/-- `chain_has_T_X` for a keyword specifier (tree.h:183-199) -/
def chainHasKw (k : Kw) : List TId → M Bool
  | [] => pure false
  | t :: ts => do
    match ← node t with
    | .kw k' => if k' = k then pure true else chainHasKw k ts
    | _ => chainHasKw k ts

/-- `resolve_ptr_type` (evaluate.h:6-14) -/
def resolvePtrStep (d ty : Ref) : M (Ref × Ref) := do
  match ← peek d with
  | some (.pointer e) => do
    let p ← mk (.ctype .ptr ty)
    R.resolvePtr e (some p)
  | _ => pure (d, ty)

/-- is the tree an identifier or a compound (656, 2449)? -/
def isIdentOrCompound (r : Ref) : M Bool := do
  match ← peek r with
  | some (.ident _) => pure true
  | some (.compound _ _ _ _ _) => pure true
  | _ => pure false

/-- `__map_identifer(id, t, tLV_COMP_MEMBERS(live_struct))` (228-239) -/
def memberBinding (id : Ref) (val : Ref) : M Binding := do
  match id with
  | none => ub "NULL tree dereferenced"
  | some i =>
    match ← node i with
    | .ident s => pure { name := s, id := i, val := val }
    | _ => die "Attempted to map non-identifier"

/-- `instantiate_struct_element` (650-704); returns the mapping added to the
members. -/
def instElement (d : TId) (base : Nat) : M Binding := do
  match ← node d with
  | .decl specs decls off => do
    let ty ← resolveSpecs specs
    let ty ← (do if ← isIdentOrCompound ty then R.ev ty else pure ty)
    -- a function declarator: the type is a copy of the T_FN with its return type
    let (de, ty) ← (do
      match ← peek decls with
      | some (.fn fd args _ stmts) => do
        let f ← mk (.fn fd args ty stmts)
        pure (fd, some f)
      | _ => pure (decls, ty))
    let (de, ty) ← R.resolvePtr de ty
    let de ← (do
      match ← peek de with
      | some (.bitfield _ dd) => pure dd
      | _ => pure de)
    match ← peek de with
    | some (.array ad asz) => do
      let n ← getArraySize R asz ty
      let t ← instantiateArray ad ty (base + off) n
      memberBinding ad (some t)
    | _ =>
      match ← peek ty with
      | some (.ctype _ _) => do
        let t ← mk (.lv ty (base + off) false 0)
        memberBinding de (some t)
      | some (.compound _ _ _ _ _) => do
        let t ← R.instStruct ty (base + off)
        memberBinding de (some t)
      | _ => die "Unknown structure member decl"
  | _ => ub "tDECL field of another tree"

/-- the loop of `instantiate_struct` (716-717) -/
def instElements (base : Nat) : List TId → M (List Binding)
  | [] => pure []
  | d :: ds => do
    let b ← instElement R d base
    let bs ← instElements base ds
    pure (b :: bs)

/-- `instantiate_struct` (706-720).  Simplification: the T_LIVE_COMPOUND is
created after its members (it is not visible to them). -/
def instStructStep (sd : Ref) (base : Nat) : M TId := do
  match ← nodeR sd with
  | .compound _ decls _ expanded _ =>
    if expanded then do
      let ms ← instElements R base (← chainElems decls)
      mk (.lcomp sd ms base)
    else stop (.abort "assert(tCOMP_DECL_EXPANDED)")
  | _ => ub "tCOMP_DECL field of another tree"

/-- `alloc_struct` (722-729) -/
def allocStruct (sd : Ref) : M TId := do
  match ← nodeR sd with
  | .compound _ _ sz _ _ => do
    let base ← mallocM sz
    trackAlloc base
    R.instStruct sd base
  | _ => ub "tCOMP_DECL field of another tree"

/-- `alloc_array` (731-741) -/
def allocArray (d szRef base : Ref) : M TId := do
  let n ← getArraySize R szRef base
  let a ← mallocM n
  let t ← instantiateArray d base a n
  trackAlloc a
  pure t

/-- `make_and_map_live_var` (592-606) -/
def makeAndMapLiveVar (id ty : Ref) : M Unit := do
  match ← peek ty with
  | some .incomp => die "Can not create incomplete type"
  | _ => do
    let t ← makeLiveVar ty
    mapIdentifier id (some t)

/-- the T_ARRAY part of `handle_declarator` (765-773) -/
def declareArray (ad asz base : Ref) : M Ref := do
  let t ← allocArray R ad asz base
  mapIdentifier ad (some t)
  pure ad

/-- the final `switch (TYPE(decl))` of `handle_declarator` (775-820) -/
def handleDeclSwitch (d ty : Ref) : M Ref := do
  match ← nodeR d with
  | .array ad asz => declareArray R ad asz ty
  | .ident _ => do
    makeAndMapLiveVar d ty
    pure d
  | .fn fd args _ stmts => do
    match ← peek fd with
    | some (.pointer _) => do
      -- function pointer (786-791)
      let f ← mk (.fn none args ty stmts)
      R.handleDecl fd (some f)
    | _ => do
      let f ← mk (.fn fd args ty stmts)
      match stmts with
      | none => do
        match ← resolveIdC fd with
        | some p => pure (some p)
        | none => do mapIdentifier fd (some f); pure d
      | some _ => do mapIdentifier fd (some f); pure d
  | .bitfield _ dd =>
    match dd with
    | some x => R.handleDecl (some x) ty
    | none => pure none
  | .assign l r => do
    let l' ← R.handleDecl l ty
    -- tASSIGN_LHS(decl) = ret (813): the program tree is changed
    match d with
    | some dt => do
      match ← node dt with
      | .assign _ r' => setNode dt (.assign l' r')
      | _ => setNode dt (.assign l' r)
      let _ ← R.ev d
      pure l'
    | none => ub "unreachable"
  | _ => die "Unknown rvalue in declaration."

/-- `handle_declarator` (743-821) -/
def handleDeclStep (d ty : Ref) : M Ref := do
  let (d, ty) ← R.resolvePtr d ty
  match d, ty with
  | none, _ => stop (.abort "assert(decl)")
  | _, none => stop (.abort "assert(decl_type)")
  | some dt, some tt =>
    match ← node tt with
    | .compound _ _ _ _ _ =>
      match ← node dt with
      | .ident _ => do
        let o ← allocStruct R ty
        mapIdentifier d (some o)
        pure d
      | _ => handleDeclSwitch R d ty
    | .arrayType base sz => do
      -- typedef'd array (757-763)
      declareArray R d sz base
    | _ => handleDeclSwitch R d ty

/-- `map_typedef` (823-854) -/
def mapTypedefStep (id ty : Ref) : M Ref := do
  let (id, ty) ← R.resolvePtr id ty
  match ← peek id with
  | some (.fn fd args _ stmts) => do
    match ← peek fd with
    | some (.pointer _) => do
      let f ← mk (.fn none args ty stmts)
      R.mapTypedef fd (some f)
    | _ => do
      let f ← mk (.fn fd args ty stmts)
      R.mapTypedef fd (some f)
  | some (.array ad asz) => do
    let at' ← mk (.arrayType ty asz)
    match ← peek ad with
    | some (.ident _) => do mapIdentifier ad (some at'); pure ad
    | _ => die "Attempted to map type to non-identifier"
  | some (.ident _) => do mapIdentifier id ty; pure id
  | some _ => die "Attempted to map type to non-identifier"
  | none => ub "eval_die(NULL)"

/-! ### extern (861-1030) -/

/-- `resolve_symbol` (911-926) -/
def resolveSymbol (id : Ref) : M Nat := do
  match ← nodeR id with
  | .ident s =>
    match E.dlsym s with
    | some a => pure a
    | none => die "Could not resolve extern symbol"
  | _ => die "attempted to extern something that isn't an identifier"

/-- `handle_extern_fn` (861-909) -/
def handleExternFn (ty : Ref) (fd : TId) : M Ref := do
  match ← node fd with
  | .fn id args _ stmts => do
    setNode fd (.fn id args ty stmts)
    match ← peek id with
    | some (.ident _) => do
      let prev ← resolveIdC id
      match ← peek prev with
      | some (.lv lty _ _ _) => do
        match ← peek lty with
        | some (.ctype .ptr e) => do
          match ← peek e with
          | some (.fn _ _ _ _) => pure id
          | _ => die "attempted to re-declare as different type"
        | _ => die "attempted to re-declare as different type"
      | some (.extFunc _) => pure id
      | _ => do
        let x ← mk (.extFunc (some fd))
        mapIdentifier id (some x)
        pure id
    | _ => die "attempted to extern function that isn't an identifier"
  | _ => ub "unreachable"

/-- do two type trees have the same `TYPE`? (956) -/
def sameTypeTag (a b : Ref) : M Bool := do
  match ← nodeR a, ← nodeR b with
  | .ctype c _, .ctype c' _ => pure (c == c')
  | .compound _ _ _ _ _, .compound _ _ _ _ _ => pure true
  | .fn _ _ _ _, .fn _ _ _ _ => pure true
  | .void, .void => pure true
  | .incomp, .incomp => pure true
  | .arrayType _ _, .arrayType _ _ => pure true
  | _, _ => pure false

/-- `handle_extern_decl` (928-975) -/
def handleExternDecl (ty : Ref) (d : Ref) : M Ref := do
  let (d, ty) ← R.resolvePtr d ty
  match ← peek d with
  | some (.fn _ _ _ _) =>
    match d with
    | some fd => handleExternFn ty fd
    | none => ub "unreachable"
  | some (.array ad asz) => do
    let n ← getArraySize R asz ty
    let a ← resolveSymbol E ad
    let t ← instantiateArray ad ty a n
    mapIdentifier ad (some t)
    pure ad
  | _ => do
    match ← resolveIdC d with
    | some p => do
      let (pty, _) ← lvFields p
      if ← sameTypeTag pty ty then pure d
      else die "Attempted to redeclare with a different type"
    | none => do
      let a ← resolveSymbol E d
      let t ← mk (.lv ty a false 0)
      mapIdentifier d (some t)
      pure d

/-- `eval_ext_func` (977-1007).  `alloca`, `atexit`, `at_quick_exit` resolve to
replacement functions; the model leaves all name resolution to `E.dlsym`. -/
def evalExtFunc (t : TId) : M Ref := do
  match ← node t with
  | .extFunc f => do
    let p ← mk (.ctype .ptr f)
    match ← nodeR f with
    | .fn id _ _ _ => do
      let s ← idStr id
      match E.dlsym s with
      | none => die "Could not resolve external function"
      | some a => do
        let v ← makeLiveVar (some p)
        let (_, va) ← lvFields v
        storeRaw 8 va a
        R.ev (some v)
    | _ => ub "tFN field of another tree"
  | _ => ub "unreachable"

/-- run an action on each element, returning the last result
(`for_each_tree(i, decls) ret = f(i);`) -/
def forEachLast (f : TId → M Ref) : Ref → List TId → M Ref
  | acc, [] => pure acc
  | _, t :: ts => do
    let r ← f t
    forEachLast f r ts

/-- the idiom `if (is_CHAIN_HEAD(decls)) for_each_tree(i, decls) ret = f(i); else
ret = f(decls);` with `ret` initially NULL (1022-1027, 1036-1040, 1087-1090,
1136-1140) -/
def eachDecl (f : Ref → M Ref) (decls : Ref) : M Ref := do
  match ← peek decls with
  | some (.chain es) => forEachLast (fun t => f (some t)) none es
  | _ => f decls

/-- `handle_forward_decl` (1045-1065) -/
def handleForwardDecl (t : Ref) : M Ref := do
  match ← nodeR t with
  | .compound (some id) none _ _ isS => do
    let s ← idStr (some id)
    match resolveGlobal s (compNS isS) (← get) with
    | some _ => pure (some id)
    | none => do
      let f ← mk .incomp
      mapIn (compNS isS) (some id) (some f)
      pure (some id)
  | _ => stop (.abort "assert in handle_forward_decl")

/-- first element of the chain that is a function definition (1073-1076) -/
def firstFnDef : List TId → M Ref
  | [] => pure none
  | t :: ts => do
    match ← node t with
    | .fn _ _ _ (some _) => pure (some t)
    | _ => firstFnDef ts

/-- `handle_static_decl` (1067-1106) -/
def handleStaticDecl (ty : Ref) (t : TId) (decls : Ref) : M Ref := do
  let fd ← (do
    match ← peek decls with
    | some (.chain es) => firstFnDef es
    | _ => pure none)
  match fd with
  | some f => R.handleDecl (some f) ty
  | none => do
    pushCtx "Static declaration"
    let r ← eachDecl (fun d => R.handleDecl d ty) decls
    let c ← curCtx
    -- the declaration becomes an E_CTX (1093-1099)
    setNode t (.staticCtx c.ids)
    popCtx
    let _ ← R.ev (some t)
    pure r

/-- `eval_decl` (1108-1143) -/
def evalDecl (t : TId) (specs decls : Ref) : M Ref := do
  let ty ← resolveSpecs specs
  let tn ← peek ty
  match decls, tn with
  | none, some (.compound _ none _ _ _) => handleForwardDecl ty
  | _, _ => do
    let ty ← (match tn with
      | some (.ident _) => R.ev ty
      | some (.compound _ _ _ _ _) => R.ev ty
      | some (.enumr _ _) => R.ev ty
      | _ => pure ty)
    let ks ← chainElems specs
    if ← chainHasKw .typedef ks then eachDecl (fun d => R.mapTypedef d ty) decls
    else if ← chainHasKw .extern ks then eachDecl (handleExternDecl E R ty) decls
    else if ← chainHasKw .static ks then handleStaticDecl R ty t decls
    else match decls with
      | none => pure none
      | some _ => eachDecl (fun d => R.handleDecl d ty) decls

/-! ## Assignment (1145-1336) -/

/-- `tLV_VAL(var)->TNAME = (CTYPE)val` for `signed long val` (1162-1167) -/
def storeLong (c : CT) (a : Nat) (v : Int) : M Unit :=
  if c.isFp then storeRaw c.size a (E.fpOfInt c v) else storeRaw c.size a (c.encode v)

/-- `assign_integer` (1145-1172) -/
def assignInteger (var : TId) (right : Ref) : M Unit := do
  let v ← (do
    match ← nodeR right with
    | .integer z => pure (mpzGetSi z)
    | .lv _ a _ _ => do
      -- val = tLV_VAL(right)->D_T_LONG, whatever the type of `right` (1156)
      let raw ← loadRaw 8 a
      pure (CT.long.decode raw)
    | _ => die "unknown rvalue assignment to integer.")
  let (ty, a) ← lvFields var
  match ← typeOf ty with
  | some c => storeLong E c a v
  | none => die "could not assign to non-integer type"

/-- `assign_float` (1174-1204) -/
def assignFloat (var : TId) (right : Ref) : M Unit := do
  let v ← (do
    match ← nodeR right with
    | .integer z => pure (E.fpOfInt .double (mpzGetSi z))
    | .flt b => pure b
    | .lv _ a _ _ => loadRaw 8 a
    | _ => die "unknown rvalue assignment to float.")
  let (ty, a) ← lvFields var
  match ← typeOf ty with
  | some .float => storeRaw 4 a (E.fpConv .double .float v)
  | some .double => storeRaw 8 a v
  | _ => die "could not assign to non-float type"

/-- `assign_ptr` (1206-1226) -/
def assignPtr (var : TId) (right : Ref) : M Unit := do
  let p ← (do
    match ← nodeR right with
    | .str bs => do
      let a ← mallocM (bs.length + 1)
      modify fun s => { s with mem := s.mem.storeBytes a (bs ++ [0]) }
      trackAlloc a
      pure a
    | .lv _ a _ _ => loadRaw 8 a
    | .integer z => pure (mpzGetUi z)
    | _ => die "Could not assign to non-pointer type")
  let (_, a) ← lvFields var
  storeRaw 8 a p

/-- `eval_assign` (1228-1254) -/
def evalAssign (l r : Ref) : M Ref := do
  let left ← R.ev l
  let right ← R.ev r
  match left with
  | none => die "Not a valid lvalue."
  | some lt =>
    match ← node lt with
    | .lv ty _ _ _ => do
      match ← typeOf ty with
      | some c =>
        if c.isInt then do assignInteger E lt right; pure right
        else if c.isFloat then do assignFloat E lt right; pure right
        else if c = .ptr then do assignPtr lt right; pure right
        else die "Unknown assignment rvalue type."
      | none => die "Unknown assignment rvalue type."
    | _ => die "Not a valid lvalue."

/-- `live_var_add(var, 1)` / `live_var_sub(var, 1)` (1256-1284) with `d = ±1`:
`tLV_VAL(var)->TNAME += val`; a `void *` moves by bytes. -/
def liveVarAdd (t : TId) (d : Int) : M Unit := do
  let (ty, a) ← lvFields t
  match ← typeOf ty with
  | some c => do
    let raw ← loadRaw c.size a
    if c.isFp then storeRaw c.size a (E.fpAdd c raw d)
    else storeRaw c.size a (c.encode (c.decode raw + d))
  | none => die "Could not add to unknown live var type."

/-- the common test of `eval_post_inc` … `eval_dec`: the operand must be a live
variable -/
def evalLvalue (e : Ref) : M TId := do
  match ← R.ev e with
  | none => die "Not a valid lvalue."
  | some t =>
    match ← node t with
    | .lv _ _ _ _ => pure t
    | _ => die "Not a valid lvalue."

/-- `eval_post_inc` (1286-1298), `eval_post_dec` (1314-1324) -/
def evalPost (d : Int) (e : Ref) : M Ref := do
  let t ← evalLvalue R e
  let r ← makeIntFromLV t
  liveVarAdd E t d
  pure r

/-- `eval_inc` (1300-1312), `eval_dec` (1326-1336) -/
def evalPre (d : Int) (e : Ref) : M Ref := do
  let t ← evalLvalue R e
  liveVarAdd E t d
  makeIntFromLV t

/-! ## Operators (1338-1838) -/

/-- `eval_negate` (1338-1352) -/
def evalNegate (e : Ref) : M Ref := do
  let x ← R.ev e
  let v ← convComparable R x
  mkInt (if v = 0 then 1 else 0)

/-- `eval_ones_comp` (1354-1369) -/
def evalOnesComp (e : Ref) : M Ref := do
  let x ← R.ev e
  let x ← liveToInt x
  let v ← asInteger x "Can't take one's complement of non-integer type."
  mkInt (mpzCom v)

/-- the GMP call of each binary operator; `none` is SIGFPE. -/
def applyBin : BinOp → Int → Int → Option Int
  | .add, a, b => some (a + b)                             -- 1389
  | .sub, a, b => some (a - b)                             -- 1411
  | .mul, a, b => some (a * b)                             -- 1544
  | .div, a, b => mpzDiv a b                               -- 1567
  | .mod, a, b => mpzTdivR a b                             -- 1589
  | .lshift, a, b => some (mpzMul2exp a (mpzGetUi b))      -- 1433
  | .rshift, a, b => some (mpzTdivQ2exp a (mpzGetUi b))    -- 1455
  | .ior, a, b => some (mpzIor a b)                        -- 1477
  | .xor, a, b => some (mpzXor a b)                        -- 1499
  | .iand, a, b => some (mpzAnd a b)                       -- 1521

/-- `eval_add` … `eval_mod` (1371-1592).  Simplification: the result tree is
allocated last. -/
def evalBin (op : BinOp) (l r : Ref) : M Ref := do
  let a ← R.ev l
  let b ← R.ev r
  let a ← liveToInt a
  let b ← liveToInt b
  let x ← asInteger a "non integer operand"
  let y ← asInteger b "non integer operand"
  match applyBin op x y with
  | some z => mkInt z
  | none => stop (.abort "SIGFPE: division by zero")

/-- the test each comparison makes on the result of `mpz_cmp`
(1614, 1638, 1662, 1686, 1716, 1744) -/
def applyCmp : CmpOp → Int → Int → Bool
  | .lt, a, b => mpzCmp a b < 0
  | .gt, a, b => mpzCmp a b > 0
  | .lteq, a, b => mpzCmp a b ≤ 0
  | .gteq, a, b => mpzCmp a b ≥ 0
  | .eq, a, b => mpzCmp a b = 0
  | .neq, a, b => ¬ mpzCmp a b = 0

/-- `eval_lt` … `eval_n_eq` (1600-1757) -/
def evalCmp (op : CmpOp) (l r : Ref) : M Ref := do
  let a ← convComparable R l
  let b ← convComparable R r
  mkInt (if applyCmp op a b then 1 else 0)

/-- `eval_logic_or` (1759-1798) -/
def evalLOr (l r : Ref) : M Ref := do
  let a ← convComparable R l
  if a = 0 then do
    let b ← convComparable R r
    mkInt (if b = 0 then 0 else 1)
  else mkInt 1

/-- `eval_logic_and` (1800-1838) -/
def evalLAnd (l r : Ref) : M Ref := do
  let a ← convComparable R l
  if a = 0 then mkInt 0
  else do
    let b ← convComparable R r
    mkInt (if b = 0 then 0 else 1)

/-- the conversion performed by `DEFCAST(SOURCE, DEST)` (1863-1870) for the pairs
listed at 1872-1965; `none` for the pairs that are not listed. -/
def castVal (src dst : CT) (raw : Nat) : Option (Option Nat) :=
  if src.isInt then
    if dst.isFp then some (some (E.fpOfInt dst (src.decode raw)))
    else some (some (dst.encode (src.decode raw)))
  else if src.isFp then
    if dst.isInt then some ((E.fpToInt src raw dst).map dst.encode)
    else if dst.isFp then some (some (E.fpConv src dst raw))
    else none
  else
    if dst.isFp then none else some (some (dst.encode (src.decode raw)))

/-- `eval_cast` (1840-1966) -/
def evalCast (ty e : Ref) : M Ref := do
  let src ← R.ev e
  let dst ← R.ev ty
  match src with
  | none => die "Could not cast non-live variable"
  | some st =>
    match ← node st with
    | .integer _ => do
      let v ← makeLiveVar dst
      assignInteger E v src
      pure (some v)
    | .flt _ => do
      let v ← makeLiveVar dst
      assignFloat E v src
      pure (some v)
    | .lv sty sa _ _ => do
      match ← peek sty, ← peek dst with
      | some (.ctype sc _), some (.ctype dc _) => do
        let raw ← loadRaw sc.size sa
        match castVal E sc dc raw with
        | some (some x) => do
          let v ← makeLiveVar dst
          let (_, va) ← lvFields v
          storeRaw dc.size va x
          pure (some v)
        | some none => ub "floating value out of range"
        | none => die "Could not perform cast."
      | _, _ => die "Could not perform cast."
    | _ => die "Could not cast non-live variable"

/-! ## Statements -/

/-- `cscript_exit` (cscript.c:187-190) through `get_c_main_return_value`
(2750-2761): `(int)mpz_get_si`. -/
def cscriptExit (e : Ref) : M Unit := do
  let v ← convComparable R e
  stop (.exit (CT.int.decode (CT.int.encode (mpzGetSi v))))

/-- identity of the innermost function call context (2726-2729) -/
def innerFn : List Ctx → Option Nat
  | [] => none
  | c :: cs => if c.isFn then some c.uid else innerFn cs

/-- set RETVAL of the context with that identity (2741) -/
def setRetval (uid : Nat) (r : Ref) : M Unit :=
  modify fun s => { s with ctxs := s.ctxs.map fun c => if c.uid = uid then { c with retval := r } else c }

/-- the loop of `__evaluate` (2725-2748) -/
def evalElems : List TId → M Unit
  | [] => pure ()
  | t :: ts => do
    let r ← R.ev (some t)
    match ← peek r with
    | some (.ret e) => do
      match innerFn (← get).ctxs with
      | none => cscriptExit R e
      | some uid => do
        setRetval uid e
        stop (.jump uid)
    | some .brk => pure ()
    | _ => evalElems ts

/-- `__evaluate` (2715-2748): a single statement that is not a chain is evaluated
and its result is ignored. -/
def evaluate (h : Ref) : M Unit := do
  match h with
  | none => pure ()
  | some t =>
    match ← node t with
    | .chain es => evalElems R es
    | _ => do
      let _ ← R.ev h
      pure ()

/-- `eval_loop_for` (1979-2009), one round -/
def loopForStep (cond after stmts : Ref) : M Ref := do
  let c ← R.ev cond
  let v ← convComparable R c
  if mpzGetSi v = 0 then pure none
  else do
    pushCtx "For Loop"
    evaluate R stmts
    let k ← curCtx
    if k.shouldBreak then pure none
    else do
      popCtx
      let _ ← R.ev after
      R.loopFor cond after stmts

/-- `eval_loop_while` (2011-2037), one round -/
def loopWhileStep (cond stmts : Ref) : M Ref := do
  let c ← R.ev cond
  let v ← convComparable R c
  if mpzGetSi v = 0 then pure none
  else do
    pushCtx "While Loop"
    evaluate R stmts
    let k ← curCtx
    if k.shouldBreak then pure none
    else do
      popCtx
      R.loopWhile cond stmts

/-- `eval_infix` (2039-2050) -/
def evalInfix (c t f : Ref) : M Ref := do
  let v ← convComparable R c
  if mpzGetSi v = 0 then R.ev f else R.ev t

/-- `eval_if` (2052-2067) -/
def evalIf (c t e : Ref) : M Ref := do
  let v ← convComparable R c
  pushCtx "If statement"
  (if mpzGetSi v = 0 then evaluate R e else evaluate R t)
  popCtx
  pure none

/-- `eval_return` (2069-2074): the expression of the return statement is
*replaced* by its value. -/
def evalReturn (t : TId) (e : Ref) : M Ref := do
  let v ← R.ev e
  setNode t (.ret v)
  pure (some t)

/-- `eval_break` (1696-1701) -/
def evalBreak (t : TId) : M Ref := do
  modCur fun c => { c with shouldBreak := true }
  pure (some t)

/-- `eval_expr_list` (2476-2484) -/
def evalExprList (c : Ref) : M Ref := do
  forEachLast (fun t => R.ev (some t)) none (← chainElems c)

/-! ## Compound types, enumerations -/

/-- the inner loop of `expand_decl_chain` (2104-2120) -/
def expandDeclarators (specs : Ref) : List TId → M (List TId)
  | [] => pure []
  | d :: ds => do
    let nd ← mk (.decl none none 0)
    match ← node d with
    | .bitfield _ none => expandDeclarators specs ds
    | _ => do
      setNode nd (.decl specs (some d) 0)
      let rest ← expandDeclarators specs ds
      pure (nd :: rest)

/-- `expand_decl_chain` (2098-2123) -/
def expandDecls : List TId → M (List TId)
  | [] => pure []
  | d :: ds => do
    let here ← (do
      match ← node d with
      | .decl specs (some decls) _ => do
        expandDeclarators specs (← chainElems (some decls))
      | _ => pure [])
    let rest ← expandDecls ds
    pure (here ++ rest)

/-- `get_alignment_for_type` (2125-2169) -/
def alignmentStep (t : Ref) : M Nat := do
  match ← nodeR t with
  | .lv ty _ isArr _ =>
    if isArr then do
      match ← nodeR ty with
      | .ctype .ptr e => getSizeOfType R e
      | _ => ub "tDTPTR_EXP of another tree"
    else getSizeOfType R ty
  | .lcomp _ ms _ =>
    match ms with
    | [] => ub "member of an empty compound"
    | b :: _ => R.alignment b.val
  | .ctype _ _ => getSizeOfType R t
  | _ => die "Could not calculate offset for member"

/-- `(~offset + 1) & (member_alignment - 1)` with `int offset` and `size_t
member_alignment` (2247-2250): the negated offset as a 64-bit word. -/
def padding (offset align : Nat) : Nat :=
  if offset = 0 then 0
  else ((2 ^ 64 - offset) % 2 ^ 64) &&& ((align + (2 ^ 64 - 1)) % 2 ^ 64)

/-- One step of the layout loop (2241-2263): from the current offset, the size
and the alignment of the member, the member's offset and the new (offset, max
size).  Simplification: `int offset` does not overflow. -/
def layoutStep (isStruct : Bool) (offset maxSz size align : Nat) : Nat × Nat × Nat :=
  let pad := padding offset align
  if isStruct then (offset + pad, offset + pad + size, maxSz)
  else (offset + pad, 0, if size > maxSz then size else maxSz)

/-- the layout loop of `eval_decl_compound` (2219-2266); returns final offset and
maximal member size -/
def layoutLoop (isStruct : Bool) : Nat → Nat → List TId → M (Nat × Nat)
  | offset, maxSz, [] => pure (offset, maxSz)
  | offset, maxSz, d :: ds => do
    pushCtx "Compound Declaration"
    let id ← R.ev (some d)
    let v ← resolveIdC id
    let size ← getSizeOfType R v
    let align ← R.alignment v
    let (mo, offset', maxSz') := layoutStep isStruct offset maxSz size align
    match ← node d with
    | .decl specs decls _ => setNode d (.decl specs decls mo)
    | _ => ub "tDECL_OFFSET of another tree"
    popCtx
    layoutLoop isStruct offset' maxSz' ds

/-- expansion of a compound tree (2205-2273) -/
def expandCompound (t : TId) : M Ref := do
  match ← node t with
  | .compound id decls sz expanded isS =>
    if expanded then pure (some t)
    else do
      let es ← expandDecls (← chainElems decls)
      let ch ← mk (.chain es)
      setNode t (.compound id (some ch) sz expanded isS)
      let (off, mx) ← layoutLoop R isS 0 0 es
      setNode t (.compound id (some ch) (if isS then off else mx) true isS)
      pure (some t)
  | _ => ub "unreachable"

/-- `eval_decl_compound` (2171-2274) -/
def evalDeclCompound (t : TId) (id decls : Ref) (isS : Bool) : M Ref := do
  match decls with
  | none => do
    -- a reference to a compound type (2181-2188)
    match id with
    | none => stop (.abort "assert(tCOMP_DECL_ID)")
    | some _ => do
      let s ← idStr id
      match resolveGlobal s (compNS isS) (← get) with
      | some r => pure (some r)
      | none => handleForwardDecl (some t)
  | some _ =>
    match id with
    | none => expandCompound R t
    | some _ => do
      let s ← idStr id
      match resolveCurrent s (compNS isS) (← get) with
      | some f => do
        -- tree_copy(forward_decl, t); t = forward_decl (2199-2201)
        let n ← node t
        setNode f n
        expandCompound R f
      | none => do
        mapIn (compNS isS) id (some t)
        expandCompound R t

/-- the loop of `eval_enumerator` (2292-2320); `v` is the `unsigned int enum_val` -/
def enumLoop : Nat → List TId → M Unit
  | _, [] => pure ()
  | v, t :: ts => do
    match ← node t with
    | .ident _ => do
      let i ← mkInt (v : Int)
      mapIdentifier (some t) i
      enumLoop ((v + 1) % 2 ^ 32) ts
    | .assign l r => do
      let x ← convComparable R r
      let v : Nat := mpzGetUi x % 2 ^ 32
      let i ← mkInt (v : Int)
      mapIdentifier l i
      enumLoop ((v + 1) % 2 ^ 32) ts
    | _ => die "Unknown enumerator expression"

/-- `eval_enumerator` (2276-2323); ENUMTYPE is D_T_UINT (tree.h:62) -/
def evalEnumerator (name enums : Ref) : M Ref := do
  let base ← mk (.ctype .uint none)
  match enums with
  | none => R.ev name
  | some _ => do
    match name with
    | some _ => mapIdentifier name (some base)
    | none => pure ()
    enumLoop R 0 (← chainElems enums)
    pure (some base)

/-- `eval_comp_access` (2325-2337) -/
def evalCompAccess (obj mem : Ref) : M Ref := do
  let left ← R.ev obj
  match ← peek left with
  | some (.lcomp _ ms _) => do
    match ← peek mem with
    | some (.ident s) => pure (findId s ms)
    | _ => die "Unknown accessor in compound access"
  | _ => die "Unknown compound type in compound access"

/-! ## Pointers, arrays, sizeof -/

/-- `eval_deref` (2523-2547) -/
def evalDeref (e : Ref) : M Ref := do
  let x ← R.ev e
  match ← peek x with
  | some (.lv ty a _ _) => do
    match ← peek ty with
    | some (.ctype .ptr nt) => do
      match ← peek nt with
      | some (.compound _ _ _ _ _) => do
        let p ← loadRaw 8 a
        pure (some (← R.instStruct nt p))
      | _ => do
        let p ← loadRaw 8 a
        pure (some (← mk (.lv nt p false 0)))
    | _ => die "Attempted to dereference a non-pointer"
  | _ => die "Derefencing something that isn't live"

/-- `eval_array_access` (2346-2383).  `base + base_type_length * idx` is address
arithmetic modulo 2^64. -/
def evalArrayAccess (obj idx : Ref) : M Ref := do
  let array ← R.ev obj
  let index ← R.ev idx
  match ← peek array with
  | some (.lv ty a _ _) => do
    match ← peek ty with
    | some (.ctype .ptr bt) => do
      let index ← liveToInt index
      let v ← (match index with
        | none => ub "eval_die(NULL)"
        | some _ => asInteger index "Unknown index type")
      let base ← loadRaw 8 a
      let len ← getSizeOfType R bt
      let np ← makeLiveVar ty
      let (_, na) ← lvFields np
      storeRaw 8 na ((base + len * mpzGetUi v) % 2 ^ 64)
      let de ← mk (.deref (some np))
      R.ev (some de)
    | _ => die "Attempted deference on non pointer variable."
  | _ => die "Attempted to access non-live variable."

/-- the last part of `eval_sizeof` (2430-2441): a C type or an expanded compound -/
def sizeofType (r : TId) (ty : Ref) : M Ref := do
  let (_, ra) ← lvFields r
  match ← peek ty with
  | some (.ctype c _) => do
    storeRaw 8 ra c.size
    pure (some r)
  | some (.compound _ _ sz expanded _) =>
    if expanded then do
      storeRaw 8 ra sz
      pure (some r)
    else stop (.abort "assert(tCOMP_DECL_EXPANDED)")
  | _ => die "Could not calculate size of expression"

/-- `eval_sizeof` (2399-2442) -/
def evalSizeof (e : Ref) : M Ref := do
  let exp ← R.ev e
  let u ← mk (.ctype .ulong none)
  let r ← makeLiveVar (some u)
  let (_, ra) ← lvFields r
  match ← peek exp with
  | some (.lv ty _ isArr sz) => do
    match ← peek ty with
    | some (.ctype .ptr _) =>
      if isArr then do
        storeRaw 8 ra sz
        pure (some r)
      else sizeofType r ty
    | _ => sizeofType r ty
  | some (.lcomp d _ _) => sizeofType r d
  | some (.pointer _) => do
    let p ← mk (.ctype .ptr none)
    sizeofType r (some p)
  | some (.arrayType base sz) => do
    let n ← getArraySize R sz base
    storeRaw 8 ra n
    pure (some r)
  | _ => sizeofType r exp

/-- `eval_type_specifier` (2444-2460); the pointer loop is the one of
`resolve_ptr_type`. -/
def evalTypeSpec (specs d : Ref) : M Ref := do
  let ty ← resolveSpecs specs
  let ty ← (do if ← isIdentOrCompound ty then R.ev ty else pure ty)
  let (_, ty) ← R.resolvePtr d ty
  pure ty

/-- the loop of `get_entry_point_for_fn` (function-call.c:173-195): argument
types of the closure; a closure takes fewer than 32 arguments -/
def closureArgTypes : Nat → List TId → M (List TId)
  | _, [] => pure []
  | n, t :: ts => do
    match ← node t with
    | .decl specs d _ => do
      let ty ← resolveSpecs specs
      let (d', ty') ← (do
        match ← peek d with
        | some (.pointer _) => R.resolvePtr d ty
        | _ => pure (d, ty))
      match ← peek d' with
      | some (.ident _) => do
        match ty' with
        | none => ub "TYPE of NULL"
        | some tt =>
          match ← node tt with
          | .ctype _ _ =>
            if n + 1 ≥ 32 then die "Argument stack size exceeded"
            else do
              let rest ← closureArgTypes (n + 1) ts
              pure (tt :: rest)
          | _ => stop (.exit 1)
      | _ => die "Unknown declarator type in closure allocation"
    | _ => die "Unknown type arg chain, expecting decl"

/-- `get_entry_point_for_fn` (function-call.c:160-219): a fresh code address -/
def entryPointForFn (f : TId) : M Nat := do
  match ← node f with
  | .fn _ args ret _ => do
    let tys ← closureArgTypes R 0 (← chainElems args)
    match ← nodeR ret with
    | .void => pure ()
    | .ctype _ _ => pure ()
    | _ => stop (.exit 1)
    let ch ← mk (.chain tys)
    let c ← mk (.closure (some ch) ret (some f))
    let a ← mallocM 1
    modify fun s => { s with closures := (a, c) :: s.closures }
    pure a
  | _ => ub "unreachable"

/-- `eval_addr` (2486-2521), with `handle_addr_fn_def` (2462-2474) -/
def evalAddr (e : Ref) : M Ref := do
  let x ← R.ev e
  match ← peek x with
  | some (.fn _ _ _ _) => do
    let p ← mk (.ctype .ptr x)
    let v ← makeLiveVar (some p)
    match x with
    | some f => do
      let a ← entryPointForFn R f
      let (_, va) ← lvFields v
      storeRaw 8 va a
      pure (some v)
    | none => ub "unreachable"
  | some (.lv ty a isArr _) => do
    let addr ← (if isArr then loadRaw 8 a else pure a)
    let p ← mk (.ctype .ptr ty)
    let v ← makeLiveVar (some p)
    let (_, va) ← lvFields v
    storeRaw 8 va addr
    pure (some v)
  | some (.lcomp d _ base) => do
    let p ← mk (.ctype .ptr d)
    let v ← makeLiveVar (some p)
    let (_, va) ← lvFields v
    storeRaw 8 va base
    pure (some v)
  | _ => die "attempted to take address of non-live variable."

/-- `eval_evaluator_ctx` (2598-2628) -/
def evalStaticCtx : Ref → List Binding → M Ref
  | acc, [] => pure acc
  | _, b :: bs => do
    mapIdentifier (some b.id) b.val
    evalStaticCtx (some b.id) bs

/-! ## Calls (378-590) and libffi (function-call.c) -/

/-- sign- or zero-extension to a 64-bit register -/
def toReg (c : CT) (raw : Nat) : Nat := CT.ulong.encode (c.decode raw)

/-- `push_arg` (function-call.c:18-50): default argument promotions -/
def pushArg (c : CT) (raw : Nat) (promote : Bool) : FfiArg :=
  match c with
  | .float => if promote then .fp .double (E.fpConv .float .double raw) else .fp .float raw
  | .double => .fp .double raw
  | .longdouble => .fp .longdouble raw
  | .char | .short =>
    if promote then .int .int (toReg .int (CT.int.encode (c.decode raw))) else .int c (toReg c raw)
  | .uchar | .ushort =>
    if promote then .int .uint (toReg .uint (CT.uint.encode (c.decode raw))) else .int c (toReg c raw)
  | _ => .int c (toReg c raw)

/-- marshalling of one argument (function-call.c:71-110) -/
def marshalArg (r : Ref) (promote : Bool) : M FfiArg := do
  match ← nodeR r with
  | .str bs => pure (.str bs)
  | .lv ty a _ _ => do
    match ← typeOf ty with
    | some c => do
      let raw ← loadRaw c.size a
      pure (pushArg E c raw promote)
    | none => die "cannot marshall live var type"
  | .integer z => pure (pushArg E .int (CT.int.encode (mpzGetSi z)) promote)
  | .flt b => pure (.fp .double b)
  | _ => die "Unknown tree type to marshall."

/-- the argument loop of `do_ext_call` (function-call.c:69-112); at most 32
arguments -/
def marshalArgs (variadic : Option Nat) : Nat → List Ref → M (List FfiArg)
  | _, [] => pure []
  | n, r :: rs => do
    let promote := match variadic with
      | some p => decide (p ≤ n)
      | none => false
    let a ← marshalArg E r promote
    if n = 32 then stop (.exit 1)
    else do
      let rest ← marshalArgs variadic (n + 1) rs
      pure (a :: rest)

/-- `closure_entry` (function-call.c:128-158): the arguments become live
variables of the declared types -/
def closureArgs : List TId → List FfiArg → M (List TId)
  | [], _ => pure []
  | _ :: _, [] => ub "closure called with too few arguments"
  | t :: ts, a :: as => do
    match ← node t, a with
    | .ctype c _, .int _ reg =>
      if c.isFp then ub "closure argument class mismatch"
      else do
        let v ← makeLiveVar (some t)
        let (_, va) ← lvFields v
        storeRaw c.size va (reg % c.modulus)
        let rest ← closureArgs ts as
        pure (v :: rest)
    | .ctype c _, .fp c' bits =>
      if c = c' then do
        let v ← makeLiveVar (some t)
        let (_, va) ← lvFields v
        storeRaw c.size va bits
        let rest ← closureArgs ts as
        pure (v :: rest)
      else ub "closure argument class mismatch"
    | _, _ => stop (.unmodelled "string passed to closure")

/-- which closure lives at this address -/
def findClosure (a : Nat) : List (Nat × TId) → Option TId
  | [] => none
  | (x, t) :: cs => if x = a then some t else findClosure a cs

/-- `do_ext_call` (function-call.c:52-126).  A call of the address of a closure
runs the interpreted function; its result is not passed back
(function-call.c:157), the return value's bytes stay what they were. -/
def doExtCall (fa : Nat) (args : List Ref) (retLv : Ref) (variadic : Option Nat) : M Unit := do
  let as ← marshalArgs E variadic 0 args
  match retLv with
  | some r => do
    let (ty, _) ← lvFields r
    match ← typeOf ty with
    | some _ => pure ()
    | none => stop (.exit 1)
  | none => pure ()
  match findClosure fa (← get).closures with
  | some c => do
    match ← node c with
    | .closure ats _ f => do
      let vs ← closureArgs (← chainElems ats) as
      let ch ← mk (.chain vs)
      let call ← mk (.fnCall f (some ch))
      let _ ← R.ev (some call)
      pure ()
    | _ => ub "unreachable"
  | none => do
    let s ← get
    let (m, bytes) := E.extCall fa as s.mem
    modify fun s => { s with mem := m, events := s.events ++ [{ addr := fa, args := as, variadic }] }
    match retLv with
    | some r => do
      let (_, a) ← lvFields r
      modify fun s => { s with mem := s.mem.storeBytes a bytes }
    | none => pure ()

/-- `eval_fn_args` (378-392) -/
def evalFnArgs : List TId → M (List Ref)
  | [] => pure []
  | t :: ts => do
    let r ← R.ev (some t)
    let rs ← evalFnArgs ts
    pure (r :: rs)

/-- position of the first T_VARIADIC among the parameters (517-524, 563-570) -/
def variadicPos : Nat → List TId → M (Option Nat)
  | _, [] => pure none
  | n, t :: ts => do
    match ← node t with
    | .variadic => pure (some n)
    | _ => variadicPos (n + 1) ts

/-- the parameter loop (452-486): argument, then parameter declaration, then
assignment, one parameter after the other, all in the callee's context -/
def bindParams : List TId → List TId → M Unit
  | d :: ds, a :: as => do
    let v ← R.ev (some a)
    let id ← R.ev (some d)
    let asg ← mk (.assign id v)
    let _ ← R.ev (some asg)
    bindParams ds as
  | _, _ => pure ()

/-- the `while (cur_ctx != fn_ctx) pop_ctx();` loop (501-502) -/
def popTo (uid : Nat) : List Ctx → Option (List Ctx)
  | [] => none
  | [c] => if c.uid = uid then some [c] else none
  | c :: c' :: cs => if c.uid = uid then some (c :: c' :: cs) else popTo uid (c' :: cs)

/-- `if (!setjmp(…)) __evaluate(body) else …` (489-505).  `jmp` is the context
whose jump buffer is set, `fnCtx` the context of the call. -/
def runBody (jmp fnCtx : Nat) (stmts : Ref) : M Ref := fun s =>
  match evaluate R stmts s with
  | .ok _ s' => .ok none s'
  | .stop (.jump u) s' =>
    if u = jmp then
      match popTo fnCtx s'.ctxs with
      | some (c :: cs) => .ok c.retval { s' with ctxs := c :: cs }
      | _ => .stop (.exit 1) s'
    else .stop (.jump u) s'
  | .stop w s' => .stop w s'
  | .fuel => .fuel

/-- a call of an interpreted function (422-510) -/
def callUser (fd args stmts callArgs : Ref) : M Ref := do
  let name ← idStr fd
  pushCtx name
  modCur fun c => { c with isFn := true }
  let fnCtx := (← curCtx).uid
  match args with
  | some _ => do
    let ds ← chainElems args
    let vs ← chainElems callArgs
    if vs.length ≠ ds.length then die "Invalid number of parameters to function"
    else bindParams R ds vs
  | none => pure ()
  let jmp := (← curCtx).uid
  let r ← runBody R jmp fnCtx stmts
  popCtx
  pure r

/-- a call of a declared library function (511-543) -/
def callExtDecl (fd args ret callArgs : Ref) : M Ref := do
  let name ← idStr fd
  match E.dlsym name with
  | none => die "Could not resolve external symbol"
  | some fa => do
    let vp ← variadicPos 0 (← chainElems args)
    let as ← evalFnArgs R (← chainElems callArgs)
    let retLv ← (do
      match ← peek ret with
      | some .void => pure none
      | _ => do pure (some (← makeLiveVar ret)))
    doExtCall E R fa as retLv vp
    pure retLv

/-- a call through a live variable (546-582) -/
def callLive (f : TId) (callArgs : Ref) : M Ref := do
  let (ty, a) ← lvFields f
  match ← peek ty with
  | some (.ctype .ptr ft) => do
    match ← peek ft with
    | some (.fn _ args ret _) => do
      let vp ← variadicPos 0 (← chainElems args)
      let retLv ← (do
        match ← peek ret with
        | some .void => pure none
        | _ => do pure (some (← makeLiveVar ret)))
      let as ← evalFnArgs R (← chainElems callArgs)
      let fa ← loadRaw 8 a
      doExtCall E R fa as retLv vp
      pure retLv
    | _ => die "could not call non-function pointer type"
  | _ => die "could not call non-pointer type"

/-- `handle_builtin_strcpy_chk`, `handle_builtin_strcat_chk` (2774-2810): drop the
third argument from the call's argument chain (in place) and call `target` -/
def callBuiltin (target : String) (args : Ref) : M Ref := do
  let id ← mk (.ident target)
  match args with
  | none => do
    let c ← mk (.fnCall (some id) none)
    R.ev (some c)
  | some ch => do
    match ← node ch with
    | .chain es => do
      setNode ch (.chain (es.take 2 ++ es.drop 3))
      let c ← mk (.fnCall (some id) args)
      R.ev (some c)
    | _ => ub "argument list is not a chain"

/-- `eval_fn_call` (394-590) -/
def evalFnCall (id args : Ref) : M Ref := do
  let f ← R.ev id
  let f ← (do
    match ← peek f with
    | some (.extFunc _) => R.ev f
    | _ => pure f)
  match f with
  | none => pure none
  | some ft =>
    match ← node ft with
    | .fn fd fargs ret stmts =>
      match stmts with
      | some _ => callUser R fd fargs stmts args
      | none => callExtDecl E R fd fargs ret args
    | .lv _ _ _ _ => callLive E R ft args
    | .builtin target => callBuiltin R target args
    | _ => pure none

/-! ## `__evaluate_1` (2635-2713) -/

/-- the `switch (TYPE(t))` of `__evaluate_1`.  Not modelled: T_REPL (interactive),
CPP_INCLUDE (runs the preprocessor and the parser) and T_INSPECT (prints a
description of an object). -/
def evalNode (t : TId) (n : Node) : M Ref :=
  match n with
  | .ident _ => evalIdentifier t
  | .fnCall id args => evalFnCall E R id args
  | .fn _ _ _ _ => pure (some t)
  | .decl specs decls _ => evalDecl E R t specs decls
  | .assign l r => evalAssign E R l r
  | .flt _ | .integer _ | .str _ => pure (some t)
  | .pInc e => evalPost E R 1 e
  | .pDec e => evalPost E R (-1) e
  | .inc e => evalPre E R 1 e
  | .dec e => evalPre E R (-1) e
  | .bin op l r => evalBin R op l r
  | .negate e => evalNegate R e
  | .onesComp e => evalOnesComp R e
  | .comma l r => do let _ ← R.ev l; R.ev r
  | .cmp op l r => evalCmp R op l r
  | .lOr l r => evalLOr R l r
  | .lAnd l r => evalLAnd R l r
  | .cast ty e => evalCast E R ty e
  | .lv _ _ _ _ | .lcomp _ _ _ => pure (some t)
  | .kw .extern | .kw .typedef | .kw .static => pure (some t)
  | .forS i c a b => do let _ ← R.ev i; R.loopFor c a b
  | .whileS c b => R.loopWhile c b
  | .infix c x y => evalInfix R c x y
  | .ifS c x y => evalIf R c x y
  | .ret e => evalReturn R t e
  | .brk => evalBreak t
  | .compound id decls _ _ isS => evalDeclCompound R t id decls isS
  | .enumr name enums => evalEnumerator R name enums
  | .sizeof e => evalSizeof R e
  | .typeSpec specs d => evalTypeSpec R specs d
  | .compAccess obj mem => evalCompAccess R obj mem
  | .repl => stop (.unmodelled "repl")
  | .arrAccess obj idx => evalArrayAccess R obj idx
  | .addr e => evalAddr R e
  | .deref e => evalDeref R e
  | .pointer _ => pure (some t)
  | .void => pure (some t)
  | .cppInclude _ => stop (.unmodelled "include")
  | .staticCtx ms => evalStaticCtx none ms
  | .extFunc _ => evalExtFunc E R t
  | .inspect _ => stop (.unmodelled "inspect")
  | .exprList c => evalExprList R c
  | .ctype _ _ => pure (some t)
  -- default: result = NULL
  | .kw _ | .empty | .bitfield _ _ | .array _ _ | .arrayType _ _ | .builtin _
  | .closure _ _ _ | .variadic | .chain _ | .incomp => pure none

/-- `__evaluate_1` (2635-2713) -/
def evStep (r : Ref) : M Ref := do
  match r with
  | none => pure none
  | some t => do
    let n ← node t
    evalNode E R t n

/-- one unfolding of all recursive functions -/
def step : Rec where
  ev := evStep E R
  loopWhile := loopWhileStep R
  loopFor := loopForStep R
  resolvePtr := resolvePtrStep R
  handleDecl := handleDeclStep R
  mapTypedef := mapTypedefStep R
  instStruct := instStructStep R
  alignment := alignmentStep R

end

/-- no recursive call possible -/
def bottom : Rec where
  ev _ := outOfFuel
  loopWhile _ _ := outOfFuel
  loopFor _ _ _ := outOfFuel
  resolvePtr _ _ := outOfFuel
  handleDecl _ _ := outOfFuel
  mapTypedef _ _ := outOfFuel
  instStruct _ _ := outOfFuel
  alignment _ := outOfFuel

/-- the evaluator with recursion depth `n` -/
def run (E : Env) : Nat → Rec
  | 0 => bottom
  | n + 1 => step E (run E n)

/-- `eval_init` (2828-2834) with `eval_init_builtins` (2812-2826): the state in
which the first statement is evaluated, given the contents of memory. -/
def initSt (mem : Mem) : St where
  nodes := fun t =>
    match t with
    | 0 => some (.ident "__builtin_va_list")
    | 1 => some (.ctype .int none)
    | 2 => some (.ident "__builtin___strcpy_chk")
    | 3 => some (.builtin "strcpy")
    | 4 => some (.ident "__builtin___strcat_chk")
    | 5 => some (.builtin "strcat")
    | _ => none
  next := 6
  mem := mem
  ctxs :=
    [ { uid := 1, name := "Toplevel", ids := [], structs := [], unions := [], allocs := [],
        retval := none, shouldBreak := false, isFn := false },
      { uid := 0, name := "Bultins",
        ids := [⟨"__builtin_va_list", 0, some 1⟩, ⟨"__builtin___strcpy_chk", 2, some 3⟩,
                ⟨"__builtin___strcat_chk", 4, some 5⟩],
        structs := [], unions := [], allocs := [], retval := none, shouldBreak := false,
        isFn := false } ]
  nextUid := 2
  includeCtx := none
  includes := []
  closures := []
  events := []

end Bic
