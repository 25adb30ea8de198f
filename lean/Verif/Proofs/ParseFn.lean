import Verif.Model.Parser
/-!
# A deterministic parser for the grammar

`parse` reads tokens from left to right and decides by looking at the next tokens.  It is used to
prove that the grammar is unambiguous (Proofs.ParseComplete): whatever the productions derive,
`parse` finds, so the productions derive one tree at most.  It is not a model of the code.
-/

namespace Bic.Parser

/-- the outcome of parsing: a tree, a flag, and the tokens that are left -/
inductive R where
  | oof
  | fail
  | ok (t : PT) (u : Bool) (r : List T)

def R.bind : R → (PT → Bool → List T → R) → R
  | .oof, _ => .oof
  | .fail, _ => .fail
  | .ok t u r, k => k t u r

/-- the next token is `k` -/
def hd (k : K) : List T → Bool
  | .p k' :: _ => k' == k
  | _ => false

/-- the next token begins a declaration or a type name -/
def sHd : List T → Bool
  | .typeName _ :: _ => true
  | .p k :: _ => (storageAction k).isSome || (typeAction k).isSome || (qualAction k).isSome || (structAction k).isSome
      || k == .enum || k == .inline
  | _ => false

/-- the next token begins an expression -/
def eHd : List T → Bool
  | .ident _ :: _ | .integer _ :: _ | .floatCst _ :: _ | .string _ :: _ => true
  | .p k :: _ => (unaryAction k).isSome || k == .lparen
  | _ => false

/-- the next token is a type qualifier -/
def qHd : List T → Bool
  | .p k :: _ => (qualAction k).isSome
  | _ => false

/-- the next token is an identifier -/
def idHd : List T → Bool
  | .ident _ :: _ => true
  | _ => false

/-- a direct declarator begins -/
def dirHd (i : List T) : Bool := idHd i || hd .lparen i || hd .lbrack i

/-- `*` followed by a closing bracket -/
def vlaHd (i : List T) : Bool := hd .star i && hd .rbrack i.tail

/-- an opening parenthesis followed by a type name -/
def castHd (i : List T) : Bool := hd .lparen i && sHd i.tail

/-- a class of the next token: 0 for the tokens that continue a postfix expression, 1 to 10 for the
binary operators, 11 for `?`, 12 for the assignments, 13 for the comma and 100 for all others -/
def lev : List T → Nat
  | .p .lparen :: _ | .p .lbrack :: _ | .p .dot :: _ | .p .arrow :: _ | .p .incr :: _ | .p .decr :: _ => 0
  | .p .star :: _ | .p .slash :: _ | .p .percent :: _ => 1
  | .p .plus :: _ | .p .minus :: _ => 2
  | .p .shl :: _ | .p .shr :: _ => 3
  | .p .lt :: _ | .p .gt :: _ | .p .le :: _ | .p .ge :: _ => 4
  | .p .eqeq :: _ | .p .ne :: _ => 5
  | .p .amp :: _ => 6
  | .p .caret :: _ => 7
  | .p .bar :: _ => 8
  | .p .andand :: _ => 9
  | .p .oror :: _ => 10
  | .p .question :: _ => 11
  | .p .assign :: _ | .p .addA :: _ | .p .subA :: _ | .p .divA :: _ | .p .shlA :: _ | .p .shrA :: _ | .p .xorA :: _ => 12
  | .p .comma :: _ => 13
  | _ => 100

def binOf (l : Nat) : List T → Option (PT → PT → PT)
  | .p k :: _ => binAction l k
  | _ => none

def unOf : List T → Option (PT → PT)
  | .p k :: _ => unaryAction k
  | _ => none

def asgOf : List T → Option (PT → PT → PT)
  | .p k :: _ => assignAction k
  | _ => none

def identOf : List T → Option Lexer.Str
  | .ident s :: _ => some s
  | _ => none

def structOf : List T → Option Bool
  | .p k :: _ => structAction k
  | _ => none

/-- the specifiers that are one token -/
def kwOf : List T → Option PT
  | .typeName s :: _ => some (.ident s)
  | .p .inline :: _ => some (.kw .inline)
  | .p k :: _ => ((storageAction k).orElse fun _ => (typeAction k).orElse fun _ => qualAction k).map .kw
  | _ => none

def qualOf : List T → Option PT
  | .p k :: _ => (qualAction k).map .kw
  | _ => none

def primOf : List T → Option PT
  | .integer v :: _ => some (.integer v)
  | .floatCst s :: _ => some (.flt s)
  | .ident s :: _ => some (.ident s)
  | .string s :: _ => some (.str s)
  | _ => none

def mkChain : List PT → PT
  | [] => .null
  | ts => .chain ts

inductive Cmd where
  | primary | postfix | postLoop (t : PT) | args | argLoop (ts : List PT) | unary
  | bin (l : Nat) | binLoop (l : Nat) (t : PT) (u : Bool) | cond | assign | expr | exprLoop (ts : List PT)
  | spec | specs (ts : List PT) | members (ts : List PT) | member | mr | mrLoop (ts : List PT)
  | enums | enLoop (ts : List PT) | enumr
  | quals (ts : List PT) | pointer | mdecl | mdirect | dLoop (t : PT) (u : Bool) | arr (t : PT) (u : Bool)
  | params | plLoop (ts : List PT) | param | idents | idLoop (ts : List PT)
  | typeName
  | init | inits | inLoop (ts : List PT) | initItem | desig (ts : List PT)
  | initDecl | idlLoop (ts : List PT) | declaration | declList (ts : List PT)
  | exprStmt | replStmt | replUnit (ts : List PT) | stmt | compound | block (ts : List PT) | item
  | scriptItem | scriptUnit (ts : List PT)

/-- go on after the token `k` -/
def exp (k : K) (r : List T) (c : List T → R) : R := if hd k r then c r.tail else .fail

def step (f : Cmd → List T → R) : Cmd → List T → R
  | .primary, i =>
    if hd .lparen i then (f .expr i.tail).bind fun t _ r => exp .rparen r fun r => .ok t false r
    else match primOf i with
      | some t => .ok t false i.tail
      | none => .fail
  | .postfix, i => (f .primary i).bind fun t _ r => f (.postLoop t) r
  | .postLoop t, i =>
    if hd .lparen i then
      if hd .rparen i.tail then f (.postLoop (.fnCall t .null)) i.tail.tail
      else (f .args i.tail).bind fun a _ r => exp .rparen r fun r => f (.postLoop (.fnCall t a)) r
    else if hd .lbrack i then
      (f .expr i.tail).bind fun e _ r => exp .rbrack r fun r => f (.postLoop (.arrAccess t e)) r
    else if hd .incr i then f (.postLoop (.pInc t)) i.tail
    else if hd .decr i then f (.postLoop (.pDec t)) i.tail
    else if hd .dot i then
      match identOf i.tail with
      | some s => f (.postLoop (.compAccess t (.ident s))) i.tail.tail
      | none => .fail
    else if hd .arrow i then
      match identOf i.tail with
      | some s => f (.postLoop (.compAccess (.deref t) (.ident s))) i.tail.tail
      | none => .fail
    else .ok t true i
  | .args, i => (f .assign i).bind fun t _ r => f (.argLoop [t]) r
  | .argLoop ts, i =>
    if hd .comma i then (f .assign i.tail).bind fun t _ r => f (.argLoop (ts ++ [t])) r else .ok (.chain ts) false i
  | .unary, i =>
    if hd .sizeof i && castHd i.tail then
      (f .typeName i.tail.tail).bind fun t _ r => exp .rparen r fun r => .ok (.sizeof t) true r
    else match unOf i with
      | some g => (f .unary i.tail).bind fun t _ r => .ok (g t) true r
      | none => f .postfix i
  | .bin 0, i =>
    if castHd i then
      (f .typeName i.tail).bind fun ty _ r => exp .rparen r fun r => (f (.bin 0) r).bind fun t _ r => .ok (.cast ty t) false r
    else f .unary i
  | .bin (l + 1), i => (f (.bin l) i).bind fun t u r => f (.binLoop (l + 1) t u) r
  | .binLoop l t u, i =>
    match binOf l i with
    | some g => (f (.bin (l - 1)) i.tail).bind fun b _ r => f (.binLoop l (g t b) false) r
    | none => .ok t u i
  | .cond, i => (f (.bin 10) i).bind fun c u r =>
    if hd .question r then
      (f .expr r.tail).bind fun a _ r => exp .colon r fun r => (f .cond r).bind fun b _ r => .ok (.infix c a b) false r
    else .ok c u r
  | .assign, i => (f .cond i).bind fun t u r =>
    match asgOf r with
    | some g => if u then (f .assign r.tail).bind fun e _ r => .ok (g t e) false r else .fail
    | none => .ok t false r
  | .expr, i => (f .assign i).bind fun t _ r => f (.exprLoop [t]) r
  | .exprLoop ts, i =>
    if hd .comma i then (f .assign i.tail).bind fun t _ r => f (.exprLoop (ts ++ [t])) r
    else .ok (.exprList (.chain ts)) false i
  | .spec, i =>
    match structOf i with
    | some b =>
      match identOf i.tail with
      | some s =>
        if hd .lbrace i.tail.tail then
          (f (.members []) i.tail.tail.tail).bind fun d _ r => exp .rbrace r fun r => .ok (.compound b (.ident s) d) false r
        else .ok (.compound b (.ident s) .null) false i.tail.tail
      | none => exp .lbrace i.tail fun r => (f (.members []) r).bind fun d _ r => exp .rbrace r fun r =>
          .ok (.compound b .null d) false r
    | none =>
      if hd .enum i then
        match identOf i.tail with
        | some s =>
          if hd .lbrace i.tail.tail then (f .enums i.tail.tail.tail).bind fun d _ r => .ok (.enumr (.ident s) d) false r
          else .ok (.enumr (.ident s) .null) false i.tail.tail
        | none => exp .lbrace i.tail fun r => (f .enums r).bind fun d _ r => .ok (.enumr .null d) false r
      else match kwOf i with
        | some t => .ok t false i.tail
        | none => .fail
  | .specs ts, i => if sHd i then (f .spec i).bind fun t _ r => f (.specs (ts ++ [t])) r else .ok (.chain ts) false i
  | .members ts, i =>
    if hd .rbrace i then .ok (.chain ts) false i else (f .member i).bind fun t _ r => f (.members (ts ++ [t])) r
  | .member, i => (f (.specs []) i).bind fun s _ r =>
    if hd .semi r then .ok (.decl s .null) false r.tail
    else (f .mr r).bind fun t _ r => (f (.mrLoop [t]) r).bind fun d _ r => exp .semi r fun r => .ok (.decl s d) false r
  | .mr, i =>
    if hd .colon i then (f .cond i.tail).bind fun e _ r => .ok (.bitfield e .null) false r
    else (f .mdecl i).bind fun t _ r =>
      if hd .colon r then (f .cond r.tail).bind fun e _ r => .ok (.bitfield e t) false r else .ok t false r
  | .mrLoop ts, i =>
    if hd .comma i then (f .mr i.tail).bind fun t _ r => f (.mrLoop (ts ++ [t])) r else .ok (.chain ts) false i
  | .enums, i => (f .enumr i).bind fun t _ r => f (.enLoop [t]) r
  | .enLoop ts, i =>
    if hd .comma i then
      if hd .rbrace i.tail then .ok (.chain ts) false i.tail.tail
      else (f .enumr i.tail).bind fun t _ r => f (.enLoop (ts ++ [t])) r
    else exp .rbrace i fun r => .ok (.chain ts) false r
  | .enumr, i =>
    match identOf i with
    | some s => if hd .assign i.tail then (f .cond i.tail.tail).bind fun e _ r => .ok (.assign (.ident s) e) false r
        else .ok (.ident s) false i.tail
    | none => .fail
  | .quals ts, i =>
    match qualOf i with
    | some t => f (.quals (ts ++ [t])) i.tail
    | none => .ok (mkChain ts) false i
  | .pointer, i => exp .star i fun r => (f (.quals []) r).bind fun q _ r =>
    if hd .star r then (f .pointer r).bind fun p _ r => .ok (.pointer q p) false r else .ok (.pointer q .null) false r
  | .mdecl, i =>
    if hd .star i then (f .pointer i).bind fun p _ r =>
      if dirHd r then (f .mdirect r).bind fun d u r => .ok (fillPtr p d) u r
      else .ok p false r
    else if dirHd i then f .mdirect i
    else .ok .null false i
  | .mdirect, i =>
    match identOf i with
    | some s => f (.dLoop (.ident s) true) i.tail
    | none =>
      if hd .lbrack i then (f (.arr .null false) i.tail).bind fun t _ r => f (.dLoop t false) r
      else exp .lparen i fun j =>
        if hd .rparen j then f (.dLoop (.fn .null .null .null) false) j.tail
        else if sHd j then (f .params j).bind fun a _ r => exp .rparen r fun r => f (.dLoop (.fn .null a .null) false) r
        else (f .mdecl j).bind fun t u r => exp .rparen r fun r => f (.dLoop t u) r
  | .dLoop t u, i =>
    if hd .lparen i then
      if hd .rparen i.tail then f (.dLoop (.fn t .null .null) u) i.tail.tail
      else if idHd i.tail then (f .idents i.tail).bind fun a _ r => exp .rparen r fun r => f (.dLoop (.fn t a .null) u) r
      else (f .params i.tail).bind fun a _ r => exp .rparen r fun r => f (.dLoop (.fn t a .null) u) r
    else if hd .lbrack i then (f (.arr t u) i.tail).bind fun t _ r => f (.dLoop t u) r
    else .ok t u i
  | .arr t u, i =>
    if hd .rbrack i then .ok (if u then .pointer .null t else .array t .null .null) false i.tail
    else if vlaHd i then .ok (if u then .pointer .null t else .array t .null .null) false i.tail.tail
    else if hd .static i then
      if qHd i.tail then (f (.quals []) i.tail).bind fun q _ r => (f .assign r).bind fun e _ r =>
        exp .rbrack r fun r => .ok (.array t q e) false r
      else .fail
    else (f (.quals []) i).bind fun q _ r =>
      if hd .rbrack r then .ok (.array t q .null) false r.tail
      else if vlaHd r then .ok (.array t q .null) false r.tail.tail
      else (f .assign (if hd .static r then r.tail else r)).bind fun e _ r => exp .rbrack r fun r => .ok (.array t q e) false r
  | .params, i => (f .param i).bind fun t _ r => f (.plLoop [t]) r
  | .plLoop ts, i =>
    if hd .comma i then
      if hd .ellipsis i.tail then .ok (.chain (ts ++ [.variadic])) false i.tail.tail
      else (f .param i.tail).bind fun t _ r => f (.plLoop (ts ++ [t])) r
    else .ok (.chain ts) false i
  | .param, i => (f (.specs []) i).bind fun s _ r => (f .mdecl r).bind fun d _ r => .ok (.decl s d) false r
  | .idents, i =>
    match identOf i with
    | some s => f (.idLoop [.ident s]) i.tail
    | none => .fail
  | .idLoop ts, i =>
    if hd .comma i then
      match identOf i.tail with
      | some s => f (.idLoop (ts ++ [.ident s])) i.tail.tail
      | none => .fail
    else .ok (.chain ts) false i
  | .typeName, i => (f (.specs []) i).bind fun s _ r => (f .mdecl r).bind fun d _ r => .ok (.typeSpec s d) false r
  | .init, i =>
    if hd .lbrace i then (f .inits i.tail).bind fun t _ r =>
      if hd .comma r then exp .rbrace r.tail fun r => .ok t false r else exp .rbrace r fun r => .ok t false r
    else f .assign i
  | .inits, i => (f .initItem i).bind fun t _ r => f (.inLoop [t]) r
  | .inLoop ts, i =>
    if hd .comma i && !hd .rbrace i.tail then (f .initItem i.tail).bind fun t _ r => f (.inLoop (ts ++ [t])) r
    else .ok (.chain ts) false i
  | .initItem, i =>
    if hd .lbrack i || hd .dot i then
      (f (.desig []) i).bind fun l _ r => (f .init r).bind fun t _ r => .ok (.assign l t) false r
    else f .init i
  | .desig ts, i =>
    if hd .lbrack i then
      (f .cond i.tail).bind fun e _ r => exp .rbrack r fun r => f (.desig (ts ++ [.arrAccess .null e])) r
    else if hd .dot i then
      match identOf i.tail with
      | some s => f (.desig (ts ++ [.compAccess .null (.ident s)])) i.tail.tail
      | none => .fail
    else exp .assign i fun r => .ok (.chain ts) false r
  | .initDecl, i => (f .mdecl i).bind fun t _ r =>
    if hd .assign r then (f .init r.tail).bind fun e _ r => .ok (.assign t e) false r else .ok t false r
  | .idlLoop ts, i =>
    if hd .comma i then (f .initDecl i.tail).bind fun t _ r => f (.idlLoop (ts ++ [t])) r else .ok (.chain ts) false i
  | .declaration, i => (f (.specs []) i).bind fun s _ r =>
    if hd .semi r then .ok (.decl s .null) false r.tail
    else (f .initDecl r).bind fun t _ r =>
      if hd .lbrace r || sHd r then
        (f (.declList []) r).bind fun _ _ r => (f .compound r).bind fun b _ r =>
          match setStmts t b with
          | some t => .ok (.decl s (.chain [t])) false r
          | none => .fail
      else (f (.idlLoop [t]) r).bind fun d _ r => exp .semi r fun r => .ok (.decl s d) false r
  | .declList ts, i =>
    if hd .lbrace i then .ok (.chain ts) false i else (f .declaration i).bind fun t _ r => f (.declList (ts ++ [t])) r
  | .exprStmt, i =>
    if hd .semi i then .ok .empty false i.tail else (f .expr i).bind fun t _ r => exp .semi r fun r => .ok t false r
  | .replStmt, i =>
    match i with
    | .cPreInc s :: r => .ok (.cppInclude s) false r
    | i =>
      if hd .question i then
        match identOf i.tail with
        | some s => .ok (.inspect (.ident s)) false i.tail.tail
        | none => .fail
      else if sHd i then f .declaration i
      else f .exprStmt i
  | .replUnit ts, i => if i.isEmpty then .ok (.chain ts) false i else (f .replStmt i).bind fun t _ r => f (.replUnit (ts ++ [t])) r
  | .stmt, i =>
    if hd .lbrace i then f .compound i
    else if hd .repl i then exp .semi i.tail fun r => .ok .repl false r
    else if hd .if_ i then exp .lparen i.tail fun r => (f .expr r).bind fun c _ r => exp .rparen r fun r =>
      (f .stmt r).bind fun t _ r =>
        if hd .else_ r then (f .stmt r.tail).bind fun e _ r => .ok (.ifS c t e) false r else .ok (.ifS c t .null) false r
    else if hd .while_ i then exp .lparen i.tail fun r => (f .expr r).bind fun c _ r => exp .rparen r fun r =>
      (f .stmt r).bind fun t _ r => .ok (.whileS c t) false r
    else if hd .for_ i then exp .lparen i.tail fun r =>
      (f (if sHd r then .declaration else .exprStmt) r).bind fun a _ r => (f .exprStmt r).bind fun c _ r =>
        if hd .rparen r then (f .stmt r.tail).bind fun b _ r => .ok (.forS a c .null b) false r
        else (f .expr r).bind fun d _ r => exp .rparen r fun r => (f .stmt r).bind fun b _ r => .ok (.forS a c d b) false r
    else if hd .break_ i then exp .semi i.tail fun r => .ok .brk false r
    else if hd .return_ i then
      if hd .semi i.tail then .ok (.ret .null) false i.tail.tail
      else (f .expr i.tail).bind fun e _ r => exp .semi r fun r => .ok (.ret e) false r
    else f .exprStmt i
  | .compound, i => exp .lbrace i fun r =>
    if hd .rbrace r then .ok .empty false r.tail
    else (f (.block []) r).bind fun t _ r => exp .rbrace r fun r => .ok t false r
  | .block ts, i =>
    if hd .rbrace i then .ok (.chain ts) false i else (f .item i).bind fun t _ r => f (.block (ts ++ [t])) r
  | .item, i => if sHd i then f .declaration i else f .stmt i
  | .scriptItem, i => if sHd i then f .declaration i else f .stmt i
  | .scriptUnit ts, i =>
    if i.isEmpty then .ok (.chain ts) false i else (f .scriptItem i).bind fun t _ r => f (.scriptUnit (ts ++ [t])) r

def parse : Nat → Cmd → List T → R
  | 0, _, _ => .oof
  | n + 1, c, i => step (parse n) c i

/-- the command gives the outcome -/
def Ev (c : Cmd) (i : List T) (o : R) : Prop := ∃ n0, ∀ n, n0 ≤ n → parse n c i = o

theorem Ev.unique {c i o o'} (h : Ev c i o) (h' : Ev c i o') : o = o' := by
  obtain ⟨n, h⟩ := h
  obtain ⟨n', h'⟩ := h'
  rw [← h (n + n') (by omega), ← h' (n + n') (by omega)]

theorem ev0 {c i o} (h : ∀ f, step f c i = o) : Ev c i o :=
  ⟨1, fun n hn => by obtain ⟨m, rfl⟩ : ∃ m, n = m + 1 := ⟨n - 1, by omega⟩; exact h _⟩

theorem ev1 {c i o c1 i1 o1} (h1 : Ev c1 i1 o1) (h : ∀ f : Cmd → List T → R, f c1 i1 = o1 → step f c i = o) : Ev c i o := by
  obtain ⟨n1, h1⟩ := h1
  exact ⟨n1 + 1, fun n hn => by
    obtain ⟨m, rfl⟩ : ∃ m, n = m + 1 := ⟨n - 1, by omega⟩
    exact h _ (h1 m (by omega))⟩

theorem ev2 {c i o c1 i1 o1 c2 i2 o2} (h1 : Ev c1 i1 o1) (h2 : Ev c2 i2 o2)
    (h : ∀ f : Cmd → List T → R, f c1 i1 = o1 → f c2 i2 = o2 → step f c i = o) : Ev c i o := by
  obtain ⟨n1, h1⟩ := h1
  obtain ⟨n2, h2⟩ := h2
  exact ⟨n1 + n2 + 1, fun n hn => by
    obtain ⟨m, rfl⟩ : ∃ m, n = m + 1 := ⟨n - 1, by omega⟩
    exact h _ (h1 m (by omega)) (h2 m (by omega))⟩

theorem ev3 {c i o c1 i1 o1 c2 i2 o2 c3 i3 o3} (h1 : Ev c1 i1 o1) (h2 : Ev c2 i2 o2) (h3 : Ev c3 i3 o3)
    (h : ∀ f : Cmd → List T → R, f c1 i1 = o1 → f c2 i2 = o2 → f c3 i3 = o3 → step f c i = o) : Ev c i o := by
  obtain ⟨n1, h1⟩ := h1
  obtain ⟨n2, h2⟩ := h2
  obtain ⟨n3, h3⟩ := h3
  exact ⟨n1 + n2 + n3 + 1, fun n hn => by
    obtain ⟨m, rfl⟩ : ∃ m, n = m + 1 := ⟨n - 1, by omega⟩
    exact h _ (h1 m (by omega)) (h2 m (by omega)) (h3 m (by omega))⟩

theorem ev4 {c i o c1 i1 o1 c2 i2 o2 c3 i3 o3 c4 i4 o4} (h1 : Ev c1 i1 o1) (h2 : Ev c2 i2 o2) (h3 : Ev c3 i3 o3)
    (h4 : Ev c4 i4 o4)
    (h : ∀ f : Cmd → List T → R, f c1 i1 = o1 → f c2 i2 = o2 → f c3 i3 = o3 → f c4 i4 = o4 → step f c i = o) :
    Ev c i o := by
  obtain ⟨n1, h1⟩ := h1
  obtain ⟨n2, h2⟩ := h2
  obtain ⟨n3, h3⟩ := h3
  obtain ⟨n4, h4⟩ := h4
  exact ⟨n1 + n2 + n3 + n4 + 1, fun n hn => by
    obtain ⟨m, rfl⟩ : ∃ m, n = m + 1 := ⟨n - 1, by omega⟩
    exact h _ (h1 m (by omega)) (h2 m (by omega)) (h3 m (by omega)) (h4 m (by omega))⟩

end Bic.Parser
