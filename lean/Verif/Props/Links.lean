import Verif.Props.Arrow
/-!
# C117: linked lists
-/

namespace Bic
open Spec

/-- from the structure at `b`, `k` steps through the pointers `off` bytes from the start of
the structures lead to `b'` -/
inductive Hops (m : Mem) (off : Nat) : Nat → Nat → Nat → Prop
  | here (b) : Hops m off 0 b b
  | next {k b b'} : Hops m off k b b' → m.ok 8 (b' + off) = true → Hops m off (k + 1) b (m.load 8 (b' + off))

/-- `t` is `e->x->…->x` with `k` arrows -/
inductive ArrowPath (s : St) (e : Ref) (x : String) : Nat → Ref → Prop
  | start : ArrowPath s e x 0 e
  | step {k t d o e'} : ArrowPath s e x k e' → ArrowTree s t d o e' x → ArrowPath s e x (k + 1) (some t)

/-- `c` is a structure or union with the members `L`, the `j`th of which is `x`, a pointer to `c` itself, at the offset `off` -/
structure Linked (s : St) (c : TId) (L : List Item) (isS : Bool) (j off : Nat) (x : String) : Prop where
  laid : Laid s c L isS
  names : (L.map Item.x).Nodup
  small : spaceOf (L.map Item.m) < 2 ^ 63
  link : ∃ it, L[j]? = some it ∧ it.x = x ∧ it.To s c
  offset : (layoutPure isS 0 0 (L.map Item.m)).1[j]? = some off

theorem Laid.grow {s s' : St} {c : TId} {L : List Item} {isS : Bool} (h : Laid s c L isS) (g : Grow s s') : Laid s' c L isS where
  tree := by
    obtain ⟨id, ch, h1, h2⟩ := h.tree
    exact ⟨id, ch, g.nodes _ _ h1, g.nodes _ _ h2⟩
  items := fun i hi => Item.Fine.grow g (h.items i hi)
  offs := All₂.imp (fun _ _ h => g.nodes _ _ h) h.offs

theorem Linked.grow {s s' : St} {c : TId} {L : List Item} {isS : Bool} {j off : Nat} {x : String}
    (h : Linked s c L isS j off x) (g : Grow s s') : Linked s' c L isS j off x where
  laid := h.laid.grow g
  names := h.names
  small := h.small
  link := by
    obtain ⟨it, h1, h2, h3⟩ := h.link
    exact ⟨it, h1, h2, h3.keeps g.keeps fun x ns => g.resolveGlobal x ns⟩
  offset := h.offset

theorem Hops.grow {s s' : St} {off k b b' : Nat} (h : Hops s.mem off k b b') (g : Grow s s') : Hops s'.mem off k b b' := by
  induction h with
  | here b => exact .here b
  | next _ h2 ih =>
    have := Hops.next ih (g.ok h2)
    rw [g.load h2] at this
    exact this

/-- readable memory is below 2^62 -/
theorem Cap.low {s : St} {n a k : Nat} (h : Cap s n) (hk : 0 < k) (ho : s.mem.ok k a = true) : a < 2 ^ 62 := by
  rw [Mem.ok_iff] at ho
  have h1 := h.livelt a (ho a (Nat.le_refl _) (by omega))
  have h2 := h.brk
  have h3 : Mem.limit < 2 ^ 62 := by decide
  omega

theorem Cap.of {s s' : St} {n n' : Nat} (h : Cap s n) (g : Grow s s') (hb : s'.mem.brk + n' ≤ s.mem.brk + n) : Cap s' n' :=
  h.grow g hb

/-- C117: walking along a list.  If `e` points to the structure at `b`, `e->x->…->x` with `k` arrows points to the structure
that `k` steps lead to. -/
theorem C117_walk (E : Env) (s s1 : St) (e t : Ref) (x c : TId) (nx : String) (L : List Item) (isS : Bool) (j off k b b' : Nat)
    (he : Conv E (fun R => R.ev e) s (.ok (some x) s1)) (hg : Grow s s1) (hp : PtrTo s1 x (some c) b) (w : WF s1)
    (hl : Linked s1 c L isS j off nx) (hcap : Cap s1 ((L.map fun i => mcost i.m).sum * k)) (ht : ArrowPath s e nx k t)
    (hh : Hops s1.mem off k b b') :
    ∃ r s', Conv E (fun R => R.ev t) s (.ok (some r) s') ∧ Grow s1 s' ∧ PtrTo s' r (some c) b' ∧
      s'.mem.brk ≤ s1.mem.brk + (L.map fun i => mcost i.m).sum * k := by
  generalize hC : (L.map fun i => mcost i.m).sum = C at *
  induction ht generalizing b' with
  | start =>
    cases hh with
    | here => exact ⟨x, s1, he, Grow.refl _, hp, by omega⟩
  | @step k t d o e' hpath htree ih =>
    cases hh with
    | @next _ _ b1 hh hok =>
    have hmul : C * (k + 1) = C * k + C := Nat.mul_succ _ _
    obtain ⟨r, s2, c2, g2, p2, b2⟩ := ih b1 hh (hcap.grow (Grow.refl _) (by omega))
    have hcap2 : Cap s2 C := hcap.grow g2 (by omega)
    have hok2 := g2.ok hok
    have hlow := hcap2.low (by decide) hok2
    have hl2 := hl.grow g2
    obtain ⟨it, hit, hx, hto⟩ := hl2.link
    rw [← hx] at htree
    obtain ⟨v, s3, c3, g3, _, b3, hlink⟩ := C116_member_partial E s s2 t d o r c e' L isS b1 j off it htree c2 (hg.trans g2)
      ⟨p2, hl2.laid, ⟨by omega, hl2.small⟩, g2.wf w, by rw [hC]; exact hcap2⟩ hl2.names hit hl2.offset
    obtain ⟨τ, h1, h2⟩ := hlink c hto
    refine ⟨v, s3, c3, g2.trans g3, ⟨τ, b1 + off, false, 0, h1, h2, (g2.trans g3).ok hok, ?_⟩, by omega⟩
    rw [(g2.trans g3).load hok]

/-- C117: the members of the structures of a list: `e->x->…->x->m` is the member `m` of the structure that the steps lead to. -/
theorem C117_member (E : Env) (s s1 : St) (e e' : Ref) (t d o x c : TId) (nx : String) (L : List Item) (isS : Bool)
    (j off k b b' i oi : Nat) (it : Item)
    (he : Conv E (fun R => R.ev e) s (.ok (some x) s1)) (hg : Grow s s1) (hp : PtrTo s1 x (some c) b) (w : WF s1)
    (hl : Linked s1 c L isS j off nx) (hcap : Cap s1 ((L.map fun i => mcost i.m).sum * (k + 1))) (ht : ArrowPath s e nx k e')
    (hh : Hops s1.mem off k b b') (htree : ArrowTree s t d o e' it.x) (hit : L[i]? = some it)
    (hoi : (layoutPure isS 0 0 (L.map Item.m)).1[i]? = some oi) (hb : b' < 2 ^ 63) :
    ∃ r s', Conv E (fun R => R.ev (some t)) s (.ok (some r) s') ∧ Grow s1 s' ∧ MemberAt s' r (b' + oi) it.m ∧
      s'.mem.brk ≤ s1.mem.brk + (L.map fun i => mcost i.m).sum * (k + 1) := by
  have hmul : (L.map fun i => mcost i.m).sum * (k + 1) = (L.map fun i => mcost i.m).sum * k + (L.map fun i => mcost i.m).sum :=
    Nat.mul_succ _ _
  obtain ⟨r, s2, c2, g2, p2, b2⟩ := C117_walk E s s1 e e' x c nx L isS j off k b b' he hg hp w hl
    (hcap.grow (Grow.refl _) (by omega)) ht hh
  have hl2 := hl.grow g2
  obtain ⟨v, s3, c3, g3, m3, b3, _⟩ := C116_member_partial E s s2 t d o r c e' L isS b' i oi it htree c2 (hg.trans g2)
    ⟨p2, hl2.laid, ⟨hb, hl2.small⟩, g2.wf w, hcap.grow g2 (by omega)⟩ hl2.names hit hoi
  exact ⟨v, s3, c3, g2.trans g3, m3, by omega⟩

/-- C117: `e->x->…->x->m = r` with `m` of an integer type gives that member the value of `r` converted to its type, and changes no other byte
of memory. -/
theorem C117_assign (E : Env) (s s1 : St) (e e' r : Ref) (t u d o x c : TId) (nx : String) (L : List Item) (isS : Bool)
    (j off k b b' i oi : Nat) (it : Item) (kt : CT) (y : Int)
    (he : Conv E (fun R => R.ev e) s (.ok (some x) s1)) (hg : Grow s s1) (hp : PtrTo s1 x (some c) b) (w : WF s1)
    (hl : Linked s1 c L isS j off nx) (hcap : Cap s1 ((L.map fun i => mcost i.m).sum * (k + 1))) (ht : ArrowPath s e nx k e')
    (hh : Hops s1.mem off k b b') (hu : s.nodes u = some (.assign (some t) r)) (htree : ArrowTree s t d o e' it.x)
    (hr : YieldsInt E s1 r y ((L.map fun i => mcost i.m).sum * (k + 1)))
    (hit : L[i]? = some it) (hoi : (layoutPure isS 0 0 (L.map Item.m)).1[i]? = some oi)
    (hk : it.m = .val kt) (hi : integral kt) (hok : s1.mem.ok kt.size (b' + oi) = true) :
    ∃ q s2 s', Conv E (fun R => R.ev (some u)) s (.ok (some q) s') ∧ Grow s1 s2 ∧
      Converts kt y (kt.decode (s'.mem.load kt.size (b' + oi))) ∧
      ∀ a, a < b' + oi ∨ b' + oi + kt.size ≤ a → s'.mem.byte a = s2.mem.byte a := by
  have hlow := hcap.low (CT.size_pos kt) hok
  obtain ⟨v, s2, c2, g2, m2, b2⟩ := C117_member E s s1 e e' t d o x c nx L isS j off k b b' i oi it he hg hp w hl hcap ht hh htree
    hit hoi (by omega)
  obtain ⟨q, s3, c3, g3, hq⟩ := hr s2 g2 b2
  rw [hk] at m2
  obtain ⟨τ, e2, h1, h2⟩ := m2.grow g3
  have hlv : LvAt s3 v τ kt (b' + oi) := ⟨⟨_, _, h1⟩, ⟨_, h2⟩, .inl hi, (g2.trans g3).ok hok⟩
  refine ⟨q, s3, _, assign_conv hu c2 c3 hlv hi hq, g2.trans g3, ?_, ?_⟩
  · rw [wr_mem, Mem.load_store, Nat.mod_eq_of_lt (show _ < 256 ^ kt.size from CT.encode_lt kt y)]
    exact CT.decode_encode_converts (.inl hi) y
  · intro a ha
    exact Mem.store_byte_other _ _ _ _ _ (by omega)

/-! ## The declaration -/

/-- `t` is `struct S { … };` (or `union`) with the members `L`, where `S`, new in this
scope, occurs in the types of members as in `struct S *x;` only, and the `j`th member is such a pointer -/
structure ListDecl (s : St) (t c : TId) (isS : Bool) (nm : String) (L : List Item) (j : Nat) (x : String) : Prop where
  trees : ∃ specs ch0 i ts off sz, s.nodes t = some (.decl (some specs) none off) ∧ s.nodes specs = some (.chain [c]) ∧
    s.nodes c = some (.compound (some i) (some ch0) sz false isS) ∧ s.nodes i = some (.ident nm) ∧
    s.nodes ch0 = some (.chain ts) ∧ Decls s.nodes ts L
  members : ∀ i ∈ L, i.Ok s.nodes ∨ i.Link s.nodes isS nm
  link : ∃ it, L[j]? = some it ∧ it.x = x ∧ it.Link s.nodes isS nm
  names : (L.map Item.x).Nodup
  fresh : FreshTag s isS nm
  wf : WF s
  cap : Cap s ((L.map fun i => mcost i.m).sum)

theorem tagSt_resolve {s : St} {isS : Bool} {nm : String} {i c : TId} (hx : FreshTag s isS nm) (hc : s.ctxs ≠ []) :
    resolveGlobal nm (compNS isS) (tagSt s isS ⟨nm, i, some c⟩) = some c := by
  cases h : s.ctxs with
  | nil => exact absurd h hc
  | cons a as =>
    have := findId_append_fresh (d := i) (t := c) (hx a as h)
    cases isS with
    | true =>
      simp only [compNS, if_true, Ctx.map] at this
      simp [resolveGlobal, tagSt, h, findInChain, Ctx.map, compNS, this]
    | false =>
      simp only [compNS, Bool.false_eq_true, if_false, Ctx.map] at this
      simp [resolveGlobal, tagSt, h, findInChain, Ctx.map, compNS, this]

theorem withDecls_get {L : List Item} : ∀ {n j : Nat} {it : Item}, L[j]? = some it →
    (withDecls n L)[j]? = some { it with d := n + j } := by
  induction L with
  | nil => intro n j it h; simp at h
  | cons i L ih =>
    intro n j it h
    cases j with
    | zero => simp at h; subst h; rfl
    | succ j =>
      rw [List.getElem?_cons_succ] at h
      rw [withDecls, List.getElem?_cons_succ, ih h, Nat.add_assoc, Nat.add_comm 1]

/-- C117: such a declaration makes the type of a list. -/
theorem C117_declared (E : Env) (s : St) (t c : TId) (isS : Bool) (nm : String) (L : List Item) (j : Nat) (x : String)
    (h : ListDecl s t c isS nm L j x) :
    ∃ L' off s', Conv E (fun R => R.ev (some t)) s (.ok none s') ∧ L'.map Item.m = L.map Item.m ∧
      L'.map Item.x = L.map Item.x ∧ Linked s' c L' isS j off x ∧ resolveGlobal nm (compNS isS) s' = some c := by
  obtain ⟨specs, ch0, i, ts, off, sz, h1, h2, h3, h4, h5, h6⟩ := h.trees
  have hres := tagSt_resolve (i := i) (c := c) h.fresh h.cap.ctxs
  have hfine : ∀ j ∈ L, j.Fine (tagSt s isS ⟨nm, i, some c⟩) := by
    intro j hj
    rcases h.members j hj with hm | hm
    · exact .inl hm
    · exact .inr ⟨c, isS, nm, hm, hres⟩
  obtain ⟨s', hc, hl, hr, hg, _⟩ := defTag_conv (E := E) h.wf h1 h2 h3 h4 h5 h6 hfine h.fresh h.cap
  obtain ⟨it, hit, hx, hlink⟩ := h.link
  have hlen : j < (layoutPure isS 0 0 ((withDecls s.next L).map Item.m)).1.length := by
    rw [layoutPure_length, List.length_map, withDecls_length]
    exact (List.getElem?_eq_some_iff.mp hit).1
  refine ⟨withDecls s.next L, _, s', hc, withDecls_m _ _, withDecls_x _ _, ⟨hl, ?_, ?_, ?_, List.getElem?_eq_getElem hlen⟩, hr⟩
  · rw [withDecls_x]; exact h.names
  · rw [withDecls_m]
    have := space_le L
    have := h.cap.brk
    have h3 : Mem.limit < 2 ^ 63 := by decide
    omega
  · refine ⟨_, withDecls_get hit, hx, isS, nm, ?_, hr⟩
    refine Item.Link.keeps (nd := s.nodes) ?_ (i := { it with d := s.next + j }) hlink
    intro y n hp hn
    refine hg.nodes _ _ ?_ hn
    simp only [List.mem_singleton]
    rintro rfl
    rw [h3] at hn; cases hn; exact hp

/-! ## Examples -/

/-- `struct N { int v; struct N *next; };` -/
def nodesList : List Node :=
  [.kw .int, .chain [0], .ident "v", .chain [2], .decl (some 1) (some 3) 0,
   .ident "N", .compound (some 5) none 0 false true, .chain [6], .ident "next", .pointer (some 8), .chain [9],
   .decl (some 7) (some 10) 0, .chain [4, 11], .compound (some 5) (some 12) 0 false true, .chain [13],
   .decl (some 14) none 0]

def stList : St := stOf nodesList [] []

def itemsList : List Item := [⟨0, 1, 2, .int, "v", .val .int⟩, ⟨0, 7, 9, .int, "next", .val .ptr⟩]

theorem stList_decl : ListDecl stList 15 13 true "N" itemsList 1 "next" where
  trees := ⟨14, 12, 5, [4, 11], 0, 0, rfl, rfl, rfl, rfl, rfl,
    @Decls.cons _ 4 1 3 0 [2] [11] [⟨0, 1, 2, .int, "v", .val .int⟩] [⟨0, 7, 9, .int, "next", .val .ptr⟩] rfl rfl rfl
      (by intro i hi; simp only [List.mem_singleton] at hi; subst hi; exact ⟨rfl, _, rfl, by simp⟩)
      (@Decls.cons _ 11 7 10 0 [9] [] [⟨0, 7, 9, .int, "next", .val .ptr⟩] [] rfl rfl rfl
        (by intro i hi; simp only [List.mem_singleton] at hi; subst hi; exact ⟨rfl, _, rfl, by simp⟩) .nil)⟩
  members := by
    intro i hi
    simp only [itemsList, List.mem_cons, List.not_mem_nil, or_false] at hi
    rcases hi with rfl | rfl
    · exact .inl ⟨⟨[0], [.int], rfl, .cons rfl .nil, by decide, by decide⟩, .ident rfl⟩
    · exact .inr ⟨6, 5, 0, false, 8, rfl, rfl, rfl, rfl, rfl, rfl⟩
  link := ⟨_, rfl, rfl, 6, 5, 0, false, 8, rfl, rfl, rfl, rfl, rfl, rfl⟩
  names := by decide
  fresh := by
    intro c cs hc b hb
    have : c = ctx1 [] := by simp [stList, stOf] at hc; exact hc.1.symm
    subst this; simp [ctx1, compNS, Ctx.map] at hb
  wf := stOf_WF _ _ _
  cap := ⟨by decide +kernel, by simp [stList, stOf], memOf_livelt _⟩

example := C117_declared E0 stList 15 13 true "N" itemsList 1 "next" stList_decl

/-- `struct N { int v; struct N *next; } x;` -/
def stListVar : St := stOf (nodesList.take 15 ++ [.ident "x", .chain [15], .decl (some 14) (some 16) 0]) [] []

theorem stListVar_decl : CompDecl stListVar 17 15 13 "x" true itemsList where
  trees := by
    have hf : FreshTag stListVar true "N" := by
      intro c cs hc b hb
      have : c = ctx1 [] := by simp [stListVar, stOf] at hc; exact hc.1.symm
      subst this; simp [ctx1, compNS, Ctx.map] at hb
    refine ⟨14, 12, [4, 11], 0, 0, 16, some (5, "N"), rfl, rfl, rfl, rfl, ⟨?_, ?_⟩, .inr rfl, ?_⟩
    · exact @Decls.cons _ 4 1 3 0 [2] [11] [⟨0, 1, 2, .int, "v", .val .int⟩] [⟨0, 7, 9, .int, "next", .val .ptr⟩] rfl rfl rfl
        (by intro i hi; simp only [List.mem_singleton] at hi; subst hi; exact ⟨rfl, _, rfl, by simp⟩)
        (@Decls.cons _ 11 7 10 0 [9] [] [⟨0, 7, 9, .int, "next", .val .ptr⟩] [] rfl rfl rfl
          (by intro i hi; simp only [List.mem_singleton] at hi; subst hi; exact ⟨rfl, _, rfl, by simp⟩) .nil)
    · intro i hi
      simp only [itemsList, List.mem_cons, List.not_mem_nil, or_false] at hi
      rcases hi with rfl | rfl
      · exact .inl ⟨⟨[0], [.int], rfl, .cons rfl .nil, by decide, by decide⟩, .ident rfl⟩
      · exact .inr ⟨13, true, "N", ⟨6, 5, 0, false, 8, rfl, rfl, rfl, rfl, rfl, rfl⟩,
          tagSt_resolve hf (by simp [stListVar, stOf])⟩
    · intro i nm e
      cases e
      exact ⟨rfl, hf⟩
  name := rfl
  fresh := by
    intro c cs hc b hb
    have : c = ctx1 [] := by simp [stListVar, stOf] at hc; exact hc.1.symm
    subst this; simp [ctx1] at hb
  wf := stOf_WF _ _ _
  cap := ⟨by decide +kernel, by simp [stListVar, stOf], memOf_livelt _⟩

example := C17_members_partial E0 stListVar 17 15 13 "x" itemsList stListVar_decl

/-- the type laid out, `struct N *p;` pointing to the first of three structures with the values 1, 2, 3, and `p->next->next->v = 9` -/
def nodes117 : List Node :=
  [.kw .int, .chain [0], .ident "v", .decl (some 1) (some 2) 0,
   .ident "N", .compound (some 4) none 0 false true, .chain [5], .ident "next", .pointer (some 7),
   .decl (some 6) (some 8) 8, .chain [3, 9], .compound (some 4) (some 10) 16 true true,
   .ctype .ptr (some 11), .lv (some 12) 4144 false 0, .ident "p",
   .deref (some 14), .compAccess (some 15) (some 7), .deref (some 16), .compAccess (some 17) (some 7),
   .deref (some 18), .compAccess (some 19) (some 2), .integer 9, .assign (some 20) (some 21)]

def mem117 : List Bic.Byte :=
  [1, 0, 0, 0, 0, 0, 0, 0, 16, 16, 0, 0, 0, 0, 0, 0,
   2, 0, 0, 0, 0, 0, 0, 0, 32, 16, 0, 0, 0, 0, 0, 0,
   3, 0, 0, 0, 0, 0, 0, 0, 0, 0, 0, 0, 0, 0, 0, 0,
   0, 16, 0, 0, 0, 0, 0, 0]

def st117 : St :=
  { stOf nodes117 [] mem117 with
    ctxs := [{ ctx1 [⟨"p", 14, some 13⟩] with structs := [⟨"N", 4, some 11⟩] }] }

def items117 : List Item := [⟨3, 1, 2, .int, "v", .val .int⟩, ⟨9, 6, 8, .int, "next", .val .ptr⟩]

theorem st117_WF : WF st117 := stOf_WF nodes117 [] mem117

theorem st117_p : Conv E0 (fun R => R.ev (some 14)) st117 (.ok (some 13) st117) :=
  Conv.evNode (nd := .ident "p") rfl (Conv.fixed fun _ => by rfl)

theorem st117_to : Item.To st117 ⟨9, 6, 8, .int, "next", .val .ptr⟩ 11 :=
  ⟨true, "N", ⟨5, 4, 0, false, 7, rfl, rfl, rfl, rfl, rfl, rfl⟩, by decide +kernel⟩

theorem st117_linked : Linked st117 11 items117 true 1 8 "next" where
  laid :=
    { tree := ⟨some 4, 10, by decide +kernel, by decide +kernel⟩
      items := by
        intro i hi
        simp only [items117, List.mem_cons, List.not_mem_nil, or_false] at hi
        rcases hi with rfl | rfl
        · exact .inl ⟨⟨[0], [.int], rfl, .cons rfl .nil, by decide, by decide⟩, .ident rfl⟩
        · exact .inr ⟨11, st117_to⟩
      offs := .cons rfl (.cons rfl .nil) }
  names := by decide
  small := by decide +kernel
  link := ⟨_, rfl, rfl, st117_to⟩
  offset := by decide +kernel

theorem st117_ptr : PtrTo st117 13 (some 11) 4096 :=
  ⟨12, 4144, false, 0, rfl, rfl, by decide +kernel, by decide +kernel⟩

theorem st117_path : ArrowPath st117 (some 14) "next" 2 (some 18) :=
  .step (d := 17) (o := 7) (.step (d := 15) (o := 7) .start ⟨rfl, rfl, rfl⟩) ⟨rfl, rfl, rfl⟩

theorem st117_hops : Hops st117.mem 8 2 4096 4128 := by
  have h1 := Hops.next (Hops.here (m := st117.mem) (off := 8) 4096) (by decide +kernel)
  rw [show st117.mem.load 8 (4096 + 8) = 4112 by decide +kernel] at h1
  have h2 := h1.next (by decide +kernel)
  rw [show st117.mem.load 8 (4112 + 8) = 4128 by decide +kernel] at h2
  exact h2

theorem st117_cap : Cap st117 ((items117.map fun i => mcost i.m).sum * 3) :=
  ⟨by decide +kernel, by simp [st117, stOf], memOf_livelt _⟩

theorem st117_right : YieldsInt E0 st117 (some 21) 9 ((items117.map fun i => mcost i.m).sum * 3) := by
  intro s0 g _
  have h : s0.nodes 21 = some (.integer 9) := g.nodes _ _ rfl
  exact ⟨21, s0, Conv.evNode h (Conv.fixed fun _ => rfl), Grow.refl _, .int h⟩

example := C117_walk E0 st117 st117 (some 14) (some 18) 13 11 "next" items117 true 1 8 2 4096 4128 st117_p (Grow.refl _) st117_ptr
  st117_WF st117_linked (st117_cap.grow (Grow.refl _) (by decide +kernel)) st117_path st117_hops
example := C117_member E0 st117 st117 (some 14) (some 18) 20 19 2 13 11 "next" items117 true 1 8 2 4096 4128 0 0 _ st117_p
  (Grow.refl _) st117_ptr st117_WF st117_linked st117_cap st117_path st117_hops ⟨rfl, rfl, rfl⟩ rfl (by decide +kernel) (by decide)
example := C117_assign E0 st117 st117 (some 14) (some 18) (some 21) 20 22 19 2 13 11 "next" items117 true 1 8 2 4096 4128 0 0 _ .int 9
  st117_p (Grow.refl _) st117_ptr st117_WF st117_linked st117_cap st117_path st117_hops rfl ⟨rfl, rfl, rfl⟩ st117_right rfl
  (by decide +kernel) rfl trivial (by decide +kernel)

end Bic
