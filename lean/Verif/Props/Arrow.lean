import Verif.Props.Structs
/-!
# C116: structures through pointers
-/

namespace Bic
open Spec

/-- `t` is `e->m` (parser.m4:268-282: the member `m` of `*e`) -/
structure ArrowTree (s : St) (t d o : TId) (e : Ref) (m : String) : Prop where
  access : s.nodes t = some (.compAccess (some d) (some o))
  deref : s.nodes d = some (.deref e)
  member : s.nodes o = some (.ident m)

/-- C116 in full: wherever a program gets, if `e` points to the structure or union
variable `v`, `e->m` is where `v.m` is and as large. -/
def C116_statement : Prop :=
  ∀ (E : Env) (l : List Node) (s s1 s' : St) (t d o x v c w w' : TId) (e : Ref) (bs : List Binding) (b : Binding)
    (base a n a' n' : Nat),
    (∀ n ∈ l, Parsed n) → Reach E (stOf l [] []) s → ArrowTree s t d o e b.name →
    Conv E (fun R => R.ev e) s (.ok (some x) s1) → PtrTo s1 x (some c) base →
    s1.nodes v = some (.lcomp (some c) bs base) → (bs.map Binding.name).Nodup → b ∈ bs → b.val = some w →
    Conv E (fun R => R.ev (some t)) s (.ok (some w') s') →
    Occupies s' w a n → Occupies s' w' a' n' → a' = a ∧ n' = n

/-! ## The address of a structure -/

/-- C116: `&v` of a structure or union variable is a pointer to its type, to where it is. -/
theorem C116_address (E : Env) (s s1 : St) (t v c : TId) (e : Ref) (bs : List Binding) (base : Nat)
    (ht : s.nodes t = some (.addr e)) (he : Conv E (fun R => R.ev e) s (.ok (some v) s1)) (w : WF s1) (hroom : Room s1 1)
    (hv : s1.nodes v = some (.lcomp (some c) bs base)) (hb : base < 2 ^ 64) :
    ∃ r s', Conv E (fun R => R.ev (some t)) s (.ok (some r) s') ∧ Grow s1 s' ∧ PtrTo s' r (some c) base := by
  have x1 := addNode_ext w (.ctype .ptr (some c))
  have w1 := x1.wf w
  have r1 := hroom.ext x1
  have hτ := addNode_self s1 (.ctype .ptr (some c))
  have key := makeLiveVar_store (α := Ref) (some s1.next) (n := 8) (v := base) (by decide) r1 (fun t => pure (some t))
  have g2 := newVal_grow w1 (some s1.next) 8 base r1
  refine ⟨(addNode s1 (.ctype .ptr (some c))).next, newVal (addNode s1 (.ctype .ptr (some c))) (some s1.next) 8 base,
    Conv.evNode ht (Conv.bind he (Conv.fixed fun R => ?_)), x1.grow.trans g2, ?_⟩
  · simp only [bind_apply, peek_apply hv, mk_apply, pure_apply] at key ⊢
    exact key
  · refine ⟨s1.next, (addNode s1 (.ctype .ptr (some c))).mem.brk, false, 0, newVal_self _ _ _ _, g2.nodes _ _ hτ,
      newVal_ok (by decide), ?_⟩
    rw [newVal_load, Nat.mod_eq_of_lt (by omega)]

/-! ## The members -/

/-- `e` points to an object of the type `c` at `base`, which is laid out with the members `L`, and there is memory to look
at it -/
structure PtrComp (s : St) (x c : TId) (L : List Item) (isS : Bool) (base : Nat) : Prop where
  ptr : PtrTo s x (some c) base
  laid : Laid s c L isS
  small : base < 2 ^ 63 ∧ spaceOf (L.map Item.m) < 2 ^ 63
  wf : WF s
  cap : Cap s ((L.map fun i => mcost i.m).sum)

/-- `*e` for a pointer to a structure or union: an object with the members where they are -/
theorem derefComp_conv {E : Env} {s s1 : St} {t x c : TId} {e : Ref} {L : List Item} {isS : Bool} {base : Nat}
    (ht : s.nodes t = some (.deref e)) (he : Conv E (fun R => R.ev e) s (.ok (some x) s1))
    (h : PtrComp s1 x c L isS base) :
    ∃ r bs s', Conv E (fun R => R.ev (some t)) s (.ok (some r) s') ∧ Grow s1 s' ∧
      s'.nodes r = some (.lcomp (some c) bs base) ∧
      MembersAt s' base s1.mem.brk L (layoutPure isS 0 0 (L.map Item.m)).1 bs ∧
      s'.mem.brk ≤ s1.mem.brk + (L.map fun i => mcost i.m).sum ∧
      LinksAt s1 s' base L (layoutPure isS 0 0 (L.map Item.m)).1 bs := by
  obtain ⟨id, ch, hc, hch⟩ := h.laid.tree
  obtain ⟨hsm, hsp⟩ := h.small
  obtain ⟨bs, s2, c2, g2, m2, b2, k2⟩ := instElements_conv (E := E) (base := base) h.wf h.laid.items h.laid.offs
    (fun o ho => by have := offs_le L isS (by omega) o ho; omega) h.cap
  have w2 := g2.wf h.wf
  have x3 := addNode_ext w2 (.lcomp (some c) bs base)
  have hself := addNode_self s2 (.lcomp (some c) bs base)
  have e3 := mk_apply (.lcomp (some c) bs base) s2
  have hbrk : (addNode s2 (.lcomp (some c) bs base)).mem.brk = s2.mem.brk := rfl
  generalize addNode s2 (.lcomp (some c) bs base) = s3 at x3 hself e3 hbrk
  refine ⟨s2.next, bs, s3, Conv.evNode ht (Conv.bind he ?_), g2.trans x3.grow, hself, m2.grow x3.grow (Nat.le_refl _),
    by omega, All₂.imp (fun p b hb c hc => let ⟨v, h1, h2⟩ := hb c hc; ⟨v, h1, h2.grow x3.grow⟩) k2⟩
  obtain ⟨τ, a, arr, sz, h1, h2, h3, h4⟩ := h.ptr.lv
  have hinst : Conv E (fun R => R.instStruct (some c) base) s1 (.ok s2.next s3) := by
    refine Conv.instStruct ?_
    have hi : Conv E (fun R => (do
        let ms ← instElements R base (L.map Item.d)
        mk (.lcomp (some c) ms base) : M TId)) s1 (.ok s2.next s3) := Conv.bind c2 (Conv.const e3)
    refine Conv.of_eq hi fun R => ?_
    simp only [instStructStep, nodeR, bind_apply, node_apply hc, if_true, chainElems_apply hch]
  have hall : Conv E (fun R => (do
      let o ← R.instStruct (some c) base
      pure (some o) : M Ref)) s1 (.ok (some s2.next) s3) := Conv.bind hinst (Conv.pure _)
  refine Conv.of_eq hall fun R => ?_
  simp only [bind_apply, peek_apply h1, peek_apply h2, peek_apply hc, loadRaw_apply h3, ← h4]

theorem MembersAt.names {s : St} {base lo : Nat} {L : List Item} {os : List Nat} {bs : List Binding}
    (h : MembersAt s base lo L os bs) (hlen : os.length = L.length) : bs.map Binding.name = L.map Item.x := by
  refine List.ext_getElem? fun i => ?_
  have hl := All₂.length h
  rw [List.length_zip, hlen] at hl
  rw [List.getElem?_map, List.getElem?_map]
  cases hb : bs[i]? with
  | none =>
    rw [List.getElem?_eq_none_iff] at hb
    rw [List.getElem?_eq_none (by omega)]; rfl
  | some b =>
    obtain ⟨it, o, h1, _, h3, _⟩ := h.get hb
    rw [h1]; simp [h3]

/-- C116: if `e` points to an object of a structure or union type whose members, of
different names, are of basic types, pointers, arrays of those, and pointers to structures and unions, `e->m` is an object of
the type of `m`, as many bytes from the start as the layout says. -/
theorem C116_member_partial (E : Env) (s s1 : St) (t d o x c : TId) (e : Ref) (L : List Item) (isS : Bool) (base : Nat)
    (i off : Nat) (it : Item) (ht : ArrowTree s t d o e it.x) (he : Conv E (fun R => R.ev e) s (.ok (some x) s1))
    (hg : Grow s s1) (h : PtrComp s1 x c L isS base) (hnd : (L.map Item.x).Nodup) (hit : L[i]? = some it)
    (hoff : (layoutPure isS 0 0 (L.map Item.m)).1[i]? = some off) :
    ∃ w s', Conv E (fun R => R.ev (some t)) s (.ok (some w) s') ∧ Grow s1 s' ∧ MemberAt s' w (base + off) it.m ∧
      s'.mem.brk ≤ s1.mem.brk + (L.map fun i => mcost i.m).sum ∧ ∀ c', it.To s1 c' → LinkAt s' w (base + off) c' := by
  obtain ⟨r, bs, s', c1, g1, hr, hm, hbrk, hlk⟩ := derefComp_conv ht.deref he h
  have hl : (layoutPure isS 0 0 (L.map Item.m)).1.length = L.length := by rw [layoutPure_length, List.length_map]
  have hnames := MembersAt.names hm hl
  have hil : i < bs.length := by
    have := congrArg List.length hnames
    rw [List.length_map, List.length_map] at this
    rw [this]; exact (List.getElem?_eq_some_iff.mp hit).1
  have hb : bs[i]? = some bs[i] := List.getElem?_eq_getElem hil
  obtain ⟨it', o', h1, h2, h3, w, hw, hmem, _⟩ := hm.get hb
  rw [hit] at h1; cases h1
  rw [hoff] at h2; cases h2
  refine ⟨w, s', ?_, g1, hmem, hbrk, ?_⟩
  case refine_2 =>
    intro c' hc'
    have hz : (L.zip (layoutPure isS 0 0 (L.map Item.m)).1)[i]? = some (it, off) :=
      List.getElem?_zip_eq_some.mpr ⟨hit, hoff⟩
    obtain ⟨v, h4, h5⟩ := All₂.get hlk hz hb c' hc'
    rw [hw] at h4; cases h4
    exact h5
  have hf := findId_at (by rw [hnames]; exact hnd) hb hw
  rw [h3] at hf
  exact compAccess_conv ht.access (g1.nodes _ _ (hg.nodes _ _ ht.member)) c1 hr hf

theorem CompAt.item {s : St} {v c : TId} {L : List Item} {isS : Bool} {base : Nat} {bs : List Binding}
    (h : CompAt s v c L isS base bs) : bs.map Binding.name = L.map Item.x :=
  MembersAt.names h.members (by rw [layoutPure_length, List.length_map])

theorem MemberAt.holds {s : St} {w w' : TId} {a : Nat} {m : MTy} (h : MemberAt s w a m) (h' : MemberAt s w' a m) {k z}
    (hz : Holds s w k z) : Holds s w' k z := by
  obtain ⟨τ, a0, hl, rfl⟩ := hz
  obtain ⟨arr, sz, h1⟩ := hl.lv
  obtain ⟨e, h2⟩ := hl.ty
  cases m with
  | val c =>
    obtain ⟨τ1, e1, h3, h4⟩ := h
    obtain ⟨τ2, e2, h5, h6⟩ := h'
    rw [h1] at h3; cases h3
    rw [h2] at h4; cases h4
    exact ⟨τ2, a, ⟨⟨_, _, h5⟩, ⟨_, h6⟩, hl.int, hl.ok⟩, rfl⟩
  | arr c n =>
    obtain ⟨bt, e1, h3, _⟩ := h
    obtain ⟨bt', e2, h4, _⟩ := h'
    obtain ⟨τ1, a1, h5, h6, h7, h8⟩ := h3.lv
    obtain ⟨τ2, a2, h9, h10, h11, h12⟩ := h4.lv
    rw [h1] at h5; cases h5
    rw [h2] at h6; cases h6
    refine ⟨τ2, a2, ⟨⟨_, _, h9⟩, ⟨_, h10⟩, hl.int, h11⟩, ?_⟩
    show CT.ptr.decode (s.mem.load 8 _) = CT.ptr.decode (s.mem.load 8 _)
    rw [← h8, ← h12]

/-- C116: the same place and type as `v.m`, when `e` points to the variable `v`; so they have the same value. -/
theorem C116_same_partial (E : Env) (s s1 : St) (t d o x v c : TId) (e : Ref) (L : List Item) (isS : Bool) (base : Nat)
    (bs : List Binding) (i : Nat) (b : Binding) (ht : ArrowTree s t d o e b.name)
    (he : Conv E (fun R => R.ev e) s (.ok (some x) s1)) (hg : Grow s s1) (h : PtrComp s1 x c L isS base)
    (hv : CompAt s1 v c L isS base bs) (hnd : (bs.map Binding.name).Nodup) (hb : bs[i]? = some b) :
    ∃ w w' s', b.val = some w ∧ Conv E (fun R => R.ev (some t)) s (.ok (some w') s') ∧ Grow s1 s' ∧
      (∀ a n, Occupies s' w' a n ↔ Occupies s' w a n) ∧
      (∀ k z, Holds s' w' k z ↔ Holds s' w k z) := by
  obtain ⟨it, off, h1, h2, h3, w, hw, hmem, _⟩ := hv.members.get hb
  rw [h3] at ht
  obtain ⟨w', s', c1, g1, m1, _, _⟩ := C116_member_partial E s s1 t d o x c e L isS base i off it ht he hg h
    (by rw [← hv.item]; exact hnd) h1 h2
  have hmem' := hmem.grow g1
  refine ⟨w, w', s', hw, c1, g1, ?_, ?_⟩
  · intro a n
    constructor
    · intro ho
      obtain ⟨rfl, rfl⟩ := m1.occupies ho
      exact hmem'.self
    · intro ho
      obtain ⟨rfl, rfl⟩ := hmem'.occupies ho
      exact m1.self
  · intro k z
    exact ⟨m1.holds hmem', hmem'.holds m1⟩

/-- `r` evaluates to the value `y` without changing anything, also after more objects have been made -/
def YieldsInt (E : Env) (s : St) (r : Ref) (y : Int) (n : Nat) : Prop :=
  ∀ s0, Grow s s0 → s0.mem.brk ≤ s.mem.brk + n → ∃ q s2, Conv E (fun R => R.ev r) s0 (.ok (some q) s2) ∧ Grow s0 s2 ∧ RVal s2 q y

/-- C116: `e->m = r` with `m` of an integer type, when `e` points to the structure variable `v`:
`v.m` has the value of `r` converted to its type, and every other member of `v`, whatever it contains, keeps
all its bytes. -/
theorem C116_assign_partial (E : Env) (s s1 : St) (t u d o x v c : TId) (e r : Ref) (L : List Item) (base : Nat)
    (bs : List Binding) (i : Nat) (b : Binding) (it : Item) (k : CT) (y : Int)
    (ht : s.nodes t = some (.assign (some u) r)) (hu : ArrowTree s u d o e b.name)
    (he : Conv E (fun R => R.ev e) s (.ok (some x) s1)) (hg : Grow s s1) (h : PtrComp s1 x c L true base)
    (hr : YieldsInt E s1 r y (L.map fun i => mcost i.m).sum)
    (hv : CompAt s1 v c L true base bs) (hnd : (bs.map Binding.name).Nodup)
    (hb : bs[i]? = some b) (hit : L[i]? = some it) (hk : it.m = .val k) (hi : integral k) :
    ∃ w q s2 s', b.val = some w ∧ Grow s1 s2 ∧ Conv E (fun R => R.ev (some t)) s (.ok (some q) s') ∧
      (∃ z, Converts k y z ∧ Holds s' w k z) ∧
      (∀ a, a < base ∨ base + Laid.bytes L true ≤ a → s'.mem.byte a = s2.mem.byte a) ∧
      ∀ (j : Nat) b' w' a n, j ≠ i → bs[j]? = some b' → b'.val = some w' → Occupies s2 w' a n →
        Occupies s' w' a n ∧ ∀ x, a ≤ x → x < a + n → s'.mem.byte x = s2.mem.byte x := by
  obtain ⟨it', oi, hi1, hi2, hn, _⟩ := hv.members.get hb
  rw [hit] at hi1; cases hi1
  rw [hn] at hu
  obtain ⟨w', s1', c1, g1, m1, hbrk, _⟩ := C116_member_partial E s s1 u d o x c e L true base i oi it hu he hg h
    (by rw [← hv.item]; exact hnd) hit hi2
  obtain ⟨q, s2, c2, g2, hq⟩ := hr s1' g1 hbrk
  have g12 := g1.trans g2
  have hsp := h.small.2
  obtain ⟨w, τ, hw, hlv, h1, h2⟩ := hv.write g12 (by omega) hb hit hk hi hi2 y
  rw [hk] at m1
  obtain ⟨τ', e', hl', hτ'⟩ := m1.grow g2
  have hlv' : LvAt s2 w' τ' k (base + oi) := ⟨⟨_, _, hl'⟩, ⟨_, hτ'⟩, .inl hi, hlv.ok⟩
  refine ⟨w, q, s2, _, hw, g12, assign_conv ht c1 c2 hlv' hi hq, h1, ?_, h2⟩
  intro a ha
  have hwin := (layoutPure_placed (off := 0) (mx := 0) (ms := L.map Item.m) (by omega)).1.inOrder.within
    (i := i) (m := it.m) (by rw [List.getElem?_map, hit]; rfl) hi2
  rw [hk] at hwin
  have hsize : MTy.size (.val k) = k.size := abiSize_eq k
  have hbytes : Laid.bytes L true = (layoutPure true 0 0 (L.map Item.m)).2.1 := by simp [Laid.bytes]
  exact Mem.store_byte_other _ _ _ _ _ (by omega)

/-! ## A tag that is declared again -/

/-- `struct T { char c; }; struct S { struct T t; char d; }; struct S s;`, then in a
block `struct T { long a, b; };` and `(&s)->t` -/
def nodesArrow : List Node := nodesShadow ++ [.addr (some 35), .deref (some 41), .compAccess (some 42) (some 13)]

def stArrow : St := evTo 40 32 (pushSt (evTo 40 37 (evTo 40 22 (evTo 40 9 (stOf nodesArrow [] [])))) "Block")

theorem stArrow_reach : Reach E0 (stOf nodesArrow [] []) stArrow := by
  refine Reach.computed (.enter "Block" (Reach.computed (Reach.computed (Reach.computed .start 40 9 ?_) 40 22 ?_) 40 37 ?_)) 40 32 ?_
  · decide +kernel
  · decide +kernel
  · decide +kernel
  · decide +kernel

def compDecls (s : St) (c : TId) : Ref :=
  match s.nodes c with
  | some (.compound _ d _ _ _) => d
  | _ => none

/-- C116 in full is false: the types of the members are looked up by name again
when the pointer is followed, so in a block with another `struct T`, `(&s)->t` is 16 bytes, 15 more than `s.t`. -/
theorem C116_refuted : ¬ C116_statement := by
  intro h
  have := h E0 nodesArrow stArrow (evTo 20 41 stArrow) (evTo 20 43 stArrow) 43 42 13 100 79 20 76 105 (some 41)
    [⟨"t", 13, some 76⟩, ⟨"d", 16, some 78⟩] ⟨"t", 13, some 76⟩ 4544 4544 1 4544 16
    (by decide +kernel) stArrow_reach ⟨by decide +kernel, by decide +kernel, by decide +kernel⟩
    (evTo_conv _ _ _ _ (by decide +kernel) (by decide +kernel))
    ⟨99, 4864, false, 0, by decide +kernel, by decide +kernel, by decide +kernel, by decide +kernel⟩
    (by decide +kernel) (by decide) (by simp) rfl
    (evTo_conv _ _ _ _ (by decide +kernel) (by decide +kernel))
    (.comp (c := 7) (ms := [⟨"c", 1, some 75⟩]) (id := some 0) (ds := compDecls (evTo 20 43 stArrow) 7) (b := true)
      (by decide +kernel) (by decide +kernel))
    (.comp (c := 30) (ms := [⟨"a", 23, some 102⟩, ⟨"b", 24, some 104⟩]) (id := some 0)
      (ds := compDecls (evTo 20 43 stArrow) 30) (b := true) (by decide +kernel) (by decide +kernel))
  omega

/-! ## Examples -/

/-- `struct { char a; int b; } s, *p;` laid out, with `s.a = 1`, `s.b = 7` and `p = &s`; then `p->b`, `p->b = 300` and `&s` -/
def nodes116 : List Node :=
  [.kw .char, .chain [0], .ident "a", .decl (some 1) (some 2) 0,
   .kw .int, .chain [4], .ident "b", .decl (some 5) (some 6) 4, .chain [3, 7], .compound none (some 8) 8 true true,
   .ctype .char none, .lv (some 10) 4096 false 0, .ctype .int none, .lv (some 12) 4100 false 0,
   .lcomp (some 9) [⟨"a", 2, some 11⟩, ⟨"b", 6, some 13⟩] 4096,
   .ctype .ptr (some 9), .lv (some 15) 4104 false 0, .ident "s", .ident "p",
   .deref (some 18), .compAccess (some 19) (some 6), .integer 300, .assign (some 20) (some 21), .addr (some 17)]

def st116 : St := stOf nodes116 [⟨"p", 18, some 16⟩, ⟨"s", 17, some 14⟩] [1, 0, 0, 0, 7, 0, 0, 0, 0, 16, 0, 0, 0, 0, 0, 0]

def items116 : List Item := [⟨3, 1, 2, .char, "a", .val .char⟩, ⟨7, 5, 6, .int, "b", .val .int⟩]

theorem st116_p : Conv E0 (fun R => R.ev (some 18)) st116 (.ok (some 16) st116) :=
  Conv.evNode (nd := .ident "p") rfl (Conv.fixed fun _ => by rfl)

theorem st116_s : Conv E0 (fun R => R.ev (some 17)) st116 (.ok (some 14) st116) :=
  Conv.evNode (nd := .ident "s") rfl (Conv.fixed fun _ => by rfl)

theorem st116_ptr : PtrComp st116 16 9 items116 true 4096 where
  ptr := ⟨15, 4104, false, 0, rfl, rfl, by decide +kernel, by decide +kernel⟩
  laid :=
    { tree := ⟨none, 8, by decide +kernel, by decide +kernel⟩
      items := by
        intro i hi
        simp only [items116, List.mem_cons, List.not_mem_nil, or_false] at hi
        rcases hi with rfl | rfl
        · exact .inl ⟨⟨[0], [.char], rfl, .cons rfl .nil, by decide, by decide⟩, .ident rfl⟩
        · exact .inl ⟨⟨[4], [.int], rfl, .cons rfl .nil, by decide, by decide⟩, .ident rfl⟩
      offs := .cons rfl (.cons rfl .nil) }
  small := by decide +kernel
  wf := stOf_WF _ _ _
  cap := ⟨by decide +kernel, by simp [st116, stOf], memOf_livelt _⟩

theorem st116_comp : CompAt st116 14 9 items116 true 4096 [⟨"a", 2, some 11⟩, ⟨"b", 6, some 13⟩] where
  obj := rfl
  members := .cons ⟨rfl, 11, rfl, ⟨10, none, rfl, rfl⟩, ⟨_, _, _, _, rfl, by simp⟩⟩
    (.cons ⟨rfl, 13, rfl, ⟨12, none, rfl, rfl⟩, ⟨_, _, _, _, rfl, by simp⟩⟩ .nil)
  size := .lcomp (d := 9) rfl (i := none) (ds := some 8) (b := true) (by decide +kernel)
  ok := by decide +kernel

example := C116_address E0 st116 st116 23 14 9 (some 17) _ 4096 rfl st116_s (stOf_WF _ _ _)
  (st116_ptr.cap.room (by decide +kernel)) rfl (by decide)
example := C116_member_partial E0 st116 st116 20 19 6 16 9 (some 18) items116 true 4096 1 4 _ ⟨rfl, rfl, rfl⟩ st116_p
  (Grow.refl _) st116_ptr (by decide +kernel) rfl (by decide +kernel)
example := C116_same_partial E0 st116 st116 20 19 6 16 14 9 (some 18) items116 true 4096 _ 1 ⟨"b", 6, some 13⟩ ⟨rfl, rfl, rfl⟩
  st116_p (Grow.refl _) st116_ptr st116_comp (by decide +kernel) rfl

theorem st116_right : YieldsInt E0 st116 (some 21) 300 (items116.map fun i => mcost i.m).sum := by
  intro s0 g _
  have h : s0.nodes 21 = some (.integer 300) := g.nodes _ _ rfl
  exact ⟨21, s0, Conv.evNode h (Conv.fixed fun _ => rfl), Grow.refl _, .int h⟩

example := C116_assign_partial E0 st116 st116 22 20 19 6 16 14 9 (some 18) (some 21) items116 4096 _ 1 ⟨"b", 6, some 13⟩ _ .int 300
  rfl ⟨rfl, rfl, rfl⟩ st116_p (Grow.refl _) st116_ptr st116_right st116_comp (by decide +kernel) rfl rfl rfl trivial

end Bic
