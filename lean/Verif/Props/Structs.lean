import Verif.Proofs.Witness
import Verif.Proofs.Repr
import Verif.Proofs.Structs
/-!
# C17–C20: structures and unions
-/

namespace Bic
open Spec

/-- the object `v` occupies `n` bytes at `a` -/
inductive Occupies (s : St) : TId → Nat → Nat → Prop
  | val {v τ a sz c e} : s.nodes v = some (.lv (some τ) a false sz) → s.nodes τ = some (.ctype c e) →
      Occupies s v a (abiSize c)
  | arr {v bt n a} : ArrayAt s v bt n a → Occupies s v a n
  | comp {v c ms a id ds sz b} : s.nodes v = some (.lcomp (some c) ms a) →
      s.nodes c = some (.compound id ds sz true b) → Occupies s v a sz

/-- the members `bs` lie one after the other within the `sz` bytes at `base` -/
def Ordered (s : St) (bs : List Binding) (base sz : Nat) : Prop :=
  (∀ (i : Nat) b v a n, bs[i]? = some b → b.val = some v → Occupies s v a n → base ≤ a ∧ a + n ≤ base + sz) ∧
  ∀ (i j : Nat) b b' v v' a a' n n', i < j → bs[i]? = some b → bs[j]? = some b' → b.val = some v → b'.val = some v' →
    Occupies s v a n → Occupies s v' a' n' → a + n ≤ a'

/-- C17 in full: wherever a program gets, the members of any structure variable are
in order inside the size of the structure. -/
def C17_statement : Prop :=
  ∀ (E : Env) (l : List Node) (s : St) (x : String) (v c : TId) (bs : List Binding) (base sz : Nat) (id ds : Ref),
    (∀ n ∈ l, Parsed n) → Reach E (stOf l [] []) s → resolveGlobal x .normal s = some v →
    s.nodes v = some (.lcomp (some c) bs base) → s.nodes c = some (.compound id ds sz true true) →
    Ordered s bs base sz

/-! ## What is proved -/

/-- `ts` declares the members `L` of the type `c`: of basic types, pointers and arrays of those, and pointers to compound types, among them
`c` itself if it has a tag -/
def MembersOf (s : St) (c : TId) (isS : Bool) (tag : Option (TId × String)) (ts : List TId) (L : List Item) : Prop :=
  Decls s.nodes ts L ∧ ∀ i ∈ L, i.Fine (tagged s isS c tag)

theorem Src.members {s : St} {c : TId} {isS : Bool} {tag : Option (TId × String)} {ts : List TId} {L : List Item}
    (h : Src s.nodes ts L) : MembersOf s c isS tag ts L :=
  ⟨h.decls, fun i hi => .inl (by rw [tagged_nodes]; exact h.ok i hi)⟩

/-- `t` is the declaration `struct { … } x;` or `struct S { … } x;` (or `union`) with the members `L`, where `x` and `S`
are not declared in the scope -/
structure CompDecl (s : St) (t d c : TId) (x : String) (isS : Bool) (L : List Item) : Prop where
  trees : ∃ specs ch0 ts off sz ds tag, s.nodes t = some (.decl (some specs) (some ds) off) ∧
    s.nodes specs = some (.chain [c]) ∧ s.nodes c = some (.compound (tag.map Prod.fst) (some ch0) sz false isS) ∧
    s.nodes ch0 = some (.chain ts) ∧ MembersOf s c isS tag ts L ∧ OneDecl s.nodes ds d ∧
    ∀ i nm, tag = some (i, nm) → s.nodes i = some (.ident nm) ∧ FreshTag s isS nm
  name : s.nodes d = some (.ident x)
  fresh : Fresh s x
  wf : WF s
  cap : Cap s (3 * (L.map fun i => mcost i.m).sum + 48)

theorem space_le (L : List Item) : spaceOf (L.map Item.m) ≤ (L.map fun i => mcost i.m).sum := by
  induction L with
  | nil => simp [spaceOf]
  | cons i L ih =>
    simp only [spaceOf, List.map_cons, List.sum_cons] at ih ⊢
    have : i.m.size + 16 ≤ mcost i.m := by
      cases i.m with
      | val c => have := CT.size_le c; simp only [MTy.size, mcost, abiSize_eq]; omega
      | arr c n => simp only [MTy.size, mcost, abiSize_eq]; omega
    omega

theorem size_le_space {ms : List MTy} {m : MTy} (h : m ∈ ms) : m.size ≤ spaceOf ms := by
  induction ms with
  | nil => cases h
  | cons a ms ih =>
    simp only [spaceOf, List.map_cons, List.sum_cons]
    rcases List.mem_cons.mp h with rfl | h
    · omega
    · have := ih h; simp only [spaceOf] at this; omega

theorem bytes_le (L : List Item) (isS : Bool) (h : spaceOf (L.map Item.m) < 2 ^ 64) :
    Laid.bytes L isS ≤ spaceOf (L.map Item.m) := by
  unfold Laid.bytes
  cases isS with
  | true =>
    have := (layoutPure_placed (off := 0) (mx := 0) (ms := L.map Item.m) (by omega)).2
    simpa using this
  | false =>
    obtain ⟨_, _, _, _, h5⟩ := layoutPure_union (mx := 0) (ms := L.map Item.m)
    simp only [Bool.false_eq_true, if_false]
    rcases h5 with h5 | ⟨m, h5, h6⟩
    · omega
    · rw [← h6]; exact size_le_space h5

theorem offs_le (L : List Item) (isS : Bool) (h : spaceOf (L.map Item.m) < 2 ^ 64) :
    ∀ o ∈ (layoutPure isS 0 0 (L.map Item.m)).1, o ≤ spaceOf (L.map Item.m) := by
  intro o ho
  cases isS with
  | true =>
    have hp := layoutPure_placed (off := 0) (mx := 0) (ms := L.map Item.m) (by omega)
    obtain ⟨i, hi⟩ := List.getElem?_of_mem ho
    have hl : i < (L.map Item.m).length := by
      rw [← layoutPure_length true (off := 0) (mx := 0)]
      exact (List.getElem?_eq_some_iff.mp hi).1
    have := hp.1.inOrder.within (List.getElem?_eq_getElem hl) hi
    omega
  | false =>
    have := (layoutPure_union (mx := 0) (ms := L.map Item.m)).1 o ho
    omega

theorem fresh_tagged {s : St} {x : String} (h : Fresh s x) (isS : Bool) (c : TId) (tag : Option (TId × String)) :
    Fresh (tagged s isS c tag) x := by
  cases tag with
  | none => exact h
  | some p =>
    intro c' cs hc b hb
    cases hs : s.ctxs with
    | nil => simp [tagged, tagSt, hs] at hc
    | cons c0 cs0 =>
      refine h c0 cs0 hs b ?_
      simp only [tagged, tagSt, hs, List.cons.injEq] at hc
      obtain ⟨rfl, -⟩ := hc
      cases isS <;> exact hb

/-- declaring a variable of a compound type -/
theorem compDecl_conv {E : Env} {s : St} {t d c : TId} {x : String} {isS : Bool} {L : List Item}
    (h : CompDecl s t d c x isS L) :
    ∃ L' v bs base s' s'', L'.map Item.m = L.map Item.m ∧ L'.map Item.x = L.map Item.x ∧
      Conv E (fun R => R.ev (some t)) s (.ok (some d) s'') ∧ s'' = bindSt s' ⟨x, d, some v⟩ ∧
      resolveGlobal x .normal s'' = some v ∧ (∃ tag, GrowD [c] (tagged s isS c tag) s') ∧ CompAt s'' v c L' isS base bs ∧ s.mem.brk ≤ base := by
  obtain ⟨specs, ch0, ts, off, sz, ds, tag, h1, h2, h3, h4, h5, h6, h7⟩ := h.trees
  have hlim : Mem.limit < 2 ^ 63 := by decide
  have hsp := space_le L
  have hbrk := h.cap.brk
  have hlt : spaceOf (L.map Item.m) < 2 ^ 64 := by omega
  have hb := bytes_le L isS hlt
  obtain ⟨L', v, bs, base, s', hm, hx, hc, hg, hcomp, hbase⟩ := declStruct_conv (E := E) h.wf h1 h2 h3 h7 h4 h5.1 h5.2 h6 h.name
    h.fresh.resolve (fun o ho => by have := offs_le L isS hlt o ho; omega)
    ⟨by omega, h.cap.ctxs, h.cap.livelt⟩
  refine ⟨L', v, bs, base, s', _, hm, hx, hc, rfl, ?_, ⟨_, hg⟩, ?_, hbase⟩
  · refine resolveGlobal_bind ?_ (hg.ctxs_ne (tagged_ctxs _ _ _ _ h.cap.ctxs))
    intro c' cs hc' b hb'
    have h1 := hg.ctxs
    have hf := fresh_tagged h.fresh isS c tag
    cases hs : (tagged s isS c tag).ctxs with
    | nil => rw [hs, hc'] at h1; simp at h1
    | cons c0 cs0 =>
      rw [hs, hc'] at h1
      simp only [List.map_cons, List.cons.injEq, Ctx.core, Ctx.mk.injEq] at h1
      exact hf c0 cs0 hs b (by rw [← h1.1.2.2.1]; exact hb')
  · refine ⟨hcomp.obj, ?_, ?_, hcomp.ok⟩
    · refine All₂.imp (fun p b hpb => ?_) hcomp.members
      obtain ⟨h1, v, h2, h3, ⟨ty, a, arr, n, h4, h5⟩⟩ := hpb
      refine ⟨h1, v, h2, ?_, ⟨ty, a, arr, n, h4, h5⟩⟩
      cases hm : p.1.m with
      | val c => rw [hm] at h3; exact h3
      | arr c n =>
        rw [hm] at h3
        obtain ⟨bt, e, ha, h4⟩ := h3
        exact ⟨bt, e, ⟨ha.lv⟩, h4⟩
    · have hsz := hcomp.size
      generalize Laid.bytes L' isS = n at hsz
      cases hsz with
      | ctype h => exact .ctype h
      | comp h => exact .comp h
      | var h h' hn => exact .var h h' hn
      | array h h' => exact .array h h'
      | lcomp h h' => exact .lcomp h h'

theorem CompAt.tree {s : St} {v c : TId} {L isS base bs} (h : CompAt s v c L isS base bs) :
    ∃ id ds b, s.nodes c = some (.compound id ds (Laid.bytes L isS) true b) := by
  have hs := h.size
  generalize Laid.bytes L isS = n at hs
  have ho := h.obj
  cases hs with
  | ctype h' => rw [ho] at h'; cases h'
  | comp h' => rw [ho] at h'; cases h'
  | var h' _ _ => rw [ho] at h'; cases h'
  | array h' _ => rw [ho] at h'; cases h'
  | lcomp h' h'' => rw [ho] at h'; cases h'; exact ⟨_, _, _, h''⟩

/-- a member occupies what its type says -/
theorem MemberAt.occupies {s : St} {v a : Nat} {m : MTy} (h : MemberAt s v a m) {a' n} (ho : Occupies s v a' n) :
    a' = a ∧ n = m.size := by
  cases m with
  | val c =>
    obtain ⟨τ, e, h1, h2⟩ := h
    cases ho with
    | val h3 h4 => rw [h1] at h3; cases h3; rw [h2] at h4; cases h4; exact ⟨rfl, rfl⟩
    | arr h3 => obtain ⟨_, _, h4, _⟩ := h3.lv; rw [h1] at h4; cases h4
    | comp h3 _ => rw [h1] at h3; cases h3
  | arr c k =>
    obtain ⟨bt, e, ha, h2⟩ := h
    obtain ⟨τ, b, h3, h4, h5, h6⟩ := ha.lv
    cases ho with
    | val h7 _ => rw [h3] at h7; cases h7
    | arr h7 =>
      obtain ⟨τ', b', h8, h9, h10, h11⟩ := h7.lv
      rw [h3] at h8; cases h8
      exact ⟨by rw [h11, h6], by simp [MTy.size, abiSize_eq]⟩
    | comp h7 _ => rw [h3] at h7; cases h7

theorem MembersAt.get {s : St} {base lo : Nat} {L : List Item} {os : List Nat} {bs : List Binding}
    (h : MembersAt s base lo L os bs) {i : Nat} {b : Binding} (hb : bs[i]? = some b) :
    ∃ it o, L[i]? = some it ∧ os[i]? = some o ∧ b.name = it.x ∧ ∃ v, b.val = some v ∧
      MemberAt s v (base + o) it.m ∧ CellFrom s v lo := by
  have hlen := All₂.length h
  have hi : i < (L.zip os).length := by rw [hlen]; exact (List.getElem?_eq_some_iff.mp hb).1
  have h1 := All₂.get h (List.getElem?_eq_getElem hi) hb
  have hz := List.getElem_zip (h := hi)
  have hl : i < L.length := by simp at hi; omega
  have ho : i < os.length := by simp at hi; omega
  refine ⟨L[i], os[i], List.getElem?_eq_getElem hl, List.getElem?_eq_getElem ho, ?_⟩
  rw [hz] at h1
  exact h1

/-- members laid out in order are in order as objects -/
theorem CompAt.ordered {s : St} {v c : TId} {L : List Item} {isS : Bool} {base : Nat} {bs : List Binding}
    (h : CompAt s v c L isS base bs) {e : Nat}
    (hp : InOrder e (L.map Item.m) (layoutPure isS 0 0 (L.map Item.m)).1 (Laid.bytes L isS)) :
    Ordered s bs base (Laid.bytes L isS) := by
  constructor
  · intro i b w a n hb hw ho
    obtain ⟨it, o, hi, hio, _, w', hw', hm, _⟩ := h.members.get hb
    rw [hw] at hw'; cases hw'
    obtain ⟨rfl, rfl⟩ := hm.occupies ho
    have := hp.within (i := i) (m := it.m) (by rw [List.getElem?_map, hi]; rfl) hio
    omega
  · intro i j b b' w w' a a' n n' hij hb hb' hw hw' ho ho'
    obtain ⟨it, o, hi, hio, _, u, hu, hm, _⟩ := h.members.get hb
    obtain ⟨it', o', hi', hio', _, u', hu', hm', _⟩ := h.members.get hb'
    rw [hw] at hu; cases hu
    rw [hw'] at hu'; cases hu'
    obtain ⟨rfl, rfl⟩ := hm.occupies ho
    obtain ⟨rfl, rfl⟩ := hm'.occupies ho'
    have := hp.disjoint (i := i) (j := j) (m := it.m) (m' := it'.m) hij (by rw [List.getElem?_map, hi]; rfl)
      (by rw [List.getElem?_map, hi']; rfl) hio hio'
    omega

/-- C17 for structures whose members are of basic types, pointers, and arrays of
those: the declaration is carried out; the variable's members, named as declared,
are in order inside the size of the structure, which is what `sizeof` gives
(`C38_struct`), in storage that was free. -/
theorem C17_members_partial (E : Env) (s : St) (t d c : TId) (x : String) (L : List Item) (h : CompDecl s t d c x true L) :
    ∃ v bs base sz id ds b s', Conv E (fun R => R.ev (some t)) s (.ok (some d) s') ∧
      resolveGlobal x .normal s' = some v ∧ s'.nodes v = some (.lcomp (some c) bs base) ∧
      s'.nodes c = some (.compound id ds sz true b) ∧ bs.map Binding.name = L.map Item.x ∧
      Ordered s' bs base sz ∧ s'.mem.ok sz base = true ∧ (∀ a, base ≤ a → s.mem.live a = false) := by
  obtain ⟨L', v, bs, base, s', s'', hm, hx, hc, rfl, hr, _, hcomp, hbase⟩ := compDecl_conv (E := E) h
  obtain ⟨id, ds, b, ht⟩ := hcomp.tree
  have hlim : Mem.limit < 2 ^ 63 := by decide
  have hsp := space_le L
  have hbrk := h.cap.brk
  refine ⟨v, bs, base, _, id, ds, b, _, hc, hr, hcomp.obj, ht, ?_, ?_, hcomp.ok, ?_⟩
  · rw [← hx]
    have hmem := hcomp.members
    have hlen : L'.length = (layoutPure true 0 0 (L'.map Item.m)).1.length := by rw [layoutPure_length, List.length_map]
    generalize (layoutPure true 0 0 (L'.map Item.m)).1 = os at hmem hlen
    generalize base + Laid.bytes L' true = lo at hmem
    clear hcomp ht hc hr hm hx
    unfold MembersAt at hmem
    induction L' generalizing os bs with
    | nil => cases hmem; rfl
    | cons i L' ih =>
      cases os with
      | nil => simp at hlen
      | cons o os =>
        simp only [List.zip_cons_cons] at hmem
        cases hmem with
        | cons h1 h2 =>
          simp only [List.map_cons]
          rw [h1.1, ih _ _ (by simpa using hlen) h2]
  · refine hcomp.ordered (e := 0) ?_
    have := (layoutPure_placed (off := 0) (mx := 0) (ms := L'.map Item.m) (by rw [hm]; omega)).1.inOrder
    exact this
  · intro a ha
    cases hl : s.mem.live a with
    | false => rfl
    | true => have := h.cap.livelt a hl; omega

/-- what `sizeof` gives for a variable of a compound type -/
theorem C38_struct (E : Env) (s s1 : St) (t x c : TId) (e : Ref) (ms : List Binding) (a sz : Nat) (id ds : Ref) (b : Bool)
    (ht : s.nodes t = some (.sizeof e)) (he : Conv E (fun R => R.ev e) s (.ok (some x) s1))
    (w : WF s1) (hroom : Room s1 1) (hx : s1.nodes x = some (.lcomp (some c) ms a))
    (hc : s1.nodes c = some (.compound id ds sz true b)) (hn : sz < 2 ^ 64) :
    ∃ r s', Conv E (fun R => R.ev (some t)) s (.ok (some r) s') ∧ Grow s1 s' ∧ Holds s' r .ulong sz := by
  refine ⟨_, _, sizeof_conv ht he w hroom (.lcomp hx hc), ?_⟩
  have x1 := addNode_ext w (.ctype .ulong none)
  refine ⟨szSt_grow w sz hroom, s1.next, (addNode s1 (.ctype .ulong none)).mem.brk, ⟨⟨_, _, newVal_self _ _ _ _⟩,
    ⟨none, (newVal_grow (x1.wf w) _ _ _ (hroom.ext x1)).nodes _ _ (addNode_self _ _)⟩, .inl trivial,
    newVal_ok (by decide)⟩, ?_⟩
  have : (szSt s1 sz).mem.load 8 (addNode s1 (.ctype .ulong none)).mem.brk = sz % 256 ^ 8 := newVal_load _ _ _ _
  show (sz : Int) = CT.ulong.decode ((szSt s1 sz).mem.load 8 (addNode s1 (.ctype .ulong none)).mem.brk)
  rw [this, Nat.mod_eq_of_lt (by simpa using hn)]
  simp [CT.decode, CT.isSigned]

/-! ### A structure, and a witness against the full statement -/

/-- `struct t { char a, *p; short b[3]; } s;` -/
def stStruct : St :=
  stOf [.ident "a", .ident "p", .pointer (some 1), .chain [0, 2], .kw .char, .chain [4], .decl (some 5) (some 3) 0,
        .ident "b", .integer 3, .array (some 7) (some 8), .chain [9], .kw .short, .chain [11], .decl (some 12) (some 10) 0,
        .chain [6, 13], .compound (some 24) (some 14) 0 false true, .chain [15], .ident "s", .decl (some 16) (some 23) 0,
        .integer 7, .ident "s", .compAccess (some 20) (some 0), .assign (some 21) (some 19), .chain [17], .ident "t"]
    [] []

def itemsStruct : List Item :=
  [⟨0, 5, 0, .char, "a", .val .char⟩, ⟨0, 5, 2, .char, "p", .val .ptr⟩, ⟨0, 12, 9, .short, "b", .arr .short 3⟩]

theorem stStruct_decl : CompDecl stStruct 18 17 15 "s" true itemsStruct where
  trees := by
    refine ⟨16, 14, [6, 13], 0, 0, 23, some (24, "t"), rfl, rfl, rfl, rfl, ?_, .inr rfl, ?_⟩
    case refine_2 =>
      intro i nm e
      cases e
      refine ⟨rfl, fun c cs hc b hb => ?_⟩
      have : c = ctx1 [] := by simp [stStruct, stOf] at hc; exact hc.1.symm
      subst this; simp [ctx1, compNS, Ctx.map] at hb
    have hc : TypeSpecs stStruct.nodes 5 .char := ⟨[4], [.char], rfl, .cons rfl .nil, by decide, by decide⟩
    have hs : TypeSpecs stStruct.nodes 12 .short := ⟨[11], [.short], rfl, .cons rfl .nil, by decide, by decide⟩
    refine Src.members (ts := [6, 13]) (L := itemsStruct) ?_
    exact @Src.cons _ 6 _ _ _ _ _ [13] [⟨0, 5, 0, .char, "a", .val .char⟩, ⟨0, 5, 2, .char, "p", .val .ptr⟩] _ rfl rfl rfl
      (by
        intro i hi
        rcases List.mem_cons.mp hi with rfl | hi
        · exact ⟨rfl, rfl, hc, .ident rfl⟩
        · rcases List.mem_cons.mp hi with rfl | hi
          · exact ⟨rfl, rfl, hc, .ptr rfl (.ident rfl)⟩
          · cases hi)
      (Src.cons (L := [⟨0, 12, 9, .short, "b", .arr .short 3⟩]) (k := .short) (L' := []) rfl rfl rfl
        (by
          intro i hi
          rcases List.mem_cons.mp hi with rfl | hi
          · exact ⟨rfl, rfl, hs, .arr rfl rfl rfl⟩
          · cases hi) .nil)
  name := rfl
  fresh := by
    intro c cs hc b hb
    have : c = ctx1 [] := by simp [stStruct, stOf] at hc; exact hc.1.symm
    subst this; simp [ctx1] at hb
  wf := stOf_WF _ _ _
  cap := ⟨by decide +kernel, by simp [stStruct, stOf], memOf_livelt _⟩

example := C17_members_partial E0 stStruct 18 17 15 "s" itemsStruct stStruct_decl

/-- `struct T { char c; }; struct S { struct T t; char d; };`, then in a block
`struct T { long a, b; }; struct S s;` and `s.d = 7;` -/
def nodesShadow : List Node :=
  [.ident "T", .ident "c", .chain [1], .kw .char, .chain [3], .decl (some 4) (some 2) 0, .chain [5],
   .compound (some 0) (some 6) 0 false true, .chain [7], .decl (some 8) none 0,
   -- struct S
   .ident "S", .compound (some 0) none 0 false true, .chain [11], .ident "t", .chain [13], .decl (some 12) (some 14) 0,
   .ident "d", .chain [16], .decl (some 4) (some 17) 0, .chain [15, 18],
   .compound (some 10) (some 19) 0 false true, .chain [20], .decl (some 21) none 0,
   -- the inner struct T
   .ident "a", .ident "b", .chain [23, 24], .kw .long, .chain [26], .decl (some 27) (some 25) 0, .chain [28],
   .compound (some 0) (some 29) 0 false true, .chain [30], .decl (some 31) none 0,
   -- struct S s
   .compound (some 10) none 0 false true, .chain [33], .ident "s", .chain [35], .decl (some 34) (some 36) 0,
   -- s.d = 7
   .compAccess (some 35) (some 16), .integer 7, .assign (some 38) (some 39)]

def stShadow0 : St := stOf nodesShadow [] []
def stShadow1 : St := evTo 40 22 (evTo 40 9 stShadow0)
def stShadow : St := evTo 40 37 (evTo 40 32 (pushSt stShadow1 "Block"))

/-- the size in the tree of a compound type -/
def compSize (s : St) (c : TId) : Nat :=
  match s.nodes c with
  | some (.compound _ _ n _ _) => n
  | _ => 0

theorem stShadow_reach : Reach E0 stShadow0 stShadow := by
  refine Reach.computed (Reach.computed (.enter "Block" (Reach.computed (Reach.computed .start 40 9 ?_) 40 22 ?_)) 40 32 ?_) 40 37 ?_
  · decide +kernel
  · decide +kernel
  · decide +kernel
  · decide +kernel

/-- C17 in full is false: member types are looked up by name again when a variable is
made, so after the tag `T` has been redeclared in a block, `struct S s;` gets a
member `t` of 16 bytes in a structure of 2. -/
theorem C17_refuted : ¬ C17_statement := by
  intro h
  have := h E0 nodesShadow stShadow "s" 97 20 [⟨"t", 13, some 94⟩, ⟨"d", 16, some 96⟩] 4832 2 (some 10)
    (some 53) (by decide +kernel) stShadow_reach (by decide +kernel) (by decide +kernel) (by decide +kernel)
  have h1 := this.1 0 _ 94 4832 16 rfl rfl (.comp (c := 30) (ms := [⟨"a", 23, some 91⟩, ⟨"b", 24, some 93⟩])
    (id := some 0) (ds := some 73) (b := true) (by decide +kernel) (by decide +kernel))
  omega

/-! ## C18 -/

/-- the members `L` at the offsets `os` from `base` -/
def PlacedAt (s : St) (base : Nat) (L : List Item) (os : List Nat) (bs : List Binding) : Prop :=
  bs.length = L.length ∧ ∀ (i : Nat) it o b, L[i]? = some it → os[i]? = some o → bs[i]? = some b →
    b.name = it.x ∧ ∃ v, b.val = some v ∧ MemberAt s v (base + o) it.m

/-- C18 (for members of basic types, pointers and arrays of those, and without bit-fields): offsets and size
are those of the ABI. -/
def C18_statement : Prop :=
  ∀ (E : Env) (s : St) (t d c : TId) (x : String) (L : List Item) (os : List Nat) (size : Nat),
    CompDecl s t d c x true L → (∀ i ∈ L, ∀ z e, s.nodes i.dd ≠ some (.bitfield z e)) → AbiStruct (L.map Item.m) os size →
    ∃ v bs base id ds b s', Conv E (fun R => R.ev (some t)) s (.ok (some d) s') ∧
      resolveGlobal x .normal s' = some v ∧ s'.nodes v = some (.lcomp (some c) bs base) ∧
      s'.nodes c = some (.compound id ds size true b) ∧ PlacedAt s' base L os bs

theorem IsNext.unique {a e o o' : Nat} (h : IsNext a e o) (h' : IsNext a e o') : o = o' :=
  Nat.le_antisymm (h.2.2 o' h'.1 h'.2.1) (h'.2.2 o h.1 h.2.1)

theorem Placed.unique {e ms os e' os' e''} (h : Placed e ms os e') (h' : Placed e ms os' e'') : os = os' ∧ e' = e'' := by
  induction h generalizing os' e'' with
  | nil e => cases h'; exact ⟨rfl, rfl⟩
  | cons h1 _ ih =>
    cases h' with
    | cons h3 h4 =>
      obtain rfl := IsNext.unique h1 h3
      obtain ⟨rfl, rfl⟩ := ih h4
      exact ⟨rfl, rfl⟩

theorem CompAt.placed {s : St} {v c : TId} {L L' : List Item} {isS : Bool} {base : Nat} {bs : List Binding}
    (h : CompAt s v c L' isS base bs) (hm : L'.map Item.m = L.map Item.m) (hx : L'.map Item.x = L.map Item.x) :
    PlacedAt s base L (layoutPure isS 0 0 (L.map Item.m)).1 bs := by
  have hlen := All₂.length h.members
  have hll : L'.length = L.length := by
    have := congrArg List.length hm; simpa using this
  refine ⟨?_, ?_⟩
  · rw [← hlen, List.length_zip, layoutPure_length, List.length_map, hll]; simp
  · intro i it o b hi ho hb
    obtain ⟨it', o', hi', ho', hn, v, hv, hat, _⟩ := h.members.get hb
    rw [hm, ho] at ho'; cases ho'
    have h1 : (L'.map Item.m)[i]? = (L.map Item.m)[i]? := by rw [hm]
    have h2 : (L'.map Item.x)[i]? = (L.map Item.x)[i]? := by rw [hx]
    rw [List.getElem?_map, List.getElem?_map, hi, hi'] at h1 h2
    simp only [Option.map_some, Option.some.injEq] at h1 h2
    rw [h2] at hn; rw [h1] at hat
    exact ⟨hn, v, hv, hat⟩

/-- C18: the offsets are those of the ABI.  The size lacks the padding at the end: it
is where the last member ends, so it is the ABI's size exactly when that is a
multiple of the strictest alignment.  (A bit-field counts with its whole type here, which is not what the ABI says: C128.) -/
theorem C18_offsets_partial (E : Env) (s : St) (t d c : TId) (x : String) (L : List Item) (os : List Nat) (size : Nat)
    (h : CompDecl s t d c x true L) (habi : AbiStruct (L.map Item.m) os size) :
    ∃ v bs base sz id ds b s', Conv E (fun R => R.ev (some t)) s (.ok (some d) s') ∧
      resolveGlobal x .normal s' = some v ∧ s'.nodes v = some (.lcomp (some c) bs base) ∧
      s'.nodes c = some (.compound id ds sz true b) ∧ PlacedAt s' base L os bs ∧
      Placed 0 (L.map Item.m) os sz ∧ sz ≤ size ∧
      ∀ a, (∀ m ∈ L.map Item.m, m.align ≤ a) → (∃ m ∈ L.map Item.m, m.align = a) → (sz = size ↔ a ∣ sz) := by
  obtain ⟨L', v, bs, base, s', s'', hm, hx, hc, rfl, hr, _, hcomp, hbase⟩ := compDecl_conv (E := E) h
  obtain ⟨id, ds, b, ht⟩ := hcomp.tree
  have hlim : Mem.limit < 2 ^ 63 := by decide
  have hsp := space_le L
  have hbrk := h.cap.brk
  obtain ⟨e, a, hp, h1, h2, h3⟩ := habi
  have hp' := (layoutPure_placed (off := 0) (mx := 0) (ms := L.map Item.m) (by omega)).1
  obtain ⟨ho, he⟩ := Placed.unique hp hp'
  have hsz : Laid.bytes L' true = e := by simp only [Laid.bytes, hm, if_true]; exact he.symm
  refine ⟨v, bs, base, _, id, ds, b, _, hc, hr, hcomp.obj, ht, ?_, ?_, ?_, ?_⟩
  · rw [ho]; exact hcomp.placed hm hx
  · rw [hsz]; exact hp
  · rw [hsz]; exact h3.1
  · intro a' h4 h5
    obtain rfl : a = a' := by
      obtain ⟨m, hm1, hm2⟩ := h2
      obtain ⟨m', hm3, hm4⟩ := h5
      exact Nat.le_antisymm (hm2 ▸ h4 m hm1) (hm4 ▸ h1 m' hm3)
    rw [hsz]
    constructor
    · rintro rfl; exact h3.2.1
    · intro hd; exact Nat.le_antisymm h3.1 (h3.2.2 e (Nat.le_refl _) hd)

theorem abiStruct_ex : AbiStruct [.val .char, .val .ptr, .arr .short 3] [0, 8, 16] 24 := by
  refine ⟨22, 8, .cons ⟨by decide, ⟨0, rfl⟩, fun _ _ _ => Nat.zero_le _⟩
    (.cons ⟨by decide, ⟨1, rfl⟩, ?_⟩ (.cons ⟨by decide, ⟨8, rfl⟩, fun _ h _ => h⟩ (.nil _))),
    by decide, ⟨.val .ptr, by decide, rfl⟩, by decide, ⟨3, rfl⟩, ?_⟩
  · rintro o' h ⟨k, rfl⟩
    simp only [MTy.align, abiAlign, MTy.size, abiSize] at h ⊢; omega
  · rintro o' h ⟨k, rfl⟩; omega

example := C18_offsets_partial E0 stStruct 18 17 15 "s" itemsStruct [0, 8, 16] 24 stStruct_decl abiStruct_ex

/-- C18 in full is false: `struct { char a, *p; short b[3]; }` has size 22, not 24. -/
theorem C18_refuted : ¬ C18_statement := by
  intro h
  obtain ⟨v, bs, base, id, ds, b, s', hc, hr, hv, ht, hp⟩ := h E0 stStruct 18 17 15 "s" itemsStruct [0, 8, 16] 24
    stStruct_decl (by
      intro i hi
      simp only [itemsStruct, List.mem_cons, List.not_mem_nil, or_false] at hi
      rcases hi with rfl | rfl | rfl <;> intro z e h <;> cases h) abiStruct_ex
  have hu := evTo_unique 40 (by decide +kernel) hc
  have h3 : compSize s' 15 = 24 := by simp [compSize, ht]
  rw [hu] at h3
  exact absurd h3 (by decide +kernel)

/-! ## C19 -/

/-- C19 in full: wherever a program gets, the members of any union variable are at its start and within
its size. -/
def C19_statement : Prop :=
  ∀ (E : Env) (l : List Node) (s : St) (x : String) (v c : TId) (bs : List Binding) (base sz : Nat) (id ds : Ref),
    (∀ n ∈ l, Parsed n) → Reach E (stOf l [] []) s → resolveGlobal x .normal s = some v →
    s.nodes v = some (.lcomp (some c) bs base) → s.nodes c = some (.compound id ds sz true false) →
    ∀ b w a n, b ∈ bs → b.val = some w → Occupies s w a n → a = base ∧ n ≤ sz

/-- as `nodesShadow`, with a union `S` -/
def nodesShadowU : List Node :=
  (nodesShadow.set 20 (.compound (some 10) (some 19) 0 false false)).set 33 (.compound (some 10) none 0 false false)

def stShadowU0 : St := stOf nodesShadowU [] []
def stShadowU : St := evTo 40 37 (evTo 40 32 (pushSt (evTo 40 22 (evTo 40 9 stShadowU0)) "Block"))

theorem stShadowU_reach : Reach E0 stShadowU0 stShadowU := by
  refine Reach.computed (Reach.computed (.enter "Block" (Reach.computed (Reach.computed .start 40 9 ?_) 40 22 ?_)) 40 32 ?_) 40 37 ?_
  · decide +kernel
  · decide +kernel
  · decide +kernel
  · decide +kernel

/-- C19 in full is false, for the same reason as C17: the union has one byte and its member `t` 16. -/
theorem C19_refuted : ¬ C19_statement := by
  intro h
  have := h E0 nodesShadowU stShadowU "s" 97 20 [⟨"t", 13, some 94⟩, ⟨"d", 16, some 96⟩] 4832 1 (some 10)
    (some 53) (by decide +kernel) stShadowU_reach (by decide +kernel) (by decide +kernel) (by decide +kernel)
    ⟨"t", 13, some 94⟩ 94 4832 16 (by simp) rfl (.comp (c := 30) (ms := [⟨"a", 23, some 91⟩, ⟨"b", 24, some 93⟩])
    (id := some 0) (ds := some 73) (b := true) (by decide +kernel) (by decide +kernel))
  omega

/-- C19 for unions whose members are of basic types, pointers, and arrays of those:
every member is at the start of the union, whose size is the largest size of a
member. -/
theorem C19_union_partial (E : Env) (s : St) (t d c : TId) (x : String) (L : List Item) (h : CompDecl s t d c x false L)
    (hne : L ≠ []) :
    ∃ v bs base sz id ds b s', Conv E (fun R => R.ev (some t)) s (.ok (some d) s') ∧
      resolveGlobal x .normal s' = some v ∧ s'.nodes v = some (.lcomp (some c) bs base) ∧
      s'.nodes c = some (.compound id ds sz true b) ∧ IsMaxSize (L.map Item.m) sz ∧ s'.mem.ok sz base = true ∧
      PlacedAt s' base L (List.replicate L.length 0) bs := by
  obtain ⟨L', v, bs, base, s', s'', hm, hx, hc, rfl, hr, _, hcomp, hbase⟩ := compDecl_conv (E := E) h
  obtain ⟨id, ds, b, ht⟩ := hcomp.tree
  obtain ⟨h1, h2, h3, h4, h5⟩ := layoutPure_union (mx := 0) (ms := L.map Item.m)
  have hsz : Laid.bytes L' false = (layoutPure false 0 0 (L.map Item.m)).2.2 := by simp [Laid.bytes, hm]
  refine ⟨v, bs, base, _, id, ds, b, _, hc, hr, hcomp.obj, ht, ⟨?_, ?_⟩, hcomp.ok, ?_⟩
  · rw [hsz]; exact h4
  · rw [hsz]
    rcases h5 with h5 | h5
    · cases L with
      | nil => exact absurd rfl hne
      | cons i L =>
        refine ⟨i.m, by simp, ?_⟩
        have := h4 i.m (by simp)
        omega
    · exact h5
  · have hp := hcomp.placed hm hx
    have : (layoutPure false 0 0 (L.map Item.m)).1 = List.replicate L.length 0 := by
      refine List.eq_replicate_iff.mpr ⟨?_, h1⟩
      rw [layoutPure_length, List.length_map]
    rw [this] at hp
    exact hp

/-- `union { char a, *p; short b[3]; } s;` -/
def stUnion : St :=
  stOf [.ident "a", .ident "p", .pointer (some 1), .chain [0, 2], .kw .char, .chain [4], .decl (some 5) (some 3) 0,
        .ident "b", .integer 3, .array (some 7) (some 8), .chain [9], .kw .short, .chain [11], .decl (some 12) (some 10) 0,
        .chain [6, 13], .compound none (some 14) 0 false false, .chain [15], .ident "s", .decl (some 16) (some 17) 0]
    [] []

theorem stUnion_decl : CompDecl stUnion 18 17 15 "s" false itemsStruct where
  trees := by
    refine ⟨16, 14, [6, 13], 0, 0, 17, none, rfl, rfl, rfl, rfl, ?_, .inl rfl, by simp⟩
    have hc : TypeSpecs stUnion.nodes 5 .char := ⟨[4], [.char], rfl, .cons rfl .nil, by decide, by decide⟩
    have hs : TypeSpecs stUnion.nodes 12 .short := ⟨[11], [.short], rfl, .cons rfl .nil, by decide, by decide⟩
    refine Src.members (ts := [6, 13]) (L := itemsStruct) ?_
    exact @Src.cons _ 6 _ _ _ _ _ [13] [⟨0, 5, 0, .char, "a", .val .char⟩, ⟨0, 5, 2, .char, "p", .val .ptr⟩] _ rfl rfl rfl
      (by
        intro i hi
        rcases List.mem_cons.mp hi with rfl | hi
        · exact ⟨rfl, rfl, hc, .ident rfl⟩
        · rcases List.mem_cons.mp hi with rfl | hi
          · exact ⟨rfl, rfl, hc, .ptr rfl (.ident rfl)⟩
          · cases hi)
      (Src.cons (L := [⟨0, 12, 9, .short, "b", .arr .short 3⟩]) (k := .short) (L' := []) rfl rfl rfl
        (by
          intro i hi
          rcases List.mem_cons.mp hi with rfl | hi
          · exact ⟨rfl, rfl, hs, .arr rfl rfl rfl⟩
          · cases hi) .nil)
  name := rfl
  fresh := by
    intro c cs hc b hb
    have : c = ctx1 [] := by simp [stUnion, stOf] at hc; exact hc.1.symm
    subst this; simp [ctx1] at hb
  wf := stOf_WF _ _ _
  cap := ⟨by decide +kernel, by simp [stUnion, stOf], memOf_livelt _⟩

example := C19_union_partial E0 stUnion 18 17 15 "s" itemsStruct stUnion_decl (by simp [itemsStruct])

/-! ## C20 -/

/-- C20 in full: wherever a program gets, assigning to a member of a structure
variable changes no accessible byte of another member, after the right-hand side has been
evaluated. -/
def C20_statement : Prop :=
  ∀ (E : Env) (l : List Node) (s s1 s2 s' : St) (t v c : TId) (l' r q r' : Ref) (bs : List Binding) (base sz : Nat) (id ds : Ref)
    (i j : Nat) (b b' : Binding) (w w' a n : Nat),
    (∀ n ∈ l, Parsed n) → Reach E (stOf l [] []) s → s.nodes t = some (.assign l' r) →
    Conv E (fun R => R.ev l') s (.ok (some w) s1) → Conv E (fun R => R.ev r) s1 (.ok q s2) →
    Conv E (fun R => R.ev (some t)) s (.ok r' s') →
    s1.nodes v = some (.lcomp (some c) bs base) → s1.nodes c = some (.compound id ds sz true true) →
    bs[i]? = some b → b.val = some w → bs[j]? = some b' → b'.val = some w' → i ≠ j → Occupies s2 w' a n →
    ∀ x, a ≤ x → x < a + n → s'.mem.byte x = s2.mem.byte x

theorem C20_refuted : ¬ C20_statement := by
  intro h
  have := h E0 nodesShadow stShadow (evTo 20 38 stShadow) (evTo 20 39 (evTo 20 38 stShadow)) (evTo 40 40 stShadow) 40 97 20
    (some 38) (some 39) (some 39) (some 39)
    [⟨"t", 13, some 94⟩, ⟨"d", 16, some 96⟩] 4832 2 (some 10) (some 53) 1 0 _ _ 96 94 4832 16
    (by decide +kernel) stShadow_reach (by decide +kernel) (evTo_conv _ _ _ _ (by decide +kernel) (by decide +kernel))
    (evTo_conv _ _ _ _ (by decide +kernel) (by decide +kernel)) (evTo_conv _ _ _ _ (by decide +kernel) (by decide +kernel))
    (by decide +kernel) (by decide +kernel) rfl rfl rfl rfl (by decide)
    (.comp (c := 30) (ms := [⟨"a", 23, some 91⟩, ⟨"b", 24, some 93⟩])
      (id := some 0) (ds := some 73) (b := true) (by decide +kernel) (by decide +kernel))
    4833 (by decide) (by decide)
  exact absurd this (by decide +kernel)

/-- the member of a structure by name -/
theorem compAccess_conv {E : Env} {s s1 : St} {t o : TId} {obj : Ref} {v c : TId} {bs : List Binding} {base : Nat} {m : String}
    {w : TId} (ht : s.nodes t = some (.compAccess obj (some o))) (ho : s1.nodes o = some (.ident m))
    (he : Conv E (fun R => R.ev obj) s (.ok (some v) s1)) (hv : s1.nodes v = some (.lcomp (some c) bs base))
    (hf : findId m bs = some w) : Conv E (fun R => R.ev (some t)) s (.ok (some w) s1) := by
  refine Conv.evNode ht (Conv.bind he (Conv.fixed fun R => ?_))
  simp [peek_apply hv, peek_apply ho, hf]

theorem findId_at {bs : List Binding} (hnd : (bs.map Binding.name).Nodup) {i : Nat} {b : Binding} {w : TId}
    (hb : bs[i]? = some b) (hw : b.val = some w) : findId b.name bs = some w := by
  induction bs generalizing i with
  | nil => simp at hb
  | cons a bs ih =>
    simp only [List.map_cons, List.nodup_cons] at hnd
    cases i with
    | zero => simp at hb; subst hb; simp [findId, hw]
    | succ i =>
      rw [List.getElem?_cons_succ] at hb
      have : a.name ≠ b.name := by
        intro h
        exact hnd.1 (h ▸ List.mem_map_of_mem (List.mem_of_getElem? hb))
      rw [findId, if_neg this]
      exact ih hnd.2 hb

theorem MemberAt.self {s : St} {v a : Nat} {m : MTy} (h : MemberAt s v a m) : Occupies s v a m.size := by
  cases m with
  | val c => obtain ⟨τ, e, h1, h2⟩ := h; exact .val h1 h2
  | arr c n =>
    obtain ⟨bt, e, h1, _⟩ := h
    simp only [MTy.size, abiSize_eq]; exact .arr h1

/-- writing to a member of an integer type of a structure -/
theorem CompAt.write {s1 s2 : St} {v c : TId} {L : List Item} {base i oi : Nat} {bs : List Binding} {b : Binding} {it : Item}
    {k : CT} (hv : CompAt s1 v c L true base bs) (hg : Grow s1 s2) (hsp : spaceOf (L.map Item.m) < 2 ^ 64)
    (hb : bs[i]? = some b) (hit : L[i]? = some it) (hk : it.m = .val k) (hi : integral k)
    (hi2 : (layoutPure true 0 0 (L.map Item.m)).1[i]? = some oi) (y : Int) :
    ∃ w τ, b.val = some w ∧ LvAt s2 w τ k (base + oi) ∧
      (∃ z, Converts k y z ∧ Holds (wr s2 k.size (base + oi) (k.encode y)) w k z) ∧
      ∀ (j : Nat) b' w' a n, j ≠ i → bs[j]? = some b' → b'.val = some w' → Occupies s2 w' a n →
        Occupies (wr s2 k.size (base + oi) (k.encode y)) w' a n ∧
        ∀ x, a ≤ x → x < a + n → (wr s2 k.size (base + oi) (k.encode y)).mem.byte x = s2.mem.byte x := by
  have hord := layoutPure_placed (off := 0) (mx := 0) (ms := L.map Item.m) (by omega)
  have hin := hord.1.inOrder
  obtain ⟨it', oi', hi1, hi2', hn, w, hw, hm, _⟩ := hv.members.get hb
  rw [hit] at hi1; cases hi1
  rw [hi2] at hi2'; cases hi2'
  rw [hk] at hm
  have hm2 := hm.grow hg
  obtain ⟨τ, e, hl, hτ⟩ := hm2
  have hwin := hin.within (i := i) (m := it.m) (by rw [List.getElem?_map, hit]; rfl) hi2
  rw [hk] at hwin
  have hsize : MTy.size (.val k) = k.size := abiSize_eq k
  have hbytes : Laid.bytes L true = (layoutPure true 0 0 (L.map Item.m)).2.1 := by simp [Laid.bytes]
  have hok : s2.mem.ok k.size (base + oi) = true := by
    have h1 := hg.ok hv.ok
    rw [Mem.ok_iff] at h1 ⊢
    intro x h2 h3
    exact h1 x (by omega) (by omega)
  have hlv : LvAt s2 w τ k (base + oi) := ⟨⟨_, _, hl⟩, ⟨_, hτ⟩, .inl hi, hok⟩
  refine ⟨w, τ, hw, hlv, ?_, ?_⟩
  · exact ⟨_, CT.decode_encode_converts (.inl hi) y, hlv.holds_wr _⟩
  · intro j b' w' a n hj hb' hw' ho'
    obtain ⟨it2, o2, hj1, hj2, _, w2, hw2, hm2, hcell⟩ := hv.members.get hb'
    rw [hw'] at hw2; cases hw2
    obtain ⟨rfl, rfl⟩ := (hm2.grow hg).occupies ho'
    have hdis : base + o2 + it2.m.size ≤ base + oi ∨ base + oi + k.size ≤ base + o2 := by
      have e1 : (L.map Item.m)[i]? = some it.m := by rw [List.getElem?_map, hit]; rfl
      have e2 : (L.map Item.m)[j]? = some it2.m := by rw [List.getElem?_map, hj1]; rfl
      rcases Nat.lt_or_gt_of_ne hj with h | h
      · have := hin.disjoint h e2 e1 hj2 hi2; omega
      · have := hin.disjoint h e1 e2 hi2 hj2
        rw [hk, hsize] at this; omega
    have hbyte : ∀ x, base + o2 ≤ x → x < base + o2 + it2.m.size →
        (wr s2 k.size (base + oi) (k.encode y)).mem.byte x = s2.mem.byte x := by
      intro x h1 h2
      exact Mem.store_byte_other _ _ _ _ _ (by omega)
    refine ⟨?_, hbyte⟩
    clear hbyte hdis
    generalize it2.m.size = n' at ho'
    cases ho' with
    | val h1 h2 => exact .val h1 h2
    | comp h1 h2 => exact .comp h1 h2
    | arr h1 =>
      obtain ⟨τ', a', h3, h4, h5, h6⟩ := h1.lv
      obtain ⟨ty, a2, arr, n2, h7, h8⟩ := hcell
      rw [hg.nodes _ _ h7] at h3
      cases h3
      have hge := h8 rfl
      have hsame : (wr s2 k.size (base + oi) (k.encode y)).mem.load 8 a' = s2.mem.load 8 a' :=
        Mem.load_congr fun x hx1 hx2 => Mem.store_byte_other _ _ _ _ _ (by omega)
      exact .arr ⟨τ', a', hg.nodes _ _ h7, h4, by rw [← h5]; exact Mem.ok_congr (by simp) _ _, by rw [hsame]; exact h6⟩

/-- C20 for structures laid out by bic whose members are of basic types, pointers, and
arrays of those (`CompAt`, which a declaration establishes): `v.m = e`, `m` of an integer
type, gives `m` the value of `e` converted to its type, and every other member,
whatever it contains, keeps all its bytes. -/
theorem C20_isolation_partial (E : Env) (s s1 s2 : St) (t u o v c q : TId) (obj r : Ref) (L : List Item) (base : Nat)
    (bs : List Binding) (i : Nat) (b : Binding) (it : Item) (k : CT) (y : Int)
    (ht : s.nodes t = some (.assign (some u) r)) (hu : s.nodes u = some (.compAccess obj (some o)))
    (ho : s1.nodes o = some (.ident b.name)) (hobj : Conv E (fun R => R.ev obj) s (.ok (some v) s1))
    (hr : Conv E (fun R => R.ev r) s1 (.ok (some q) s2)) (hg : Grow s1 s2) (hq : RVal s2 q y)
    (hv : CompAt s1 v c L true base bs) (hsp : spaceOf (L.map Item.m) < 2 ^ 64) (hnd : (bs.map Binding.name).Nodup)
    (hb : bs[i]? = some b) (hit : L[i]? = some it) (hk : it.m = .val k) (hi : integral k) :
    ∃ w s', b.val = some w ∧ Conv E (fun R => R.ev (some t)) s (.ok (some q) s') ∧
      (∃ z, Converts k y z ∧ Holds s' w k z) ∧
      ∀ (j : Nat) b' w' a n, j ≠ i → bs[j]? = some b' → b'.val = some w' → Occupies s2 w' a n →
        Occupies s' w' a n ∧ ∀ x, a ≤ x → x < a + n → s'.mem.byte x = s2.mem.byte x := by
  obtain ⟨it', oi, hi1, hi2, _⟩ := hv.members.get hb
  obtain ⟨w, τ, hw, hlv, h1, h2⟩ := hv.write hg hsp hb hit hk hi hi2 y
  have hacc := compAccess_conv hu ho hobj hv.obj (findId_at hnd hb hw)
  exact ⟨w, _, hw, assign_conv ht hacc hr hlv hi hq, h1, h2⟩

end Bic
