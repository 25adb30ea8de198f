import Verif.Props.Pointers
/-!
# C71, C72: assigning to pointers
-/

namespace Bic
open Spec

/-- `x` is a pointer variable to objects of type `bt`, stored at `a` -/
def PtrAt (s : St) (x : TId) (bt : Ref) (a : Nat) : Prop :=
  ∃ τ arr sz, s.nodes x = some (.lv (some τ) a arr sz) ∧ s.nodes τ = some (.ctype .ptr bt) ∧ s.mem.ok 8 a = true

/-- the address C assigns: the one a pointer holds, or an integer constant converted -/
inductive AddrOf (s : St) (q : TId) (p : Nat) : Prop
  | ptr (bt : Ref) : PtrTo s q bt p → AddrOf s q p
  | const (z : Int) : s.nodes q = some (.integer z) → p < 2 ^ 64 → (p : Int) % 2 ^ 64 = z % 2 ^ 64 → AddrOf s q p

/-- `t` is `l = r`; `l` evaluates to the pointer `x` to `bt` stored at `a`, then `r`
evaluates to `q`, leaving `s2` -/
structure PtrAssignment (E : Env) (s s2 : St) (t x q : TId) (bt : Ref) (a : Nat) : Prop where
  ev : ∃ (l r : Ref) (s1 : St), s.nodes t = some (.assign l r) ∧ Conv E (fun R => R.ev l) s (.ok (some x) s1) ∧
    Conv E (fun R => R.ev r) s1 (.ok (some q) s2)
  ptr : PtrAt s2 x bt a

/-- the pointer `x` at `a` now holds `p`; everything else is as in `s` -/
def Repointed (s s' : St) (x : TId) (bt : Ref) (a p : Nat) : Prop :=
  PtrTo s' x bt p ∧ (∀ b, b < a ∨ a + 8 ≤ b → s'.mem.byte b = s.mem.byte b) ∧ s'.mem.live = s.mem.live ∧
    s'.nodes = s.nodes ∧ s'.ctxs = s.ctxs ∧ s'.events = s.events

/-! ## C71 -/

/-- C71 in full: the pointer gets the address -/
def C71_statement : Prop :=
  ∀ (E : Env) (s s2 : St) (t x q : TId) (bt : Ref) (a p : Nat), PtrAssignment E s s2 t x q bt a → AddrOf s2 q p →
    ∃ s', Conv E (fun R => R.ev (some t)) s (.ok (some q) s') ∧ Repointed s2 s' x bt a p

theorem assign_ptr_conv {E : Env} {s s2 s3 : St} {t x q : TId} {bt : Ref} {a : Nat} (h : PtrAssignment E s s2 t x q bt a)
    (he : assignPtr x (some q) s2 = .ok () s3) : Conv E (fun R => R.ev (some t)) s (.ok (some q) s3) := by
  obtain ⟨l, r, s1, h1, h2, h3⟩ := h.ev
  obtain ⟨τ, arr, sz, n1, n2, _⟩ := h.ptr
  refine Conv.evNode h1 (Conv.bind h2 (Conv.bind h3 (Conv.const ?_)))
  simp [node_apply n1, typeOf, nodeR, node_apply n2, CT.isInt, CT.isFloat, he]

theorem repointed_wr {s : St} {x : TId} {bt : Ref} {a p : Nat} (h : PtrAt s x bt a) (hp : p < 2 ^ 64) :
    Repointed s (wr s 8 a p) x bt a p := by
  obtain ⟨τ, arr, sz, n1, n2, hok⟩ := h
  refine ⟨⟨τ, a, arr, sz, n1, n2, ?_, ?_⟩, fun b hb => ?_, ?_, rfl, rfl, rfl⟩
  · rw [← hok]; exact Mem.ok_congr (by simp) _ _
  · rw [wr_mem, Mem.load_store, Nat.mod_eq_of_lt (by simpa using hp)]
  · rw [wr_mem, Mem.store_byte_other _ _ _ _ _ hb]
  · simp

/-- C71 for pointers and for constants that are not negative: the variable holds the
address, and nothing else is changed. -/
theorem C71_pointers_partial (E : Env) (s s2 : St) (t x q : TId) (bt : Ref) (a p : Nat)
    (h : PtrAssignment E s s2 t x q bt a) (hp : AddrOf s2 q p) (hz : ∀ z, s2.nodes q = some (.integer z) → 0 ≤ z) :
    ∃ s', Conv E (fun R => R.ev (some t)) s (.ok (some q) s') ∧ Repointed s2 s' x bt a p := by
  obtain ⟨τ, arr, sz, n1, n2, hok⟩ := h.ptr
  cases hp with
  | ptr bt' hq =>
    obtain ⟨τ', a', arr', sz', m1, m2, hok', e⟩ := hq.lv
    have hp : p < 2 ^ 64 := by have := Mem.load_lt s2.mem 8 a'; rw [← e] at this; simpa using this
    refine ⟨wr s2 8 a p, assign_ptr_conv h ?_, repointed_wr h.ptr hp⟩
    simp [assignPtr, nodeR, node_apply m1, loadRaw, hok', lvFields, node_apply n1, storeRaw_apply hok, e]
  | const z hn hp hc =>
    have h0 := hz z hn
    have e : mpzGetUi z = p := by unfold mpzGetUi; omega
    refine ⟨wr s2 8 a p, assign_ptr_conv h ?_, repointed_wr h.ptr hp⟩
    simp [assignPtr, nodeR, node_apply hn, lvFields, node_apply n1, storeRaw_apply hok, e]

/-- two pointers `p` at 4096 and `q` at 4104 to `int`; `p = q` (8), `p = 0` (10), `p = -1` (12) -/
def stPtrs : St :=
  stOf [.ctype .int none, .ctype .ptr (some 0), .lv (some 1) 4096 false 0, .lv (some 1) 4104 false 0, .ident "p", .ident "q",
        .integer 0, .integer (-1), .assign (some 4) (some 5), .empty, .assign (some 4) (some 6), .empty,
        .assign (some 4) (some 7)] [⟨"p", 4, some 2⟩, ⟨"q", 5, some 3⟩] [1, 2, 3, 4, 5, 6, 7, 8, 0, 1, 0, 1, 0, 1, 0, 1]

theorem stPtrs_p : PtrAt stPtrs 2 (some 0) 4096 := ⟨1, false, 0, rfl, rfl, by decide +kernel⟩

theorem stPtrs_assignment {t r q : TId} (ht : stPtrs.nodes t = some (.assign (some 4) (some r)))
    (hr : Conv E0 (fun R => R.ev (some r)) stPtrs (.ok (some q) stPtrs)) :
    PtrAssignment E0 stPtrs stPtrs t 2 q (some 0) 4096 :=
  ⟨⟨some 4, some r, stPtrs, ht, Conv.computed 4 (by decide +kernel), hr⟩, stPtrs_p⟩

example : ∃ s', Conv E0 (fun R => R.ev (some 8)) stPtrs (.ok (some 3) s') ∧
    Repointed stPtrs s' 2 (some 0) 4096 0x0100010001000100 :=
  C71_pointers_partial E0 stPtrs stPtrs 8 2 3 (some 0) 4096 _ (stPtrs_assignment rfl (Conv.computed 4 (by decide +kernel)))
    (.ptr (some 0) ⟨1, 4104, false, 0, rfl, rfl, by decide +kernel, by decide +kernel⟩) (by intro z hz; cases hz)

example : ∃ s', Conv E0 (fun R => R.ev (some 10)) stPtrs (.ok (some 6) s') ∧ Repointed stPtrs s' 2 (some 0) 4096 0 :=
  C71_pointers_partial E0 stPtrs stPtrs 10 2 6 (some 0) 4096 _ (stPtrs_assignment rfl (Conv.evNode rfl (Conv.pure _)))
    (.const 0 rfl (by decide) (by decide)) (by intro z hz; cases hz; decide)

/-- C71 in full is false: `p = -1` makes `p` hold the address 1. -/
theorem C71_refuted : ¬ C71_statement := by
  intro h
  obtain ⟨s', h1, h2, _⟩ := h E0 stPtrs stPtrs 12 2 7 (some 0) 4096 (2 ^ 64 - 1)
    (stPtrs_assignment rfl (Conv.evNode rfl (Conv.pure _))) (.const (-1) rfl (by decide) (by decide))
  have h3 : s' = evTo 6 12 stPtrs := evTo_unique 6 (by decide +kernel) h1
  obtain ⟨τ, a, arr, sz, n1, _, _, e⟩ := h2.lv
  have h4 : s'.nodes 2 = some (.lv (some 1) 4096 false 0) := by rw [h3]; decide +kernel
  rw [h4] at n1
  cases n1
  have h5 : s'.mem.load 8 4096 = 1 := by rw [h3]; decide +kernel
  rw [h5] at e
  exact absurd e (by decide)

/-! ## C72 -/

/-- the string `bs` with its terminating NUL lies at `m`, in storage that may be
accessed -/
def StringAt (s : St) (m : Nat) (bs : List Byte) : Prop :=
  s.mem.ok (bs.length + 1) m = true ∧ (∀ i (h : i < bs.length), s.mem.byte (m + i) = bs[i]) ∧
    s.mem.byte (m + bs.length) = 0

theorem storeBytes_get (m : Mem) (a : Nat) (bs : List Byte) (i : Nat) (h : i < bs.length) :
    (m.storeBytes a bs).byte (a + i) = bs[i] := by
  induction bs generalizing m a i with
  | nil => simp at h
  | cons b bs ih =>
    cases i with
    | zero =>
      rw [Mem.storeBytes, Mem.storeBytes_byte_other _ _ _ _ (.inl (by omega))]
      simp [Mem.setByte]
    | succ i =>
      have := ih (m.setByte a b) (a + 1) i (by simpa using h)
      rw [Mem.storeBytes, show a + (i + 1) = a + 1 + i by omega, this]
      simp

/-- C72: assigning a string literal to a pointer puts the string, with its terminating
NUL, into new storage and makes the pointer point to it; what existed before is
unchanged but for the pointer itself. -/
theorem C72_string (E : Env) (s s2 : St) (t x q : TId) (bt : Ref) (a : Nat) (bs : List Byte)
    (h : PtrAssignment E s s2 t x q bt a) (hq : s2.nodes q = some (.str bs)) (hl : LiveLt s2.mem) (hc : s2.ctxs ≠ [])
    (hroom : s2.mem.brk + (bs.length / 16 + 3) * 16 < Mem.limit) :
    ∃ s' m, Conv E (fun R => R.ev (some t)) s (.ok (some q) s') ∧ PtrTo s' x bt m ∧ StringAt s' m bs ∧
      (∀ b, m ≤ b → b < m + (bs.length + 1) → s2.mem.live b = false) ∧
      (∀ b, s2.mem.live b = true → s'.mem.live b = true) ∧
      (∀ b, s2.mem.live b = true → (b < a ∨ a + 8 ≤ b) → s'.mem.byte b = s2.mem.byte b) ∧
      s'.nodes = s2.nodes ∧ s'.events = s2.events := by
  obtain ⟨τ, arr, sz, n1, n2, hok⟩ := h.ptr
  have hok' := hok
  rw [Mem.ok_iff] at hok'
  have hlim : (Mem.limit : Nat) = 2 ^ 47 := rfl
  have hdiv : (bs.length + 1) / 16 ≤ bs.length / 16 + 1 := by omega
  have hmal : s2.mem.brk + ((bs.length + 1) / 16 + 1) * 16 + 16 < Mem.limit := by omega
  obtain ⟨c, cs, hcs⟩ : ∃ c cs, s2.ctxs = c :: cs := by
    cases hh : s2.ctxs with
    | nil => exact absurd hh hc
    | cons c cs => exact ⟨c, cs, rfl⟩
  let mem1 : Mem := { s2.mem with
    brk := s2.mem.brk + ((bs.length + 1) / 16 + 1) * 16 + 16
    live := fun y => if s2.mem.brk ≤ y ∧ y < s2.mem.brk + (bs.length + 1) then true else s2.mem.live y }
  let s3 : St := { s2 with
    mem := mem1.storeBytes s2.mem.brk (bs ++ [0]),
    ctxs := { c with allocs := c.allocs ++ [s2.mem.brk] } :: cs }
  have hlive3 : s3.mem.live = mem1.live := Mem.storeBytes_live _ _ _
  have hok3 : s3.mem.ok 8 a = true := by
    rw [Mem.ok_iff, hlive3]
    intro y h1 h2
    have := hok' y h1 h2
    simp [mem1, this]
  have hfresh : ∀ y, s2.mem.brk ≤ y → s2.mem.live y = false := by
    intro y hy
    cases hv : s2.mem.live y with
    | false => rfl
    | true => have := hl y hv; omega
  have ha : a + 8 ≤ s2.mem.brk := by
    have := hl (a + 7) (hok' (a + 7) (by omega) (by omega)); omega
  have he : assignPtr x (some q) s2 = .ok () (wr s3 8 a s2.mem.brk) := by
    have e1 : mallocM (bs.length + 1) s2 = .ok s2.mem.brk { s2 with mem := mem1 } := by
      simp [mallocM, Mem.malloc, hmal, mem1]
    have e2 : lvFields x s3 = .ok (some τ, a) s3 := by
      simp [lvFields, node, s3, n1]
    have e3 : storeRaw 8 a s2.mem.brk s3 = _ := storeRaw_apply hok3
    simp [assignPtr, nodeR, node_apply hq, e1, trackAlloc, modCur, hcs, modify]
    simp [s3] at e2 e3
    simp [e2, e3, s3]
  have hbyte : ∀ y, a + 8 ≤ y → (wr s3 8 a s2.mem.brk).mem.byte y = s3.mem.byte y := fun y hy => by
    rw [wr_mem, Mem.store_byte_other _ _ _ _ _ (.inr hy)]
  have hlive4 : (wr s3 8 a s2.mem.brk).mem.live = mem1.live := by rw [wr_mem, Mem.store_live]; exact hlive3
  refine ⟨wr s3 8 a s2.mem.brk, s2.mem.brk, assign_ptr_conv h he, ?_, ⟨?_, ?_, ?_⟩, ?_, ?_, ?_, rfl, rfl⟩
  · refine ⟨τ, a, arr, sz, n1, n2, ?_, ?_⟩
    · rw [← hok3]; exact Mem.ok_congr (by simp) _ _
    · rw [wr_mem, Mem.load_store, Nat.mod_eq_of_lt (by omega)]
  · rw [Mem.ok_iff, hlive4]
    intro y h1 h2
    simp [mem1, h1, h2]
  · intro i hi
    rw [hbyte _ (by omega)]
    have := storeBytes_get mem1 s2.mem.brk (bs ++ [0]) i (by simp; omega)
    simpa [hi] using this
  · rw [hbyte _ (by omega)]
    have := storeBytes_get mem1 s2.mem.brk (bs ++ [0]) bs.length (by simp)
    simpa using this
  · exact fun b h1 _ => hfresh b h1
  · intro b hb
    rw [hlive4]
    simp [mem1, hb]
  · intro b hb hd
    have := hl b hb
    rw [wr_mem, Mem.store_byte_other _ _ _ _ _ hd]
    exact Mem.storeBytes_byte_other _ _ _ _ (.inl this)

/-- C72: the characters of a string a `char` pointer points to are read by subscripting:
`p[i]` is the `i`-th character of the string, and 0 behind the last one. -/
theorem C72_characters (E : Env) (s s2 : St) (t bt : TId) (m : Nat) (bs : List Byte) (i : Nat)
    (h : Indexing E s s2 t bt .char m i) (hs : StringAt s2 m bs) (hi : i ≤ bs.length) (hm : m + i < 2 ^ 64) :
    ∃ r s', Conv E (fun R => R.ev (some t)) s (.ok (some r) s') ∧ Grow s2 s' ∧
      Holds s' r .char (Int.bmod (bs.getD i 0).val 256) := by
  obtain ⟨r, s', a, h1, h2, h3, h4⟩ := C15_index_partial E s s2 t bt .char m i h (by omega) (by simp [CT.size]; omega)
  obtain rfl : a = m + i := by simp [CT.size] at h4; omega
  obtain ⟨e, he⟩ := h.ty
  obtain ⟨hs1, hs2, hs3⟩ := hs
  have hok : s2.mem.ok 1 (m + i) = true := by
    rw [Mem.ok_iff] at hs1 ⊢
    exact fun y h1 h2 => hs1 y (by omega) (by omega)
  refine ⟨r, s', h1, h2, bt, m + i, ⟨⟨_, _, h3⟩, ⟨e, h2.nodes _ _ he⟩, .inl trivial, h2.ok hok⟩, ?_⟩
  rw [show CT.char.size = 1 from rfl, h2.load hok]
  have hb : s2.mem.byte (m + i) = bs.getD i 0 := by
    by_cases hlt : i < bs.length
    · rw [hs2 i hlt]; simp [hlt]
    · obtain rfl : i = bs.length := by omega
      rw [hs3]; simp
  simp only [Mem.load, hb]
  generalize bs.getD i 0 = b
  have := b.isLt
  have e1 : CT.char.isSigned = true := rfl
  have e2 : CT.char.modulus = 256 := rfl
  unfold CT.decode
  rw [e1, e2]
  simp only [Int.bmod, Bool.true_and, decide_eq_true_eq]
  by_cases h : 128 ≤ b.val
  · rw [if_neg (by omega), if_pos (by omega)]; omega
  · rw [if_pos (by omega), if_neg (by omega)]; omega

/-- a `char` pointer `p` at 4096 that points to "hi" at 4104; `p = "yes"` (5), `p[1]` (7), `p[2]` (9) -/
def stStr : St :=
  stOf [.ctype .char none, .ctype .ptr (some 0), .lv (some 1) 4096 false 0, .ident "p", .str [121, 101, 115],
        .assign (some 3) (some 4), .integer 1, .arrAccess (some 3) (some 6), .integer 2, .arrAccess (some 3) (some 8)]
    [⟨"p", 3, some 2⟩] [8, 16, 0, 0, 0, 0, 0, 0, 104, 105, 0]

theorem stStr_room : Room stStr 2 := ⟨by decide, by simp [stStr, stOf], memOf_livelt _⟩

example : ∃ s' m, Conv E0 (fun R => R.ev (some 5)) stStr (.ok (some 4) s') ∧ PtrTo s' 2 (some 0) m ∧
      StringAt s' m [121, 101, 115] ∧
      (∀ b, m ≤ b → b < m + ([121, 101, 115].length + 1) → stStr.mem.live b = false) ∧
      (∀ b, stStr.mem.live b = true → s'.mem.live b = true) ∧
      (∀ b, stStr.mem.live b = true → (b < 4096 ∨ 4096 + 8 ≤ b) → s'.mem.byte b = stStr.mem.byte b) ∧
      s'.nodes = stStr.nodes ∧ s'.events = stStr.events :=
  C72_string E0 stStr stStr 5 2 4 (some 0) 4096 [121, 101, 115]
    ⟨⟨some 3, some 4, stStr, rfl, Conv.computed 4 (by decide +kernel), Conv.evNode rfl (Conv.pure _)⟩,
      ⟨1, false, 0, rfl, rfl, by decide +kernel⟩⟩ rfl (memOf_livelt _) stStr_room.ctxs (by decide)

theorem stStr_hi : StringAt stStr 4104 [104, 105] :=
  ⟨by decide +kernel, by
    intro i h
    have : ∀ i : Fin 2, stStr.mem.byte (4104 + i.val) = [104, 105][i.val] := by decide +kernel
    exact this ⟨i, h⟩, by decide +kernel⟩

theorem stStr_indexing {t i : TId} {z : Int} (ht : stStr.nodes t = some (.arrAccess (some 3) (some i)))
    (hi : stStr.nodes i = some (.integer z)) : Indexing E0 stStr stStr t 0 .char 4104 z :=
  ⟨⟨some 3, some i, 2, i, stStr, ht, Conv.computed 4 (by decide +kernel), Conv.evNode hi (Conv.pure _),
      ⟨1, 4096, false, 0, rfl, rfl, by decide +kernel, by decide +kernel⟩, .inl hi⟩, ⟨none, rfl⟩, stOf_WF _ _ _, stStr_room⟩

example : ∃ r s', Conv E0 (fun R => R.ev (some 7)) stStr (.ok (some r) s') ∧ Grow stStr s' ∧ Holds s' r .char 105 := by
  have h := C72_characters E0 stStr stStr 7 0 4104 [104, 105] 1 (stStr_indexing rfl rfl) stStr_hi (by decide) (by decide)
  have e : Int.bmod (([104, 105] : List Byte).getD 1 0).val 256 = 105 := by decide
  rw [e] at h
  exact h

example : ∃ r s', Conv E0 (fun R => R.ev (some 9)) stStr (.ok (some r) s') ∧ Grow stStr s' ∧ Holds s' r .char 0 := by
  have h := C72_characters E0 stStr stStr 9 0 4104 [104, 105] 2 (stStr_indexing rfl rfl) stStr_hi (by decide) (by decide)
  have e : Int.bmod (([104, 105] : List Byte).getD 2 0).val 256 = 0 := by decide
  rw [e] at h
  exact h

end Bic
