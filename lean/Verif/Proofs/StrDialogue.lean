import Verif.Spec.StrDialogue
import Verif.Props.PrintValue
import Verif.Proofs.ArrayDialogue
/-!
# Dialogues with a string
-/

namespace Bic.Repl
open Spec CSyn
open _root_.Bic.Parser (PT T K Der Rep nameStr byteOf rep_single rep_one we_der specs_der' rep_kws specs_kw resolveKws_gives)
open Printer (Floats Prints)
open CText (Str Text ascii)

/-! ### Bytes -/

theorem chars_byteOf (t : Str) : Print.chars (t.map byteOf) = t := by
  unfold Print.chars
  rw [List.map_map]
  conv => rhs; rw [← List.map_id t]
  refine List.map_congr_left fun b _ => ?_
  simp [byteOf]

theorem byteOf_zero : byteOf 0 = 0 := rfl

theorem byteOf_ne {b : UInt8} (h : b ≠ 0) : byteOf b ≠ 0 := by
  intro h'
  refine h ?_
  have : b.toNat = 0 := by
    have := congrArg Fin.val h'
    simpa [byteOf] using this
  exact UInt8.toNat_inj.mp (by simpa using this)

theorem char_load {s : St} {a : Nat} {c : UInt8} (h : s.mem.byte a = byteOf c) : charVal c = CT.char.decode (s.mem.load 1 a) := by
  have h1 : s.mem.load 1 a = c.toNat := by simp [Mem.load, h, byteOf]
  rw [h1]
  have := c.toNat_lt
  have e1 : CT.char.isSigned = true := rfl
  have e2 : CT.char.modulus = 256 := rfl
  unfold CT.decode charVal
  rw [e1, e2]
  simp only [Int.bmod, Bool.true_and, decide_eq_true_eq]
  by_cases h : 128 ≤ c.toNat
  · rw [if_neg (by omega), if_pos (by omega)]; omega
  · rw [if_pos (by omega), if_neg (by omega)]; omega

theorem charVal_inj {b c : UInt8} (h : charVal b = charVal c) : b = c := by
  have h1 := b.toNat_lt
  have h2 := c.toNat_lt
  unfold charVal at h
  simp only [Int.bmod] at h
  refine UInt8.toNat_inj.mp ?_
  split at h <;> split at h <;> omega

/-! ### Other variables -/

/-- the nodes of variables and constants, and their bytes, are as in `s0`; all names but `x` mean what they meant -/
structure KeptVars (s0 s : St) (x : String) : Prop where
  int : ∀ t v, s0.nodes t = some (.integer v) → s.nodes t = some (.integer v)
  lv : ∀ t ty a b n, s0.nodes t = some (.lv ty a b n) → s.nodes t = some (.lv ty a b n)
  ctype : ∀ t c e, s0.nodes t = some (.ctype c e) → s.nodes t = some (.ctype c e)
  live : ∀ b, s0.mem.live b = true → s.mem.live b = true
  byte : ∀ b, s0.mem.live b = true → s.mem.byte b = s0.mem.byte b
  names : ∀ y, y ≠ x → resolveGlobal y .normal s = resolveGlobal y .normal s0
  includes : s.includes = s0.includes

theorem KeptVars.intIs {s0 s : St} {x y : String} {v : Int} (k : KeptVars s0 s x) (hy : y ≠ x) (h : IntIs s0 y v) : IntIs s y v := by
  obtain ⟨t, h1, h2⟩ := h
  refine ⟨t, (k.names y hy).trans h1, ?_⟩
  rcases h2 with h2 | ⟨c, hc, ⟨τ, a, ⟨⟨b, m, k1⟩, ⟨e, k2⟩, k3, k4⟩, g3⟩, g4⟩
  · exact .inl (k.int _ _ h2)
  · rw [Mem.ok_iff] at k4
    refine .inr ⟨c, hc, ⟨τ, a, ⟨⟨b, m, k.lv _ _ _ _ _ k1⟩, ⟨e, k.ctype _ _ _ k2⟩, k3, ?_⟩, ?_⟩, g4⟩
    · rw [Mem.ok_iff]
      exact fun b h1 h2 => k.live b (k4 b h1 h2)
    · rw [g3]
      exact congrArg _ (Mem.load_congr (fun b h1 h2 => (k.byte b (k4 b h1 h2)).symm))

theorem KeptVars.grow {s0 s s' : St} {x : String} (k : KeptVars s0 s x) (e : Grow s s') : KeptVars s0 s' x :=
  ⟨fun _ _ h => e.nodes _ _ (k.int _ _ h), fun _ _ _ _ _ h => e.nodes _ _ (k.lv _ _ _ _ _ h), fun _ _ _ h => e.nodes _ _ (k.ctype _ _ _ h),
    fun b h => e.live b (k.live b h), fun b h => (e.byte b (k.live b h)).trans (k.byte b h),
    fun y hy => (e.resolveGlobal y _).trans (k.names y hy), e.includes.trans k.includes⟩

theorem KeptVars.wr {s0 s : St} {x : String} (k : KeptVars s0 s x) {n a v : Nat} (h : ∀ b, a ≤ b → s0.mem.live b = false) : KeptVars s0 (Bic.wr s n a v) x := by
  refine ⟨k.int, k.lv, k.ctype, ?_, ?_, fun y hy => k.names y hy, k.includes⟩
  · intro b hb
    rw [wr_mem, Mem.store_live]
    exact k.live b hb
  · intro b hb
    rw [wr_mem, Mem.store_byte_other, k.byte b hb]
    refine .inl (Nat.lt_of_not_le fun hab => ?_)
    rw [h b hab] at hb
    cases hb

/-! ### The copy of a string -/

/-- what a string of so many bytes takes of the memory -/
def strCost (n : Nat) : Nat := ((n + 1) / 16 + 1) * 16 + 16

/-- the state with a copy of the string -/
def strSt (s : St) (bs : List Bic.Byte) : St :=
  { s with
    mem := Mem.storeBytes { s.mem with
      brk := s.mem.brk + strCost bs.length
      live := fun y => if s.mem.brk ≤ y ∧ y < s.mem.brk + (bs.length + 1) then true else s.mem.live y } s.mem.brk (bs ++ [0])
    ctxs := bump s.mem.brk s.ctxs }

theorem strSt_brk (s : St) (bs : List Bic.Byte) : (strSt s bs).mem.brk = s.mem.brk + strCost bs.length := by
  simp [strSt]

theorem strSt_live (s : St) (bs : List Bic.Byte) (y : Nat) :
    (strSt s bs).mem.live y = if s.mem.brk ≤ y ∧ y < s.mem.brk + (bs.length + 1) then true else s.mem.live y := by
  simp [strSt]

theorem strSt_byte (s : St) (bs : List Bic.Byte) (i : Nat) (h : i < (bs ++ [0]).length) : (strSt s bs).mem.byte (s.mem.brk + i) = (bs ++ [0])[i] :=
  storeBytes_get _ _ _ i h

theorem strSt_grow {s : St} (bs : List Bic.Byte) (hl : LiveLt s.mem) : Grow s (strSt s bs) where
  next := Nat.le_refl _
  nodes _ _ h := h
  wf := id
  ctxs := bump_core _ _
  nextUid := rfl
  includeCtx := rfl
  includes := rfl
  closures := rfl
  events := rfl
  byte b hb := Mem.storeBytes_byte_other _ _ _ _ (.inl (hl b hb))
  live b hb := by rw [strSt_live, hb]; simp
  brk := by rw [strSt_brk]; omega
  livelt hl b hb := by
    rw [strSt_live] at hb
    rw [strSt_brk]
    unfold strCost
    split at hb
    · omega
    · have := hl b hb
      omega

theorem assignStr_apply {s : St} {y q τ : TId} {b : Nat} {arr : Bool} {sz : Nat} {bs : List Bic.Byte} (hy : s.nodes y = some (.lv (some τ) b arr sz))
    (hq : s.nodes q = some (.str bs)) (hok : s.mem.ok 8 b = true) (hl : LiveLt s.mem) (hc : s.ctxs ≠ []) (hroom : s.mem.brk + strCost bs.length < Mem.limit) :
    assignPtr y (some q) s = .ok () (wr (strSt s bs) 8 b s.mem.brk) := by
  obtain ⟨c, cs, hcs⟩ : ∃ c cs, s.ctxs = c :: cs := by
    cases hh : s.ctxs with
    | nil => exact absurd hh hc
    | cons c cs => exact ⟨c, cs, rfl⟩
  have hok3 := (strSt_grow bs hl).ok hok
  have e1 : mallocM (bs.length + 1) s = .ok s.mem.brk { s with mem := { s.mem with
      brk := s.mem.brk + strCost bs.length
      live := fun y => if s.mem.brk ≤ y ∧ y < s.mem.brk + (bs.length + 1) then true else s.mem.live y } } := by
    unfold strCost at hroom ⊢
    simp [mallocM, Mem.malloc, hroom, Nat.add_assoc]
  have e2 : lvFields y (strSt s bs) = .ok (some τ, b) (strSt s bs) := by
    simp [lvFields, node, strSt, hy]
  have e3 : storeRaw 8 b s.mem.brk (strSt s bs) = _ := storeRaw_apply hok3
  simp [assignPtr, nodeR, node_apply hq, e1, trackAlloc, modCur, hcs, modify]
  simp [strSt, hcs, bump] at e2 e3
  simp [e2, e3, strSt, hcs, bump]

/-! ### The invariant -/

/-- the pointer `x` to `char`, declared in the state `s0`, points to these bytes at this address -/
structure SInv (s0 s : St) (x : String) (π : Nat × Str) (cap : Nat) : Prop where
  wf : WF s
  kept : KeptVars s0 s x
  cap : Cap s cap
  cell : ∃ y τ β b arr sz, resolveGlobal x .normal s = some y ∧ s.nodes y = some (.lv (some τ) b arr sz) ∧ s.nodes τ = some (.ctype .ptr (some β)) ∧
    (∃ e, s.nodes β = some (.ctype .char e)) ∧ s.mem.ok 8 b = true ∧ (∀ c, b ≤ c → s0.mem.live c = false) ∧
    s.mem.load 8 b = π.1 ∧ b + 8 ≤ π.1 ∧ π.1 + π.2.length < 2 ^ 64 ∧ s.mem.ok π.2.length π.1 = true ∧
    ∀ i c, π.2[i]? = some c → s.mem.byte (π.1 + i) = byteOf c

theorem SInv.grow {s0 s s' : St} {x π cap cap'} (h : SInv s0 s x π cap) (e : Grow s s') (hc : s'.mem.brk + cap' ≤ s.mem.brk + cap) : SInv s0 s' x π cap' := by
  obtain ⟨y, τ, β, b, arr, sz, h1, h2, h3, ⟨ex, h4⟩, h5, h6, h7, h8, h9, h10, h11⟩ := h.cell
  refine ⟨e.wf h.wf, h.kept.grow e, h.cap.grow e hc, y, τ, β, b, arr, sz, (e.resolveGlobal x _).trans h1, e.nodes _ _ h2, e.nodes _ _ h3,
    ⟨ex, e.nodes _ _ h4⟩, e.ok h5, h6, (e.load h5).trans h7, h8, h9, e.ok h10, ?_⟩
  intro i c hi
  rw [← h11 i c hi]
  refine e.byte _ ?_
  rw [Mem.ok_iff] at h10
  have := (List.getElem?_eq_some_iff.mp hi).1
  exact h10 _ (by omega) (by omega)

theorem SInv.ext {s0 s s' : St} {x π cap} (h : SInv s0 s x π cap) (e : Ext s s') : SInv s0 s' x π cap :=
  h.grow e.grow (by rw [e.mem])

theorem cap_wr {s : St} {n : Nat} (h : Cap s n) (k a v : Nat) : Cap (Bic.wr s k a v) n := by
  refine ⟨by rw [wr_mem, Mem.store_brk]; exact h.brk, h.ctxs, ?_⟩
  intro b hb
  rw [wr_mem, Mem.store_live] at hb
  rw [wr_mem, Mem.store_brk]
  exact h.livelt b hb

/-- the pointer, wherever it points to -/
structure SPtr (s0 s : St) (x : String) (y τ β : TId) (b cap : Nat) : Prop where
  wf : WF s
  kept : KeptVars s0 s x
  cap : Cap s cap
  res : resolveGlobal x .normal s = some y
  lv : ∃ arr sz, s.nodes y = some (.lv (some τ) b arr sz)
  ty : s.nodes τ = some (.ctype .ptr (some β))
  char : ∃ e, s.nodes β = some (.ctype .char e)
  ok : s.mem.ok 8 b = true
  new : ∀ c, b ≤ c → s0.mem.live c = false

theorem SInv.ptr {s0 s : St} {x π cap} (h : SInv s0 s x π cap) : ∃ y τ β b, SPtr s0 s x y τ β b cap ∧ PtrTo s y (some β) π.1 := by
  obtain ⟨y, τ, β, b, arr, sz, h1, h2, h3, h4, h5, h6, h7, h8, h9, h10, h11⟩ := h.cell
  exact ⟨y, τ, β, b, ⟨h.wf, h.kept, h.cap, h1, ⟨_, _, h2⟩, h3, h4, h5, h6⟩, τ, b, arr, sz, h2, h3, h5, h7.symm⟩

/-- assigning a string -/
theorem SPtr.assign {s0 s : St} {x : String} {y τ β q : TId} {b cap : Nat} {bs : Str} (h : SPtr s0 s x y τ β b (strCost bs.length + cap))
    (hq : s.nodes q = some (.str (bs.map byteOf))) :
    ∃ s' m, assignPtr y (some q) s = .ok () s' ∧ m ≠ 0 ∧ SInv s0 s' x (m, bs ++ [0]) cap ∧ s'.nodes = s.nodes := by
  obtain ⟨arr, sz, hlv⟩ := h.lv
  have hcap := h.cap.brk
  have hlim : Mem.limit < 2 ^ 64 := by decide
  have hb := below h.cap.livelt h.ok
  have hap := assignStr_apply hlv hq h.ok h.cap.livelt h.cap.ctxs (by rw [List.length_map]; omega)
  have g := strSt_grow (bs.map byteOf) h.cap.livelt
  have hbrk := strSt_brk s (bs.map byteOf)
  have hlive := strSt_live s (bs.map byteOf)
  have hbyte := strSt_byte s (bs.map byteOf)
  rw [List.length_map] at hbrk
  simp only [List.length_map] at hlive
  have hnodes : (strSt s (bs.map byteOf)).nodes = s.nodes := rfl
  have hcost : bs.length + 1 ≤ strCost bs.length := by unfold strCost; omega
  refine ⟨_, s.mem.brk, hap, by omega, ⟨wr_WF (g.wf h.wf) _ _ _, (h.kept.grow g).wr h.new, ?_, y, τ, β, b, arr, sz, ?_, hlv, h.ty, h.char, ?_, h.new, ?_, hb, ?_, ?_, ?_⟩, rfl⟩
  · exact cap_wr (h.cap.grow g (n' := cap) (by omega)) _ _ _
  · exact (g.resolveGlobal x _).trans h.res
  · rw [← g.ok h.ok]; exact Mem.ok_congr (by simp) _ _
  · rw [wr_mem, Mem.load_store, Nat.mod_eq_of_lt (by simp; omega)]
  · simp only [List.length_append, List.length_cons, List.length_nil]; omega
  · rw [Mem.ok_iff]
    intro z h1 h2
    simp only [List.length_append, List.length_cons, List.length_nil] at h1 h2
    rw [wr_mem, Mem.store_live, hlive, if_pos ⟨h1, by omega⟩]
  · intro i c hi
    show (wr _ _ _ _).mem.byte (s.mem.brk + i) = _
    rw [wr_mem, Mem.store_byte_other _ _ _ _ _ (.inr (by omega))]
    obtain ⟨hi1, hi2⟩ := List.getElem?_eq_some_iff.mp hi
    have e : bs.map byteOf ++ [0] = (bs ++ [0]).map byteOf := by simp [byteOf_zero]
    rw [hbyte i (by simpa using hi1)]
    simp only [e, List.getElem_map]
    rw [← hi2]

/-- storing into the string -/
theorem SInv.set {s0 s : St} {x : String} {m : Nat} {buf : Str} {cap j : Nat} {c : UInt8} {z : Int} (h : SInv s0 s x (m, buf) cap) (hj : j < buf.length)
    (hc : charVal c = CT.char.decode (CT.char.encode z)) : SInv s0 (Bic.wr s 1 (m + j) (CT.char.encode z)) x (m, buf.set j c) cap := by
  obtain ⟨y, τ, β, b, arr, sz, h1, h2, h3, h4, h5, h6, h7, h8, h9, h10, h11⟩ := h.cell
  simp only at h7 h8 h9 h10 h11
  refine ⟨wr_WF h.wf _ _ _, h.kept.wr fun d hd => h6 d (by omega), cap_wr h.cap _ _ _, y, τ, β, b, arr, sz, h1, h2, h3, h4, ?_, h6, ?_, h8, by simpa using h9, ?_, ?_⟩
  · rw [← h5]; exact Mem.ok_congr (by simp) _ _
  · rw [wr_mem, Mem.load_store_disj _ (by omega)]
    exact h7
  · simp only [List.length_set]
    rw [← h10]; exact Mem.ok_congr (by simp) _ _
  · intro i d hi
    simp only at hi ⊢
    rw [List.getElem?_set] at hi
    split at hi
    · rename_i e
      subst e
      cases hi
      have hl : (Bic.wr s 1 (m + j) (CT.char.encode z)).mem.load 1 (m + j) = CT.char.encode z := by
        rw [wr_mem, Mem.load_store, Nat.mod_eq_of_lt (show _ < 256 ^ 1 from CT.encode_lt .char z)]
      generalize (Bic.wr s 1 (m + j) (CT.char.encode z)) = s' at hl ⊢
      have hb : s'.mem.byte (m + j) = byteOf (UInt8.ofNat (s'.mem.byte (m + j)).val) := by
        apply Fin.ext
        have := (s'.mem.byte (m + j)).isLt
        simp [byteOf]
      have e1 := char_load hb
      rw [hl, ← hc] at e1
      rw [charVal_inj e1] at hb
      exact hb
    · rename_i e
      rw [← h11 i d hi, wr_mem, Mem.store_byte_other _ _ _ _ _ (by omega)]

/-- reading a character -/
theorem SInv.char {s0 s : St} {x : String} {m : Nat} {buf : Str} {cap j : Nat} {c : UInt8} {r bt : TId} (h : SInv s0 s x (m, buf) cap) (hj : buf[j]? = some c)
    (hr : s.nodes r = some (.lv (some bt) (m + j) false 0)) (hb : ∃ e, s.nodes bt = some (.ctype .char e)) : Holds s r .char (charVal c) := by
  obtain ⟨y, τ, β, b, arr, sz, h1, h2, h3, h4, h5, h6, h7, h8, h9, h10, h11⟩ := h.cell
  refine ⟨bt, m + j, ⟨⟨_, _, hr⟩, hb, .inl trivial, ?_⟩, char_load (h11 j c hj)⟩
  have := (List.getElem?_eq_some_iff.mp hj).1
  simp only at h10
  rw [Mem.ok_iff] at h10 ⊢
  intro d i1 i2
  have : CT.char.size = 1 := rfl
  exact h10 d (by omega) (by omega)

/-! ### What is printed -/

theorem CString.takeWhile {bs t : Str} (h : CString (bs ++ [0]) t) : (bs.map byteOf).takeWhile (· ≠ 0) = t.map byteOf := by
  obtain ⟨h0, rest, h1⟩ := h
  induction t generalizing bs with
  | nil =>
    cases bs with
    | nil => rfl
    | cons b bs =>
      simp only [List.cons_append, List.nil_append, List.cons.injEq] at h1
      rw [h1.1]
      rfl
  | cons c t ih =>
    simp only [List.mem_cons, not_or] at h0
    cases bs with
    | nil =>
      simp only [List.nil_append, List.cons_append, List.cons.injEq] at h1
      exact absurd h1.1 h0.1
    | cons b bs =>
      simp only [List.cons_append, List.cons.injEq] at h1
      rw [List.map_cons, List.takeWhile_cons, h1.1, if_pos (by simpa using byteOf_ne (Ne.symm h0.1)), List.map_cons, ih h0.2 h1.2]

theorem lit_text {fl : Floats} {s : St} {t : TId} {bs u : Str} (h : s.nodes t = some (.str (bs.map byteOf))) (hu : CString (bs ++ [0]) u) (o : Str) :
    Prints fl s t o ↔ o = ascii "\"" ++ u ++ ascii "\"" := by
  rw [Print.prints_iff h nofun]
  have e : Printer.upToNul (bs.map byteOf) = u := by
    unfold Printer.upToNul
    rw [CString.takeWhile hu]
    exact chars_byteOf u
  have q : ascii "\"" ++ u ++ ascii "\"" = 34 :: u ++ [34] := rfl
  rw [q]
  constructor
  · intro h'
    cases h' with
    | str j1 => rw [h] at j1; cases j1; rw [e]
    | other j1 j2 => rw [h] at j1; cases j1; cases j2
    | _ j1 => rw [h] at j1; cases j1
  · rintro rfl
    have := Printer.PP.str (fl := fl) (d := 0) h
    rw [e] at this
    exact this

theorem address_unique {a : Nat} {t u : Str} (h : AddressText a t) (h' : AddressText a u) : t = u := by
  rw [(Print.addressText_iff _ _).mp h, (Print.addressText_iff _ _).mp h']

theorem charPtr_unique {a : Nat} {c t u : Str} (h : CharPtrText a c t) (h' : CharPtrText a c u) : t = u := by
  rcases h with ⟨h1, h2⟩ | ⟨h1, w, h2, h3⟩ <;> rcases h' with ⟨i1, i2⟩ | ⟨i1, z, i2, i3⟩
  · rw [h2, i2]
  · exact absurd h1 i1
  · exact absurd i1 h1
  · rw [h3, i3, address_unique h2 i2]

theorem SInv.text {fl : Floats} {s0 s : St} {x : String} {m : Nat} {buf u o : Str} {cap : Nat} {y β : TId} (h : SInv s0 s x (m, buf) cap)
    (hy : PtrTo s y (some β) m) (hβ : ∃ e, s.nodes β = some (.ctype .char e)) (hu : CString buf u) (ho : CharPtrText m u o) (o' : Str) :
    Prints fl s y o' ↔ o' = o := by
  obtain ⟨h0, rest, rfl⟩ := hu
  obtain ⟨e, hβ⟩ := hβ
  have hs : StringAt s m (u.map byteOf) := by
    obtain ⟨_, _, _, _, _, _, _, _, _, _, _, _, _, _, _, h10, h11⟩ := h.cell
    simp only [List.length_append, List.length_cons] at h10 h11
    refine ⟨?_, fun i hi => ?_, ?_⟩
    · rw [Mem.ok_iff] at h10 ⊢
      simp only [List.length_map]
      exact fun b h1 h2 => h10 b (by omega) (by omega)
    · simp only [List.length_map] at hi
      rw [h11 i u[i] (by rw [List.getElem?_append_left hi]; simp [hi])]
      simp
    · rw [List.length_map, h11 u.length 0 (by simp)]
      rfl
  rw [Print.C95_string fl s y (some β) m (u.map byteOf) hy ⟨β, e, rfl, hβ⟩ (fun _ => ⟨hs, ?_⟩) o', chars_byteOf]
  · exact ⟨fun h => charPtr_unique h ho, by rintro rfl; exact ho⟩
  · intro b hb
    obtain ⟨c, hc, rfl⟩ := List.mem_map.mp hb
    exact byteOf_ne fun h => h0 (h ▸ hc)

/-! ### The lines -/

/-- the tree of the line -/
inductive ChInputRep (nd : TId → Option Node) (x : String) : TId → ChInput → Prop
  | lit {t u bs} : Wrap nd t u → nd u = some (.str (bs.map byteOf)) → ChInputRep nd x t (.lit bs)
  | assign {t u l r bs} : Wrap nd t u → nd u = some (.assign (some l) (some r)) → nd l = some (.ident x) → nd r = some (.str (bs.map byteOf)) →
      ChInputRep nd x t (.assign bs)
  | value {t u} : Wrap nd t u → nd u = some (.ident x) → ChInputRep nd x t .value
  | first {t u o} : Wrap nd t u → nd u = some (.deref (some o)) → nd o = some (.ident x) → ChInputRep nd x t .first
  | get {t u o d i} : Wrap nd t u → nd u = some (.arrAccess (some o) (some d)) → nd o = some (.ident x) → ERep nd d i → ChInputRep nd x t (.get i)
  | set {t u l r o d i e} : Wrap nd t u → nd u = some (.assign (some l) (some r)) → nd l = some (.arrAccess (some o) (some d)) →
      nd o = some (.ident x) → ERep nd d i → ERep nd r e → ChInputRep nd x t (.set i e)

theorem chInput_der {TN x p i} (h : WChInput cTable TN x p i) :
    ∃ t, Der .replUnit i (.chain [t]) [] ∧ typedefNames t = [] ∧ (∀ s, t ≠ .cppInclude s) ∧
      ∀ {nd : TId → Option Node} {u}, Rep nd (.t t (some u)) → ChInputRep nd (nameStr x) u p := by
  have key : ∀ {i t}, Der .assignment i t [.p .semi] →
      (∀ {nd : TId → Option Node} {u v}, Rep nd (.t t (some v)) → Wrap nd u v → ChInputRep nd (nameStr x) u p) →
      ∃ t, Der .replUnit i (.chain [t]) [] ∧ typedefNames t = [] ∧ (∀ s, t ≠ .cppInclude s) ∧
        ∀ {nd : TId → Option Node} {u}, Rep nd (.t t (some u)) → ChInputRep nd (nameStr x) u p := by
    intro i t h1 h2
    refine ⟨_, .ruOne (.rsExpr (.esExpr (.exOne h1))), rfl, nofun, ?_⟩
    intro nd u hu
    obtain ⟨x, _, v, e, _, h3, h4⟩ := rep_single hu
    cases e
    exact h2 h3 h4
  cases h with
  | lit =>
    refine key (Parser.nt_down (p := 2) (q := 16) (.poPrimary .pStr) (by omega) (by omega)) ?_
    intro nd u v hr hx
    cases hr with
    | str h => exact .lit hx h
  | assign =>
    refine key (.asOp (k := .assign) (f := fun l r => .assign l r) (.uPostfix (.poPrimary .pIdent)) rfl
      (Parser.nt_down (p := 2) (q := 16) (.poPrimary .pStr) (by omega) (by omega))) ?_
    intro nd u v hr hx
    cases hr with
    | assign h3 h4 h5 => cases h4 with | ident h4 => cases h5 with | str h5 => exact .assign hx h3 h4 h5
  | value =>
    refine key (Parser.nt_down (p := 2) (q := 16) (.poPrimary .pIdent) (by omega) (by omega)) ?_
    intro nd u v hr hx
    cases hr with
    | ident h => exact .value hx h
  | first =>
    refine key (Parser.nt_down (p := 2) (q := 15) (.uOp (k := .star) (f := .deref) rfl (.uPostfix (.poPrimary .pIdent))) (by omega) (by omega)) ?_
    intro nd u v hr hx
    cases hr with
    | deref h7 h8 => cases h8 with | ident h8 => exact .first hx h7 h8
  | get hi =>
    obtain ⟨ti, i1, i2⟩ := we_der hi
    refine key (Parser.nt_down (p := 2) (q := 16) (.poIndex (.poPrimary .pIdent) i1) (by omega) (by omega)) ?_
    intro nd u v hr hx
    cases hr with
    | arrAccess h7 h8 h9 =>
      cases h8 with
      | ident h8 =>
        obtain ⟨w, rfl, h10⟩ := i2 h9
        exact .get hx h7 h8 h10
  | set hi he =>
    obtain ⟨ti, i1, i2⟩ := we_der hi
    obtain ⟨te, e1, e2⟩ := we_der he
    refine key (.asOp (k := .assign) (f := fun l r => .assign l r) (.uPostfix (.poIndex (.poPrimary .pIdent) i1)) rfl e1) ?_
    intro nd u v hr hx
    cases hr with
    | assign h3 h4 h5 =>
      obtain ⟨v, rfl, h6⟩ := e2 h5
      cases h4 with
      | arrAccess h7 h8 h9 =>
        cases h8 with
        | ident h8 =>
          obtain ⟨w, rfl, h10⟩ := i2 h9
          exact .set hx h3 h7 h8 h10 h6

/-- evaluating `p[i]` -/
theorem char_conv {E : Env} {s0 s : St} {x : String} {m : Nat} {buf : Str} {cap j : Nat} {u o d : TId} {i : Expr}
    (g : SInv s0 s x (m, buf) (cap + 96)) (hu : s.nodes u = some (.arrAccess (some o) (some d))) (ho : s.nodes o = some (.ident x)) (hd : ERep s.nodes d i)
    (hi : Val okOp okTruth (fun y v => IntIs s0 y v ∧ y ≠ x) i j) (hj : j < buf.length) :
    ∃ r s' bt, Conv E (fun R => R.ev (some u)) s (.ok (some r) s') ∧ Grow s s' ∧ SInv s0 s' x (m, buf) cap ∧
      s'.nodes r = some (.lv (some bt) (m + j) false 0) ∧ (∃ e, s'.nodes bt = some (.ctype .char e)) ∧ s'.mem.ok 1 (m + j) = true := by
  obtain ⟨y, τ, β, b, hp, hto⟩ := g.ptr
  obtain ⟨ex, h2⟩ := hp.char
  obtain ⟨q, s2, k1, k2, k3, k4⟩ := eval_full (E := E) g.wf (fun _ _ h => (g.kept.intIs h.2 h.1).varIs) hi hd
  have g2 := g.ext k2
  obtain ⟨y', τ', β', b', hp', hto'⟩ := g2.ptr
  have e1 : y' = y := by
    have := hp'.res
    rw [k2.resolveGlobal, hp.res] at this
    cases this
    rfl
  subst e1
  obtain ⟨ex', h2'⟩ := hp'.char
  obtain ⟨r, s', c1, c2, c3, c4⟩ := arrAccess_conv_brk (E := E) (x := y') (bt := β') (p := m) (c := .char) hu (ident_conv ho hp.res) k1 g2.wf (g2.cap.room (by omega))
    hto' h2' k3
  have gg := k2.grow.trans c2
  have g3 := g.grow (cap' := cap) gg (by rw [k2.mem] at c4; omega)
  obtain ⟨_, _, _, _, _, _, _, _, _, _, _, _, _, _, h9, h10, _⟩ := g3.cell
  simp only at h9 h10
  have hs : CT.char.size = 1 := rfl
  have e1 : mpzGetUi (j : Int) = j := by unfold mpzGetUi; omega
  rw [e1, hs, Nat.one_mul, Nat.mod_eq_of_lt (by omega)] at c3
  refine ⟨r, s', β', c1, gg, g3, c3, ⟨ex', c2.nodes _ _ h2'⟩, ?_⟩
  rw [Mem.ok_iff] at h10 ⊢
  exact fun a h1 h2 => h10 a (by omega) (by omega)

/-- the text bic shows for the assignment of a string -/
def echo (_ : Nat) (t o : Str) : Prop := o = ascii "\"" ++ t ++ ascii "\""

/-- what a line takes of the memory -/
def sCost : ChInput → Nat
  | .assign bs => strCost bs.length
  | _ => 96

theorem chInput_conv {E : Env} (fl : Floats) {s0 : St} {x : String} {π π1 π' : Nat × Str} {p : ChInput} {out0 : Str} {sh : Int → Int → Int → Prop}
    {asg : Nat → Str → Str → Prop} (hsh : ∀ v w z, sh v w z → z = v) (hasg : ∀ m m' u o, asg m u o → asg m' u o ∧ echo m u o) (hπ : π.2 = π1.2)
    (h : ChReply (Val okOp okTruth fun y v => IntIs s0 y v ∧ y ≠ x) (bicVal s0 x .char) sh asg π1 p out0 π') :
    ∃ out, ∀ (s : St) (t : TId) (cap : Nat), SInv s0 s x π (cap + sCost p) → ChInputRep s.nodes x t p →
      ∃ s' π2, Shown E fl s t out s' ∧ SInv s0 s' x π2 cap ∧ π2.2 = π'.2 ∧
        ChReply (Val okOp okTruth fun y v => IntIs s0 y v ∧ y ≠ x) (bicVal s0 x .char) sh asg π p out π2 := by
  obtain ⟨m, buf⟩ := π
  simp only at hπ
  subst hπ
  have less : ∀ {s cap n}, SInv s0 s x (m, π1.2) (cap + n) → SInv s0 s x (m, π1.2) cap := fun h => h.grow (Grow.refl _) (by omega)
  cases h with
  | @lit _ bs u h1 =>
    refine ⟨ascii "\"" ++ u ++ ascii "\"" ++ [10], fun s t cap g ht => ?_⟩
    cases ht with
    | lit w e1 =>
      exact ⟨s, _, .inl ⟨_, _, w.conv (Conv.evNode e1 (Conv.pure _)), rfl, fun o => lit_text e1 h1 o⟩, less g, rfl, .lit h1⟩
  | @assign _ bs m' u o h1 h2 h3 =>
    obtain ⟨h4, h5⟩ := hasg _ 0 _ _ h3
    cases h5
    refine ⟨ascii "\"" ++ u ++ ascii "\"" ++ [10], fun s t cap g ht => ?_⟩
    cases ht with
    | @assign _ l r _ w e1 e2 e3 =>
      obtain ⟨y, τ, β, b, hp, hto⟩ := g.ptr
      have hp' : SPtr s0 s x y τ β b (strCost bs.length + cap) := by rw [Nat.add_comm]; exact hp
      obtain ⟨s', m2, a1, a2, a3, a4⟩ := hp'.assign e3
      obtain ⟨arr, sz, hlv⟩ := hp.lv
      have hcv : Conv E (fun R => R.ev (some _)) s (.ok (some r) s') :=
        assign_ptr_conv (bt := some β) (a := b) ⟨⟨some l, some r, s, e1, ident_conv e2 hp.res, Conv.evNode e3 (Conv.pure _)⟩, ⟨τ, arr, sz, hlv, hp.ty, hp.ok⟩⟩ a1
      exact ⟨s', _, .inl ⟨r, _, w.conv hcv, rfl, fun o => lit_text (by rw [a4]; exact e3) h2 o⟩, a3, rfl, .assign a2 h2 (hasg _ _ _ _ h3).1⟩
  | @value m' _ u o h1 h2 =>
    have hex : ∃ o, CharPtrText m u o := by
      by_cases e : m = 0
      · exact ⟨_, .inl ⟨e, rfl⟩⟩
      · exact ⟨_, .inr ⟨e, _, .inr ⟨e, _, (Print.hexDigits_spec m).1, rfl⟩, rfl⟩⟩
    obtain ⟨o, ho⟩ := hex
    refine ⟨o ++ [10], fun s t cap g ht => ?_⟩
    cases ht with
    | value w e1 =>
      obtain ⟨y, τ, β, b, hp, hto⟩ := g.ptr
      exact ⟨s, _, .inl ⟨y, _, w.conv (ident_conv e1 hp.res), rfl, fun o' => g.text hto hp.char h1 ho o'⟩, less g, rfl, .value h1 ho⟩
  | @first m' _ c o h1 h2 =>
    refine ⟨o ++ [10], fun s t cap g ht => ?_⟩
    cases ht with
    | first w e1 e2 =>
      obtain ⟨y, τ, β, b, hp, hto⟩ := g.ptr
      obtain ⟨ex, hβ⟩ := hp.char
      have hc := deref_conv (E := E) e1 (ident_conv e2 hp.res) hto (fun t ht => by cases ht; exact ⟨_, hβ, by intros; simp⟩)
      have x1 := addNode_ext g.wf (.lv (some β) m false 0)
      have g1 := (less g).ext x1
      have hh := g1.char (r := s.next) (bt := β) (j := 0) h1 (addNode_self _ _) ⟨ex, x1.nodes _ _ hβ⟩
      refine ⟨_, _, .inl ⟨_, _, w.conv hc, rfl, fun o' => ?_⟩, g1, rfl, .first h1 h2⟩
      rw [decimal_unique h2]
      exact prints_int (.inr ⟨.char, trivial, hh⟩) o'
  | @get m' _ i c o j h1 h2 h3 =>
    refine ⟨o ++ [10], fun s t cap g ht => ?_⟩
    cases ht with
    | get w e1 e2 e3 =>
      obtain ⟨r, s1, bt, c1, gr, c2, c3, c4, c5⟩ := char_conv (E := E) g e1 e2 e3 h1 (List.getElem?_eq_some_iff.mp h2).1
      refine ⟨s1, _, .inl ⟨r, _, w.conv c1, rfl, fun o' => ?_⟩, c2, rfl, .get h1 h2 h3⟩
      rw [decimal_unique h3]
      exact prints_int (.inr ⟨.char, trivial, c2.char h2 c3 c4⟩) o'
  | @set m' _ i e v w z c o j h1 h2 h3 h4 h5 h6 h7 =>
    cases hsh _ _ _ h5
    refine ⟨o ++ [10], fun s t cap g ht => ?_⟩
    cases ht with
    | set w e1 e2 e3 e4 e5 =>
      obtain ⟨r, s1, bt, c1, gr, c2, c3, ⟨ex, c4⟩, c5⟩ := char_conv (E := E) g e2 e3 e4 h1 h2
      have h3' := h3
      obtain ⟨hv, hcomp, hfit⟩ := h3'
      obtain ⟨q, s2, k1, k2, k3, k4⟩ := eval_full (E := E) c2.wf (fun _ _ h => (c2.kept.intIs h.2 h.1).varIs) hv (e5.mono gr.nodes)
      have hq := k4.1 hcomp
      have hl : LvAt s2 r bt .char (m + j) := ⟨⟨_, _, k2.nodes _ _ c3⟩, ⟨ex, k2.nodes _ _ c4⟩, .inl trivial, by rw [k2.mem]; exact c5⟩
      have := assign_conv e1 c1 k1 hl trivial (.int hq)
      refine ⟨_, _, .inl ⟨q, _, w.conv this, rfl, fun o' => ?_⟩, (c2.ext k2).set h2 ?_, rfl, .set h1 h2 h3 h4 h5 h6 h7⟩
      · rw [decimal_unique h6]
        exact prints_int (s := wr s2 _ _ _) (.inl hq) o'
      · rw [h7]
        exact (Converts.unique (c := .char) (.inl (show integral .char by decide)) (getSi_converts (c := .char) (by decide) hfit) h4).symm

/-! ### The declaration -/

/-- the tree of the declaration -/
structure StrDecl (nd : TId → Option Node) (t : TId) (x : String) (bs : Str) : Prop where
  trees : ∃ specs decls a d id q off, nd t = some (.decl (some specs) (some decls) off) ∧ TypeSpecs nd specs .char ∧ nd decls = some (.chain [a]) ∧
    nd a = some (.assign (some d) (some q)) ∧ nd d = some (.pointer (some id)) ∧ nd id = some (.ident x) ∧ nd q = some (.str (bs.map byteOf))

theorem strVar_der {x bs i} (h : WStrVar x bs i) :
    ∃ t, Der .replUnit i (.chain [t]) [] ∧ typedefNames t = [] ∧ (∀ s, t ≠ .cppInclude s) ∧
      ∀ {nd : TId → Option Node} {u}, Rep nd (.t t (some u)) → StrDecl nd u (nameStr x) bs := by
  cases h with
  | @mk ws _ _ i hs hg =>
    refine ⟨_, .ruOne (.rsDecl (.dcDecl (specs_der' hs).1 (.idlOne (.idInit (.dPtr .ptr .ddIdent)
      (.inExpr (Parser.nt_down (p := 2) (q := 16) (.poPrimary .pStr) (by omega) (by omega))))))), ?_, nofun, ?_⟩
    · have : hasTypedef (.chain (ws.map .kw)) = false := by
        simp only [hasTypedef, List.any_eq_false, List.mem_map]
        rintro _ ⟨w, hw, rfl⟩
        have := specs_kw hs w hw
        cases w <;> first | exact absurd this (by decide) | simp
      simp [typedefNames, this]
    · intro nd u hx
      obtain ⟨g1, g2⟩ := resolveKws_gives (specs_kw hs) hg
      cases hx with
      | decl h5 h6 h7 =>
        cases h6 with
        | chain h8 h9 =>
          cases h7 with
          | chain h10 h11 =>
            obtain ⟨d, rfl, h12⟩ := rep_one h11
            cases h12 with
            | assign h20 h21 h22 =>
              cases h22 with
              | str h22 =>
                cases h21 with
                | pointer h13 h14 =>
                  cases h14 with
                  | ident h14 => exact ⟨_, _, _, _, _, _, _, h5, ⟨_, _, h8, rep_kws h9, g1, g2⟩, h10, h20, h13, h14, h22⟩

theorem strDecl_conv {E : Env} {s0 s : St} {x : String} {bs : Str} {cap : Nat} {t : TId} (he : Ext s0 s) (w : WF s0) (h : StrDecl s.nodes t x bs)
    (hf : Fresh s0 x) (hcap : Cap s0 (strCost bs.length + cap + 48)) :
    ∃ id s' m, Conv E (fun R => R.ev (some t)) s (.ok (some id) s') ∧ s'.nodes id = some (.ident x) ∧ SInv s0 s' x (m, bs ++ [0]) cap ∧ m ≠ 0 := by
  obtain ⟨specs, decls, a, d, id, q, off, ht, hs, hd, ha, hp, hid, hq⟩ := h.trees
  have w0 := he.wf w
  have x1 := addNode_ext w0 (.ctype .char none)
  have hτ := addNode_self s (.ctype .char none)
  have x2 := addNode_ext (x1.wf w0) (.ctype .ptr (some s.next))
  have hτ2 := addNode_self (addNode s (.ctype .char none)) (.ctype .ptr (some s.next))
  have xx := x1.trans x2
  have hres : Conv E (fun R => R.resolvePtr (some d) (some s.next)) (addNode s (.ctype .char none))
      (.ok (some id, some (s.next + 1)) (addNode (addNode s (.ctype .char none)) (.ctype .ptr (some s.next)))) := by
    refine Conv.resolvePtr (Conv.of_eq (f := fun R => R.resolvePtr (some id) (some (s.next + 1)))
      (s := addNode (addNode s (.ctype .char none)) (.ctype .ptr (some s.next))) (Conv.resolvePtr (Conv.fixed fun R => ?_)) fun R => ?_)
    · simp [resolvePtrStep, peek_apply (xx.nodes _ _ hid)]
    · simp [resolvePtrStep, peek_apply (x1.nodes _ _ hp), mk_apply]
      rfl
  have hnx : (addNode s (.ctype .char none)).next = s.next + 1 := rfl
  rw [hnx] at hτ2
  have hn1 := x2.nodes _ _ hτ
  have hnid := xx.nodes _ _ hid
  have hna := xx.nodes _ _ ha
  have hnq := xx.nodes _ _ hq
  have x0 := he.trans xx
  have w2 := xx.wf w0
  have hc2 := Cap.ext hcap x0
  have hf2 := Fresh.ext hf x0
  have hlt : ∀ b, s0.mem.live b = true → b < (addNode (addNode s (.ctype .char none)) (.ctype .ptr (some s.next))).mem.brk := by
    intro b hb
    rw [x0.mem]
    exact hcap.livelt b hb
  generalize hs2 : addNode (addNode s (.ctype .char none)) (.ctype .ptr (some s.next)) = s2 at *
  have hdecl := handleDecl_ident_conv (E := E) w2 hnid hτ2 (hc2.room (by omega)) hf2.resolve
  have hcv := handleDecl_ptr_conv hres ⟨_, hnid, by intros; simp⟩ hdecl
  have gr := newVar_grow w2 (some (s.next + 1))
  have gg := x0.grow.trans gr
  have hself : (newVar s2 (some (s.next + 1))).nodes s2.next = some (.lv (some (s.next + 1)) s2.mem.brk false 0) := newVar_self _ _
  have hnew : ∀ c, s2.mem.brk ≤ c → s0.mem.live c = false := by
    intro c hc
    cases hl : s0.mem.live c with
    | false => rfl
    | true => have := hlt c hl; omega
  have hne : a ≠ s2.next := by
    intro e
    rw [e, w2 _ (Nat.le_refl _)] at hna
    cases hna
  have hane : ∀ {u n}, (newVar s2 (some (s.next + 1))).nodes u = some n → (∀ l r, n ≠ .assign l r) → u ≠ a := by
    rintro u n hu hn rfl
    rw [gr.nodes _ _ hna] at hu
    cases hu
    exact hn _ _ rfl
  have hct : (declSt s2 (s.next + 1) id x).ctxs ≠ [] := by
    intro h0
    have := gg.ctxs_ne hcap.ctxs
    simp only [declSt] at h0
    cases hs' : (newVar s2 (some (s.next + 1))).ctxs with
    | nil => exact this hs'
    | cons c cs => rw [hs'] at h0; simp [bindCur] at h0
  -- the state after `tASSIGN_LHS(decl) = ret`
  let s4 : St := { declSt s2 (s.next + 1) id x with
    nodes := fun u => if u = a then some (.assign (some id) (some q)) else (declSt s2 (s.next + 1) id x).nodes u }
  have n4 : ∀ u n, (newVar s2 (some (s.next + 1))).nodes u = some n → (∀ l r, n ≠ .assign l r) → s4.nodes u = some n := by
    intro u n hu hn
    show (if u = a then _ else _) = _
    rw [if_neg (hane hu hn)]
    exact hu
  have hres4 : resolveGlobal x .normal s4 = some s2.next := by
    exact resolveGlobal_bind (hf2.grow gr) (gg.ctxs_ne hcap.ctxs)
  have hp4 : SPtr s0 s4 x s2.next (s.next + 1) s.next s2.mem.brk (strCost bs.length + cap) := by
    refine ⟨?_, ⟨?_, ?_, ?_, ?_, ?_, ?_, ?_⟩, ⟨?_, hct, ?_⟩, hres4, ⟨_, _, n4 _ _ hself nofun⟩, n4 _ _ (gr.nodes _ _ hτ2) nofun, ⟨none, n4 _ _ (gr.nodes _ _ hn1) nofun⟩, ?_, hnew⟩
    · intro u hu
      show (if u = a then _ else _) = none
      have hu' : (newVar s2 (some (s.next + 1))).next ≤ u := hu
      have hw := gr.wf w2 u hu'
      have hua : u ≠ a := by
        rintro rfl
        rw [gr.nodes _ _ hna] at hw
        cases hw
      rw [if_neg hua]
      exact hw
    · exact fun u v hu => n4 _ _ (gg.nodes _ _ hu) nofun
    · exact fun u ty a' b n hu => n4 _ _ (gg.nodes _ _ hu) nofun
    · exact fun u c e hu => n4 _ _ (gg.nodes _ _ hu) nofun
    · exact fun b hb => gg.live b hb
    · exact fun b hb => gg.byte b hb
    · intro y hy
      have : resolveGlobal y .normal s4 = resolveGlobal y .normal (newVar s2 (some (s.next + 1))) := resolveGlobal_other hy _ _
      rw [this]
      exact gg.resolveGlobal y _
    · exact gg.includes
    · show s2.mem.brk + 48 + _ < _
      have := hc2.brk
      omega
    · exact gg.livelt hcap.livelt
    · exact newVar_ok (s := s2) (ty := some (s.next + 1)) (by omega)
  have hq4 : s4.nodes q = some (.str (bs.map byteOf)) := n4 _ _ (gr.nodes _ _ hnq) nofun
  have hid4 : s4.nodes id = some (.ident x) := n4 _ _ (gr.nodes _ _ hnid) nofun
  have ha4 : s4.nodes a = some (.assign (some id) (some q)) := by
    show (if a = a then _ else _) = _
    rw [if_pos rfl]
  obtain ⟨s', m, a1, a2, a3, a4⟩ := hp4.assign hq4
  obtain ⟨arr, sz, hlv⟩ := hp4.lv
  have hev : Conv E (fun R => R.ev (some a)) s4 (.ok (some q) s') :=
    assign_ptr_conv (bt := some s.next) (a := s2.mem.brk)
      ⟨⟨some id, some q, s4, ha4, ident_conv hid4 hres4, Conv.evNode hq4 (Conv.pure _)⟩, ⟨_, arr, sz, hlv, hp4.ty, hp4.ok⟩⟩ a1
  have hda : (declSt s2 (s.next + 1) id x).nodes a = some (.assign (some d) (some q)) := gr.nodes _ _ hna
  have hfin : Conv E (fun R => R.handleDecl (some a) (some s.next)) (addNode s (.ctype .char none)) (.ok (some id) s') := by
    refine Conv.handleDecl ?_
    unfold handleDeclStep
    have ha1 := x1.nodes _ _ ha
    refine Conv.bind (a := (some a, some s.next)) (s' := addNode s (.ctype .char none)) (Conv.resolvePtr ?_) ?_
    · exact Conv.fixed fun R => by simp [resolvePtrStep, peek_apply ha1]
    · have h2 : Conv E (fun R => do
          let l' ← R.handleDecl (some d) (some s.next)
          (do match ← node a with
              | .assign _ r' => setNode a (.assign l' r')
              | _ => setNode a (.assign l' (some q))
              let _ ← R.ev (some a)
              pure l' : M Ref)) (addNode s (.ctype .char none)) (.ok (some id) s') := by
        refine Conv.bind hcv ?_
        have h3 : Conv E (fun R => (do let _ ← R.ev (some a); pure (some id) : M Ref)) s4 (.ok (some id) s') :=
          Conv.bind hev (Conv.pure _)
        refine h3.of_eq fun R => ?_
        simp [node_apply hda, setNode_apply]
        rfl
      refine h2.congr fun R => ?_
      simp only [bind_apply, node_apply hτ, handleDeclSwitch, nodeR, node_apply ha1]
      rfl
  refine ⟨id, s', m, evalDecl_conv w0 ht hs ?_, by rw [a4]; exact hid4, a3, a2⟩
  refine (Conv.bind hfin (Conv.pure _)).of_eq (g := fun R => eachDecl (fun d => R.handleDecl d (some s.next)) (some decls)) fun R => ?_
  simp [eachDecl, peek_apply (x1.nodes _ _ hd), forEachLast]

end Bic.Repl
