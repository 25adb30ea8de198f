import Verif.Proofs.Witness
import Verif.Proofs.Repr
import Verif.Model.Build
/-!
# C07–C14, C62: assignment, increment, casts
-/

namespace Bic
open Spec

/-! ## C07 -/

/-- what C07 says about one assignment: the assignment tree `t`, whose left side
evaluates to a variable `x` of type `c` at address `a` and whose right side
evaluates to the integer `n`, can be evaluated, and afterwards the bytes of `x`
represent the value of type `c` congruent to `n`. -/
def AssignsConst (E : Env) (c : CT) (n : Int) : Prop :=
  ∀ (s s1 s2 : St) (t x q τ : TId) (l r : Ref) (a : Nat),
    s.nodes t = some (.assign l r) →
    Conv E (fun R => R.ev l) s (.ok (some x) s1) → Conv E (fun R => R.ev r) s1 (.ok (some q) s2) →
    LvAt s2 x τ c a → s2.nodes q = some (.integer n) →
    ∃ y s' w, Conv E (fun R => R.ev (some t)) s (.ok y s') ∧ Converts c n w ∧
      Represents c (bytesAt s'.mem a c.size) w

/-- C07 in full -/
def C07_statement : Prop := ∀ E c n, integral c → AssignsConst E c n

theorem converts_of_congr {c : CT} {n m w : Int} (h : Converts c m w) (k : Int)
    (e : n = m + k * 2 ^ width c) : Converts c n w := by
  obtain ⟨h1, j, hj⟩ := h
  exact ⟨h1, j + k, by rw [e, hj, Int.add_mul]; omega⟩

/-- `mpz_get_si` keeps the value modulo 2^63 -/
theorem mpzGetSi_congr (n : Int) : ∃ k, n = mpzGetSi n + k * 2 ^ 63 := by
  unfold mpzGetSi
  split
  · exact ⟨n / 2 ^ 63, by omega⟩
  · exact ⟨-((-n - 1) / 2 ^ 63), by omega⟩

theorem getSi_converts {c : CT} (hc : integral c) {n : Int}
    (h : width c ≤ 32 ∨ (-2 ^ 63 ≤ n ∧ n < 2 ^ 63)) :
    Converts c n (c.decode (c.encode (mpzGetSi n))) := by
  have hd := CT.decode_encode_converts (.inl hc) (mpzGetSi n)
  rcases h with h | ⟨h1, h2⟩
  · obtain ⟨k, hk⟩ := mpzGetSi_congr n
    refine converts_of_congr hd (k * 2 ^ (63 - width c)) ?_
    rw [Int.mul_assoc, ← Int.pow_add, Nat.sub_add_cancel (by omega)]
    exact hk
  · rwa [mpzGetSi_eq h1 h2] at hd ⊢

/-- C07 for all integers and the types of at most 32 bits, and for the 64-bit
types when the constant fits into a `long`. -/
theorem C07_assign_partial (E : Env) (c : CT) (n : Int) (hc : integral c)
    (h : width c ≤ 32 ∨ (-2 ^ 63 ≤ n ∧ n < 2 ^ 63)) : AssignsConst E c n := by
  intro s s1 s2 t x q τ l r a hn hl hr hx hq
  have hcv := assign_conv hn hl hr hx hc (.int hq)
  refine ⟨_, _, _, hcv, getSi_converts hc h, ?_⟩
  exact ((hx.wr _ _ _).holds_iff _).mp (hx.holds_wr _)

/-- `x = n` for a variable `x` of the type `c` at 4096 -/
def stAsg (c : CT) (n : Int) (bs : List Byte) : St :=
  stOf [.ident "x", .ctype c none, .lv (some 1) 4096 false 0, .integer n,
        .assign (some 0) (some 3)] [⟨"x", 0, some 2⟩] bs

theorem stAsg_lv (c n) (bs : List Byte) (hc : integral c) (h : c.size ≤ bs.length) :
    LvAt (stAsg c n bs) 2 1 c 4096 :=
  ⟨⟨_, _, rfl⟩, ⟨_, rfl⟩, .inl hc, by
    rw [Mem.ok_iff]; intro y h1 h2; simp [stAsg, stOf, memOf]; omega⟩

/-- what the four bytes of `x` are after `x = 2^40 - 1` for an `int` -/
example : ∃ y s' w, Conv E0 (fun R => R.ev (some 4)) (stAsg .int (2 ^ 40 - 1) [1, 2, 3, 4, 5]) (.ok y s') ∧
    Converts .int (2 ^ 40 - 1) w ∧ Represents .int (bytesAt s'.mem 4096 4) w :=
  C07_assign_partial E0 .int _ trivial (.inl (by decide)) _ _ _ 4 2 3 1 (some 0) (some 3) 4096 rfl
    (Conv.of_ev 5 rfl (by intro h; cases h)) (Conv.of_ev 5 rfl (by intro h; cases h))
    (stAsg_lv _ _ _ trivial (by decide)) rfl

/-- after `x = n` for a concrete state: the raw bytes of `x` -/
def bytesAfter (a n : Nat) : Out Ref → Option (List Byte)
  | .ok _ s => some (bytesAt s.mem a n)
  | _ => none

/-- if the run of the evaluator ends in known bytes, every `Conv` outcome has them -/
theorem bytesAfter_conv {E : Env} {s s' : St} {t y : Ref} {a n : Nat} {bs : List Byte} (k : Nat)
    (hc : bytesAfter a n ((run E k).ev t s) = some bs) (h : Conv E (fun R => R.ev t) s (.ok y s')) :
    bytesAt s'.mem a n = bs := by
  have hne : (run E k).ev t s ≠ .fuel := by
    intro hf; rw [hf] at hc; cases hc
  have := Conv.unique h (Conv.of_ev k rfl hne)
  rw [← this] at hc
  exact Option.some.inj hc

/-- C07 in full is false: after `x = 9223372036854775808` an `unsigned long` is 0. -/
theorem C07_refuted : ¬ C07_statement := by
  intro h
  obtain ⟨y, s', w, h1, h2, h3⟩ := h E0 .ulong (2 ^ 63) trivial
    (stAsg .ulong (2 ^ 63) [1, 2, 3, 4, 5, 6, 7, 8]) _ _ 4 2 3 1 (some 0) (some 3) 4096 rfl
    (Conv.of_ev 5 rfl (by intro h; cases h)) (Conv.of_ev 5 rfl (by intro h; cases h))
    (stAsg_lv _ _ _ trivial (by decide)) rfl
  have hb : bytesAt s'.mem 4096 8 = [0, 0, 0, 0, 0, 0, 0, 0] :=
    bytesAfter_conv 10 (by decide) h1
  have h4 : w = 2 ^ 63 := Converts.unique (c := .ulong) (.inl trivial) h2 (Converts.self (by decide))
  have h5 : w = 0 := by
    refine Converts.unique (c := .ulong) (.inl trivial) h3.2 ?_
    rw [show bytesAt s'.mem 4096 CT.ulong.size = _ from hb]
    exact ⟨by decide, 0, by decide⟩
  omega

/-! ## C08 -/

/-- `t` is `l = r`, evaluating `l` gives the variable `x` of type `c` at `a`,
evaluating `r` gives the variable `y` of type `d` at `b`.  After the assignment the
bytes of `x` represent the value of `y` converted to `c`. -/
def AssignsVar (E : Env) (c d : CT) : Prop :=
  ∀ (s s1 s2 : St) (t x y τ τ' : TId) (l r : Ref) (a b : Nat) (v : Int),
    s.nodes t = some (.assign l r) →
    Conv E (fun R => R.ev l) s (.ok (some x) s1) → Conv E (fun R => R.ev r) s1 (.ok (some y) s2) →
    LvAt s2 x τ c a → LvAt s2 y τ' d b → Represents d (bytesAt s2.mem b d.size) v →
    s2.mem.ok 8 b = true →
    ∃ z s' w, Conv E (fun R => R.ev (some t)) s (.ok z s') ∧ Converts c v w ∧
      Represents c (bytesAt s'.mem a c.size) w

/-- C08 in full.  That the eight bytes from `y` on can be accessed is always so
for a variable: its storage has 16 bytes. -/
def C08_statement : Prop := ∀ E c d, integral c → integral d → AssignsVar E c d

theorem two_pow_width {c : CT} (h : integral c ∨ c = .ptr) : (2 : Int) ^ width c = (256 ^ c.size : Nat) :=
  (CT.modulus_eq h).symm

theorem decode_congr {c : CT} (h : integral c ∨ c = .ptr) {r : Nat} (hr : r < c.modulus) :
    ∃ k, (r : Int) = c.decode r + k * 2 ^ width c := (decode_converts h hr).2

/-- C08 whenever the target is not wider than the source.  (Otherwise bytes beyond
`y` are copied: `C08_refuted`.) -/
theorem C08_assign_partial (E : Env) (c d : CT) (hc : integral c) (hd : integral d)
    (h : width c ≤ width d) : AssignsVar E c d := by
  intro s s1 s2 t x y τ τ' l r a b v hn hl hr hx hy hv hok
  obtain ⟨arr, sz, hylv⟩ := hy.lv
  have hcv := assign_conv hn hl hr hx hc (.lv hylv hok)
  refine ⟨_, _, _, hcv, ?_, ((hx.wr _ _ _).holds_iff _).mp (hx.holds_wr _)⟩
  have hh : v = d.decode (s2.mem.load d.size b) := by
    have h1 := (hy.holds_iff v).mpr hv
    exact (h1.unique ⟨_, _, hy, rfl⟩).2
  have hde := CT.decode_encode_converts (c := c) (.inl hc) (CT.long.decode (s2.mem.load 8 b))
  -- everything is congruent modulo 2^width c
  obtain ⟨k1, e1⟩ := decode_congr (c := .long) (.inl trivial) (Mem.load_lt s2.mem 8 b)
  obtain ⟨k2, e2⟩ := decode_congr (c := d) (.inl hd) (Mem.load_lt s2.mem d.size b)
  have hsz : d.size ≤ 8 := by cases d <;> simp [integral] at hd <;> decide
  have hm := Mem.load_mod s2.mem hsz b
  obtain ⟨k3, e3⟩ : ∃ k : Int, (s2.mem.load 8 b : Int) = s2.mem.load d.size b + k * 2 ^ width d := by
    refine ⟨((s2.mem.load 8 b / 256 ^ d.size : Nat) : Int), ?_⟩
    rw [two_pow_width (.inl hd), ← hm, ← Int.natCast_mul, ← Int.natCast_add, Nat.mod_add_div']
  have hw : (2 : Int) ^ width d = 2 ^ (width d - width c) * 2 ^ width c := by
    rw [← Int.pow_add, Nat.sub_add_cancel h]
  have hw8 : (2 : Int) ^ width CT.long = 2 ^ (64 - width c) * 2 ^ width c := by
    have : width c ≤ 64 := by cases c <;> simp [integral] at hc <;> decide
    rw [← Int.pow_add, Nat.sub_add_cancel this]; rfl
  refine converts_of_congr hde (k1 * 2 ^ (64 - width c) - k2 * 2 ^ (width d - width c)
      - k3 * 2 ^ (width d - width c)) ?_
  rw [← hh] at e2
  rw [hw] at e2 e3
  rw [hw8] at e1
  simp only [Int.sub_mul, Int.mul_assoc]
  omega

/-- `x = y` for variables of types `c` at 4096 and `d` at 4112 -/
def stVar (c d : CT) (bs : List Byte) : St :=
  stOf [.ident "x", .ctype c none, .lv (some 1) 4096 false 0,
        .ident "y", .ctype d none, .lv (some 4) 4112 false 0,
        .assign (some 0) (some 3)] [⟨"x", 0, some 2⟩, ⟨"y", 3, some 5⟩] bs

theorem stVar_lv (c d) (bs : List Byte) (hc : integral c) (hd : integral d) (h : bs.length = 32) :
    LvAt (stVar c d bs) 2 1 c 4096 ∧ LvAt (stVar c d bs) 5 4 d 4112 := by
  have h1 : c.size ≤ 8 := by cases c <;> simp [integral] at hc <;> decide
  have h2 : d.size ≤ 8 := by cases d <;> simp [integral] at hd <;> decide
  exact ⟨⟨⟨_, _, rfl⟩, ⟨_, rfl⟩, .inl hc, by
      rw [Mem.ok_iff]; intro y h1 h2; simp [stVar, stOf, memOf]; omega⟩,
    ⟨⟨_, _, rfl⟩, ⟨_, rfl⟩, .inl hd, by
      rw [Mem.ok_iff]; intro y h1 h2; simp [stVar, stOf, memOf]; omega⟩⟩

def bytesY : List Byte :=
  [9, 9, 9, 9, 9, 9, 9, 9, 9, 9, 9, 9, 9, 9, 9, 9, 255, 7, 0, 1, 0, 0, 0, 0, 0, 0, 0, 0, 0, 0, 0, 0]

example : ∃ z s' w, Conv E0 (fun R => R.ev (some 6)) (stVar .char .uint bytesY) (.ok z s') ∧
    Converts .char 16779263 w ∧ Represents .char (bytesAt s'.mem 4096 1) w :=
  C08_assign_partial E0 .char .uint trivial trivial (by decide) _ _ _ 6 2 5 1 4 (some 0) (some 3)
    4096 4112 16779263 rfl
    (Conv.of_ev 5 rfl (by intro h; cases h)) (Conv.of_ev 5 rfl (by intro h; cases h))
    (stVar_lv _ _ _ (by decide) (by decide) rfl).1 (stVar_lv _ _ _ (by decide) (by decide) rfl).2
    ⟨rfl, by decide, 0, rfl⟩ rfl

/-- C08 in full is false: with `char y = -1` followed by other bytes, `int x; x = y`
gives 16779263. -/
theorem C08_refuted : ¬ C08_statement := by
  intro h
  obtain ⟨z, s', w, h1, h2, h3⟩ := h E0 .int .char trivial trivial (stVar .int .char bytesY) _ _ 6 2 5 1 4
    (some 0) (some 3) 4096 4112 (-1) rfl
    (Conv.of_ev 5 rfl (by intro h; cases h)) (Conv.of_ev 5 rfl (by intro h; cases h))
    (stVar_lv _ _ _ (by decide) (by decide) rfl).1 (stVar_lv _ _ _ (by decide) (by decide) rfl).2
    ⟨rfl, by decide, 1, rfl⟩ rfl
  have hb : bytesAt s'.mem 4096 4 = [255, 7, 0, 1] := bytesAfter_conv 10 (by decide) h1
  have h4 : w = -1 := Converts.unique (c := .int) (.inl trivial) h2 (Converts.self (by decide))
  have h5 : w = 16779263 := by
    refine Converts.unique (c := .int) (.inl trivial) h3.2 ?_
    rw [show bytesAt s'.mem 4096 CT.int.size = _ from hb]
    exact ⟨by decide, 0, by decide⟩
  omega

/-! ## C09 -/

theorem assignInteger_ok {E : Env} {s s' : St} {x τ : TId} {q : Ref} {c e a arr sz u}
    (hx : s.nodes x = some (.lv (some τ) a arr sz)) (hτ : s.nodes τ = some (.ctype c e))
    (h : assignInteger E x q s = .ok u s') : ∃ v, s' = wr s c.size a v := by
  have h1 : lvFields x s = .ok (some τ, a) s := by simp [lvFields, node_apply hx]
  have h2 : typeOf (some τ) s = .ok (some c) s := by simp [typeOf, nodeR, node_apply hτ]
  have hst : ∀ v, storeLong E c a v s = .ok u s' → ∃ v, s' = wr s c.size a v := by
    intro v hv
    unfold storeLong at hv
    split at hv <;> (unfold storeRaw at hv; split at hv <;> cases hv; exact ⟨_, rfl⟩)
  unfold assignInteger at h
  cases q with
  | none => simp [nodeR, ub, stop] at h
  | some q =>
    cases hq : s.nodes q with
    | none => simp [nodeR, node, hq] at h
    | some n =>
      simp only [nodeR, bind_apply, node_apply hq] at h
      cases n <;> simp [die, stop, h1, h2] at h
      · exact hst _ h
      · rename_i ad _ _
        cases hok : s.mem.ok 8 ad with
        | true => simp [loadRaw, hok, h1, h2] at h; exact hst _ h
        | false => simp [loadRaw, hok] at h

theorem assignFloat_ok {E : Env} {s s' : St} {x τ : TId} {q : Ref} {c e a arr sz u}
    (hx : s.nodes x = some (.lv (some τ) a arr sz)) (hτ : s.nodes τ = some (.ctype c e))
    (h : assignFloat E x q s = .ok u s') : ∃ v, s' = wr s c.size a v := by
  have h1 : lvFields x s = .ok (some τ, a) s := by simp [lvFields, node_apply hx]
  have h2 : typeOf (some τ) s = .ok (some c) s := by simp [typeOf, nodeR, node_apply hτ]
  have hst : ∀ v : Nat, (match (some c : Option CT) with
      | some .float => storeRaw 4 a (E.fpConv .double .float v)
      | some .double => storeRaw 8 a v
      | _ => die "could not assign to non-float type") s = .ok u s' → ∃ v, s' = wr s c.size a v := by
    intro v hv
    cases c <;> simp [die, stop] at hv <;>
      (unfold storeRaw at hv; split at hv <;> cases hv; exact ⟨_, rfl⟩)
  unfold assignFloat at h
  cases q with
  | none => simp [nodeR, ub, stop] at h
  | some q =>
    cases hq : s.nodes q with
    | none => simp [nodeR, node, hq] at h
    | some n =>
      simp only [nodeR, bind_apply, node_apply hq] at h
      cases n <;> simp [die, stop, h1, h2] at h
      · exact hst _ h
      · exact hst _ h
      · unfold loadRaw at h
        split at h
        · rename_i hh; split at hh <;> cases hh
          simp [h1, h2] at h
          exact hst _ h
        all_goals cases h

/-- `assign_ptr` writes the variable, and for a string literal fresh memory -/
theorem assignPtr_ok {s s' : St} {x τ : TId} {q : Ref} {a arr sz u} (hl : LiveLt s.mem)
    (hx : s.nodes x = some (.lv (some τ) a arr sz)) (h : assignPtr x q s = .ok u s') :
    s'.nodes = s.nodes ∧ ∀ b, s.mem.live b = true → (b < a ∨ a + 8 ≤ b) →
      s'.mem.byte b = s.mem.byte b ∧ s'.mem.live b = true := by
  have h1 : ∀ s1 : St, s1.nodes = s.nodes → lvFields x s1 = .ok (some τ, a) s1 := by
    intro s1 hn; simp [lvFields, node, hn, hx]
  have hst : ∀ (s1 : St) (v : Nat), s1.nodes = s.nodes →
      (∀ b, s.mem.live b = true → s1.mem.byte b = s.mem.byte b ∧ s1.mem.live b = true) →
      storeRaw 8 a v s1 = .ok u s' →
      s'.nodes = s.nodes ∧ ∀ b, s.mem.live b = true → (b < a ∨ a + 8 ≤ b) →
        s'.mem.byte b = s.mem.byte b ∧ s'.mem.live b = true := by
    intro s1 v hn hb hv
    unfold storeRaw at hv
    split at hv
    · cases hv
      refine ⟨hn, fun b hlb hab => ?_⟩
      refine ⟨?_, by simpa using (hb b hlb).2⟩
      rw [← (hb b hlb).1]
      exact Mem.store_byte_other _ _ _ _ _ hab
    · cases hv
  unfold assignPtr at h
  cases q with
  | none => simp [nodeR, ub, stop] at h
  | some q =>
    cases hq : s.nodes q with
    | none => simp [nodeR, node, hq] at h
    | some n =>
      rw [bind_apply] at h
      simp only [nodeR, bind_apply, node_apply hq] at h
      cases n
      case str bs =>
        simp only [bind_apply, mallocM, Mem.malloc] at h
        split at h
        · rename_i p s1 hm
          split at hm
          · rename_i p' s2 hm2
            split at hm2
            · rename_i z a0 m0 hz
              split at hz
              · cases hz; cases hm2
                cases hc : s.ctxs with
                | nil => simp [modify, trackAlloc, modCur, hc] at hm
                | cons k ks =>
                  simp [modify, trackAlloc, modCur, hc] at hm
                  obtain ⟨rfl, rfl⟩ := hm
                  generalize hs1 : St.mk s.nodes _ _ _ _ _ _ _ _ = s1 at h
                  have hn1 : s1.nodes = s.nodes := by rw [← hs1]
                  simp only [h1 s1 hn1] at h
                  refine hst s1 _ hn1 ?_ h
                  subst hs1
                  intro b hlb
                  have hlt := hl b hlb
                  refine ⟨?_, ?_⟩
                  · exact Mem.storeBytes_byte_other _ _ _ _ (.inl hlt)
                  · simp [hlb]
              · cases hz
            · cases hm2
          all_goals cases hm
        all_goals cases h
      case lv ty a' arr' sz' =>
        cases hok : s.mem.ok 8 a' with
        | true =>
          simp only [loadRaw, hok, if_true, h1 s rfl] at h
          exact hst s _ rfl (fun b hb => ⟨rfl, hb⟩) h
        | false => simp [loadRaw, hok] at h
      case integer z =>
        simp only [pure_apply, h1 s rfl] at h
        exact hst s _ rfl (fun b hb => ⟨rfl, hb⟩) h
      all_goals cases h

/-- C09: an assignment that is carried out, to a variable `x` of any type at
address `a`, whatever is assigned and whatever its operands do, changes no
accessible byte outside `x` after the evaluation of its operands (nor takes any
away), no tree object and no scope but for the record of allocations. -/
theorem C09_isolation (E : Env) (s s1 s2 s' : St) (t x τ : TId) (l r q y : Ref) (c : CT) (e : Ref)
    (a : Nat) (arr : Bool) (sz : Nat) (hi : Inv s) (hE : SaneEnv E) (hlive : LiveLt s.mem)
    (hn : s.nodes t = some (.assign l r))
    (hl : Conv E (fun R => R.ev l) s (.ok (some x) s1)) (hr : Conv E (fun R => R.ev r) s1 (.ok q s2))
    (hx : s2.nodes x = some (.lv (some τ) a arr sz)) (hτ : s2.nodes τ = some (.ctype c e))
    (ht : Conv E (fun R => R.ev (some t)) s (.ok y s')) :
    (∀ b, s2.mem.live b = true → (b < a ∨ a + c.size ≤ b) →
      s'.mem.byte b = s2.mem.byte b ∧ s'.mem.live b = true) ∧
    ∀ v τ' d a' w, LvAt s2 v τ' d a' → (a' + d.size ≤ a ∨ a + c.size ≤ a') → Holds s2 v d w →
      Holds s' v d w := by
  have e1 := hl.evol hi
  have e2 := hr.evol e1.inv
  have hl2 : LiveLt s2.mem := ((e1.trans e2).mem hE).2.2 hlive
  have hmain : s'.nodes = s2.nodes ∧ ∀ b, s2.mem.live b = true → (b < a ∨ a + c.size ≤ b) →
      s'.mem.byte b = s2.mem.byte b ∧ s'.mem.live b = true := by
    have hm := Conv.unique ht (Conv.evNode hn (Conv.bind hl (Conv.bind hr (Conv.const rfl))))
    simp only [bind_apply, node_apply hx, show typeOf (some τ) s2 = .ok (some c) s2 by
      simp [typeOf, nodeR, node_apply hτ]] at hm
    have hwr : ∀ v, ∀ b, s2.mem.live b = true → (b < a ∨ a + c.size ≤ b) →
        (wr s2 c.size a v).mem.byte b = s2.mem.byte b ∧ (wr s2 c.size a v).mem.live b = true :=
      fun v b hb hab => ⟨Mem.store_byte_other _ _ _ _ _ hab, by simpa using hb⟩
    split at hm
    · cases h : assignInteger E x q s2 with
      | ok u s3 =>
        simp [h] at hm
        obtain ⟨v, rfl⟩ := assignInteger_ok hx hτ h
        rw [hm.2]; exact ⟨rfl, hwr v⟩
      | stop w s3 => simp [h] at hm
      | fuel => simp [h] at hm
    · split at hm
      · cases h : assignFloat E x q s2 with
        | ok u s3 =>
          simp [h] at hm
          obtain ⟨v, rfl⟩ := assignFloat_ok hx hτ h
          rw [hm.2]; exact ⟨rfl, hwr v⟩
        | stop w s3 => simp [h] at hm
        | fuel => simp [h] at hm
      · split at hm
        · rename_i hc
          subst hc
          cases h : assignPtr x q s2 with
          | ok u s3 =>
            simp [h] at hm
            rw [hm.2]; exact assignPtr_ok hl2 hx h
          | stop w s3 => simp [h] at hm
          | fuel => simp [h] at hm
        · cases hm
  refine ⟨hmain.2, ?_⟩
  intro v τ' d a' w hv hdis hw
  have hw' := (hw.unique ⟨_, _, hv, rfl⟩).2
  have hok := (Mem.ok_iff _ _ _).mp hv.ok
  have hb : ∀ b, a' ≤ b → b < a' + d.size → s'.mem.byte b = s2.mem.byte b ∧ s'.mem.live b = true :=
    fun b h1 h2 => hmain.2 b (hok b h1 h2) (by omega)
  refine ⟨τ', a', ⟨?_, ?_, hv.int, (Mem.ok_iff _ _ _).mpr fun b h1 h2 => (hb b h1 h2).2⟩, ?_⟩
  · rw [hmain.1]; exact hv.lv
  · rw [hmain.1]; exact hv.ty
  · rw [hw', Mem.load_congr fun b h1 h2 => (hb b h1 h2).1]

example : ∀ v τ' d a' w, LvAt (stVar .int .char bytesY) v τ' d a' → (a' + d.size ≤ 4096 ∨ 4096 + 4 ≤ a') →
    Holds (stVar .int .char bytesY) v d w →
    Holds (wr (stVar .int .char bytesY) 4 4096 16779263) v d w :=
  (C09_isolation E0 (stVar .int .char bytesY) _ _ _ 6 2 1 (some 0) (some 3) (some 5) (some 5) .int none 4096 false 0
    (stOf_Inv _ _ _) (fun _ _ _ => ⟨fun _ h => h, Nat.le_refl _, id⟩)
    (fun x hx => by simp [stVar, stOf, memOf, bytesY] at hx ⊢; omega) rfl
    (Conv.of_ev 5 rfl (by intro h; cases h)) (Conv.of_ev 5 rfl (by intro h; cases h)) rfl rfl
    (Conv.of_ev 10 rfl (by intro h; cases h))).2

end Bic
