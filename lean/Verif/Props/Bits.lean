import Verif.Props.ArrayTypes
/-!
# C128: bit-fields
-/

namespace Bic
open Spec

/-! ## What C says -/

/-- `v` is a value of a bit-field of the type `k` and the width `n` -/
def Fits (k : CT) (n : Nat) (v : Int) : Prop :=
  if signed k then -(2 ^ (n - 1)) ≤ v ∧ v < 2 ^ (n - 1) else 0 ≤ v ∧ v < 2 ^ n

/-- `w` is what a bit-field of the type `k` and the width `n` holds when `v` is assigned to it -/
def BitOf (k : CT) (n : Nat) (v w : Int) : Prop := Fits k n w ∧ ∃ j : Int, v = w + j * 2 ^ n

/-- the member `i` is the bit-field `x : n` -/
def BitMember (s : St) (i : Item) (n : Nat) : Prop :=
  ∃ z e, s.nodes i.dd = some (.bitfield (some z) (some e)) ∧ s.nodes e = some (.ident i.x) ∧ s.nodes z = some (.integer n) ∧
    0 < n ∧ n ≤ width i.k

/-- `t` is the assignment `x.m = r` -/
def SetsMember (s : St) (t : TId) (x m : String) (r : Ref) : Prop :=
  ∃ u xi o, s.nodes t = some (.assign (some u) r) ∧ s.nodes u = some (.compAccess (some xi) (some o)) ∧
    s.nodes xi = some (.ident x) ∧ s.nodes o = some (.ident m)

/-- C128, values: after `struct { … } x;` and `x.m = e`, where `m` is a bit-field and `e` has the value `y`, the bit-field holds what is left
of `y` in its width. -/
def C128_values : Prop :=
  ∀ (E : Env) (s s1 s2 s3 : St) (t t' d c v w q : TId) (x : String) (L : List Item) (bs : List Binding) (base i n : Nat) (b : Binding)
    (it : Item) (y z : Int) (r r' : Ref), CompDecl s t d c x true L → Conv E (fun R => R.ev (some t)) s (.ok (some d) s1) →
    resolveGlobal x .normal s1 = some v → s1.nodes v = some (.lcomp (some c) bs base) → bs[i]? = some b → L[i]? = some it →
    BitMember s it n → b.val = some w → SetsMember s1 t' x b.name r → Conv E (fun R => R.ev r) s1 (.ok (some q) s2) → RVal s2 q y →
    Conv E (fun R => R.ev (some t')) s1 (.ok r' s3) → Holds s3 w it.k z → BitOf it.k n y z

/-- C128, storage: two bit-fields of the same type that fit into one unit of it share that unit. -/
def C128_storage : Prop :=
  ∀ (E : Env) (s s1 : St) (t d c : TId) (x : String) (i j : Item) (m n sz : Nat) (id ds : Ref) (e b : Bool),
    CompDecl s t d c x true [i, j] → BitMember s i m → BitMember s j n → i.k = j.k → m + n ≤ width i.k →
    Conv E (fun R => R.ev (some t)) s (.ok (some d) s1) → s1.nodes c = some (.compound id ds sz e b) → 8 * sz = width i.k

/-- C128 in full -/
def C128_statement : Prop := C128_values ∧ C128_storage

/-! ## What bic does -/

theorem Fits.inRange {k : CT} {n : Nat} {v : Int} (h : Fits k n v) (hn : n ≤ width k) : InRange k v := by
  unfold Fits at h
  unfold InRange lo hi
  split
  · rename_i hs
    rw [if_pos hs] at h
    have : (2 : Int) ^ (n - 1) ≤ 2 ^ (width k - 1) := by exact_mod_cast Nat.pow_le_pow_right (by decide) (by omega : n - 1 ≤ width k - 1)
    omega
  · rename_i hs
    rw [if_neg hs] at h
    have : (2 : Int) ^ n ≤ 2 ^ width k := by exact_mod_cast Nat.pow_le_pow_right (by decide) hn
    omega

/-- a bit-field is a member of its whole type -/
theorem BitMember.whole {s : St} {t d c : TId} {x : String} {isS : Bool} {L : List Item} {it : Item} {n : Nat} (hb : BitMember s it n)
    (h : CompDecl s t d c x isS L) (hi : it ∈ L) : it.m = .val it.k := by
  obtain ⟨_, _, _, _, _, _, tag, _, _, _, _, ⟨_, hm⟩, _⟩ := h.trees
  obtain ⟨z, e, h1, _⟩ := hb
  rcases hm it hi with ⟨_, h2⟩ | ⟨c', h2⟩
  · rw [tagged_nodes] at h2
    generalize it.m = m at *
    cases h2 with
    | bit => rfl
    | ident h3 => rfl
    | arr h3 | ptr h3 => rw [h1] at h3; cases h3
  · obtain ⟨_, _, ⟨_, _, _, _, _, _, _, _, h3, _⟩, _⟩ := h2
    rw [tagged_nodes, h1] at h3
    cases h3

/-- C128, the part of the statement that holds: values that fit are kept.  After `struct { … } x;`, whose members may be bit-fields, the
assignment `x.m = e` of a value that fits the bit-field `m` makes it hold the value, and changes no other member. -/
theorem C128_partial (E : Env) (s : St) (t d c : TId) (x : String) (L : List Item) (h : CompDecl s t d c x true L)
    (hnd : (L.map Item.x).Nodup) :
    ∃ v bs base s1, Conv E (fun R => R.ev (some t)) s (.ok (some d) s1) ∧ resolveGlobal x .normal s1 = some v ∧
      s1.nodes v = some (.lcomp (some c) bs base) ∧ bs.map Binding.name = L.map Item.x ∧
      ∀ (t' q : TId) (r : Ref) (s2 : St) (i n : Nat) (b : Binding) (it : Item) (y : Int), bs[i]? = some b → L[i]? = some it →
        BitMember s it n → integral it.k → SetsMember s1 t' x b.name r →
        Conv E (fun R => R.ev r) s1 (.ok (some q) s2) → Grow s1 s2 → RVal s2 q y → Fits it.k n y →
        ∃ w s3, b.val = some w ∧ Conv E (fun R => R.ev (some t')) s1 (.ok (some q) s3) ∧ Holds s3 w it.k y ∧
          ∀ (j : Nat) b' w' a l, j ≠ i → bs[j]? = some b' → b'.val = some w' → Occupies s2 w' a l →
            Occupies s3 w' a l ∧ ∀ p, a ≤ p → p < a + l → s3.mem.byte p = s2.mem.byte p := by
  obtain ⟨L', v, bs, base, s', s'', hm, hx, hc, rfl, hr, _, hcomp, hbase⟩ := compDecl_conv (E := E) h
  obtain ⟨v', bs', base', sz, id, ds, e, s1, k1, k2, k3, k4, k5, _⟩ := C17_members_partial E s t d c x L h
  have hu := Conv.unique k1 hc
  simp only [Out.ok.injEq, true_and] at hu
  subst hu
  rw [hr] at k2
  cases k2
  have hob := hcomp.obj
  rw [k3] at hob
  cases hob
  have hlim : Mem.limit < 2 ^ 63 := by decide
  have hsp := space_le L
  have hbrk := h.cap.brk
  refine ⟨v, bs, base, _, hc, hr, k3, k5, ?_⟩
  intro t' q r s2 i n b it y hb hit hbit hint ⟨u, xi, o, p1, p2, p3, p4⟩ hev hg hq hf
  have hik := hbit.whole h (List.mem_of_getElem? hit)
  have hit' : ∃ it', L'[i]? = some it' ∧ it'.m = .val it.k := by
    have h1 := congrArg (·[i]?) hm
    simp only [List.getElem?_map, hit, Option.map_some] at h1
    cases h2 : L'[i]? with
    | none => rw [h2] at h1; cases h1
    | some it' =>
      rw [h2] at h1
      simp only [Option.map_some, Option.some.injEq] at h1
      exact ⟨it', rfl, h1.trans hik⟩
  obtain ⟨it', hit', hik'⟩ := hit'
  obtain ⟨w, s3, q1, q2, ⟨z, q3, q4⟩, q5⟩ := C20_isolation_partial E _ _ s2 t' u o v c q (some xi) r L' base bs i b it' it.k y p1 p2 p4
    (ident_conv p3 hr) hev hg hq hcomp (by rw [hm]; omega) (by rw [k5]; exact hnd) hb hit' hik' hint
  obtain ⟨_, _, _, _, _, _, hn⟩ := hbit
  have hz : z = y := Converts.unique (.inl hint) q3 (Converts.self (hf.inRange hn))
  subst hz
  exact ⟨w, s3, q1, q2, q4, q5⟩

/-! ### A structure of bit-fields, and a witness against the full statement -/

/-- `struct { unsigned a : 3; unsigned b : 5; } x;`, `x.a = 9` and `x.a = 5` -/
def stBits : St :=
  stOf [.ident "a", .integer 3, .bitfield (some 1) (some 0), .chain [2], .kw .unsigned, .chain [4], .decl (some 5) (some 3) 0,
        .ident "b", .integer 5, .bitfield (some 8) (some 7), .chain [9], .decl (some 5) (some 10) 0, .chain [6, 11],
        .compound none (some 12) 0 false true, .chain [13], .ident "x", .chain [15], .decl (some 14) (some 16) 0,
        .integer 9, .compAccess (some 15) (some 0), .assign (some 19) (some 18), .integer 5, .assign (some 19) (some 21)] [] []

def itemsBits : List Item := [⟨0, 5, 2, .uint, "a", .val .uint⟩, ⟨0, 5, 9, .uint, "b", .val .uint⟩]

theorem stBits_decl : CompDecl stBits 17 15 13 "x" true itemsBits where
  trees := by
    refine ⟨14, 12, [6, 11], 0, 0, 16, none, rfl, rfl, rfl, rfl, ?_, .inr rfl, by intro i nm e; cases e⟩
    have hc : TypeSpecs stBits.nodes 5 .uint := ⟨[4], [.unsigned], rfl, .cons rfl .nil, by decide, by decide⟩
    refine Src.members (ts := [6, 11]) (L := itemsBits) ?_
    exact @Src.cons _ 6 _ _ _ _ _ [11] [⟨0, 5, 2, .uint, "a", .val .uint⟩] _ rfl rfl rfl
      (by
        intro i hi
        rcases List.mem_cons.mp hi with rfl | hi
        · exact ⟨rfl, rfl, hc, .bit rfl rfl⟩
        · cases hi)
      (Src.cons (L := [⟨0, 5, 9, .uint, "b", .val .uint⟩]) (k := .uint) (L' := []) rfl rfl rfl
        (by
          intro i hi
          rcases List.mem_cons.mp hi with rfl | hi
          · exact ⟨rfl, rfl, hc, .bit rfl rfl⟩
          · cases hi) .nil)
  name := rfl
  fresh := by
    intro c cs hc b hb
    have : c = ctx1 [] := by simp [stBits, stOf] at hc; exact hc.1.symm
    subst this; simp [ctx1] at hb
  wf := stOf_WF _ _ _
  cap := ⟨by decide +kernel, by simp [stBits, stOf], memOf_livelt _⟩

theorem stBits_a : BitMember stBits ⟨0, 5, 2, .uint, "a", .val .uint⟩ 3 := ⟨1, 0, rfl, rfl, rfl, by decide, by decide⟩
theorem stBits_b : BitMember stBits ⟨0, 5, 9, .uint, "b", .val .uint⟩ 5 := ⟨8, 7, rfl, rfl, rfl, by decide, by decide⟩

theorem stBits_conv : Conv E0 (fun R => R.ev (some 17)) stBits (.ok (some 15) (evTo 40 17 stBits)) :=
  evTo_conv _ _ _ _ (by decide +kernel) (by decide +kernel)

/-- The width is ignored: `x.a = 9` makes the bit-field of three bits hold 9. -/
theorem C128_values_refuted : ¬ C128_values := by
  intro h
  obtain ⟨⟨h1, h2⟩, _⟩ : BitOf .uint 3 9 9 :=
    h E0 stBits (evTo 40 17 stBits) (evTo 40 17 stBits) (evTo 40 20 (evTo 40 17 stBits)) 17 20 15 13 46 43 18 "x" itemsBits
      [⟨"a", 0, some 43⟩, ⟨"b", 7, some 45⟩] 4416 0 3 ⟨"a", 0, some 43⟩ ⟨0, 5, 2, .uint, "a", .val .uint⟩ 9 9 (some 18) (some 18)
      stBits_decl stBits_conv (by decide +kernel) (by decide +kernel) rfl rfl stBits_a rfl
      ⟨19, 15, 0, by decide +kernel, by decide +kernel, by decide +kernel, by decide +kernel⟩
      (Conv.evNode (by decide +kernel : (evTo 40 17 stBits).nodes 18 = some (.integer 9)) (Conv.fixed fun R => rfl))
      (.int (z := 9) (by decide +kernel))
      (evTo_conv _ _ _ _ (by decide +kernel) (by decide +kernel))
      ⟨42, 4416, ⟨⟨false, 0, by decide +kernel⟩, ⟨none, by decide +kernel⟩, .inl trivial, by decide +kernel⟩, by decide +kernel⟩
  revert h2
  decide

/-- No unit is shared: the structure takes eight bytes. -/
theorem C128_storage_refuted : ¬ C128_storage := by
  intro h
  have := h E0 stBits (evTo 40 17 stBits) 17 15 13 "x" _ _ 3 5 8 none (some 25) true true stBits_decl stBits_a stBits_b rfl (by decide)
    stBits_conv (by decide +kernel)
  revert this
  decide

theorem C128_refuted : ¬ C128_statement := fun h => C128_values_refuted h.1

/-- `x.a = 5` -/
example : ∃ w s3, Conv E0 (fun R => R.ev (some 22)) (evTo 40 17 stBits) (.ok (some 21) s3) ∧ Holds s3 w .uint 5 := by
  obtain ⟨v, bs, base, s1, h1, h2, h3, h4, h⟩ := C128_partial E0 stBits 17 15 13 "x" itemsBits stBits_decl (by decide)
  have e : s1 = evTo 40 17 stBits := evTo_unique 40 (by decide +kernel) h1
  rw [e] at h2 h3 h
  have e : v = 46 := Option.some.inj (h2.symm.trans (by decide +kernel))
  rw [e] at h3
  have e := h3.symm.trans
    (by decide +kernel : (evTo 40 17 stBits).nodes 46 = some (.lcomp (some 13) [⟨"a", 0, some 43⟩, ⟨"b", 7, some 45⟩] 4416))
  injection e with e
  injection e with _ e _
  rw [e] at h
  obtain ⟨w, s3, _, q, q', _⟩ := h 22 21 (some 21) _ 0 3 _ _ 5 rfl rfl stBits_a trivial
    ⟨19, 15, 0, by decide +kernel, by decide +kernel, by decide +kernel, by decide +kernel⟩
    (Conv.evNode (by decide +kernel : (evTo 40 17 stBits).nodes 21 = some (.integer 5)) (Conv.fixed fun R => rfl)) (Grow.refl _)
    (.int (z := 5) (by decide +kernel)) (by unfold Fits; decide)
  exact ⟨w, s3, q, q'⟩

end Bic
