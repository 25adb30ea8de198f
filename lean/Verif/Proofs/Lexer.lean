import Verif.Spec.Regex
import Mathlib.Data.List.Basic
/-!
# The lexer chooses rules as flex does
-/

namespace Bic.Lexer

/-! ## Derivatives -/

theorem nullable_iff (r : Re) : r.nullable = true ↔ Matches r [] := by
  induction r with
  | nil =>
    refine ⟨fun h => ?_, fun h => ?_⟩ <;> cases h
  | eps => exact ⟨fun _ => .eps, fun _ => rfl⟩
  | cls p =>
    refine ⟨fun h => ?_, fun h => ?_⟩ <;> cases h
  | seq a b iha ihb =>
    simp only [Re.nullable, Bool.and_eq_true, iha, ihb]
    constructor
    · rintro ⟨h1, h2⟩
      exact .seq h1 h2
    · intro h
      generalize hw : ([] : Str) = w at h
      cases h with
      | seq h1 h2 =>
        obtain ⟨rfl, rfl⟩ := List.append_eq_nil_iff.mp hw.symm
        exact ⟨h1, h2⟩
  | alt a b iha ihb =>
    simp only [Re.nullable, Bool.or_eq_true, iha, ihb]
    constructor
    · rintro (h | h)
      · exact .altL h
      · exact .altR h
    · intro h
      cases h with
      | altL h => exact .inl h
      | altR h => exact .inr h
  | star a => exact ⟨fun _ => .nil, fun _ => rfl⟩

theorem not_nil (w : Str) : ¬ Matches .nil w := fun h => by cases h

theorem seq_iff {a b : Re} {w : Str} : Matches (.seq a b) w ↔ ∃ u v, w = u ++ v ∧ Matches a u ∧ Matches b v := by
  constructor
  · intro h
    cases h with
    | seq h1 h2 => exact ⟨_, _, rfl, h1, h2⟩
  · rintro ⟨u, v, rfl, h1, h2⟩
    exact .seq h1 h2

theorem alt_iff {a b : Re} {w : Str} : Matches (.alt a b) w ↔ Matches a w ∨ Matches b w := by
  constructor
  · intro h
    cases h with
    | altL h => exact .inl h
    | altR h => exact .inr h
  · rintro (h | h)
    · exact .altL h
    · exact .altR h

theorem eps_iff {w : Str} : Matches .eps w ↔ w = [] :=
  ⟨fun h => by cases h; rfl, fun h => h ▸ .eps⟩

theorem cls_iff {p : Byte → Bool} {w : Str} : Matches (.cls p) w ↔ ∃ c, w = [c] ∧ p c = true := by
  constructor
  · intro h
    cases h with
    | cls h => exact ⟨_, rfl, h⟩
  · rintro ⟨c, rfl, h⟩
    exact .cls h

theorem mkSeq_iff {a b : Re} {w : Str} : Matches (Re.mkSeq a b) w ↔ Matches (.seq a b) w := by
  unfold Re.mkSeq
  split
  · exact ⟨fun h => absurd h (not_nil _), fun h => by cases h with | seq h1 _ => exact absurd h1 (not_nil _)⟩
  · exact ⟨fun h => absurd h (not_nil _), fun h => by cases h with | seq _ h1 => exact absurd h1 (not_nil _)⟩
  · rw [seq_iff]
    constructor
    · intro h
      exact ⟨[], w, rfl, .eps, h⟩
    · rintro ⟨u, v, rfl, h1, h2⟩
      rw [eps_iff] at h1
      subst h1
      exact h2
  · rfl

theorem mkAlt_iff {a b : Re} {w : Str} : Matches (Re.mkAlt a b) w ↔ Matches (.alt a b) w := by
  rw [alt_iff]
  unfold Re.mkAlt
  split
  · exact ⟨.inr, fun h => h.resolve_left (not_nil _)⟩
  · exact ⟨.inl, fun h => h.resolve_right (not_nil _)⟩
  · rw [alt_iff]

/-- a non-empty match of a repetition begins with a non-empty match -/
theorem star_cons {a : Re} {c : Byte} {w : Str} (h : Matches (.star a) (c :: w)) :
    ∃ u v, w = u ++ v ∧ Matches a (c :: u) ∧ Matches (.star a) v := by
  generalize hr : Re.star a = r at h
  generalize hx : c :: w = x at h
  induction h with
  | nil => cases hx
  | @cons a' u v h1 h2 _ ih2 =>
    cases hr
    cases u with
    | nil => exact ih2 rfl hx
    | cons d u =>
      simp only [List.cons_append, List.cons.injEq] at hx
      obtain ⟨rfl, rfl⟩ := hx
      exact ⟨u, v, rfl, h1, h2⟩
  | eps => cases hr
  | cls => cases hr
  | seq => cases hr
  | altL => cases hr
  | altR => cases hr

theorem deriv_iff (c : Byte) (r : Re) : ∀ w, Matches (r.deriv c) w ↔ Matches r (c :: w) := by
  induction r with
  | nil => intro w; exact ⟨fun h => absurd h (not_nil _), fun h => absurd h (not_nil _)⟩
  | eps => intro w; exact ⟨fun h => absurd h (not_nil _), fun h => by cases h⟩
  | cls p =>
    intro w
    unfold Re.deriv
    rw [cls_iff]
    by_cases hp : p c = true
    · rw [if_pos hp, eps_iff]
      constructor
      · rintro rfl; exact ⟨c, rfl, hp⟩
      · rintro ⟨d, hd, -⟩; simp at hd; exact hd.2
    · rw [if_neg hp]
      refine ⟨fun h => absurd h (not_nil _), ?_⟩
      rintro ⟨d, hd, h2⟩
      simp at hd
      rw [hd.1] at hp
      exact absurd h2 hp
  | seq a b iha ihb =>
    intro w
    have key : Matches (Re.mkSeq (a.deriv c) b) w ↔ ∃ u v, w = u ++ v ∧ Matches a (c :: u) ∧ Matches b v := by
      rw [mkSeq_iff, seq_iff]
      simp only [iha]
    unfold Re.deriv
    by_cases hn : a.nullable = true
    · rw [if_pos hn, mkAlt_iff, alt_iff, key, ihb, seq_iff]
      constructor
      · rintro (⟨u, v, rfl, h1, h2⟩ | h)
        · exact ⟨c :: u, v, rfl, h1, h2⟩
        · exact ⟨[], c :: w, rfl, (nullable_iff a).mp hn, h⟩
      · rintro ⟨u, v, hw, h1, h2⟩
        cases u with
        | nil => right; rw [List.nil_append] at hw; rw [hw]; exact h2
        | cons d u =>
          simp only [List.cons_append, List.cons.injEq] at hw
          obtain ⟨rfl, rfl⟩ := hw
          exact .inl ⟨u, v, rfl, h1, h2⟩
    · rw [if_neg hn, key, seq_iff]
      constructor
      · rintro ⟨u, v, rfl, h1, h2⟩
        exact ⟨c :: u, v, rfl, h1, h2⟩
      · rintro ⟨u, v, hw, h1, h2⟩
        cases u with
        | nil => exact absurd ((nullable_iff a).mpr h1) hn
        | cons d u =>
          simp only [List.cons_append, List.cons.injEq] at hw
          obtain ⟨rfl, rfl⟩ := hw
          exact ⟨u, v, rfl, h1, h2⟩
  | alt a b iha ihb =>
    intro w
    unfold Re.deriv
    rw [mkAlt_iff, alt_iff, alt_iff, iha, ihb]
  | star a ih =>
    intro w
    unfold Re.deriv
    rw [mkSeq_iff, seq_iff]
    simp only [ih]
    constructor
    · rintro ⟨u, v, rfl, h1, h2⟩
      exact .cons (u := c :: u) h1 h2
    · exact star_cons

/-- what `longest` gives -/
def Longest (r : Re) (s : Str) : Option Nat → Prop
  | some n => n ≤ s.length ∧ Matches r (s.take n) ∧ ∀ w, w <+: s → Matches r w → w.length ≤ n
  | none => ∀ w, w <+: s → ¬ Matches r w

/-- `longest` finds the longest match, if there is one -/
theorem longest_spec (r : Re) (s : Str) : Longest r s (r.longest s) := by
  induction s generalizing r with
  | nil =>
    unfold Re.longest
    by_cases hn : r.nullable = true
    · rw [if_pos hn]
      exact ⟨Nat.le_refl _, (nullable_iff r).mp hn, fun w hw _ => by simp [List.prefix_nil.mp hw]⟩
    · rw [if_neg hn]
      intro w hw hm
      rw [List.prefix_nil.mp hw] at hm
      exact hn ((nullable_iff r).mpr hm)
  | cons c s ih =>
    have hi := ih (r.deriv c)
    unfold Re.longest
    cases hd : (r.deriv c).longest s with
    | some k =>
      rw [hd] at hi
      obtain ⟨h1, h2, h3⟩ := hi
      refine ⟨by simpa using h1, (deriv_iff _ _ _).mp h2, fun w hw hm => ?_⟩
      cases w with
      | nil => simp
      | cons d w =>
        obtain ⟨rfl, hw'⟩ := List.cons_prefix_cons.mp hw
        have := h3 w hw' ((deriv_iff _ _ _).mpr hm)
        simpa using this
    | none =>
      rw [hd] at hi
      simp only
      by_cases hn : r.nullable = true
      · rw [if_pos hn]
        refine ⟨Nat.zero_le _, (nullable_iff r).mp hn, fun w hw hm => ?_⟩
        cases w with
        | nil => simp
        | cons d w =>
          obtain ⟨rfl, hw'⟩ := List.cons_prefix_cons.mp hw
          exact absurd ((deriv_iff _ _ _).mpr hm) (hi w hw')
      · rw [if_neg hn]
        intro w hw hm
        cases w with
        | nil => exact hn ((nullable_iff r).mpr hm)
        | cons d w =>
          obtain ⟨rfl, hw'⟩ := List.cons_prefix_cons.mp hw
          exact absurd ((deriv_iff _ _ _).mpr hm) (hi w hw')

/-! ## Choosing a rule -/

/-- what `pick` gives -/
def Picked (m : Mode) (s : Str) (rs : List Rule) : Option (Nat × Action) → Prop
  | some (n, a) => ∃ w r, w.length = n ∧ r.act = a ∧ Chosen m s rs w r
  | none => ∀ r ∈ rs, ∀ w, w <+: s → ¬ Applies m r w

theorem Chosen.skip {m : Mode} {s : Str} {rs : List Rule} {w : Str} {r r0 : Rule} (h : Chosen m s rs w r)
    (h0 : ∀ w', w' <+: s → Applies m r0 w' → w'.length < w.length) : Chosen m s (r0 :: rs) w r := by
  obtain ⟨h1, h2, h3, before, after, rfl, h5⟩ := h
  refine ⟨h1, h2, ?_, r0 :: before, after, rfl, ?_⟩
  · intro r' hr' w' hw' ha
    rcases List.mem_cons.mp hr' with rfl | hr'
    · exact Nat.le_of_lt (h0 w' hw' ha)
    · exact h3 r' hr' w' hw' ha
  · intro r' hr' ha
    rcases List.mem_cons.mp hr' with rfl | hr'
    · exact Nat.lt_irrefl _ (h0 w h1 ha)
    · exact h5 r' hr' ha

theorem pick_spec (m : Mode) (s : Str) (rs : List Rule) : Picked m s rs (pick m s rs) := by
  induction rs with
  | nil => intro r hr; simp at hr
  | cons r rs ih =>
    have hl : Longest (if m ∈ r.modes then r.re else .nil) s (if m ∈ r.modes then r.re.longest s else none) := by
      by_cases hm : m ∈ r.modes
      · rw [if_pos hm, if_pos hm]; exact longest_spec _ _
      · rw [if_neg hm, if_neg hm]; exact fun w _ h => not_nil w h
    have hap : ∀ w, Applies m r w → Matches (if m ∈ r.modes then r.re else .nil) w := by
      intro w h
      rw [if_pos h.1]; exact h.2.1
    unfold pick
    generalize (if m ∈ r.modes then r.re.longest s else none) = o at hl
    have hnone : ((∀ w, w <+: s → Matches (if m ∈ r.modes then r.re else .nil) w → w.length ≤ 0) ∨ o = none) →
        Picked m s (r :: rs) (pick m s rs) := by
      intro h0
      have h0' : ∀ w, w <+: s → ¬ Applies m r w := by
        intro w hw ha
        rcases h0 with h0 | rfl
        · have := h0 w hw (hap w ha)
          exact ha.2.2 (List.length_eq_zero_iff.mp (by omega))
        · exact hl w hw (hap w ha)
      cases hp : pick m s rs with
      | none =>
        rw [hp] at ih
        intro r' hr'
        rcases List.mem_cons.mp hr' with rfl | hr'
        · exact h0'
        · exact ih r' hr'
      | some p =>
        obtain ⟨k, a⟩ := p
        rw [hp] at ih
        obtain ⟨w, r', h1, h2, h3⟩ := ih
        exact ⟨w, r', h1, h2, h3.skip fun w' hw' ha => absurd ha (h0' w' hw')⟩
    have hsome : ∀ n, o = some (n + 1) → (∀ r' ∈ rs, ∀ w', w' <+: s → Applies m r' w' → w'.length ≤ n + 1) →
        Picked m s (r :: rs) (some (n + 1, r.act)) := by
      rintro n rfl hle
      obtain ⟨h1, h2, h3⟩ := hl
      have hlen : (s.take (n + 1)).length = n + 1 := by rw [List.length_take, Nat.min_eq_left h1]
      refine ⟨s.take (n + 1), r, hlen, rfl, List.take_prefix _ _, ⟨?_, ?_, ?_⟩, ?_, [], rs, rfl, by simp⟩
      · by_contra hm
        rw [if_neg hm] at h2
        exact not_nil _ h2
      · by_cases hm : m ∈ r.modes
        · rw [if_pos hm] at h2; exact h2
        · rw [if_neg hm] at h2; exact absurd h2 (not_nil _)
      · intro e
        rw [e] at hlen
        simp at hlen
      · intro r' hr' w' hw' ha
        rw [hlen]
        rcases List.mem_cons.mp hr' with rfl | hr'
        · exact h3 w' hw' (hap w' ha)
        · exact hle r' hr' w' hw' ha
    match o, hp : pick m s rs with
    | some (n + 1), some (k, a) =>
      rw [hp] at ih
      obtain ⟨w, r', h1, h2, h3⟩ := ih
      simp only
      split
      · rename_i hlt
        refine ⟨w, r', h1, h2, h3.skip fun w' hw' ha => ?_⟩
        have := hl.2.2 w' hw' (hap w' ha)
        omega
      · refine hsome n rfl fun r'' hr'' w' hw' ha => ?_
        have := h3.2.2.1 r'' hr'' w' hw' ha
        omega
    | some (n + 1), none =>
      rw [hp] at ih
      exact hsome n rfl fun r'' hr'' w' hw' ha => absurd ha (ih r'' hr'' w' hw')
    | some 0, p => rw [← hp]; exact hnone (.inl hl.2.2)
    | none, p => rw [← hp]; exact hnone (.inr rfl)

/-- the choice is unique -/
theorem Chosen.unique {m : Mode} {s : Str} {rs : List Rule} {w w' : Str} {r r' : Rule} (h : Chosen m s rs w r)
    (h' : Chosen m s rs w' r') : w = w' ∧ r = r' := by
  obtain ⟨h1, h2, h3, b, a, e, h5⟩ := h
  obtain ⟨g1, g2, g3, b', a', e', g5⟩ := h'
  have hm : r ∈ rs := by rw [e]; simp
  have hm' : r' ∈ rs := by rw [e']; simp
  have hl := g3 r hm w h1 h2
  have hl' := h3 r' hm' w' g1 g2
  have hw : w = w' := by
    rw [List.prefix_iff_eq_take.mp h1, List.prefix_iff_eq_take.mp g1, Nat.le_antisymm hl hl']
  subst hw
  refine ⟨rfl, ?_⟩
  rw [e] at e'
  rcases List.append_eq_append_iff.mp e' with ⟨x, hx1, hx2⟩ | ⟨x, hx1, hx2⟩
  · cases x with
    | nil => simp at hx2; exact hx2.1
    | cons y x =>
      simp only [List.cons_append, List.cons.injEq] at hx2
      refine absurd h2 (g5 r ?_)
      rw [hx1, hx2.1]; simp
  · cases x with
    | nil => simp at hx2; exact hx2.1.symm
    | cons y x =>
      simp only [List.cons_append, List.cons.injEq] at hx2
      refine absurd g2 (h5 r' ?_)
      rw [hx1, hx2.1]; simp

/-- the rule flex chooses is the one whose action is taken -/
theorem pick_of_chosen {m : Mode} {s : Str} {rs : List Rule} {w : Str} {r : Rule} (h : Chosen m s rs w r) :
    pick m s rs = some (w.length, r.act) := by
  have hp := pick_spec m s rs
  cases hc : pick m s rs with
  | none =>
    rw [hc] at hp
    obtain ⟨h1, h2, h3, b, a, e, h5⟩ := h
    exact absurd h2 (hp r (by rw [e]; simp) w h1)
  | some p =>
    obtain ⟨n, a⟩ := p
    rw [hc] at hp
    obtain ⟨w', r', rfl, rfl, h'⟩ := hp
    obtain ⟨rfl, rfl⟩ := h.unique h'
    rfl

theorem next_of_chosen {tg : Target} {T : Str → Bool} {st : LSt} {w rest : Str} {r : Rule}
    (h : Chosen st.mode (w ++ rest) (rules tg) w r) : next tg T st (w ++ rest) = act T st r.act w rest := by
  have hp := pick_of_chosen h
  have hne := h.2.1.2.2
  cases hw : w with
  | nil => exact absurd hw hne
  | cons c w' =>
    rw [hw] at hp
    unfold next
    simp only [List.cons_append] at hp ⊢
    rw [hp]
    simp only
    rw [← List.cons_append, List.take_left, List.drop_left]

/-! ## Which rules a first byte leaves -/

/-- the rules a match of which can begin with `c` -/
def cands (m : Mode) (tg : Target) (c : Byte) : List Nat :=
  ((rules tg).zipIdx.filter fun p => decide (m ∈ p.1.modes) && !(p.1.re.deriv c).isNone).map (·.2)

theorem mem_cands {m : Mode} {tg : Target} {c : Byte} {w : Str} {i : Nat} {r : Rule} (hi : (rules tg)[i]? = some r)
    (h : Applies m r (c :: w)) : i ∈ cands m tg c := by
  unfold cands
  refine List.mem_map.mpr ⟨(r, i), List.mem_filter.mpr ⟨List.mem_zipIdx_iff_getElem?.mpr hi, ?_⟩, rfl⟩
  have h2 := (deriv_iff c r.re w).mpr h.2.1
  have : (r.re.deriv c).isNone = false := by
    cases hd : r.re.deriv c with
    | nil => rw [hd] at h2; exact absurd h2 (not_nil _)
    | _ => rfl
  simp [h.1, this]

/-- statements about all bytes can be checked -/
theorem byte_all {P : Byte → Prop} (h : ∀ n, n < 256 → P (UInt8.ofNat n)) (c : Byte) : P c := by
  have := h c.toNat (UInt8.toNat_lt c)
  rwa [UInt8.ofNat_toNat] at this

theorem chosen_at {m : Mode} {s : Str} {rs : List Rule} {w : Str} {k : Nat} {r : Rule} (hk : rs[k]? = some r) (hw : w <+: s)
    (ha : Applies m r w)
    (hall : ∀ i r' w', rs[i]? = some r' → w' <+: s → Applies m r' w' → w'.length ≤ w.length ∧ (i < k → w' ≠ w)) :
    Chosen m s rs w r := by
  refine ⟨hw, ha, ?_, rs.take k, rs.drop (k + 1), ?_, ?_⟩
  · intro r' hr' w' hw' ha'
    obtain ⟨i, hi⟩ := List.mem_iff_getElem?.mp hr'
    exact (hall i r' w' hi hw' ha').1
  · obtain ⟨hlt, he⟩ := List.getElem?_eq_some_iff.mp hk
    rw [← he, List.getElem_cons_drop, List.take_append_drop]
  · intro r' hr' ha'
    obtain ⟨i, hi⟩ := List.mem_iff_getElem?.mp hr'
    have hik : i < k := by
      have := (List.getElem?_eq_some_iff.mp hi).1
      rw [List.length_take] at this
      omega
    rw [List.getElem?_take_of_lt hik] at hi
    exact (hall i r' w hi hw ha').2 hik rfl

/-! ## What the expressions of the rules match -/

theorem star_cls {p : Byte → Bool} {w : Str} : Matches (.star (.cls p)) w ↔ ∀ c ∈ w, p c = true := by
  induction w with
  | nil => exact ⟨fun _ => by simp, fun _ => .nil⟩
  | cons c w ih =>
    constructor
    · intro h
      obtain ⟨u, v, rfl, h1, h2⟩ := star_cons h
      obtain ⟨d, hd, hp⟩ := cls_iff.mp h1
      simp only [List.cons.injEq] at hd
      obtain ⟨rfl, rfl⟩ := hd
      have := ih.mp h2
      simp only [List.nil_append] at this
      simpa [hp] using this
    · intro h
      exact .cons (u := [c]) (.cls (h c (by simp))) (ih.mpr fun d hd => h d (by simp [hd]))

theorem plus_cls {p : Byte → Bool} {w : Str} : Matches (Re.plus (.cls p)) w ↔ w ≠ [] ∧ ∀ c ∈ w, p c = true := by
  unfold Re.plus
  rw [seq_iff]
  constructor
  · rintro ⟨u, v, rfl, h1, h2⟩
    obtain ⟨c, rfl, hp⟩ := cls_iff.mp h1
    refine ⟨by simp, ?_⟩
    intro d hd
    rcases List.mem_cons.mp hd with rfl | hd
    · exact hp
    · exact star_cls.mp h2 d (by simpa using hd)
  · rintro ⟨h1, h2⟩
    cases w with
    | nil => exact absurd rfl h1
    | cons c w => exact ⟨[c], w, rfl, .cls (h2 c (by simp)), star_cls.mpr fun d hd => h2 d (by simp [hd])⟩

theorem chr_iff {c : Byte} {w : Str} : Matches (Re.chr c) w ↔ w = [c] := by
  unfold Re.chr
  rw [cls_iff]
  constructor
  · rintro ⟨d, rfl, h⟩
    rw [beq_iff_eq.mp h]
  · rintro rfl
    exact ⟨c, rfl, by simp⟩

theorem lit_iff {s w : Str} : Matches (Re.lit s) w ↔ w = s := by
  induction s generalizing w with
  | nil => exact eps_iff
  | cons c s ih =>
    rw [Re.lit, seq_iff]
    constructor
    · rintro ⟨u, v, rfl, h1, h2⟩
      rw [chr_iff.mp h1, ih.mp h2]
      rfl
    · rintro rfl
      exact ⟨[c], s, rfl, chr_iff.mpr rfl, ih.mpr rfl⟩

theorem litS_iff {s : String} {w : Str} : Matches (litS s) w ↔ w = bytes s := lit_iff

theorem opt_iff {r : Re} {w : Str} : Matches (Re.opt r) w ↔ Matches r w ∨ w = [] := by
  unfold Re.opt
  rw [alt_iff, eps_iff]

theorem int_iff {w : Str} : Matches intRe w ↔ ∃ ds, (w = ds ∨ w = 45 :: ds) ∧ ds ≠ [] ∧ ∀ c ∈ ds, isD c = true := by
  unfold intRe
  rw [seq_iff]
  constructor
  · rintro ⟨u, v, rfl, h1, h2⟩
    refine ⟨v, ?_, plus_cls.mp h2⟩
    rcases opt_iff.mp h1 with h | rfl
    · right; rw [chr_iff.mp h]; rfl
    · left; rfl
  · rintro ⟨ds, h1, h2⟩
    rcases h1 with rfl | rfl
    · exact ⟨[], w, rfl, opt_iff.mpr (.inr rfl), plus_cls.mpr h2⟩
    · exact ⟨[45], ds, rfl, opt_iff.mpr (.inl (chr_iff.mpr rfl)), plus_cls.mpr h2⟩

theorem ident_iff {w : Str} : Matches identRe w ↔ ∃ c u, w = c :: u ∧ isL c = true ∧ ∀ d ∈ u, (isL d || isD d) = true := by
  have hs : ∀ u : Str, Matches (.star (.alt (.cls isL) (.cls isD))) u ↔ ∀ d ∈ u, (isL d || isD d) = true := by
    intro u
    induction u with
    | nil => exact ⟨fun _ => by simp, fun _ => .nil⟩
    | cons c u ih =>
      constructor
      · intro h
        obtain ⟨x, y, rfl, h1, h2⟩ := star_cons h
        have hc : x = [] ∧ (isL c || isD c) = true := by
          rcases alt_iff.mp h1 with h | h <;>
          · obtain ⟨d, hd, hp⟩ := cls_iff.mp h
            simp only [List.cons.injEq] at hd
            obtain ⟨rfl, rfl⟩ := hd
            simp [hp]
        obtain ⟨rfl, hc⟩ := hc
        intro d hd
        rcases List.mem_cons.mp hd with rfl | hd
        · exact hc
        · exact ih.mp h2 d hd
      · intro h
        refine .cons (u := [c]) (alt_iff.mpr ?_) (ih.mpr fun d hd => h d (by simp [hd]))
        have := h c (by simp)
        rw [Bool.or_eq_true] at this
        exact this.imp (fun h => .cls h) (fun h => .cls h)
  unfold identRe
  rw [seq_iff]
  constructor
  · rintro ⟨u, v, rfl, h1, h2⟩
    obtain ⟨c, rfl, hp⟩ := cls_iff.mp h1
    exact ⟨c, v, rfl, hp, (hs v).mp h2⟩
  · rintro ⟨c, u, rfl, h1, h2⟩
    exact ⟨[c], u, rfl, .cls h1, (hs u).mpr h2⟩

/-- a text whose bytes are in a class, followed by a byte that is not: prefixes in the class are
not longer -/
theorem prefix_le {p : Byte → Bool} {x rest w : Str} (hr : ∀ c, rest.head? = some c → p c = false)
    (hw : w <+: x ++ rest) (hp : ∀ c ∈ w, p c = true) : w <+: x := by
  rcases List.prefix_or_prefix_of_prefix hw (List.prefix_append x rest) with h | ⟨t, rfl⟩
  · exact h
  · have ht : t <+: rest := (List.prefix_append_right_inj x).mp hw
    cases t with
    | nil => simp
    | cons c t =>
      cases rest with
      | nil => simp at ht
      | cons d rest =>
        obtain ⟨rfl, -⟩ := List.cons_prefix_cons.mp ht
        have h1 := hr c rfl
        have h2 := hp c (by simp)
        rw [h1] at h2
        cases h2

end Bic.Lexer
