import Verif.Spec.Layout
import Verif.Model.Eval
/-!
# The layout computation
-/

namespace Bic
open Spec

theorem abiSize_eq (c : CT) : abiSize c = c.size := by cases c <;> rfl
theorem abiAlign_eq (c : CT) : abiAlign c = c.size := by cases c <;> rfl

/-- the layout loop on sizes and alignments -/
def layoutPure (isS : Bool) : Nat → Nat → List MTy → List Nat × Nat × Nat
  | off, mx, [] => ([], off, mx)
  | off, mx, m :: ms =>
    let (o, off', mx') := layoutStep isS off mx m.size m.align
    let (os, r) := layoutPure isS off' mx' ms
    (o :: os, r)

theorem align_pow (m : MTy) : ∃ k, k ≤ 4 ∧ m.align = 2 ^ k := by
  have : ∀ c, ∃ k, k ≤ 4 ∧ abiAlign c = 2 ^ k := by
    intro c
    cases c
    case char | uchar => exact ⟨0, by decide, rfl⟩
    case short | ushort => exact ⟨1, by decide, rfl⟩
    case int | uint | float => exact ⟨2, by decide, rfl⟩
    case long | longlong | ulong | ulonglong | double | ptr => exact ⟨3, by decide, rfl⟩
    case longdouble => exact ⟨4, by decide, rfl⟩
  cases m with
  | val c => exact this c
  | arr c n => exact this c

/-- the padding makes the offset the next multiple of the alignment -/
theorem padding_next {off k : Nat} (h : off < 2 ^ 64) (hk : k ≤ 4) :
    IsNext (2 ^ k) off (off + padding off (2 ^ k)) ∧ padding off (2 ^ k) < 2 ^ k := by
  have hp : 0 < 2 ^ k := Nat.pow_pos (by decide)
  have hle : 2 ^ k ≤ 2 ^ 4 := Nat.pow_le_pow_right (by decide) hk
  unfold padding
  split
  · rename_i h0; subst h0
    exact ⟨⟨by omega, ⟨0, by simp⟩, fun o' _ _ => by omega⟩, hp⟩
  · rename_i h0
    have e1 : (2 ^ k + (2 ^ 64 - 1)) % 2 ^ 64 = 2 ^ k - 1 := by
      generalize 2 ^ k = A at hp hle
      have : A ≤ 16 := hle
      omega
    have e2 : (2 ^ 64 - off) % 2 ^ 64 = 2 ^ 64 - off := Nat.mod_eq_of_lt (Nat.sub_lt (by decide) (Nat.pos_of_ne_zero h0))
    rw [e1, e2, Nat.and_two_pow_sub_one_eq_mod]
    have hd : (2 : Nat) ^ 64 % 2 ^ k = 0 :=
      Nat.mod_eq_zero_of_dvd (Nat.pow_dvd_pow 2 (Nat.le_trans hk (by decide)))
    have hlt := Nat.mod_lt (2 ^ 64 - off) hp
    generalize hA : 2 ^ k = A at *
    generalize hr : (2 ^ 64 - off) % A = r at *
    have hdiv : A ∣ off + r := by
      have h1 : A ∣ 2 ^ 64 := Nat.dvd_of_mod_eq_zero hd
      have h2 : 2 ^ 64 - off = A * ((2 ^ 64 - off) / A) + r := by rw [← hr]; exact (Nat.div_add_mod _ _).symm
      have h3 : off + r + A * ((2 ^ 64 - off) / A) = 2 ^ 64 := by omega
      rw [← h3] at h1
      exact (Nat.dvd_add_left (Nat.dvd_mul_right _ _)).mp h1
    refine ⟨⟨by omega, hdiv, fun o' h1 h2 => ?_⟩, hlt⟩
    apply Nat.le_of_not_lt
    intro h3
    have h4 : A ∣ (off + r) - o' := Nat.dvd_sub hdiv h2
    have h5 := Nat.le_of_dvd (by omega) h4
    omega

/-- an upper bound of the space the members take -/
def spaceOf (ms : List MTy) : Nat := (ms.map fun m => m.size + 16).sum

theorem layoutStep_next {off : Nat} {m : MTy} (h : off < 2 ^ 64) :
    IsNext m.align off (off + padding off m.align) ∧ padding off m.align ≤ 15 := by
  obtain ⟨k, hk, e⟩ := align_pow m
  rw [e]
  obtain ⟨h1, h2⟩ := padding_next h hk
  have : (2 : Nat) ^ k ≤ 2 ^ 4 := Nat.pow_le_pow_right (by decide) hk
  exact ⟨h1, by omega⟩

theorem layoutPure_placed {ms : List MTy} : ∀ {off mx : Nat}, off + spaceOf ms < 2 ^ 64 →
    Placed off ms (layoutPure true off mx ms).1 (layoutPure true off mx ms).2.1 ∧
    (layoutPure true off mx ms).2.1 ≤ off + spaceOf ms := by
  induction ms with
  | nil => intro off mx _; exact ⟨.nil _, Nat.le_add_right _ _⟩
  | cons m ms ih =>
    intro off mx h
    simp only [spaceOf, List.map_cons, List.sum_cons] at h
    obtain ⟨h1, h2⟩ := layoutStep_next (m := m) (off := off) (by omega)
    have h3 : off + padding off m.align + m.size + spaceOf ms < 2 ^ 64 := by unfold spaceOf; omega
    obtain ⟨h4, h5⟩ := ih (mx := mx) h3
    simp only [layoutPure, layoutStep, if_true]
    refine ⟨.cons h1 h4, ?_⟩
    simp only [spaceOf, List.map_cons, List.sum_cons]
    unfold spaceOf at h5
    omega

theorem Spec.Placed.inOrder {e ms os e'} (h : Placed e ms os e') : InOrder e ms os e' := by
  induction h with
  | nil e => exact .nil (Nat.le_refl e)
  | cons h1 _ ih => exact .cons h1.1 ih

theorem Spec.InOrder.mono {e ms os n n'} (h : InOrder e ms os n) (hn : n ≤ n') : InOrder e ms os n' := by
  induction h with
  | nil h => exact .nil (by omega)
  | cons h1 _ ih => exact .cons h1 (ih hn)

theorem Spec.InOrder.le {e ms os n} (h : InOrder e ms os n) : e ≤ n := by
  induction h with
  | nil h => exact h
  | cons h1 _ ih => omega

/-- members at different places of the list do not overlap -/
theorem Spec.InOrder.disjoint {e ms os n} (h : InOrder e ms os n) : ∀ {i j : Nat} {m m' : MTy} {o o' : Nat}, i < j →
    ms[i]? = some m → ms[j]? = some m' → os[i]? = some o → os[j]? = some o' → o + m.size ≤ o' := by
  have low : ∀ {e ms os n}, InOrder e ms os n → ∀ {j : Nat} {o' : Nat}, os[j]? = some o' → e ≤ o' := by
    intro e ms os n h
    induction h with
    | nil h => intro j o' hj; simp at hj
    | @cons e m ms o os size h1 _ ih =>
      intro j o' hj
      cases j with
      | zero => simp at hj; omega
      | succ j => have := ih (by simpa using hj); omega
  induction h with
  | nil h => intro i j m m' o o' _ hi; simp at hi
  | @cons e m0 ms o0 os size h1 h2 ih =>
    intro i j m m' o o' hij hi hj hoi hoj
    cases j with
    | zero => omega
    | succ j =>
      cases i with
      | zero =>
        simp at hi hoi
        subst hi; subst hoi
        exact low h2 (by simpa using hoj)
      | succ i =>
        rw [List.getElem?_cons_succ] at hi hj hoi hoj
        exact ih (Nat.lt_of_succ_lt_succ hij) hi hj hoi hoj

theorem Spec.InOrder.within {e ms os n} (h : InOrder e ms os n) : ∀ {i : Nat} {m : MTy} {o : Nat},
    ms[i]? = some m → os[i]? = some o → e ≤ o ∧ o + m.size ≤ n := by
  induction h with
  | nil h => intro i m o hi; simp at hi
  | @cons e m0 ms o0 os size h1 h2 ih =>
    intro i m o hi ho
    cases i with
    | zero =>
      simp at hi ho
      subst hi; subst ho
      exact ⟨h1, h2.le⟩
    | succ i =>
      rw [List.getElem?_cons_succ] at hi ho
      have := ih hi ho
      omega

theorem layoutPure_length (isS : Bool) {ms : List MTy} : ∀ {off mx : Nat}, (layoutPure isS off mx ms).1.length = ms.length := by
  induction ms with
  | nil => intro off mx; rfl
  | cons m ms ih => intro off mx; simp [layoutPure, ih]

/-- unions: every offset is 0 and the size is the largest size -/
theorem layoutPure_union {ms : List MTy} : ∀ {mx : Nat},
    (∀ o ∈ (layoutPure false 0 mx ms).1, o = 0) ∧ (layoutPure false 0 mx ms).2.1 = 0 ∧
    mx ≤ (layoutPure false 0 mx ms).2.2 ∧ (∀ m ∈ ms, m.size ≤ (layoutPure false 0 mx ms).2.2) ∧
    ((layoutPure false 0 mx ms).2.2 = mx ∨ ∃ m ∈ ms, m.size = (layoutPure false 0 mx ms).2.2) := by
  induction ms with
  | nil => intro mx; simp [layoutPure]
  | cons m ms ih =>
    intro mx
    have hp : padding 0 m.align = 0 := by simp [padding]
    obtain ⟨h1, h2, h3, h4, h5⟩ := ih (mx := if m.size > mx then m.size else mx)
    simp only [layoutPure, layoutStep, hp, Bool.false_eq_true, if_false, Nat.add_zero]
    have hm : mx ≤ (if m.size > mx then m.size else mx) ∧ m.size ≤ (if m.size > mx then m.size else mx) := by
      split <;> omega
    refine ⟨?_, h2, by omega, ?_, ?_⟩
    · intro o ho
      rcases List.mem_cons.mp ho with rfl | ho
      · rfl
      · exact h1 o ho
    · intro m' hm'
      rcases List.mem_cons.mp hm' with rfl | hm'
      · omega
      · exact h4 m' hm'
    · rcases h5 with h5 | ⟨m', h5, h6⟩
      · by_cases hc : m.size > mx
        · rw [if_pos hc] at h5 ⊢
          exact .inr ⟨m, List.mem_cons_self, h5.symm⟩
        · rw [if_neg hc] at h5 ⊢
          exact .inl h5
      · exact .inr ⟨m', List.mem_cons_of_mem _ h5, h6⟩

end Bic
