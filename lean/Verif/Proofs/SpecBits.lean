import Verif.Model.Spec
import Mathlib.Data.List.Count
import Mathlib.Data.List.Perm.Basic
import Mathlib.Data.Nat.Bitwise
/-!
# The specifier bit string counts specifiers

Lemmas for C21, for every specifier table.
-/

namespace Bic
namespace SpecBits

variable {K : Type} [DecidableEq K] {t : SpecTable K} {keys : List K}

/-- the bits of `bs` say that `k` was seen `m k` times -/
def Says (t : SpecTable K) (keys : List K) (bs : Nat) (m : K → Nat) : Prop :=
  ∀ i, bs.testBit i = true ↔ ∃ k ∈ keys, bitBase t keys k ≤ i ∧ i < bitBase t keys k + m k

theorem bitBase_lt (ks : List K) {k k' : K} (hnd : ks.Nodup) (hk : k ∈ ks) (hk' : k' ∈ ks) (hne : k ≠ k') :
    bitBase t ks k + noBits t k ≤ bitBase t ks k' ∨ bitBase t ks k' + noBits t k' ≤ bitBase t ks k := by
  induction ks with
  | nil => simp at hk
  | cons a as ih =>
    rw [List.nodup_cons] at hnd
    by_cases h1 : a = k
    · subst h1
      left
      have : a ≠ k' := hne
      simp [bitBase, this]
    · by_cases h2 : a = k'
      · subst h2
        right
        simp [bitBase, h1]
      · have hk1 : k ∈ as := by simpa [Ne.symm h1] using hk
        have hk2 : k' ∈ as := by simpa [Ne.symm h2] using hk'
        have := ih hnd.2 hk1 hk2
        simp only [bitBase, h1, h2, if_false]
        omega

theorem setFirstClear_some {bs base n j : Nat} (hj : j < n) (h : ∀ i < j, bs.testBit (base + i) = true)
    (h0 : bs.testBit (base + j) = false) : setFirstClear bs base n = some (bs ||| 1 <<< (base + j)) := by
  induction n generalizing base j with
  | zero => omega
  | succ n ih =>
    cases j with
    | zero => simp only [Nat.add_zero] at h0; simp [setFirstClear, h0]
    | succ j =>
      have := h 0 (by omega)
      simp only [Nat.add_zero] at this
      rw [setFirstClear, if_pos this, ih (j := j) (by omega)]
      · congr 3; omega
      · intro i hi; rw [show base + 1 + i = base + (i + 1) by omega]; exact h _ (by omega)
      · rw [show base + 1 + j = base + (j + 1) by omega]; exact h0

theorem setFirstClear_none {bs base n : Nat} (h : ∀ i < n, bs.testBit (base + i) = true) :
    setFirstClear bs base n = none := by
  induction n generalizing base with
  | zero => rfl
  | succ n ih =>
    have := h 0 (by omega)
    simp only [Nat.add_zero] at this
    rw [setFirstClear, if_pos this]
    refine ih fun i hi => ?_
    rw [show base + 1 + i = base + (i + 1) by omega]; exact h _ (by omega)

theorem testBit_or_shift (bs p i : Nat) : (bs ||| 1 <<< p).testBit i = true ↔ bs.testBit i = true ∨ i = p := by
  rw [Nat.testBit_or, Nat.shiftLeft_eq, Nat.one_mul, Nat.testBit_two_pow, Bool.or_eq_true, decide_eq_true_iff, eq_comm (a := p)]

theorem says_at {bs : Nat} {m : K → Nat} (hnd : keys.Nodup) (hm : ∀ k, m k ≤ noBits t k) (h : Says t keys bs m)
    {k : K} (hk : k ∈ keys) {i : Nat} (hi : i < noBits t k) :
    bs.testBit (bitBase t keys k + i) = true ↔ i < m k := by
  rw [h]
  constructor
  · rintro ⟨k', hk', h1, h2⟩
    by_cases e : k' = k
    · subst e; omega
    · have := bitBase_lt (t := t) keys hnd hk hk' (Ne.symm e)
      have := hm k'
      omega
  · intro h1
    exact ⟨k, hk, by omega, by omega⟩

theorem addSpec_some {bs : Nat} {m : K → Nat} (hnd : keys.Nodup) (hm : ∀ k, m k ≤ noBits t k) (h : Says t keys bs m)
    {k : K} (hk : k ∈ keys) (hlt : m k < noBits t k) :
    ∃ bs', addSpec t keys bs k = some bs' ∧ Says t keys bs' (Function.update m k (m k + 1)) := by
  refine ⟨bs ||| 1 <<< (bitBase t keys k + m k), ?_, ?_⟩
  · rw [addSpec, if_pos hk]
    refine setFirstClear_some hlt ?_ ?_
    · intro i hi
      exact (says_at hnd hm h hk (by omega)).mpr hi
    · rw [Bool.eq_false_iff, Ne, says_at hnd hm h hk hlt]
      omega
  · intro i
    rw [testBit_or_shift, h]
    constructor
    · rintro (⟨k', hk', h1, h2⟩ | rfl)
      · refine ⟨k', hk', h1, ?_⟩
        by_cases e : k' = k
        · subst e; simp; omega
        · simp [e, h2]
      · exact ⟨k, hk, by omega, by simp⟩
    · rintro ⟨k', hk', h1, h2⟩
      by_cases e : k' = k
      · subst e
        simp at h2
        by_cases e2 : i = bitBase t keys k' + m k'
        · exact .inr e2
        · exact .inl ⟨k', hk', h1, by omega⟩
      · simp [e] at h2
        exact .inl ⟨k', hk', h1, h2⟩

theorem addSpec_none {bs : Nat} {m : K → Nat} (hnd : keys.Nodup) (hm : ∀ k, m k ≤ noBits t k) (h : Says t keys bs m)
    {k : K} (hlt : noBits t k ≤ m k) : addSpec t keys bs k = none := by
  rw [addSpec]
  split
  · next hk =>
    refine setFirstClear_none fun i hi => ?_
    exact (says_at hnd hm h hk hi).mpr (by omega)
  · rfl

theorem rowBits_testBit (row seen : List K) (hsub : ∀ k ∈ row, k ∈ keys) (i : Nat) :
    (rowBits t keys seen row).testBit i = true ↔
      ∃ k ∈ keys, bitBase t keys k + seen.count k ≤ i ∧ i < bitBase t keys k + seen.count k + row.count k := by
  induction row generalizing seen with
  | nil =>
    simp [rowBits]
  | cons a as ih =>
    have h2 := ih (a :: seen) fun k hk => hsub k (by simp [hk])
    rw [rowBits, Nat.or_comm, testBit_or_shift, h2]
    constructor
    · rintro (⟨k, hk, h3, h4⟩ | rfl)
      · refine ⟨k, hk, ?_⟩
        by_cases e : a = k
        · subst e; simp at h3 h4 ⊢; omega
        · simp [e] at h3 h4 ⊢; omega
      · exact ⟨a, hsub a (by simp), by omega, by simp⟩
    · rintro ⟨k, hk, h3, h4⟩
      by_cases e : a = k
      · subst e
        simp at h4
        by_cases e2 : i = bitBase t keys a + seen.count a
        · exact .inr e2
        · exact .inl ⟨a, hk, by simp; omega, by simp; omega⟩
      · simp [e] at h4
        exact .inl ⟨k, hk, by simp [e]; omega, by simp [e]; omega⟩

theorem rowBits_says (row : List K) (hsub : ∀ k ∈ row, k ∈ keys) :
    Says t keys (rowBits t keys [] row) (fun k => row.count k) := by
  intro i
  rw [rowBits_testBit row [] hsub]
  simp

theorem says_inj {bs : Nat} {m m' : K → Nat} (hnd : keys.Nodup) (hm : ∀ k, m k ≤ noBits t k)
    (hm' : ∀ k, m' k ≤ noBits t k) (h : Says t keys bs m) (h' : Says t keys bs m') {k : K} (hk : k ∈ keys) :
    m k = m' k := by
  rcases Nat.lt_trichotomy (m k) (m' k) with hl | he | hl
  · have h1 := (says_at hnd hm' h' hk (by have := hm' k; omega)).mpr hl
    have h2 := (says_at hnd hm h hk (by have := hm' k; omega)).mp h1
    omega
  · exact he
  · have h1 := (says_at hnd hm h hk (by have := hm k; omega)).mpr hl
    have h2 := (says_at hnd hm' h' hk (by have := hm k; omega)).mp h1
    omega

theorem foldl_max_ge {α : Type} (f : α → Nat) (l : List α) (m : Nat) :
    m ≤ l.foldl (fun m r => max m (f r)) m ∧ ∀ r ∈ l, f r ≤ l.foldl (fun m r => max m (f r)) m := by
  induction l generalizing m with
  | nil => simp
  | cons a as ih =>
    obtain ⟨h1, h2⟩ := ih (max m (f a))
    refine ⟨by simp only [List.foldl_cons]; omega, ?_⟩
    intro r hr
    rcases List.mem_cons.mp hr with rfl | hr
    · simp only [List.foldl_cons]; omega
    · exact h2 r hr

theorem count_le_noBits {r : List K × SpecTy} (hr : r ∈ t.rows) (k : K) : r.1.count k ≤ noBits t k :=
  (foldl_max_ge (fun r : List K × SpecTy => r.1.count k) t.rows 0).2 r hr

/-- looking up the bit string: the first row with the same counts -/
theorem switchBits_eq {bs : Nat} {m : K → Nat} (hnd : keys.Nodup) (hsub : ∀ r ∈ t.rows, ∀ k ∈ r.1, k ∈ keys)
    (hm : ∀ k, m k ≤ noBits t k) (h : Says t keys bs m) {l : List K} (hl : ∀ k ∈ l, k ∈ keys)
    (hc : ∀ k ∈ keys, l.count k = m k) :
    switchBits t keys bs = (t.rows.find? fun r => decide (r.1.Perm l)).map (·.2) := by
  have key : ∀ rows : List (List K × SpecTy), (∀ r ∈ rows, r ∈ t.rows) →
      rows.find? (fun r => rowBits t keys [] r.1 == bs) = rows.find? fun r => decide (r.1.Perm l) := by
    intro rows hrows
    have heq : ∀ r ∈ rows, (rowBits t keys [] r.1 == bs) = decide (r.1.Perm l) := by
      intro r hr
      have hr' := hrows r hr
      have hs := rowBits_says (t := t) r.1 (hsub r hr')
      rw [Bool.eq_iff_iff, beq_iff_eq, decide_eq_true_iff]
      constructor
      · intro e
        rw [e] at hs
        rw [List.perm_iff_count]
        intro k
        by_cases hk : k ∈ keys
        · rw [hc k hk]
          exact says_inj hnd (count_le_noBits hr') hm hs h hk
        · rw [List.count_eq_zero_of_not_mem fun h => hk (hsub r hr' k h),
            List.count_eq_zero_of_not_mem fun h => hk (hl k h)]
      · intro hp
        refine Nat.eq_of_testBit_eq fun i => ?_
        rw [Bool.eq_iff_iff, hs, h]
        constructor <;> rintro ⟨k, hk, h1, h2⟩ <;> refine ⟨k, hk, h1, ?_⟩
        · rw [← hc k hk, ← hp.count_eq]; exact h2
        · simp only [hp.count_eq, hc k hk]; exact h2
    clear hrows
    induction rows with
    | nil => rfl
    | cons a as ih =>
      rw [List.find?_cons, List.find?_cons, heq a (by simp), ih fun r hr => heq r (by simp [hr])]
  rw [switchBits, key _ fun _ h => h]

theorem resolveBits_eq (hnd : keys.Nodup) (hsub : ∀ r ∈ t.rows, ∀ k ∈ r.1, k ∈ keys)
    (l : List K) (hl : ∀ k ∈ l, k ∈ keys) (bs : Nat) (m : K → Nat) (seen : List K) (hseen : ∀ k ∈ seen, k ∈ keys)
    (hm : ∀ k, m k ≤ noBits t k) (hc : ∀ k ∈ keys, seen.count k = m k) (h : Says t keys bs m) :
    resolveBits t keys bs l = (t.rows.find? fun r => decide (r.1.Perm (seen ++ l))).map (·.2) := by
  induction l generalizing bs m seen with
  | nil =>
    rw [resolveBits, List.append_nil]
    exact switchBits_eq hnd hsub hm h hseen hc
  | cons a as ih =>
    have ha : a ∈ keys := hl a (by simp)
    rw [resolveBits]
    by_cases hlt : m a < noBits t a
    · obtain ⟨bs', h1, h2⟩ := addSpec_some hnd hm h ha hlt
      rw [h1]
      have := ih (fun k hk => hl k (by simp [hk])) bs' _ (seen ++ [a])
        (by intro k hk; rcases List.mem_append.mp hk with hk | hk
            · exact hseen k hk
            · rw [List.mem_singleton.mp hk]; exact ha)
        (by intro k; by_cases e : k = a
            · subst e; simp; omega
            · simp [e, hm k])
        (by intro k hk
            by_cases e : k = a
            · subst e; simp [hc k hk]
            · simp [e, hc k hk, Ne.symm e])
        h2
      simpa using this
    · rw [addSpec_none hnd hm h (by omega)]
      have hn : t.rows.find? (fun r => decide (r.1.Perm (seen ++ a :: as))) = none := by
        rw [List.find?_eq_none]
        intro r hr hp
        have h1 := (of_decide_eq_true hp).count_eq a
        have h2 := count_le_noBits hr a
        simp [hc a ha] at h1
        omega
      rw [hn]; rfl

/-- The generated function finds the first row that is a reordering of the list. -/
theorem resolveBits_zero (hnd : keys.Nodup) (hsub : ∀ r ∈ t.rows, ∀ k ∈ r.1, k ∈ keys)
    (l : List K) (hl : ∀ k ∈ l, k ∈ keys) :
    resolveBits t keys 0 l = (t.rows.find? fun r => decide (r.1.Perm l)).map (·.2) := by
  have := resolveBits_eq hnd hsub l hl 0 (fun _ => 0) [] (by simp) (by simp) (by simp)
    (by intro i; simp)
  simpa using this

end SpecBits
end Bic
