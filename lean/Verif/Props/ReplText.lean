import Verif.Model.Repl
/-!
# C51, C53, C65: the REPL's handling of text
-/

namespace Bic.Repl

/-! ## C53: splitting member accesses -/

/-- what the user has typed of a member name: no `.` and no `->` in it -/
def Plain (s : Str) : Prop := dot ∉ s ∧ hasArrow s = false

instance (s : Str) : Decidable (Plain s) := inferInstanceAs (Decidable (_ ∧ _))

/-- **C53.** Text of the form `obj.prefix` or `obj->prefix` is taken for a member access, and
it is `prefix` that is looked up in `obj` (in what it points to, for `->`). -/
def C53_statement : Prop :=
  ∀ obj pre : Str, obj ≠ [] → Plain pre → (0 : Byte) ∉ obj →
    (isCompoundAccess (obj ++ [dot] ++ pre) = true ∧ split (obj ++ [dot] ++ pre) = some ⟨obj, [dot], pre, false⟩) ∧
    (isCompoundAccess (obj ++ [minus, greater] ++ pre) = true ∧
      split (obj ++ [minus, greater] ++ pre) = some ⟨obj, [minus, greater], pre, true⟩)

theorem hasArrow_drop {s : Str} (h : hasArrow s = false) : ∀ n, hasArrow (s.drop n) = false := by
  intro n
  induction n generalizing s with
  | zero => exact h
  | succ n ih =>
    cases s with
    | nil => exact h
    | cons a s =>
      refine ih ?_
      cases s with
      | nil => rfl
      | cons b s =>
        simp only [hasArrow, Bool.or_eq_false_iff] at h
        exact h.2

theorem getD_last (obj : Str) (d : Byte) (pre : Str) : (obj ++ [d] ++ pre).getD obj.length 0 = d := by
  simp [List.getD_eq_getElem?_getD]

/-- past the last operator the loops see nothing -/
theorem dot_after {obj pre : Str} (hp : Plain pre) {i : Nat} (hi : obj.length < i) :
    (obj ++ [dot] ++ pre).getD i 0 ≠ dot ∧ hasArrow ((obj ++ [dot] ++ pre).drop i) = false := by
  obtain ⟨k, rfl⟩ : ∃ k, i = obj.length + 1 + k := ⟨i - (obj.length + 1), by omega⟩
  constructor
  · rw [List.getD_eq_getElem?_getD, List.getElem?_append_right (by simp)]
    have : obj.length + 1 + k - (obj ++ [dot]).length = k := by simp
    rw [this]
    cases h : pre[k]? with
    | none => decide
    | some b =>
      rintro rfl
      exact hp.1 (List.mem_of_getElem? h)
  · have : (obj ++ [dot] ++ pre).drop (obj.length + 1 + k) = pre.drop k := by
      have : obj.length + 1 + k = (obj ++ [dot]).length + k := by simp
      rw [this, ← List.drop_drop, List.drop_left']
      rfl
    rw [this]; exact hasArrow_drop hp.2 k

theorem ica_dot {obj pre : Str} (ho : obj ≠ []) (hp : Plain pre) : ∀ i, obj.length ≤ i →
    icaLoop (obj ++ [dot] ++ pre) i = true := by
  intro i
  induction i with
  | zero => intro h; exact absurd (List.length_eq_zero_iff.mp (Nat.le_zero.mp h)) ho
  | succ i ih =>
    intro h
    rw [icaLoop]
    by_cases he : obj.length = i + 1
    · rw [if_pos (by rw [← he]; exact getD_last obj dot pre)]
    · have := dot_after hp (obj := obj) (i := i + 1) (by omega)
      rw [if_neg this.1, if_neg (by rw [this.2]; simp)]
      exact ih (by omega)

theorem split_dot {obj pre : Str} (ho : obj ≠ []) (hp : Plain pre) : ∀ i, obj.length ≤ i →
    splitLoop (obj ++ [dot] ++ pre) i none = some ⟨obj, [dot], pre, false⟩ := by
  intro i
  induction i with
  | zero => intro h; exact absurd (List.length_eq_zero_iff.mp (Nat.le_zero.mp h)) ho
  | succ i ih =>
    intro h
    rw [splitLoop]
    by_cases he : obj.length = i + 1
    · rw [if_pos (by rw [← he]; exact getD_last obj dot pre), ← he]
      have : i + 2 = (obj ++ [dot]).length := by simp; omega
      rw [this, List.drop_left']
      · simp
      · rfl
    · have := dot_after hp (obj := obj) (i := i + 1) (by omega)
      rw [if_neg this.1, if_neg (by rw [this.2]; simp)]
      exact ih (by omega)

/-- **C53, part: `obj.prefix`.** Every object and prefix. -/
theorem C53_dot_partial (obj pre : Str) (ho : obj ≠ []) (hp : Plain pre) :
    isCompoundAccess (obj ++ [dot] ++ pre) = true ∧ split (obj ++ [dot] ++ pre) = some ⟨obj, [dot], pre, false⟩ ∧
    objectText ⟨obj, [dot], pre, false⟩ = obj ++ [59] := by
  have hl : 0 < obj.length := List.length_pos_iff.mpr ho
  refine ⟨?_, split_dot ho hp _ (by simp), by simp [objectText]⟩
  unfold isCompoundAccess
  rw [if_neg (by simp; omega)]
  exact ica_dot ho hp _ (by simp)

theorem hasArrow_in (a b : Str) : hasArrow (a ++ [minus, greater] ++ b) = true := by
  induction a with
  | nil => rfl
  | cons x a ih =>
    cases a with
    | nil => simp [hasArrow]
    | cons y a =>
      simp only [List.cons_append, hasArrow, Bool.or_eq_true]
      exact .inr (by simpa using ih)

theorem arrow_before {obj pre : Str} {i : Nat} (hi : i ≤ obj.length) :
    hasArrow ((obj ++ [minus, greater] ++ pre).drop i) = true := by
  have : (obj ++ [minus, greater] ++ pre).drop i = obj.drop i ++ [minus, greater] ++ pre := by
    rw [List.append_assoc, List.drop_append_of_le_length hi, List.append_assoc]
  rw [this]; exact hasArrow_in _ _

/-- with no `.` in the text the object of `->` is the first character -/
theorem split_arrow {text : Str} (hd : dot ∉ text) (ha : hasArrow (text.drop 1) = true) : ∀ i acc, 0 < i →
    splitLoop text i acc = some ⟨text.take 1, [minus, greater], text.drop 3, true⟩ := by
  intro i
  induction i with
  | zero => intro _ h; omega
  | succ i ih =>
    intro acc _
    rw [splitLoop, if_neg]
    · cases i with
      | zero => rw [if_pos ha]; rfl
      | succ i =>
        split
        · exact ih _ (by omega)
        · exact ih _ (by omega)
    · rw [List.getD_eq_getElem?_getD]
      cases h : text[i + 1]? with
      | none => decide
      | some b => rintro rfl; exact hd (List.mem_of_getElem? h)

theorem ica_arrow {obj pre : Str} (ho : obj ≠ []) : ∀ i, obj.length ≤ i → icaLoop (obj ++ [minus, greater] ++ pre) i = true := by
  intro i
  induction i with
  | zero => intro h; exact absurd (List.length_eq_zero_iff.mp (Nat.le_zero.mp h)) ho
  | succ i ih =>
    intro h
    rw [icaLoop]
    split
    · rfl
    · split
      · rfl
      · rename_i h2
        by_cases he : obj.length = i + 1
        · exact absurd (arrow_before (by omega)) h2
        · exact ih (by omega)

/-- **C53, part: `o->prefix`.** Objects whose name is one character. -/
theorem C53_arrow_partial (o : Byte) (pre : Str) (ho : o ≠ dot) (hp : dot ∉ pre) :
    isCompoundAccess ([o] ++ [minus, greater] ++ pre) = true ∧
    split ([o] ++ [minus, greater] ++ pre) = some ⟨[o], [minus, greater], pre, true⟩ ∧
    objectText ⟨[o], [minus, greater], pre, true⟩ = [42, 40, o, 41, 59] := by
  refine ⟨?_, ?_, rfl⟩
  · unfold isCompoundAccess
    rw [if_neg (by simp)]
    exact ica_arrow (by simp) _ (by simp)
  · exact split_arrow (text := [o] ++ [minus, greater] ++ pre)
      (by simp [hp, Ne.symm ho]; decide) (by simp [hasArrow]) _ none (by simp)

/-- … and of no longer ones -/
theorem C53_arrow_never (obj pre : Str) (ho : 2 ≤ obj.length) (hd : dot ∉ obj) (hp : dot ∉ pre) :
    split (obj ++ [minus, greater] ++ pre) ≠ some ⟨obj, [minus, greater], pre, true⟩ := by
  intro h
  have := split_arrow (text := obj ++ [minus, greater] ++ pre) (by simp [hd, hp]; decide) (arrow_before (by omega))
    (obj ++ [minus, greater] ++ pre).length none (by simp; omega)
  rw [split, this] at h
  have h1 : (obj ++ [minus, greater] ++ pre).take 1 = obj := by simp at h; simpa using h.1
  have h2 : obj.length = 1 := by rw [← h1]; simp; omega
  omega

/-- C53 in full is false: `ab->c` is split into `a` and `>c` -/
theorem C53_refuted : ¬ C53_statement := by
  intro h
  have := (h [97, 98] [99] (by simp) (by decide) (by decide)).2.2
  exact absurd this (by decide)

/-- `ab.c` and `a->c` -/
example : split [97, 98, 46, 99] = some ⟨[97, 98], [46], [99], false⟩ ∧ split [97, 45, 62, 99] = some ⟨[97], [45, 62], [99], true⟩ :=
  ⟨(C53_dot_partial [97, 98] [99] (by simp) (by decide)).2.1, (C53_arrow_partial 97 [99] (by decide) (by decide)).2.1⟩

/-! ## C65: the last line -/

/-- `line` is the last line of the text -/
structure LastLine (text line : Str) : Prop where
  noNewline : newline ∉ line
  ends : ∃ before, text = before ++ line ++ [newline] ∧ (before = [] ∨ ∃ b, before = b ++ [newline])

/-- **C65.** The text handed to the parser is the last line of the preprocessor's output. -/
def C65_statement : Prop := ∀ f line, LastLine f line → runCppOnLine f = some line

theorem cppLoop_line {f before line tail : Str} (hf : f = before ++ line ++ tail) (hl : newline ∉ line)
    (hb : before = [] ∨ ∃ b, before = b ++ [newline]) :
    ∀ k len, k ≤ line.length → 2 ≤ before.length + k + 1 →
      cppLoop f (before.length + k + 1) len =
        if before = [] then some (1, len + k) else some (before.length, len + k + 1) := by
  intro k
  induction k with
  | zero =>
    intro len _ h2
    rcases hb with rfl | ⟨b, rfl⟩
    · simp at h2
    · have e : (b ++ [newline]).length + 0 + 1 = b.length + 2 := by simp
      rw [e, cppLoop, if_neg, if_neg (by simp)]
      · simp
      · rw [hf]
        simp [List.getD_eq_getElem?_getD]
  | succ k ih =>
    intro len h1 h2
    have e : before.length + (k + 1) + 1 = (before.length + k) + 2 := by omega
    rw [e, cppLoop]
    have hc : f.getD (before.length + k) 0 ≠ newline := by
      rw [hf, List.getD_eq_getElem?_getD, List.append_assoc, List.getElem?_append_right (by omega),
        List.getElem?_append_left (by omega)]
      have : before.length + k - before.length = k := by omega
      rw [this, List.getElem?_eq_getElem (by omega)]
      rintro h
      exact hl (by rw [← h]; simp)
    by_cases hz : before.length + k = 0
    · have hb0 : before = [] := List.length_eq_zero_iff.mp (by omega)
      rw [if_neg (by omega), if_pos hb0]
      have : k = 0 := by omega
      subst this
      simp [hz]
    · rw [if_pos ⟨hc, by omega⟩, ih (len + 1) (by omega) (by omega)]
      split <;> (congr 2; omega)

theorem map_getD_range (f : Str) (p n : Nat) (h : p + n ≤ f.length) :
    (List.range n).map (fun i => f.getD (p + i) 255) = (f.drop p).take n := by
  refine List.ext_getElem? fun i => ?_
  by_cases hi : i < n
  · rw [List.getElem?_take_of_lt hi, List.getElem?_drop, List.getElem?_map, List.getElem?_range hi]
    rw [List.getElem?_eq_getElem (show p + i < f.length by omega)]
    simp [List.getD_eq_getElem?_getD, List.getElem?_eq_getElem (show p + i < f.length by omega)]
  · rw [List.getElem?_eq_none (by simp; omega), List.getElem?_eq_none (by simp; omega)]

/-- **C65, part.** What is handed to the parser is the last line, preceded by the newline
that ends the line before it, if there is one; only if the whole output is one
empty line bic exits. -/
theorem C65_last_line_partial (f line : Str) (h : LastLine f line) (hf : f ≠ [newline]) :
    runCppOnLine f = some (if f = line ++ [newline] then line else newline :: line) := by
  obtain ⟨h1, before, h2, h3⟩ := h
  have hlen : f.length = before.length + line.length + 1 := by rw [h2]; simp; omega
  have h4 : 2 ≤ before.length + line.length + 1 := by
    by_cases hb : before = []
    · cases line with
      | nil => subst hb; exact absurd h2 hf
      | cons a l => simp; omega
    · have := List.length_pos_iff.mpr hb; omega
  have h5 := cppLoop_line (f := f) (tail := [newline]) h2 h1 h3 line.length 0 (Nat.le_refl _) h4
  unfold runCppOnLine
  rw [hlen, h5]
  by_cases hb : before = []
  · subst hb
    rw [if_pos rfl, if_pos (by simpa using h2)]
    simp only [Nat.sub_self, Option.some.injEq, Nat.zero_add]
    have := map_getD_range f 0 line.length (by omega)
    simp only [Nat.zero_add] at this
    rw [this, h2]
    simp
  · rw [if_neg hb]
    have hne : f ≠ line ++ [newline] := by
      intro h
      have := congrArg List.length h
      rw [hlen] at this
      simp at this
      exact hb this
    rw [if_neg hne]
    simp only [Option.some.injEq]
    rcases h3 with h3 | ⟨b, h3⟩
    · exact absurd h3 hb
    · subst h3
      have e : (b ++ [newline]).length - 1 = b.length := by simp
      have := map_getD_range f b.length (line.length + 1) (by rw [hlen]; simp; omega)
      simp only [e, Nat.zero_add, this]
      rw [h2]
      simp

/-- C65 in full is false: the newline before the line is handed to the parser, too -/
theorem C65_refuted : ¬ C65_statement := by
  intro h
  exact absurd (h [97, 10, 98, 10] [98] ⟨by decide, [97, 10], rfl, .inr ⟨[97], rfl⟩⟩) (by decide)

/-- "#include\n" and so on give lines before the last one: `x\n\nint a;\n` -/
example : runCppOnLine [120, 10, 10, 97, 98, 10] = some [10, 97, 98] :=
  (C65_last_line_partial [120, 10, 10, 97, 98, 10] [97, 98] ⟨by decide, [120, 10, 10], rfl, .inr ⟨[120, 10], rfl⟩⟩ (by decide)).trans
    (by decide)

end Bic.Repl
