import Verif.Proofs.Tokens
import Verif.Proofs.ExprEval
import Verif.Model.Printer
/-!
# Numbers read back (C56), subtraction (C57)
-/

namespace Bic.Lexer

open Bic.Printer

/-! ## C56 -/

theorem byte_digit (d : Nat) (h : d < 10) : isD (UInt8.ofNat (48 + d)) = true ∧ digit (UInt8.ofNat (48 + d)) = d := by
  revert d
  decide

theorem digits_spec (n : Nat) : Digits (digits n) ∧ natOf 10 (digits n) = n := by
  induction n using Nat.strongRecOn with
  | _ n ih =>
    unfold digits
    by_cases h : n < 10
    · rw [if_pos h]
      obtain ⟨h1, h2⟩ := byte_digit n h
      refine ⟨⟨by simp, by simpa using h1⟩, ?_⟩
      simp only [natOf, List.foldl_cons, List.foldl_nil, h2]
      omega
    · rw [if_neg h]
      obtain ⟨⟨h1, h2⟩, h3⟩ := ih (n / 10) (by omega)
      obtain ⟨h4, h5⟩ := byte_digit (n % 10) (Nat.mod_lt _ (by decide))
      refine ⟨⟨by simp, ?_⟩, ?_⟩
      · intro c hc
        rcases List.mem_append.mp hc with hc | hc
        · exact h2 c hc
        · rw [List.mem_singleton.mp hc]; exact h4
      · unfold natOf at h3 ⊢
        rw [List.foldl_append, h3]
        simp only [List.foldl_cons, List.foldl_nil, h5]
        omega

theorem decimal_spec (i : Int) : ∃ ds, (decimal i = ds ∨ decimal i = 45 :: ds) ∧ Digits ds ∧ int10 (decimal i) = i := by
  obtain ⟨h1, h2⟩ := digits_spec i.natAbs
  unfold decimal
  by_cases h : i < 0
  · rw [if_pos h]
    refine ⟨_, .inr rfl, h1, ?_⟩
    show -(natOf 10 (digits i.natAbs) : Int) = i
    rw [h2]
    omega
  · rw [if_neg h]
    refine ⟨_, .inl rfl, h1, ?_⟩
    obtain ⟨c, l, hcl, hc⟩ := h1.cons
    have hne : c ≠ 45 := by rintro rfl; exact absurd hc (by decide)
    have : int10 (digits i.natAbs) = natOf 10 (digits i.natAbs) := by
      rw [hcl]
      unfold int10
      split
      · rename_i e; simp at e; exact absurd e.1 hne
      · rfl
    rw [this, h2]
    omega

/-- the object is an integer, or a variable of integer type, with value `v` -/
def IsInt (s : St) (t : TId) (v : Int) : Prop := s.nodes t = some (.integer v) ∨ ∃ c, Spec.integral c ∧ Holds s t c v

theorem print_holds {s : St} {t : TId} {c : CT} {v : Int} (hc : Spec.integral c) (h : Holds s t c v) :
    ppInt s t = some (decimal v) := by
  have hr := h.inRange
  obtain ⟨τ, a, hl, hv⟩ := h
  obtain ⟨arr, sz, h1⟩ := hl.lv
  obtain ⟨e, h2⟩ := hl.ty
  unfold ppInt
  simp only [h1, h2]
  rw [← hv]
  obtain ⟨hlo, hhi⟩ := hr
  cases c <;> first | exact absurd hc (by decide) | skip
  all_goals
    simp only [fmtOf, Option.map_some, Option.some.injEq, Fmt.print]
    simp [Spec.lo, Spec.hi, Spec.signed, Spec.width] at hlo hhi
    congr 1
    try simp only [Int.bmod_def]
    omega

/-- **C56.** The text printed for an integer or a variable of integer type, entered again with a
semicolon (or anything else that ends a number), is the integer. -/
theorem C56_reads_back (s : St) (t : TId) (v : Int) (h : IsInt s t v) (tg : Target) (T : Str → Bool) (b : Str) :
    ∃ text, ppInt s t = some text ∧ Lex tg T ⟨.initial, b⟩ (text ++ [59]) [.integer v, .tok ";"] (some .initial) ∧
      ∀ rest, Ends rest → next tg T ⟨.initial, b⟩ (text ++ rest) = .tok (.integer v) ⟨.initial, b⟩ rest := by
  have hp : ppInt s t = some (decimal v) := by
    rcases h with h | ⟨c, hc, h⟩
    · unfold ppInt
      rw [h]
    · exact print_holds hc h
  obtain ⟨ds, h1, h2, h3⟩ := decimal_spec v
  have hn : ∀ rest, Ends rest → next tg T ⟨.initial, b⟩ (decimal v ++ rest) = .tok (.integer v) ⟨.initial, b⟩ rest := by
    intro rest he
    have := next_int tg T b (rest := rest) h2 he h1
    rw [h3] at this
    exact this
  refine ⟨_, hp, ?_, hn⟩
  refine .tok (hn [59] ?_) (.tok (next_semicolon tg T b []) (.eof rfl))
  intro c hc
  simp at hc
  subst hc
  decide

/-- `-120` -/
example (s : St) (h : s.nodes 7 = some (.integer (-120))) : ppInt s 7 = some (bytes "-120") ∧
    Lex .repl (fun _ => false) start (bytes "-120;") [.integer (-120), .tok ";"] (some .initial) := by
  obtain ⟨x, h1, h2, -⟩ := C56_reads_back s 7 (-120) (.inl h) .repl (fun _ => false) []
  have e : x = bytes "-120" := by
    unfold ppInt at h1
    rw [h] at h1
    simp only [Option.some.injEq] at h1
    rw [← h1]
    decide +kernel
  subst e
  exact ⟨h1, h2⟩

/-! ## C57 -/

/-- C57 in full: a name, a minus sign and digits are three tokens, with or without blanks between
them -/
def C57_statement : Prop :=
  ∀ (tg : Target) (T : Str → Bool) (b a n w1 w2 : Str), Name a → T a = false → Digits n → (∀ c ∈ w1, isBlank c = true) →
    (∀ c ∈ w2, isBlank c = true) →
    Lex tg T ⟨.initial, b⟩ (a ++ w1 ++ [45] ++ w2 ++ n) [.ident a, .tok "-", .integer (natOf 10 n)] (some .initial)

theorem blank_not (c : Byte) (h : isBlank c = true) : isLD c = false ∧ c ≠ 39 ∧ isD c = false ∧ c ≠ 61 ∧ c ≠ 45 ∧ c ≠ 62 := by
  revert h
  exact byte_all (P := fun c => isBlank c = true → isLD c = false ∧ c ≠ 39 ∧ isD c = false ∧ c ≠ 61 ∧ c ≠ 45 ∧ c ≠ 62)
    (by decide +kernel) c

theorem int10_digits {ds : Str} (h : Digits ds) : int10 ds = natOf 10 ds := by
  obtain ⟨c, l, rfl, hc⟩ := h.cons
  unfold int10
  split
  · rename_i e
    simp only [List.cons.injEq] at e
    rw [e.1] at hc
    exact absurd hc (by decide)
  · rfl

theorem ends_nil : Ends [] := fun c hc => by simp at hc

/-- a name before blanks and a minus sign -/
theorem endsName_minus (a rest : Str) {w1 : Str} (hw : ∀ c ∈ w1, isBlank c = true) : EndsName a (w1 ++ 45 :: rest) := by
  cases w1 with
  | nil =>
    constructor
    · intro c hc
      simp at hc
      subst hc
      decide
    · intro _ hc
      simp at hc
  | cons d w1 =>
    have hd := blank_not d (hw d (by simp))
    constructor
    · intro c hc
      simp at hc
      subst hc
      exact hd.1
    · intro _ hc
      simp at hc
      exact hd.2.1 hc

/-- **C57, part.** Every name and literal, if there is a blank after the minus sign. -/
theorem C57_blank_partial (tg : Target) (T : Str → Bool) (b a n w1 w2 : Str) (ha : Name a) (hT : T a = false) (hn : Digits n)
    (h1 : ∀ c ∈ w1, isBlank c = true) (h2 : ∀ c ∈ w2, isBlank c = true) (hne : w2 ≠ []) :
    Lex tg T ⟨.initial, b⟩ (a ++ w1 ++ [45] ++ w2 ++ n) [.ident a, .tok "-", .integer (natOf 10 n)] (some .initial) := by
  have e : a ++ w1 ++ [45] ++ w2 ++ n = a ++ (w1 ++ 45 :: (w2 ++ n)) := by simp
  rw [e]
  refine .tok (st' := ⟨.initial, b⟩) (rest := w1 ++ 45 :: (w2 ++ n)) ?_ (Lex.blanks h1 (.tok (next_minus tg T b (w2 ++ n) ?_)
    (Lex.blanks h2 (.tok (st' := ⟨.initial, b⟩) (rest := []) ?_ (.eof rfl)))))
  · have := next_name tg T b ha (endsName_minus a (w2 ++ n) h1)
    rw [hT] at this
    exact this
  · intro c hc
    cases w2 with
    | nil => exact absurd rfl hne
    | cons d w2 =>
      simp at hc
      subst hc
      exact (blank_not d (h2 d (by simp))).2.2
  · have := next_int tg T b hn ends_nil (.inl rfl)
    rw [List.append_nil, int10_digits hn] at this
    exact this

/-- Without a blank after it, the minus sign always becomes part of the number: there are two
tokens. -/
theorem C57_glued (tg : Target) (T : Str → Bool) (b a n w1 : Str) (ha : Name a) (hT : T a = false) (hn : Digits n)
    (h1 : ∀ c ∈ w1, isBlank c = true) :
    Lex tg T ⟨.initial, b⟩ (a ++ w1 ++ [45] ++ n) [.ident a, .integer (-(natOf 10 n : Int))] (some .initial) := by
  have e : a ++ w1 ++ [45] ++ n = a ++ (w1 ++ 45 :: n) := by simp
  rw [e]
  refine .tok (st' := ⟨.initial, b⟩) (rest := w1 ++ 45 :: n) ?_ (Lex.blanks h1 (.tok (st' := ⟨.initial, b⟩) (rest := []) ?_ (.eof rfl)))
  · have := next_name tg T b ha (endsName_minus a n h1)
    rw [hT] at this
    exact this
  · have := next_int tg T b hn ends_nil (.inr rfl)
    rw [List.append_nil] at this
    exact this

/-- `a` is a name, `1` are digits -/
theorem name_a : Name [97] := ⟨⟨97, [], rfl, by decide, by simp⟩, by decide +kernel⟩
theorem digits_1 : Digits [49] := ⟨by simp, by decide⟩

/-- C57 in full is false: `a-1` -/
theorem C57_refuted : ¬ C57_statement := by
  intro h
  have h1 := h .repl (fun _ => false) [] [97] [49] [] [] name_a rfl digits_1 (by simp) (by simp)
  have h2 := C57_glued .repl (fun _ => false) [] [97] [49] [] name_a rfl digits_1 (by simp)
  have := (h1.unique h2).1
  simp at this

/-- `a - 1` -/
example : Lex .repl (fun _ => false) start (bytes "a - 1") [.ident (bytes "a"), .tok "-", .integer 1] (some .initial) :=
  C57_blank_partial .repl (fun _ => false) [] [97] [49] [32] [32] name_a rfl digits_1 (by decide) (by decide) (by simp)

end Bic.Lexer
