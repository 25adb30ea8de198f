import Verif.Proofs.Lexer
/-!
# Tokens in a text: integers, names, operators
-/

namespace Bic.Lexer

/-- the text up to the first byte not in the class -/
theorem class_end {p : Byte → Bool} {u v x rest : Str} {c : Byte} (hc : p c = false)
    (hx : ∀ d ∈ x, p d = true) (h : u ++ c :: v <+: x ++ rest) : x <+: u := by
  rcases List.prefix_or_prefix_of_prefix h (List.prefix_append x rest) with h1 | h1
  · have := hx c (h1.subset (by simp))
    rw [hc] at this
    cases this
  · rcases List.prefix_or_prefix_of_prefix h1 (List.prefix_append u (c :: v)) with h2 | ⟨t, rfl⟩
    · exact h2
    · have ht : t <+: c :: v := (List.prefix_append_right_inj u).mp h1
      cases t with
      | nil => simp
      | cons d t =>
        obtain ⟨rfl, -⟩ := List.cons_prefix_cons.mp ht
        have := hx d (by simp)
        rw [hc] at this
        cases this

theorem class_split {p : Byte → Bool} {u v x rest : Str} {c : Byte} (hu : ∀ d ∈ u, p d = true) (hc : p c = false)
    (hx : ∀ d ∈ x, p d = true) (hr : ∀ c, rest.head? = some c → p c = false) (h : u ++ c :: v <+: x ++ rest) :
    u = x ∧ c :: v <+: rest := by
  have h1 : u <+: x := prefix_le hr ((List.prefix_append u _).trans h) hu
  have h2 := class_end hc hx h
  obtain rfl : u = x := h1.eq_of_length (Nat.le_antisymm h1.length_le h2.length_le)
  exact ⟨rfl, (List.prefix_append_right_inj u).mp h⟩

/-- what may follow a name or a number for it to end there -/
def Ends (rest : Str) : Prop := ∀ c, rest.head? = some c → isL c = false ∧ isD c = false ∧ c ≠ 46

def Digits (ds : Str) : Prop := ds ≠ [] ∧ ∀ c ∈ ds, isD c = true

theorem Digits.cons {ds : Str} (h : Digits ds) : ∃ c l, ds = c :: l ∧ isD c = true := by
  cases ds with
  | nil => exact absurd rfl h.1
  | cons c l => exact ⟨c, l, rfl, h.2 c (by simp)⟩

theorem cands_digit (tg : Target) (c : Byte) (hc : isD c = true) : ∀ i ∈ cands .initial tg c, i ∈ [45, 46, 47] := by
  revert hc
  cases tg
  · exact byte_all (P := fun c => isD c = true → ∀ i ∈ cands .initial .repl c, i ∈ [45, 46, 47]) (by decide +kernel) c
  · exact byte_all (P := fun c => isD c = true → ∀ i ∈ cands .initial .cscript c, i ∈ [45, 46, 47]) (by decide +kernel) c

theorem cands_minus (tg : Target) : ∀ i ∈ cands .initial tg 45, i ∈ [45, 46, 76, 85, 99, 100] := by
  cases tg <;> decide +kernel

theorem rule45 (tg : Target) : (rules tg)[45]? = some ⟨[.initial], intRe, .int10⟩ := by cases tg <;> rfl
theorem rule46 (tg : Target) : (rules tg)[46]? = some ⟨[.initial], floatRe, .float⟩ := by cases tg <;> rfl
theorem rule47 (tg : Target) : (rules tg)[47]? = some ⟨[.initial], hexRe, .int0⟩ := by cases tg <;> rfl
theorem rule76 (tg : Target) : (rules tg)[76]? = some (word "-=" "SUB_ASSIGN") := by cases tg <;> rfl
theorem rule85 (tg : Target) : (rules tg)[85]? = some (word "-" "-") := by cases tg <;> rfl
theorem rule99 (tg : Target) : (rules tg)[99]? = some (word "--" "DEC") := by cases tg <;> rfl
theorem rule100 (tg : Target) : (rules tg)[100]? = some (word "->" "PTR_ACCESS") := by cases tg <;> rfl

theorem float_shape {w : Str} (h : Matches floatRe w) : ∃ d1 d2, (w = d1 ++ 46 :: d2 ∨ w = 45 :: (d1 ++ 46 :: d2)) ∧ Digits d1 := by
  obtain ⟨u, v, rfl, h1, h2⟩ := seq_iff.mp h
  obtain ⟨d1, v, rfl, h3, h4⟩ := seq_iff.mp h2
  obtain ⟨e, d2, rfl, h5, -⟩ := seq_iff.mp h4
  rw [chr_iff.mp h5]
  refine ⟨d1, d2, ?_, plus_cls.mp h3⟩
  rcases opt_iff.mp h1 with h | rfl
  · right; rw [chr_iff.mp h]; rfl
  · left; rfl

theorem hex_shape {w : Str} (h : Matches hexRe w) : ∃ v, w = 48 :: 120 :: v := by
  obtain ⟨u, v, rfl, h1, -⟩ := seq_iff.mp h
  rw [litS_iff.mp h1]
  exact ⟨v, rfl⟩

theorem no_float {ds rest w : Str} (hd : Digits ds) (he : Ends rest) (hw : w <+: ds ++ rest)
    (hm : ∃ d1 d2, w = d1 ++ 46 :: d2 ∧ Digits d1) : False := by
  obtain ⟨d1, d2, rfl, h1⟩ := hm
  obtain ⟨rfl, h2⟩ := class_split (p := isD) h1.2 (by decide) hd.2 (fun c hc => (he c hc).2.1) hw
  cases rest with
  | nil => simp at h2
  | cons c rest =>
    obtain ⟨rfl, -⟩ := List.cons_prefix_cons.mp h2
    exact (he 46 rfl).2.2 rfl

theorem no_hex {ds rest w : Str} (hd : Digits ds) (he : Ends rest) (hw : w <+: ds ++ rest) (hm : Matches hexRe w) : False := by
  obtain ⟨v, rfl⟩ := hex_shape hm
  obtain ⟨-, h2⟩ := class_split (p := isD) (u := [48]) (v := v) (by decide) (by decide) hd.2 (fun c hc => (he c hc).2.1) hw
  cases rest with
  | nil => simp at h2
  | cons c rest =>
    obtain ⟨rfl, -⟩ := List.cons_prefix_cons.mp h2
    have := (he 120 rfl).1
    revert this
    decide

/-- an integer, with or without a sign -/
theorem chosen_int (tg : Target) {ds rest w : Str} (hd : Digits ds) (he : Ends rest) (hw : w = ds ∨ w = 45 :: ds) :
    Chosen .initial (w ++ rest) (rules tg) w ⟨[.initial], intRe, .int10⟩ := by
  refine chosen_at (rule45 tg) (List.prefix_append _ _) ⟨by simp, int_iff.mpr ⟨ds, hw, hd⟩, ?_⟩ ?_
  · rcases hw with rfl | rfl
    · exact hd.1
    · simp
  intro i r' w' hi hw' ha
  obtain ⟨c0, l0, hds, hc0⟩ := hd.cons
  cases w' with
  | nil => exact absurd rfl ha.2.2
  | cons c w' =>
    have hcand := mem_cands hi ha
    rcases hw with rfl | rfl
    · have hcd : isD c = true := by
        rw [hds] at hw'
        obtain ⟨rfl, -⟩ := List.cons_prefix_cons.mp hw'
        exact hc0
      have hi3 := cands_digit tg c hcd i hcand
      simp only [List.mem_cons, List.not_mem_nil, or_false] at hi3
      rcases hi3 with rfl | rfl | rfl
      · rw [rule45] at hi
        cases hi
        obtain ⟨es, h1, h2⟩ := int_iff.mp ha.2.1
        rcases h1 with h1 | h1
        · rw [h1] at hw' ⊢
          exact ⟨(prefix_le (p := isD) (fun c hc => (he c hc).2.1) hw' h2.2).length_le, fun h => absurd h (by decide)⟩
        · simp only [List.cons.injEq] at h1
          rw [h1.1] at hcd
          exact absurd hcd (by decide)
      · rw [rule46] at hi
        cases hi
        obtain ⟨d1, d2, h1 | h1, h2⟩ := float_shape ha.2.1
        · exact absurd (no_float hd he hw' ⟨d1, d2, h1, h2⟩) id
        · simp only [List.cons.injEq] at h1
          rw [h1.1] at hcd
          exact absurd hcd (by decide)
      · rw [rule47] at hi
        cases hi
        exact absurd (no_hex hd he hw' ha.2.1) id
    · rw [List.cons_append] at hw'
      obtain ⟨rfl, hw2⟩ := List.cons_prefix_cons.mp hw'
      have hi3 := cands_minus tg i hcand
      -- an operator of two characters, the second of which is no digit
      have two : ∀ d, isD d = false → (45 :: w' : Str) = [45, d] → False := by
        intro d hd' e
        simp only [List.cons.injEq, true_and] at e
        rw [e, hds] at hw2
        obtain ⟨rfl, -⟩ := List.cons_prefix_cons.mp hw2
        rw [hc0] at hd'
        cases hd'
      simp only [List.mem_cons, List.not_mem_nil, or_false] at hi3
      rcases hi3 with rfl | rfl | rfl | rfl | rfl | rfl
      · rw [rule45] at hi
        cases hi
        obtain ⟨es, h1, h2⟩ := int_iff.mp ha.2.1
        rcases h1 with h1 | h1
        · exact absurd (h2.2 45 (by rw [← h1]; simp)) (by decide)
        · simp only [List.cons.injEq, true_and] at h1
          rw [h1] at hw2 ⊢
          have := (prefix_le (p := isD) (fun c hc => (he c hc).2.1) hw2 h2.2).length_le
          exact ⟨by simpa using this, fun h => absurd h (by decide)⟩
      · rw [rule46] at hi
        cases hi
        obtain ⟨d1, d2, h1 | h1, h2⟩ := float_shape ha.2.1
        · obtain ⟨c, l, rfl, hc⟩ := h2.cons
          simp only [List.cons_append, List.cons.injEq] at h1
          rw [← h1.1] at hc
          exact absurd hc (by decide)
        · simp only [List.cons.injEq, true_and] at h1
          exact absurd (no_float hd he hw2 ⟨d1, d2, h1, h2⟩) id
      · rw [rule76] at hi
        cases hi
        exact absurd (two 61 (by decide) (litS_iff.mp ha.2.1)) id
      · rw [rule85] at hi
        cases hi
        have := litS_iff.mp ha.2.1
        rw [this]
        refine ⟨?_, fun h => absurd h (by decide)⟩
        show 1 ≤ ds.length + 1
        omega
      · rw [rule99] at hi
        cases hi
        exact absurd (two 45 (by decide) (litS_iff.mp ha.2.1)) id
      · rw [rule100] at hi
        cases hi
        exact absurd (two 62 (by decide) (litS_iff.mp ha.2.1)) id

theorem next_int (tg : Target) (T : Str → Bool) (b : Str) {ds rest w : Str} (hd : Digits ds) (he : Ends rest)
    (hw : w = ds ∨ w = 45 :: ds) :
    next tg T ⟨.initial, b⟩ (w ++ rest) = .tok (.integer (int10 w)) ⟨.initial, b⟩ rest :=
  next_of_chosen (st := ⟨.initial, b⟩) (chosen_int tg hd he hw)

/-! ## Names -/

/-- the words that are not names, or that begin something the lexer drops -/
def reserved : List Str :=
  ["_Nullable", "_Nonnull", "restrict", "__restrict", "__extension__", "volatile", "inline", "__inline", "inline__",
   "__inline__", "__attribute__", "__asm", "__asm__", "auto", "break", "case", "char", "const", "continue", "default", "do",
   "double", "else", "enum", "extern", "float", "for", "goto", "if", "int", "_Bool", "long", "register", "return", "short",
   "signed", "sizeof", "static", "struct", "switch", "typedef", "union", "unsigned", "void", "while"].map bytes

def isLD (c : Byte) : Bool := isL c || isD c

/-- an identifier -/
structure Name (x : Str) : Prop where
  shape : ∃ c u, x = c :: u ∧ isL c = true ∧ ∀ d ∈ u, isLD d = true
  free : x ∉ reserved

theorem Name.all {x : Str} (h : Name x) : ∀ d ∈ x, isLD d = true := by
  obtain ⟨c, u, rfl, h1, h2⟩ := h.shape
  intro d hd
  rcases List.mem_cons.mp hd with rfl | hd
  · simp [isLD, h1]
  · exact h2 d hd

/-- what may follow a name: no letter and no digit; `L'` begins a character -/
def EndsName (x rest : Str) : Prop := (∀ c, rest.head? = some c → isLD c = false) ∧ (x = [76] → rest.head? ≠ some 39)

/-- the rule does not take the name from the rule for names -/
def Good (x rest : Str) (r : Rule) : Prop :=
  ∀ w, w <+: x ++ rest → Applies .initial r w → w.length ≤ x.length ∧ (r.act ≠ .ident → w ≠ x)

theorem good_mode {x rest : Str} {r : Rule} (h : Mode.initial ∉ r.modes) : Good x rest r := fun _ _ ha => absurd ha.1 h

theorem good_first {x rest : Str} {r : Rule} (hx : Name x)
    (h : ∀ w, Matches r.re w → ∃ c v, w = c :: v ∧ isL c = false) : Good x rest r := by
  intro w hw ha
  obtain ⟨c, v, rfl, hc⟩ := h w ha.2.1
  obtain ⟨d, u, rfl, hd, -⟩ := hx.shape
  obtain ⟨rfl, -⟩ := List.cons_prefix_cons.mp hw
  rw [hd] at hc
  cases hc

theorem good_word {x rest : Str} {r : Rule} (hx : Name x) (he : EndsName x rest)
    (h : ∀ w, Matches r.re w → (∀ c ∈ w, isLD c = true) ∧ w ∈ reserved) : Good x rest r := by
  intro w hw ha
  obtain ⟨h1, h2⟩ := h w ha.2.1
  refine ⟨(prefix_le he.1 hw h1).length_le, fun _ e => ?_⟩
  subst e
  exact hx.free h2

/-- a reserved word followed by something that is not part of a name -/
theorem good_open {x rest : Str} {r : Rule} (hx : Name x)
    (h : ∀ w, Matches r.re w → ∃ u c v, w = u ++ c :: v ∧ (∀ c ∈ u, isLD c = true) ∧ u ∈ reserved ∧ isLD c = false)
    (he : EndsName x rest) : Good x rest r := by
  intro w hw ha
  obtain ⟨u, c, v, rfl, h1, h2, h3⟩ := h w ha.2.1
  obtain ⟨rfl, -⟩ := class_split h1 h3 hx.all he.1 hw
  exact absurd h2 hx.free

theorem reserved_all {w : Str} (h : w ∈ reserved) : ∀ c ∈ w, isLD c = true := by
  revert w
  decide +kernel

/-- the rules with a fixed text -/
def litOk (s : Str) : Bool := decide (s ∈ reserved) || (match s with | c :: _ => !isL c | [] => false)

theorem good_lit {x rest : Str} {m : List Mode} {s : Str} {a : Action} (hx : Name x) (he : EndsName x rest)
    (h : litOk s = true) : Good x rest ⟨m, Re.lit s, a⟩ := by
  unfold litOk at h
  rw [Bool.or_eq_true, decide_eq_true_eq] at h
  rcases h with h | h
  · exact good_word hx he fun w hw => by rw [lit_iff.mp hw]; exact ⟨reserved_all h, h⟩
  · refine good_first hx fun w hw => ?_
    rw [lit_iff.mp hw]
    cases s with
    | nil => cases h
    | cons c s => exact ⟨c, s, rfl, by simpa using h⟩

theorem blanks_end {w t : Str} (hb : ∀ c ∈ w, isBlank c = true) (c : Byte) (hc : isLD c = false) :
    ∃ d v, w ++ c :: t = d :: v ∧ isLD d = false := by
  cases w with
  | nil => exact ⟨c, t, rfl, hc⟩
  | cons d w =>
    refine ⟨d, _, rfl, ?_⟩
    have := hb d (by simp)
    revert this
    exact byte_all (P := fun d => isBlank d = true → isLD d = false) (by decide +kernel) d

theorem good_ignored {x rest : Str} (hx : Name x) (he : EndsName x rest) : ∀ r ∈ ignored, Good x rest r := by
  simp only [ignored, List.forall_mem_cons]
  refine ⟨?_, good_lit hx he (by decide +kernel), good_lit hx he (by decide +kernel), ?_, ?_, good_lit hx he (by decide +kernel),
    good_lit hx he (by decide +kernel), ?_, by simp⟩
  · refine good_open hx (fun w hw => ?_) he
    obtain ⟨u, v, rfl, h1, h2⟩ := seq_iff.mp hw
    obtain ⟨b, v, rfl, h3, h4⟩ := seq_iff.mp h2
    obtain ⟨o, v, rfl, h5, -⟩ := seq_iff.mp h4
    rw [litS_iff.mp h1, litS_iff.mp h5]
    obtain ⟨d, t, ht, hd⟩ := blanks_end (w := b) (t := 40 :: v) (star_cls.mp h3) 40 (by decide)
    exact ⟨bytes "__attribute__", d, t, by rw [← ht]; rfl, by decide +kernel, by decide +kernel, hd⟩
  · refine good_word hx he fun w hw => ?_
    obtain ⟨u, v, rfl, h1, h2⟩ := seq_iff.mp hw
    rw [litS_iff.mp h2]
    rcases opt_iff.mp h1 with h | rfl
    · rw [litS_iff.mp h]; decide +kernel
    · decide +kernel
  · refine good_open hx (fun w hw => ?_) he
    obtain ⟨u, v, rfl, h1, h2⟩ := seq_iff.mp hw
    obtain ⟨u2, v, rfl, h3, h4⟩ := seq_iff.mp h2
    obtain ⟨b, v, rfl, h5, h6⟩ := seq_iff.mp h4
    obtain ⟨o, v, rfl, h7, -⟩ := seq_iff.mp h6
    rw [litS_iff.mp h1, litS_iff.mp h7]
    obtain ⟨d, t, ht, hd⟩ := blanks_end (w := b) (t := v) (star_cls.mp h5) 40 (by decide)
    rcases opt_iff.mp h3 with h | rfl
    · rw [litS_iff.mp h]
      exact ⟨bytes "__asm__", d, t, by rw [← ht]; rfl, by decide +kernel, by decide +kernel, hd⟩
    · exact ⟨bytes "__asm", d, t, by rw [← ht]; rfl, by decide +kernel, by decide +kernel, hd⟩
  · refine good_word hx he fun w hw => ?_
    obtain ⟨u, v, rfl, h1, h2⟩ := seq_iff.mp hw
    obtain ⟨i, v, rfl, h3, h4⟩ := seq_iff.mp h2
    rw [litS_iff.mp h3]
    rcases opt_iff.mp h1 with h | rfl <;> rcases opt_iff.mp h4 with h' | rfl
    · rw [litS_iff.mp h, litS_iff.mp h']; decide +kernel
    · rw [litS_iff.mp h]; decide +kernel
    · rw [litS_iff.mp h']; decide +kernel
    · decide +kernel

theorem good_keywords {x rest : Str} (hx : Name x) (he : EndsName x rest) : ∀ r ∈ keywords, Good x rest r := by
  simp only [keywords, List.forall_mem_cons]
  repeat' constructor
  all_goals first
    | exact good_lit hx he (by decide +kernel)
    | exact good_mode (by decide)
    | (intro r hr; simp at hr)

theorem good_directives {x rest : Str} (hx : Name x) (tg : Target) : ∀ r ∈ directives tg, Good x rest r := by
  cases tg
  · simp only [directives, List.forall_mem_cons]
    refine ⟨good_first hx fun w hw => ?_, by simp⟩
    obtain ⟨u, v, rfl, h1, -⟩ := seq_iff.mp hw
    rw [litS_iff.mp h1]
    exact ⟨35, _, rfl, by decide⟩
  · simp only [directives, List.forall_mem_cons]
    refine ⟨good_first hx fun w hw => ?_, by simp⟩
    obtain ⟨u, v, rfl, h1, -⟩ := seq_iff.mp hw
    rw [chr_iff.mp h1]
    exact ⟨35, _, rfl, by decide⟩

theorem digit_not_L (c : Byte) (h : isD c = true) : isL c = false := by
  revert h
  exact byte_all (P := fun c => isD c = true → isL c = false) (by decide +kernel) c

theorem good_values {x rest : Str} (hx : Name x) (he : EndsName x rest) : ∀ r ∈ values, Good x rest r := by
  simp only [values, List.forall_mem_cons]
  refine ⟨?_, ?_, ?_, ?_, ?_, ?_, good_mode (by decide), good_mode (by decide), good_mode (by decide), good_mode (by decide),
    good_mode (by decide), good_mode (by decide), good_mode (by decide), good_mode (by decide), by simp⟩
  · intro w hw ha
    refine ⟨(prefix_le he.1 hw ?_).length_le, fun h => absurd rfl h⟩
    obtain ⟨c, u, rfl, h1, h2⟩ := ident_iff.mp ha.2.1
    intro d hd
    rcases List.mem_cons.mp hd with rfl | hd
    · simp [isLD, h1]
    · exact h2 d hd
  · refine good_first hx fun w hw => ?_
    obtain ⟨ds, h1, h2⟩ := int_iff.mp hw
    rcases h1 with rfl | rfl
    · obtain ⟨c, l, rfl, hc⟩ := Digits.cons h2
      exact ⟨c, l, rfl, digit_not_L c hc⟩
    · exact ⟨45, ds, rfl, by decide⟩
  · refine good_first hx fun w hw => ?_
    obtain ⟨d1, d2, h1, h2⟩ := float_shape hw
    rcases h1 with rfl | rfl
    · obtain ⟨c, l, rfl, hc⟩ := h2.cons
      exact ⟨c, _, rfl, digit_not_L c hc⟩
    · exact ⟨45, _, rfl, by decide⟩
  · refine good_first hx fun w hw => ?_
    obtain ⟨v, rfl⟩ := hex_shape hw
    exact ⟨48, _, rfl, by decide⟩
  · -- a character, perhaps with `L` before it
    intro w hw ha
    obtain ⟨u, v, rfl, h1, h2⟩ := seq_iff.mp ha.2.1
    obtain ⟨q, v, rfl, h3, -⟩ := seq_iff.mp h2
    rw [chr_iff.mp h3] at hw
    rcases opt_iff.mp h1 with h | rfl
    · rw [chr_iff.mp h] at hw
      obtain ⟨e, h4⟩ := class_split (p := isLD) (u := [76]) (c := 39) (v := v) (by decide) (by decide) hx.all he.1 hw
      refine absurd ?_ (he.2 e.symm)
      cases rest with
      | nil => simp at h4
      | cons c rest =>
        obtain ⟨rfl, -⟩ := List.cons_prefix_cons.mp h4
        rfl
    · obtain ⟨c, l, rfl, hc, -⟩ := hx.shape
      obtain ⟨rfl, -⟩ := List.cons_prefix_cons.mp hw
      exact absurd hc (by decide)
  · refine good_first hx fun w hw => ?_
    rw [chr_iff.mp hw]
    exact ⟨34, [], rfl, by decide⟩

theorem good_operators {x rest : Str} (hx : Name x) (he : EndsName x rest) : ∀ r ∈ operators, Good x rest r := by
  simp only [operators, List.forall_mem_cons]
  refine ⟨?_, ?_, ?_⟩
  · refine good_first hx fun w hw => ?_
    obtain ⟨c, rfl, hc⟩ := cls_iff.mp hw
    refine ⟨c, [], rfl, ?_⟩
    revert hc
    exact byte_all (P := fun c => (c == 32 || c == 9 || c == 13) = true → isL c = false) (by decide +kernel) c
  · refine good_first hx fun w hw => ?_
    rw [chr_iff.mp hw]
    exact ⟨10, [], rfl, by decide⟩
  · repeat' constructor
    all_goals first
      | exact good_lit hx he (by decide +kernel)
      | (intro r hr; simp at hr)

theorem good_all {x rest : Str} (hx : Name x) (he : EndsName x rest) (tg : Target) : ∀ r ∈ rules tg, Good x rest r := by
  simp only [rules, List.forall_mem_append]
  exact ⟨⟨⟨⟨good_ignored hx he, good_keywords hx he⟩, good_directives hx tg⟩, good_values hx he⟩, good_operators hx he⟩

theorem rule44 (tg : Target) : (rules tg)[44]? = some ⟨[.initial], identRe, .ident⟩ := by cases tg <;> rfl

theorem before44 (tg : Target) : ∀ i, i < 44 → ((rules tg)[i]?).map (·.act) ≠ some .ident := by cases tg <;> decide +kernel

theorem chosen_name (tg : Target) {x rest : Str} (hx : Name x) (he : EndsName x rest) :
    Chosen .initial (x ++ rest) (rules tg) x ⟨[.initial], identRe, .ident⟩ := by
  obtain ⟨c, u, hcu, hc, hu⟩ := hx.shape
  refine chosen_at (rule44 tg) (List.prefix_append _ _) ⟨by simp, ident_iff.mpr ⟨c, u, hcu, hc, hu⟩, by rw [hcu]; simp⟩ ?_
  intro i r' w' hi hw' ha
  obtain ⟨h1, h2⟩ := good_all hx he tg r' (List.mem_of_getElem? hi) w' hw' ha
  refine ⟨h1, fun hlt => h2 fun e => ?_⟩
  refine before44 tg i hlt ?_
  rw [hi, Option.map_some, e]

theorem next_name (tg : Target) (T : Str → Bool) (b : Str) {x rest : Str} (hx : Name x) (he : EndsName x rest) :
    next tg T ⟨.initial, b⟩ (x ++ rest) = .tok (if T x then .typeName x else .ident x) ⟨.initial, b⟩ rest := by
  rw [next_of_chosen (st := ⟨.initial, b⟩) (chosen_name tg hx he)]
  simp only [act]
  split <;> rfl

/-! ## Blanks and operators -/

/-- only one rule can apply, and it matches one byte -/
theorem chosen_only (tg : Target) {c : Byte} {k : Nat} {r : Rule} (rest : Str) (hc : ∀ i ∈ cands .initial tg c, i = k)
    (hk : (rules tg)[k]? = some r) (hi : Mode.initial ∈ r.modes) (h1 : Matches r.re [c]) (h2 : ∀ w, Matches r.re w → w.length ≤ 1) :
    Chosen .initial ([c] ++ rest) (rules tg) [c] r := by
  refine chosen_at hk (List.prefix_append _ _) ⟨hi, h1, by simp⟩ ?_
  intro i r' w' hi' hw' ha
  cases w' with
  | nil => exact absurd rfl ha.2.2
  | cons d w' =>
    obtain ⟨rfl, -⟩ := List.cons_prefix_cons.mp hw'
    obtain rfl := hc i (mem_cands hi' ha)
    rw [hk] at hi'
    cases hi'
    exact ⟨h2 _ ha.2.1, fun h => absurd h (Nat.lt_irrefl _)⟩

theorem next_blank (tg : Target) (T : Str → Bool) (b rest : Str) {c : Byte} (hc : isBlank c = true) :
    next tg T ⟨.initial, b⟩ (c :: rest) = .skip ⟨.initial, b⟩ rest := by
  have hcands : ∀ i ∈ cands .initial tg c, i = 58 := by
    revert hc
    cases tg
    · exact byte_all (P := fun c => isBlank c = true → ∀ i ∈ cands .initial .repl c, i = 58) (by decide +kernel) c
    · exact byte_all (P := fun c => isBlank c = true → ∀ i ∈ cands .initial .cscript c, i = 58) (by decide +kernel) c
  refine next_of_chosen (st := ⟨.initial, b⟩) (w := [c]) (r := ⟨[.initial, .compound], .cls fun c => c == 32 || c == 9 || c == 13, .skip⟩)
    (chosen_only tg rest hcands (by cases tg <;> rfl) (by simp) (.cls ?_) ?_)
  · unfold isBlank at hc
    rw [hc]
    rfl
  · intro w hw
    obtain ⟨d, rfl, -⟩ := cls_iff.mp hw
    simp

theorem next_semicolon (tg : Target) (T : Str → Bool) (b rest : Str) :
    next tg T ⟨.initial, b⟩ (59 :: rest) = .tok (.tok ";") ⟨.initial, b⟩ rest :=
  next_of_chosen (st := ⟨.initial, b⟩) (w := [59]) (r := word ";" ";")
    (chosen_only tg rest (k := 66) (by cases tg <;> decide +kernel) (by cases tg <;> rfl) (by simp [word]) (litS_iff.mpr rfl)
      (fun w hw => by rw [litS_iff.mp hw]; decide +kernel))

/-- `-` that is not part of another token -/
theorem next_minus (tg : Target) (T : Str → Bool) (b rest : Str)
    (hr : ∀ c, rest.head? = some c → isD c = false ∧ c ≠ 61 ∧ c ≠ 45 ∧ c ≠ 62) :
    next tg T ⟨.initial, b⟩ (45 :: rest) = .tok (.tok "-") ⟨.initial, b⟩ rest := by
  refine next_of_chosen (st := ⟨.initial, b⟩) (w := [45]) (r := word "-" "-")
    (chosen_at (rule85 tg) (List.prefix_append _ _) ⟨by simp [word], litS_iff.mpr rfl, by simp⟩ ?_)
  intro i r' w' hi hw' ha
  cases w' with
  | nil => exact absurd rfl ha.2.2
  | cons c w' =>
    obtain ⟨rfl, hw2⟩ := List.cons_prefix_cons.mp hw'
    have hi3 := cands_minus tg i (mem_cands hi ha)
    have two : ∀ d t, (isD d = true ∨ d = 61 ∨ d = 45 ∨ d = 62) → (45 :: w' : Str) = 45 :: d :: t → False := by
      intro d t hd e
      simp only [List.cons.injEq, true_and] at e
      rw [e] at hw2
      cases rest with
      | nil => simp at hw2
      | cons x rest =>
        obtain ⟨rfl, -⟩ := List.cons_prefix_cons.mp hw2
        obtain ⟨h1, h2, h3, h4⟩ := hr d rfl
        rcases hd with hd | hd | hd | hd
        · rw [h1] at hd; cases hd
        · exact h2 hd
        · exact h3 hd
        · exact h4 hd
    simp only [List.mem_cons, List.not_mem_nil, or_false] at hi3
    rcases hi3 with rfl | rfl | rfl | rfl | rfl | rfl
    · rw [rule45] at hi
      cases hi
      obtain ⟨es, h1, h2⟩ := int_iff.mp ha.2.1
      obtain ⟨e, l, rfl, he⟩ := Digits.cons h2
      rcases h1 with h1 | h1
      · simp only [List.cons.injEq] at h1
        rw [← h1.1] at he
        exact absurd he (by decide)
      · exact absurd (two e l (.inl he) h1) id
    · rw [rule46] at hi
      cases hi
      obtain ⟨d1, d2, h1, h2⟩ := float_shape ha.2.1
      obtain ⟨e, l, rfl, he⟩ := h2.cons
      rcases h1 with h1 | h1
      · simp only [List.cons_append, List.cons.injEq] at h1
        rw [← h1.1] at he
        exact absurd he (by decide)
      · exact absurd (two e _ (.inl he) h1) id
    · rw [rule76] at hi
      cases hi
      exact absurd (two 61 [] (by simp) (litS_iff.mp ha.2.1)) id
    · rw [rule85] at hi
      cases hi
      rw [litS_iff.mp ha.2.1]
      exact ⟨Nat.le_refl _, fun h => absurd h (by decide)⟩
    · rw [rule99] at hi
      cases hi
      exact absurd (two 45 [] (by simp) (litS_iff.mp ha.2.1)) id
    · rw [rule100] at hi
      cases hi
      exact absurd (two 62 [] (by simp) (litS_iff.mp ha.2.1)) id

/-- a text has one sequence of tokens -/
theorem Lex.unique {tg : Target} {T : Str → Bool} {st : LSt} {s : Str} {ts ts' : List Tok} {ok ok' : Option Mode}
    (h : Lex tg T st s ts ok) (h' : Lex tg T st s ts' ok') : ts = ts' ∧ ok = ok' := by
  induction h generalizing ts' ok' with
  | eof h =>
    cases h' with
    | eof _ => exact ⟨rfl, rfl⟩
    | err h2 => rw [h] at h2; cases h2
    | tok h2 _ => rw [h] at h2; cases h2
    | skip h2 _ => rw [h] at h2; cases h2
  | err h =>
    cases h' with
    | eof h2 => rw [h] at h2; cases h2
    | err _ => exact ⟨rfl, rfl⟩
    | tok h2 _ => rw [h] at h2; cases h2
    | skip h2 _ => rw [h] at h2; cases h2
  | tok h _ ih =>
    cases h' with
    | eof h2 => rw [h] at h2; cases h2
    | err h2 => rw [h] at h2; cases h2
    | tok h2 h3 =>
      rw [h] at h2
      cases h2
      obtain ⟨rfl, rfl⟩ := ih h3
      exact ⟨rfl, rfl⟩
    | skip h2 _ => rw [h] at h2; cases h2
  | skip h _ ih =>
    cases h' with
    | eof h2 => rw [h] at h2; cases h2
    | err h2 => rw [h] at h2; cases h2
    | tok h2 _ => rw [h] at h2; cases h2
    | skip h2 h3 =>
      rw [h] at h2
      cases h2
      exact ih h3

/-- blanks are dropped -/
theorem Lex.blanks {tg : Target} {T : Str → Bool} {b : Str} {ts : List Tok} {ok : Option Mode} : ∀ {w s : Str},
    (∀ c ∈ w, isBlank c = true) → Lex tg T ⟨.initial, b⟩ s ts ok → Lex tg T ⟨.initial, b⟩ (w ++ s) ts ok
  | [], _, _, h => h
  | c :: w, s, hw, h =>
    .skip (next_blank tg T b (w ++ s) (hw c (by simp))) (Lex.blanks (fun d hd => hw d (by simp [hd])) h)

end Bic.Lexer
