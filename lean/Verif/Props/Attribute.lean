import Verif.Props.Text
/-!
# C83: attributes
-/

namespace Bic.Lexer
open Re
open CText (ascii)

/-- `__attribute__`, blanks, `((`, any bytes of the line, `))` -/
def attrText (sp body : Str) : Str := ascii "__attribute__" ++ sp ++ [40, 40] ++ body ++ [41, 41]

/-- the parentheses are closed, and none that is not open is closed -/
def balanced : Nat → Str → Prop
  | d, [] => d = 0
  | d, c :: s => if c = 40 then balanced (d + 1) s else if c = 41 then 1 ≤ d ∧ balanced (d - 1) s else balanced d s

instance : ∀ d s, Decidable (balanced d s)
  | d, [] => by unfold balanced; infer_instance
  | d, c :: s => by
    unfold balanced
    have := instDecidableBalanced (d + 1) s
    have := instDecidableBalanced (d - 1) s
    have := instDecidableBalanced d s
    infer_instance

/-- C83: an attribute is skipped, and nothing else.  Its contents are balanced and stand on its line. -/
def C83_statement : Prop :=
  ∀ (tg : Target) (ty : Str → Bool) (b sp body s : Str), (∀ c ∈ sp, c = 32 ∨ c = 9) → balanced 0 body → 10 ∉ body →
    next tg ty ⟨.initial, b⟩ (attrText sp body ++ s) = .skip ⟨.initial, b⟩ s

/-- the rest of the line -/
def line (s : Str) : Str := s.takeWhile fun c => c != 10

/-- the rule -/
def attrRe : Re := .seq (litS "__attribute__") (.seq blanks (.seq (litS "((") (.seq anys (litS "))"))))

theorem rule0 (tg : Target) : (rules tg)[0]? = some ⟨[.initial], attrRe, .skip⟩ := by cases tg <;> rfl

theorem attr_iff {w : Str} : Matches attrRe w ↔ ∃ sp body, w = attrText sp body ∧ (∀ c ∈ sp, isBlank c = true) ∧ 10 ∉ body := by
  constructor
  · intro h
    obtain ⟨u, v, rfl, h1, h2⟩ := seq_iff.mp h
    obtain ⟨sp, v, rfl, h3, h4⟩ := seq_iff.mp h2
    obtain ⟨o, v, rfl, h5, h6⟩ := seq_iff.mp h4
    obtain ⟨body, c, rfl, h7, h8⟩ := seq_iff.mp h6
    rw [litS_iff.mp h1, litS_iff.mp h5, litS_iff.mp h8]
    refine ⟨sp, body, ?_, star_cls.mp h3, fun h => ?_⟩
    · unfold attrText
      rw [show bytes "((" = [40, 40] by decide +kernel, show bytes "))" = [41, 41] by decide +kernel]
      simp only [List.append_assoc]
      rfl
    · exact absurd (star_cls.mp h7 10 h) (by decide)
  · rintro ⟨sp, body, rfl, h1, h2⟩
    refine seq_iff.mpr ⟨bytes "__attribute__", sp ++ ([40, 40] ++ (body ++ [41, 41])), ?_, litS_iff.mpr rfl, seq_iff.mpr ⟨sp, _, rfl, star_cls.mpr h1,
      seq_iff.mpr ⟨[40, 40], _, rfl, litS_iff.mpr (by decide +kernel), seq_iff.mpr ⟨body, [41, 41], rfl, star_cls.mpr fun c hc => ?_,
      litS_iff.mpr (by decide +kernel)⟩⟩⟩⟩
    · unfold attrText
      simp only [List.append_assoc]
      rfl
    · by_contra h
      have : c = 10 := by simpa [isAny] using h
      exact h2 (this ▸ hc)

theorem matches_derivs : ∀ (u v : Str) (r : Re), Matches r (u ++ v) → Matches (derivs r u) v
  | [], _, _, h => h
  | c :: u, v, r, h => matches_derivs u v (r.deriv c) ((deriv_iff c r (u ++ v)).mpr h)

/-- no other rule goes on after `__attribute__` and a blank or a parenthesis -/
theorem attr_only : ∀ c ∈ ([32, 9, 40] : List Byte), ∀ r ∈ base.tail, Mode.initial ∈ r.modes →
    (derivs r.re ([95, 95, 97, 116, 116, 114, 105, 98, 117, 116, 101, 95, 95] ++ [c])).isNone = true := by decide +kernel

theorem attr_directives (tg : Target) : ∀ r ∈ directives tg, r.re.deriv 95 = .nil := directive_dead tg (by decide)

theorem attr_head {sp body : Str} (h : ∀ c ∈ sp, c = 32 ∨ c = 9) (s : Str) :
    ∃ c ∈ ([32, 9, 40] : List Byte), ∃ t, attrText sp body ++ s = [95, 95, 97, 116, 116, 114, 105, 98, 117, 116, 101, 95, 95] ++ [c] ++ t ∧
      14 ≤ (attrText sp body).length := by
  have e : ascii "__attribute__" = [95, 95, 97, 116, 116, 114, 105, 98, 117, 116, 101, 95, 95] := by decide +kernel
  unfold attrText
  rw [e]
  cases sp with
  | nil => exact ⟨40, by simp, 40 :: (body ++ [41, 41] ++ s), by simp, by simp⟩
  | cons c sp =>
    refine ⟨c, ?_, sp ++ ([40, 40] ++ body ++ [41, 41]) ++ s, by simp, by simp⟩
    rcases h c (by simp) with rfl | rfl <;> simp

theorem tail_split (tg : Target) {i : Nat} {r : Rule} (hi : (rules tg)[i + 1]? = some r) : r ∈ base.tail ∨ r ∈ directives tg := by
  have h1 : r ∈ (rules tg).tail := by
    rw [List.mem_iff_getElem?]
    exact ⟨i, by rw [List.getElem?_tail]; exact hi⟩
  have hne : ignoredB ++ keywordsB ≠ [] := by simp [ignoredB]
  rw [rules_eq, List.tail_append_of_ne_nil hne] at h1
  rw [base, List.tail_append_of_ne_nil hne]
  simp only [List.mem_append] at h1 ⊢
  tauto

/-- a rule for which no longer text of the line matches is the one that is chosen -/
theorem chosen_attr (tg : Target) {sp body s : Str} (hsp : ∀ c ∈ sp, c = 32 ∨ c = 9) (hb : 10 ∉ body)
    (hmax : ∀ w, w <+: attrText sp body ++ s → Matches attrRe w → w.length ≤ (attrText sp body).length) :
    Chosen .initial (attrText sp body ++ s) (rules tg) (attrText sp body) ⟨[.initial], attrRe, .skip⟩ := by
  have hne : attrText sp body ≠ [] := by unfold attrText; simp
  refine chosen_at (rule0 tg) (List.prefix_append _ _)
    ⟨by simp, attr_iff.mpr ⟨sp, body, rfl, fun c hc => by rcases hsp c hc with rfl | rfl <;> rfl, hb⟩, hne⟩ ?_
  intro i r' w' hi hw' ha
  refine ⟨?_, fun h => absurd h (Nat.not_lt_zero _)⟩
  cases i with
  | zero =>
    rw [rule0] at hi
    cases hi
    exact hmax w' hw' ha.2.1
  | succ i =>
    by_contra hlt
    obtain ⟨c, hc, t, e, hl⟩ := attr_head (body := body) hsp s
    rw [e] at hw'
    obtain ⟨v, rfl⟩ : ∃ v, w' = [95, 95, 97, 116, 116, 114, 105, 98, 117, 116, 101, 95, 95] ++ [c] ++ v := by
      rcases List.prefix_or_prefix_of_prefix hw' (List.prefix_append _ t) with h | ⟨v, h⟩
      · have := h.length_le
        simp only [List.length_append, List.length_cons, List.length_nil] at this
        omega
      · exact ⟨v, h.symm⟩
    have hd := matches_derivs _ _ _ ha.2.1
    have hr := tail_split tg (i := i) hi
    rcases hr with hr | hr
    · rw [isNone_eq (attr_only c hc r' hr ha.1)] at hd
      exact not_nil _ hd
    · rw [List.cons_append, List.cons_append, derivs, attr_directives tg r' hr, derivs_nil] at hd
      exact not_nil _ hd

theorem prefix_line {t s : Str} (h : t <+: s) (hn : 10 ∉ t) : t <+: line s := by
  induction t generalizing s with
  | nil => exact List.nil_prefix
  | cons c t ih =>
    cases s with
    | nil => simp at h
    | cons d s =>
      obtain ⟨rfl, hp⟩ := List.cons_prefix_cons.mp h
      have hc : c ≠ 10 := fun e => hn (by simp [e])
      unfold line
      rw [List.takeWhile_cons_of_pos (by simpa using hc)]
      exact List.cons_prefix_cons.mpr ⟨rfl, ih hp fun hm => hn (by simp [hm])⟩

/-- what can be matched beyond `))` ends with `)` -/
theorem attr_more {sp body s w : Str} (hw : w <+: attrText sp body ++ s)
    (hm : Matches attrRe w) (hlt : (attrText sp body).length < w.length) :
    s.head? = some 41 ∨ [41, 41] <:+: line s := by
  obtain ⟨sp', body', rfl, h1, h2⟩ := attr_iff.mp hm
  obtain ⟨t, ht⟩ : ∃ t, attrText sp' body' = attrText sp body ++ t := by
    rcases List.prefix_or_prefix_of_prefix hw (List.prefix_append _ s) with h | ⟨t, h⟩
    · exact absurd h.length_le (by omega)
    · exact ⟨t, h.symm⟩
  have hts : t <+: s := by
    rw [ht] at hw
    exact (List.prefix_append_right_inj _).mp hw
  have hne : t ≠ [] := by
    rintro rfl
    rw [ht] at hlt
    simp at hlt
  have hnl : 10 ∉ t := by
    have : 10 ∉ attrText sp' body' := by
      unfold attrText
      have e : (10 : Byte) ∉ ascii "__attribute__" := by decide +kernel
      simp only [List.mem_append, not_or]
      refine ⟨⟨⟨⟨e, fun h => ?_⟩, by decide⟩, h2⟩, by decide⟩
      exact absurd (h1 10 h) (by decide)
    rw [ht] at this
    exact fun h => this (List.mem_append_right _ h)
  have hsuf : [41, 41] <:+ attrText sp body ++ t := ⟨ascii "__attribute__" ++ sp' ++ [40, 40] ++ body', ht⟩
  cases t with
  | nil => exact absurd rfl hne
  | cons c t =>
    cases t with
    | nil =>
      left
      obtain ⟨p, hp⟩ := hsuf
      have := congrArg List.getLast? hp
      simp only [List.getLast?_append_of_ne_nil _ (by simp : ([41, 41] : Str) ≠ []), List.getLast?_append_of_ne_nil _ (by simp : [c] ≠ [])] at this
      cases this
      obtain ⟨q, rfl⟩ := hts
      rfl
    | cons d t =>
      right
      have h3 : [41, 41] <:+ c :: d :: t := by
        rcases List.suffix_or_suffix_of_suffix hsuf (List.suffix_append (attrText sp body) (c :: d :: t)) with h | h
        · exact h
        · have hlen := h.length_le
          simp only [List.length_cons, List.length_nil] at hlen
          have := h.eq_of_length (by simp only [List.length_cons, List.length_nil]; omega)
          exact ⟨[], this.symm⟩
      exact h3.isInfix.trans (prefix_line hts hnl).isInfix

/-- C83, partly: an attribute is skipped, and nothing else, if its line has no `))` after it and no `)` follows. -/
theorem C83_attribute_partial (tg : Target) (ty : Str → Bool) (b : Str) {sp body s : Str} (hsp : ∀ c ∈ sp, c = 32 ∨ c = 9)
    (hb : 10 ∉ body) (h1 : s.head? ≠ some 41) (h2 : ¬ [41, 41] <:+: line s) :
    next tg ty ⟨.initial, b⟩ (attrText sp body ++ s) = .skip ⟨.initial, b⟩ s := by
  refine next_of_chosen (st := ⟨.initial, b⟩) (chosen_attr tg hsp hb fun w hw hm => ?_)
  by_contra hlt
  rcases attr_more hw hm (by omega) with h | h
  · exact h1 h
  · exact h2 h

/-- C83, where it fails: everything up to the last `))` of the line is skipped, whatever it is. -/
theorem C83_greedy (tg : Target) (ty : Str → Bool) (b : Str) {sp body code s : Str} (hsp : ∀ c ∈ sp, c = 32 ∨ c = 9)
    (hb : 10 ∉ body) (hc : 10 ∉ code) (h1 : s.head? ≠ some 41) (h2 : ¬ [41, 41] <:+: line s) :
    next tg ty ⟨.initial, b⟩ (attrText sp body ++ (code ++ [41, 41] ++ s)) = .skip ⟨.initial, b⟩ s := by
  have e : attrText sp body ++ (code ++ [41, 41] ++ s) = attrText sp (body ++ [41, 41] ++ code) ++ s := by
    unfold attrText
    simp
  rw [e]
  refine C83_attribute_partial tg ty b hsp ?_ h1 h2
  simp [hb, hc]

/-- C83 is false: in `__attribute__((used)) int x = f((1));` the declaration disappears. -/
theorem C83_refuted : ¬ C83_statement := by
  intro h
  have h1 := h .cscript (fun _ => false) [] [] (ascii "used") (ascii " int x = f((1" ++ [41, 41] ++ [59]) (by simp) (by decide +kernel) (by decide +kernel)
  have h2 := C83_greedy .cscript (fun _ => false) [] (sp := []) (body := ascii "used") (code := ascii " int x = f((1") (s := [59]) (by simp)
    (by decide +kernel) (by decide +kernel) (by decide) (by decide)
  rw [h2] at h1
  exact absurd (Step.skip.inj h1).2 (by decide +kernel)

/-- C83 for `__attribute__ ((format(printf, 1, 2))) int f(` -/
example : next .cscript (fun _ => false) start (attrText [32] (ascii "format(printf, 1, 2)") ++ ascii " int f(") =
    .skip start (ascii " int f(") :=
  C83_attribute_partial .cscript (fun _ => false) [] (by simp) (by decide +kernel) (by decide +kernel) (by decide +kernel)

end Bic.Lexer
