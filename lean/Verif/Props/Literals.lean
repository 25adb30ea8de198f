import Verif.Spec.Literal
import Verif.Proofs.Tokens
/-!
# String literals (C54) and character constants (C55)
-/

namespace Bic.Lexer

open Bic.Spec (Piece Literal text vals)

/-- C54 in full: a string literal is the token for the bytes it denotes -/
def C54_statement : Prop :=
  ∀ (tg : Target) (T : Str → Bool) (b rest : Str) (ps : List Piece) (ts : List Tok) (ok : Option Mode), Literal 34 ps →
    (∀ b', Lex tg T ⟨.initial, b'⟩ rest ts ok) →
    Lex tg T ⟨.initial, b⟩ ([34] ++ text ps ++ [34] ++ rest) (.string (vals ps) :: ts) ok

/-- C55 in full: a character constant is the token for the character it denotes (a `char`, which is
signed) -/
def C55_statement : Prop :=
  ∀ (tg : Target) (T : Str → Bool) (b rest : Str) (p : Piece), p.Ok 39 →
    next tg T ⟨.initial, b⟩ ([39] ++ p.text ++ [39] ++ rest) = .tok (.integer (Int.bmod p.val.toNat 256)) ⟨.initial, b⟩ rest

/-! ## The rules for strings -/

theorem rule50 (tg : Target) : (rules tg)[50]? = some ⟨[.strLit], .star (.cls isPlain), .strText⟩ := by cases tg <;> rfl
theorem rule51 (tg : Target) : (rules tg)[51]? = some ⟨[.strLit], litS "\\n", .strChar 10⟩ := by cases tg <;> rfl
theorem rule52 (tg : Target) : (rules tg)[52]? = some ⟨[.strLit], litS "\\t", .strChar 9⟩ := by cases tg <;> rfl
theorem rule53 (tg : Target) : (rules tg)[53]? = some ⟨[.strLit], .seq (Re.chr 92) (.star (.cls isOct)), .strOct⟩ := by cases tg <;> rfl
theorem rule54 (tg : Target) :
    (rules tg)[54]? = some ⟨[.strLit], .seq (Re.chr 92) (.cls fun c => c == 92 || c == 34), .strEsc⟩ := by cases tg <;> rfl
theorem rule55 (tg : Target) : (rules tg)[55]? = some ⟨[.strLit], Re.chr 34, .strEnd⟩ := by cases tg <;> rfl
theorem rule56 (tg : Target) : (rules tg)[56]? = some ⟨[.strLit], .seq (Re.chr 92) (.cls isAny), .bogus⟩ := by cases tg <;> rfl

theorem cands_plain (tg : Target) (c : Byte) (hc : isPlain c = true) : ∀ i ∈ cands .strLit tg c, i = 50 := by
  revert hc
  cases tg
  · exact byte_all (P := fun c => isPlain c = true → ∀ i ∈ cands .strLit .repl c, i = 50) (by decide +kernel) c
  · exact byte_all (P := fun c => isPlain c = true → ∀ i ∈ cands .strLit .cscript c, i = 50) (by decide +kernel) c

theorem cands_esc (tg : Target) : ∀ i ∈ cands .strLit tg 92, i ∈ [51, 52, 53, 54, 56] := by
  cases tg <;> decide +kernel

theorem cands_quote (tg : Target) : ∀ i ∈ cands .strLit tg 34, i = 55 := by
  cases tg <;> decide +kernel

theorem next_run (tg : Target) (T : Str → Bool) (b : Str) {run rest : Str} (hne : run ≠ []) (hp : ∀ c ∈ run, isPlain c = true)
    (hr : ∀ c, rest.head? = some c → isPlain c = false) :
    next tg T ⟨.strLit, b⟩ (run ++ rest) = .skip ⟨.strLit, b ++ run⟩ rest := by
  refine next_of_chosen (st := ⟨.strLit, b⟩) (r := ⟨[.strLit], .star (.cls isPlain), .strText⟩)
    (chosen_at (rule50 tg) (List.prefix_append _ _) ⟨by simp, star_cls.mpr hp, hne⟩ ?_)
  intro i r' w' hi hw' ha
  cases w' with
  | nil => exact absurd rfl ha.2.2
  | cons c w' =>
    cases run with
    | nil => exact absurd rfl hne
    | cons d run =>
      obtain ⟨rfl, -⟩ := List.cons_prefix_cons.mp hw'
      obtain rfl := cands_plain tg c (hp c (by simp)) i (mem_cands hi ha)
      rw [rule50] at hi
      cases hi
      exact ⟨(prefix_le hr hw' (star_cls.mp ha.2.1)).length_le, fun h => absurd h (by decide)⟩

/-- an ordinary character of a string is kept -/
theorem Lex.plain {tg : Target} {T : Str → Bool} {b s : Str} {c : Byte} {ts : List Tok} {ok : Option Mode} (hc : isPlain c = true)
    (h : Lex tg T ⟨.strLit, b ++ [c]⟩ s ts ok) : Lex tg T ⟨.strLit, b⟩ (c :: s) ts ok := by
  cases hs : s.takeWhile isPlain with
  | nil =>
    have hr : ∀ d, s.head? = some d → isPlain d = false := by
      intro d hd
      cases s with
      | nil => simp at hd
      | cons e s =>
        simp at hd
        subst hd
        by_contra hp
        rw [Bool.not_eq_false] at hp
        rw [List.takeWhile_cons_of_pos hp] at hs
        cases hs
    exact .skip (next_run tg T b (run := [c]) (by simp) (by simpa using hc) hr) h
  | cons d run =>
    obtain ⟨rest, hsr, hrest⟩ : ∃ rest, s = (d :: run) ++ rest ∧ ∀ e, rest.head? = some e → isPlain e = false := by
      refine ⟨s.dropWhile isPlain, by rw [← hs, List.takeWhile_append_dropWhile], fun e he => ?_⟩
      have := List.head?_dropWhile_not isPlain s
      rw [he] at this
      simpa using this
    have hall : ∀ e ∈ d :: run, isPlain e = true := by
      intro e he
      rw [← hs] at he
      exact List.all_eq_true.mp List.all_takeWhile e he
    have h1 := next_run tg T (b ++ [c]) (run := d :: run) (by simp) hall hrest
    have h2 := next_run tg T b (run := c :: d :: run) (rest := rest) (by simp) (by
      intro e he
      rcases List.mem_cons.mp he with rfl | he
      · exact hc
      · exact hall e he) hrest
    rw [hsr] at h ⊢
    cases h with
    | eof h => rw [h1] at h; cases h
    | err h => rw [h1] at h; cases h
    | tok h _ => rw [h1] at h; cases h
    | skip h h3 =>
      rw [h1] at h
      cases h
      refine .skip h2 ?_
      simpa using h3

/-- what the rules for escapes match -/
theorem esc_cases (tg : Target) {s w' : Str} {i : Nat} {r' : Rule} {c : Byte} (hi : (rules tg)[i]? = some r') (hw : w' <+: 92 :: c :: s)
    (ha : Applies .strLit r' w') :
    (i = 51 ∧ c = 110 ∧ w' = [92, 110]) ∨ (i = 52 ∧ c = 116 ∧ w' = [92, 116]) ∨
    (i = 53 ∧ ∃ ds, w' = 92 :: ds ∧ (∀ d ∈ ds, isOct d = true) ∧ ds <+: c :: s) ∨
    (i = 54 ∧ (c = 92 ∨ c = 34) ∧ w' = [92, c]) ∨ (i = 56 ∧ isAny c = true ∧ w' = [92, c]) := by
  cases w' with
  | nil => exact absurd rfl ha.2.2
  | cons x w' =>
    obtain ⟨rfl, hw2⟩ := List.cons_prefix_cons.mp hw
    have hi3 := cands_esc tg i (mem_cands hi ha)
    have two : ∀ d, (92 :: w' : Str) = [92, d] → c = d := by
      intro d e
      simp only [List.cons.injEq, true_and] at e
      rw [e] at hw2
      exact (List.cons_prefix_cons.mp hw2).1.symm
    simp only [List.mem_cons, List.not_mem_nil, or_false] at hi3
    rcases hi3 with rfl | rfl | rfl | rfl | rfl
    · rw [rule51] at hi
      cases hi
      have := litS_iff.mp ha.2.1
      exact .inl ⟨rfl, two 110 this, this⟩
    · rw [rule52] at hi
      cases hi
      have := litS_iff.mp ha.2.1
      exact .inr (.inl ⟨rfl, two 116 this, this⟩)
    · rw [rule53] at hi
      cases hi
      obtain ⟨u, v, e, h1, h2⟩ := seq_iff.mp ha.2.1
      rw [chr_iff.mp h1] at e
      simp only [List.cons_append, List.nil_append, List.cons.injEq, true_and] at e
      subst e
      exact .inr (.inr (.inl ⟨rfl, _, rfl, star_cls.mp h2, hw2⟩))
    · rw [rule54] at hi
      cases hi
      obtain ⟨u, v, e, h1, h2⟩ := seq_iff.mp ha.2.1
      obtain ⟨d, rfl, hd⟩ := cls_iff.mp h2
      rw [chr_iff.mp h1] at e
      obtain rfl := two d e
      refine .inr (.inr (.inr (.inl ⟨rfl, ?_, e⟩)))
      simpa using hd
    · rw [rule56] at hi
      cases hi
      obtain ⟨u, v, e, h1, h2⟩ := seq_iff.mp ha.2.1
      obtain ⟨d, rfl, hd⟩ := cls_iff.mp h2
      rw [chr_iff.mp h1] at e
      obtain rfl := two d e
      exact .inr (.inr (.inr (.inr ⟨rfl, hd, e⟩)))

/-- an escape of two characters that is not octal digits -/
theorem chosen_esc (tg : Target) {c : Byte} (s : Str) {k : Nat} {r : Rule} (hk : (rules tg)[k]? = some r)
    (ha : Applies .strLit r [92, c]) (hc : isOct c = false)
    (hlt : ∀ i, i < k → ¬ ((i = 51 ∧ c = 110) ∨ (i = 52 ∧ c = 116) ∨ (i = 54 ∧ (c = 92 ∨ c = 34)) ∨ i = 56)) :
    Chosen .strLit ([92, c] ++ s) (rules tg) [92, c] r := by
  refine chosen_at hk (List.prefix_append _ _) ha ?_
  intro i r' w' hi hw' ha'
  rcases esc_cases tg hi hw' ha' with ⟨rfl, h1, rfl⟩ | ⟨rfl, h1, rfl⟩ | ⟨rfl, ds, rfl, hds, hp⟩ | ⟨rfl, h1, rfl⟩ | ⟨rfl, h1, rfl⟩
  · exact ⟨by simp, fun h => absurd (.inl ⟨rfl, h1⟩) (hlt 51 h)⟩
  · exact ⟨by simp, fun h => absurd (.inr (.inl ⟨rfl, h1⟩)) (hlt 52 h)⟩
  · cases ds with
    | nil => exact ⟨by simp, fun _ => by simp⟩
    | cons d ds =>
      obtain ⟨rfl, -⟩ := List.cons_prefix_cons.mp hp
      rw [hds d (by simp)] at hc
      cases hc
  · exact ⟨by simp, fun h => absurd (.inr (.inr (.inl ⟨rfl, h1⟩))) (hlt 54 h)⟩
  · exact ⟨by simp, fun h => absurd (.inr (.inr (.inr rfl))) (hlt 56 h)⟩

theorem next_esc_n (tg : Target) (T : Str → Bool) (b s : Str) :
    next tg T ⟨.strLit, b⟩ ([92, 110] ++ s) = .skip ⟨.strLit, b ++ [10]⟩ s :=
  next_of_chosen (st := ⟨.strLit, b⟩) (chosen_esc tg s (rule51 tg) ⟨by simp, litS_iff.mpr rfl, by simp⟩ rfl (by omega))

theorem next_esc_t (tg : Target) (T : Str → Bool) (b s : Str) :
    next tg T ⟨.strLit, b⟩ ([92, 116] ++ s) = .skip ⟨.strLit, b ++ [9]⟩ s :=
  next_of_chosen (st := ⟨.strLit, b⟩) (chosen_esc tg s (rule52 tg) ⟨by simp, litS_iff.mpr rfl, by simp⟩ rfl (by
    intro i hi
    rintro (⟨-, h⟩ | ⟨h, -⟩ | ⟨h, -⟩ | h)
    · cases h
    all_goals omega))

theorem next_esc_self (tg : Target) (T : Str → Bool) (b s : Str) {c : Byte} (hc : c = 92 ∨ c = 34) :
    next tg T ⟨.strLit, b⟩ ([92, c] ++ s) = .skip ⟨.strLit, b ++ [c]⟩ s := by
  have h := next_of_chosen (st := ⟨.strLit, b⟩) (T := T) (chosen_esc (c := c) tg s (rule54 tg)
    ⟨by simp, seq_iff.mpr ⟨[92], [c], rfl, chr_iff.mpr rfl, cls_iff.mpr ⟨c, rfl, by simpa using hc⟩⟩, by simp⟩
    (by rcases hc with rfl | rfl <;> rfl) (by
      intro i hi
      rintro (⟨-, h⟩ | ⟨-, h⟩ | ⟨h, -⟩ | h)
      · rcases hc with rfl | rfl <;> cases h
      · rcases hc with rfl | rfl <;> cases h
      all_goals omega))
  rw [h]
  rcases hc with rfl | rfl <;> rfl

/-- no other escape is known -/
theorem next_bogus (tg : Target) (T : Str → Bool) (b s : Str) {c : Byte} (hc : isOct c = false)
    (hn : c ≠ 110 ∧ c ≠ 116 ∧ c ≠ 92 ∧ c ≠ 34 ∧ c ≠ 10) : next tg T ⟨.strLit, b⟩ ([92, c] ++ s) = .err :=
  next_of_chosen (st := ⟨.strLit, b⟩) (T := T) (chosen_esc (c := c) tg s (rule56 tg)
    ⟨by simp, seq_iff.mpr ⟨[92], [c], rfl, chr_iff.mpr rfl, cls_iff.mpr ⟨c, rfl, by simpa [isAny] using hn.2.2.2.2⟩⟩, by simp⟩
    hc (by
      intro i hi
      rintro (⟨-, h⟩ | ⟨-, h⟩ | ⟨-, h | h⟩ | h)
      · exact hn.1 h
      · exact hn.2.1 h
      · exact hn.2.2.1 h
      · exact hn.2.2.2.1 h
      · omega))

theorem next_esc_oct (tg : Target) (T : Str → Bool) (b : Str) {ds s : Str} (hne : ds ≠ []) (hd : ∀ c ∈ ds, isOct c = true)
    (hs : ∀ c, s.head? = some c → isOct c = false) :
    next tg T ⟨.strLit, b⟩ ((92 :: ds) ++ s) = .skip ⟨.strLit, appendChar b (octChar ds)⟩ s := by
  refine next_of_chosen (st := ⟨.strLit, b⟩) (chosen_at (rule53 tg) (List.prefix_append _ _)
    ⟨by simp, seq_iff.mpr ⟨[92], ds, rfl, chr_iff.mpr rfl, star_cls.mpr hd⟩, by simp⟩ ?_)
  intro i r' w' hi hw' ha'
  cases ds with
  | nil => exact absurd rfl hne
  | cons d ds =>
    have hd0 := hd d (by simp)
    rcases esc_cases tg hi hw' ha' with ⟨rfl, h1, rfl⟩ | ⟨rfl, h1, rfl⟩ | ⟨rfl, es, rfl, hes, hp⟩ | ⟨rfl, h1, rfl⟩ | ⟨rfl, h1, rfl⟩
    · subst h1; cases hd0
    · subst h1; cases hd0
    · have := (prefix_le (x := d :: ds) (rest := s) hs (by simpa using hp) hes).length_le
      exact ⟨by simp at this ⊢; omega, fun h => absurd h (by decide)⟩
    · rcases h1 with rfl | rfl <;> cases hd0
    · exact ⟨by simp, fun h => absurd h (by decide)⟩

theorem next_str_end (tg : Target) (T : Str → Bool) (b s : Str) :
    next tg T ⟨.strLit, b⟩ ([34] ++ s) = .tok (.string b) ⟨.initial, b⟩ s := by
  refine next_of_chosen (st := ⟨.strLit, b⟩) (r := ⟨[.strLit], Re.chr 34, .strEnd⟩)
    (chosen_at (rule55 tg) (List.prefix_append _ _) ⟨by simp, chr_iff.mpr rfl, by simp⟩ ?_)
  intro i r' w' hi hw' ha
  cases w' with
  | nil => exact absurd rfl ha.2.2
  | cons c w' =>
    obtain ⟨rfl, -⟩ := List.cons_prefix_cons.mp hw'
    obtain rfl := cands_quote tg i (mem_cands hi ha)
    rw [rule55] at hi
    cases hi
    rw [chr_iff.mp ha.2.1]
    exact ⟨Nat.le_refl _, fun h => absurd h (by decide)⟩

theorem cands_dq (tg : Target) : ∀ i ∈ cands .initial tg 34, i = 49 := by
  cases tg <;> decide +kernel

theorem rule49 (tg : Target) : (rules tg)[49]? = some ⟨[.initial], Re.chr 34, .strBegin⟩ := by cases tg <;> rfl

theorem next_str_begin (tg : Target) (T : Str → Bool) (b s : Str) :
    next tg T ⟨.initial, b⟩ ([34] ++ s) = .skip ⟨.strLit, []⟩ s := by
  refine next_of_chosen (st := ⟨.initial, b⟩) (r := ⟨[.initial], Re.chr 34, .strBegin⟩)
    (chosen_at (rule49 tg) (List.prefix_append _ _) ⟨by simp, chr_iff.mpr rfl, by simp⟩ ?_)
  intro i r' w' hi hw' ha
  cases w' with
  | nil => exact absurd rfl ha.2.2
  | cons c w' =>
    obtain ⟨rfl, -⟩ := List.cons_prefix_cons.mp hw'
    obtain rfl := cands_dq tg i (mem_cands hi ha)
    rw [rule49] at hi
    cases hi
    rw [chr_iff.mp ha.2.1]
    exact ⟨Nat.le_refl _, fun h => absurd h (by decide)⟩

/-! ## String literals -/

/-- the pieces the lexer reads as C does: ordinary characters, `\n`, `\t`, `\\`, `\"` and octal escapes
that do not denote NUL -/
def Read : Piece → Prop
  | .plain _ => True
  | .simple c => c = 110 ∨ c = 116 ∨ c = 92 ∨ c = 34
  | .oct ds => Spec.octVal ds ≠ 0
  | .hex _ => False

/-- no octal escape is followed by an octal digit -/
def NoDigit : List Piece → Prop
  | [] => True
  | p :: ps => (∀ ds, p = .oct ds → ∀ c, (text ps).head? = some c → Spec.isOctDigit c = false) ∧ NoDigit ps

theorem natOf_oct (ds : Str) (hd : ∀ c ∈ ds, isOct c = true) : natOf 8 ds = Spec.octVal ds := by
  have h : ∀ (ds : Str) (n : Nat), (∀ c ∈ ds, isOct c = true) →
      ds.foldl (fun n c => n * 8 + digit c) n = ds.foldl (fun n c => 8 * n + (c.toNat - 48)) n := by
    intro ds
    induction ds with
    | nil => intros; rfl
    | cons c ds ih =>
      intro n hd
      have hc : digit c = c.toNat - 48 := by
        have := hd c (by simp)
        revert this
        exact byte_all (P := fun c => isOct c = true → digit c = c.toNat - 48) (by decide +kernel) c
      rw [List.foldl_cons, List.foldl_cons, hc, Nat.mul_comm n 8]
      exact ih _ fun d hd' => hd d (by simp [hd'])
  exact h ds 0 hd

theorem text_head (ps : List Piece) (rest : Str) (c : Byte) (h : (text ps ++ [34] ++ rest).head? = some c) :
    (text ps).head? = some c ∨ c = 34 := by
  cases ht : text ps with
  | nil => rw [ht] at h; simp at h; exact .inr h.symm
  | cons d l => rw [ht] at h; simp at h; subst h; exact .inl rfl

/-- the pieces of a literal, after the opening quote -/
theorem lex_pieces {tg : Target} {T : Str → Bool} {rest : Str} {ts : List Tok} {ok : Option Mode}
    (hr : ∀ b', Lex tg T ⟨.initial, b'⟩ rest ts ok) : ∀ (ps : List Piece) (b : Str), Literal 34 ps → (∀ p ∈ ps, Read p) → NoDigit ps →
    Lex tg T ⟨.strLit, b⟩ (text ps ++ [34] ++ rest) (.string (b ++ vals ps) :: ts) ok := by
  intro ps
  induction ps with
  | nil =>
    intro b _ _ _
    simp only [vals, List.map_nil, List.append_nil]
    exact .tok (next_str_end tg T b rest) (hr b)
  | cons p ps ih =>
    intro b hl hread hnd
    have ih' := fun b => ih b hl.2.2 (fun p hp => hread p (by simp [hp])) hnd.2
    have hp := hread p (by simp)
    have e : text (p :: ps) ++ [34] ++ rest = p.text ++ (text ps ++ [34] ++ rest) := by simp [text]
    have e2 : b ++ vals (p :: ps) = b ++ [p.val] ++ vals ps := by simp [vals]
    rw [e, e2]
    cases p with
    | plain c =>
      have hc := hl.1
      exact Lex.plain (by simp [isPlain, hc.1, hc.2.1, hc.2.2.1]) (ih' (b ++ [c]))
    | simple c =>
      rcases hp with rfl | rfl | rfl | rfl
      · exact .skip (next_esc_n tg T b _) (ih' (b ++ [10]))
      · exact .skip (next_esc_t tg T b _) (ih' (b ++ [9]))
      · exact .skip (next_esc_self tg T b _ (.inl rfl)) (ih' (b ++ [92]))
      · exact .skip (next_esc_self tg T b _ (.inr rfl)) (ih' (b ++ [34]))
    | oct ds =>
      have hok := hl.1
      have hds : ∀ c ∈ ds, isOct c = true := hok.2.2.1
      have hv : octChar ds = UInt8.ofNat (Spec.octVal ds) := by
        have h256 := hok.2.2.2
        unfold octChar
        rw [natOf_oct ds hds, if_pos (by omega)]
      have hne : octChar ds ≠ 0 := by
        rw [hv]
        intro h
        have := congrArg UInt8.toNat h
        rw [UInt8.toNat_ofNat_of_lt' hok.2.2.2] at this
        exact hp this
      have happ : appendChar b (octChar ds) = b ++ [(Piece.oct ds).val] := by
        rw [appendChar, if_neg hne, hv]
        rfl
      refine .skip (next_esc_oct tg T b (by rintro rfl; simp [Piece.Ok] at hok) hds ?_) (happ ▸ ih' _)
      intro c hc
      rcases text_head ps rest c hc with h | rfl
      · exact hnd.1 ds rfl c h
      · rfl
    | hex ds => exact hp.elim

/-- C54, partly: the token for a string literal carries the bytes it denotes if its escapes are `\n`,
`\t`, `\\`, `\"` and octal ones other than NUL, and no octal escape is followed by an octal digit. -/
theorem C54_bytes_partial (tg : Target) (T : Str → Bool) (b rest : Str) (ps : List Piece) (ts : List Tok) (ok : Option Mode)
    (hl : Literal 34 ps) (hread : ∀ p ∈ ps, Read p) (hnd : NoDigit ps) (hr : ∀ b', Lex tg T ⟨.initial, b'⟩ rest ts ok) :
    Lex tg T ⟨.initial, b⟩ ([34] ++ text ps ++ [34] ++ rest) (.string (vals ps) :: ts) ok := by
  have := lex_pieces (tg := tg) (T := T) hr ps [] hl hread hnd
  rw [show ([34] ++ text ps ++ [34] ++ rest : Str) = [34] ++ (text ps ++ [34] ++ rest) by simp]
  exact .skip (next_str_begin tg T b _) (by simpa using this)

/-- the pieces before an escape -/
theorem lex_before {tg : Target} {T : Str → Bool} {s : Str} {ts : List Tok} {ok : Option Mode} (hs : s.head? = some 92)
    (hr : ∀ b', Lex tg T ⟨.strLit, b'⟩ s ts ok) : ∀ (ps : List Piece) (b : Str), Literal 34 ps → (∀ p ∈ ps, Read p) → NoDigit ps →
    Lex tg T ⟨.strLit, b⟩ (text ps ++ s) ts ok := by
  intro ps
  induction ps with
  | nil => intro b _ _ _; exact hr b
  | cons p ps ih =>
    intro b hl hread hnd
    have ih' := fun b => ih b hl.2.2 (fun p hp => hread p (by simp [hp])) hnd.2
    have hp := hread p (by simp)
    have e : text (p :: ps) ++ s = p.text ++ (text ps ++ s) := by simp [text]
    rw [e]
    cases p with
    | plain c =>
      have hc := hl.1
      exact Lex.plain (by simp [isPlain, hc.1, hc.2.1, hc.2.2.1]) (ih' (b ++ [c]))
    | simple c =>
      rcases hp with rfl | rfl | rfl | rfl
      · exact .skip (next_esc_n tg T b _) (ih' (b ++ [10]))
      · exact .skip (next_esc_t tg T b _) (ih' (b ++ [9]))
      · exact .skip (next_esc_self tg T b _ (.inl rfl)) (ih' (b ++ [92]))
      · exact .skip (next_esc_self tg T b _ (.inr rfl)) (ih' (b ++ [34]))
    | oct ds =>
      have hok := hl.1
      refine .skip (next_esc_oct tg T b (by rintro rfl; simp [Piece.Ok] at hok) hok.2.2.1 ?_) (ih' _)
      intro c hc
      cases ht : text ps with
      | nil =>
        rw [ht, List.nil_append, hs] at hc
        cases hc
        rfl
      | cons d l =>
        rw [ht] at hc
        simp at hc
        subst hc
        exact hnd.1 ds rfl d (by rw [ht]; rfl)
    | hex ds => exact hp.elim

/-- C54, where it fails: a literal with one of the other simple escapes or a hexadecimal one is not a
token at all, whatever stands before and after. -/
theorem C54_unknown_escape (tg : Target) (T : Str → Bool) (b s : Str) (ps : List Piece) (c : Byte) (hl : Literal 34 ps)
    (hread : ∀ p ∈ ps, Read p) (hnd : NoDigit ps) (hc : c ∈ [39, 63, 97, 98, 102, 114, 118, 120]) :
    Lex tg T ⟨.initial, b⟩ ([34] ++ text ps ++ [92, c] ++ s) [] none := by
  rw [show ([34] ++ text ps ++ [92, c] ++ s : Str) = [34] ++ (text ps ++ ([92, c] ++ s)) by simp]
  refine .skip (next_str_begin tg T b _) (lex_before rfl (fun b' => .err (next_bogus tg T b' s ?_ ?_)) ps _ hl hread hnd)
  · simp only [List.mem_cons, List.not_mem_nil, or_false] at hc
    rcases hc with rfl | rfl | rfl | rfl | rfl | rfl | rfl | rfl <;> decide
  · simp only [List.mem_cons, List.not_mem_nil, or_false] at hc
    rcases hc with rfl | rfl | rfl | rfl | rfl | rfl | rfl | rfl <;> decide

/-- C54, where it fails: an escape for NUL adds nothing -/
theorem C54_nul (tg : Target) (T : Str → Bool) (b : Str) {ds s : Str} (hne : ds ≠ []) (hd : ∀ c ∈ ds, c = 48)
    (hs : ∀ c, s.head? = some c → isOct c = false) :
    next tg T ⟨.strLit, b⟩ ((92 :: ds) ++ s) = .skip ⟨.strLit, b⟩ s := by
  rw [next_esc_oct tg T b hne (fun c hc => by rw [hd c hc]; rfl) hs]
  have h0 : natOf 8 ds = 0 := by
    rw [natOf_oct ds fun c hc => by rw [hd c hc]; rfl]
    unfold Spec.octVal
    clear hne hs
    induction ds with
    | nil => rfl
    | cons c ds ih =>
      rw [List.foldl_cons, hd c (by simp)]
      exact ih fun d h => hd d (by simp [h])
  unfold octChar
  rw [h0]
  rfl

/-- C54 is false: `"\r"` is an error. -/
theorem C54_refuted : ¬ C54_statement := by
  intro h
  have h1 := h .repl (fun _ => false) [] [] [.simple 114] [] (some .initial) ⟨by simp only [Piece.Ok]; decide, by simp [Piece.Takes], trivial⟩ fun b' => .eof rfl
  have h2 := C54_unknown_escape .repl (fun _ => false) [] [34] [] 114 trivial (by simp) trivial (by decide)
  exact absurd (Lex.unique h1 h2).1 (by decide)

/-- C54 for `"a\tb\101\"\\ "` with `;` behind it -/
example : Lex .repl (fun _ => false) start (bytes "\"a\\tb\\101\\\"\\\\ \";") [.string (bytes "a\tbA\"\\ "), .tok ";"] (some .initial) := by
  have h := C54_bytes_partial .repl (fun _ => false) [] (bytes ";")
    [.plain 97, .simple 116, .plain 98, .oct [49, 48, 49], .simple 34, .simple 92, .plain 32] [.tok ";"] (some .initial)
    (by simp only [Literal, Piece.Ok, Piece.Takes, text]; decide +kernel) (by simp only [List.forall_mem_cons, Read]; simp; decide +kernel)
    (by simp [NoDigit, text, Piece.text, Spec.isOctDigit]) fun b' => .tok (next_semicolon _ _ _ _) (.eof rfl)
  exact h

/-! ## Character constants -/

theorem cands_sq (tg : Target) : ∀ i ∈ cands .initial tg 39, i ∈ [48, 68] := by
  cases tg <;> decide +kernel

theorem rule48 (tg : Target) : (rules tg)[48]? = some ⟨[.initial], charRe, .char⟩ := by cases tg <;> rfl
theorem rule68 (tg : Target) : (rules tg)[68]? = some (word "'" "'") := by cases tg <;> rfl

/-- one character of a constant -/
def unitRe : Re := .alt (.seq (Re.chr 92) (.cls isAny)) (.cls fun c => !(c == 92 || c == 39 || c == 10))

/-- a character of a constant: itself or a pair -/
def Unit1 (u : Str) : Prop := (∃ c, u = [92, c] ∧ isAny c = true) ∨ ∃ c, u = [c] ∧ c ≠ 92 ∧ c ≠ 39 ∧ c ≠ 10

theorem unit_iff {u : Str} : Matches unitRe u ↔ Unit1 u := by
  unfold unitRe
  rw [alt_iff, seq_iff, cls_iff]
  refine or_congr ⟨?_, ?_⟩ ⟨?_, ?_⟩
  · rintro ⟨a, b, rfl, h1, h2⟩
    obtain ⟨c, rfl, hc⟩ := cls_iff.mp h2
    rw [chr_iff.mp h1]
    exact ⟨c, rfl, hc⟩
  · rintro ⟨c, rfl, hc⟩
    exact ⟨[92], [c], rfl, chr_iff.mpr rfl, cls_iff.mpr ⟨c, rfl, hc⟩⟩
  · rintro ⟨c, rfl, hc⟩
    refine ⟨c, rfl, ?_⟩
    simpa [and_assoc] using hc
  · rintro ⟨c, rfl, hc⟩
    refine ⟨c, rfl, ?_⟩
    simpa [and_assoc] using hc

/-- a sequence of characters before the closing quote cannot be read in two ways -/
theorem unit_unique {u v rest w w' : Str} (hu : Unit1 u) (hv : Unit1 v) (h : v ++ w <+: u ++ 39 :: rest) (hw : Matches (.star unitRe) w')
    (he : w = w' ++ [39]) : v ++ w = u ++ [39] := by
  have key : ∀ {w rest : Str}, w <+: 39 :: rest → w = w' ++ [39] → w = [39] := by
    intro w rest h he
    cases w' with
    | nil => exact he
    | cons d w' =>
      obtain ⟨x, y, e, hx, -⟩ := star_cons hw
      subst he
      obtain ⟨rfl, -⟩ := List.cons_prefix_cons.mp h
      have := unit_iff.mp hx
      rcases this with ⟨c, h1, -⟩ | ⟨c, h1, h2⟩
      · simp at h1
      · simp only [List.cons.injEq] at h1
        exact absurd h1.1.symm h2.2.1
  rcases hu with ⟨c, rfl, hc⟩ | ⟨c, rfl, hc⟩ <;> rcases hv with ⟨d, rfl, hd⟩ | ⟨d, rfl, hd⟩
  · simp only [List.cons_append, List.nil_append, List.cons_prefix_cons, true_and] at h ⊢
    rw [h.1, key h.2 he]
  · simp only [List.cons_append, List.nil_append, List.cons_prefix_cons] at h
    exact absurd h.1 hd.1
  · simp only [List.cons_append, List.nil_append, List.cons_prefix_cons] at h
    exact absurd h.1.symm hc.1
  · simp only [List.cons_append, List.nil_append, List.cons_prefix_cons] at h ⊢
    rw [h.1, key h.2 he]

theorem char_shape {w : Str} (h : Matches charRe (39 :: w)) : ∃ u v, Unit1 u ∧ Matches (.star unitRe) v ∧ w = u ++ (v ++ [39]) := by
  obtain ⟨a, b, e, h1, h2⟩ := seq_iff.mp h
  obtain ⟨c, d, rfl, h3, h4⟩ := seq_iff.mp h2
  obtain ⟨x, y, rfl, h5, h6⟩ := seq_iff.mp h4
  obtain ⟨u, v, rfl, h7, h8⟩ := seq_iff.mp h5
  rw [chr_iff.mp h3, chr_iff.mp h6] at e
  rcases opt_iff.mp h1 with h1 | h1
  · rw [chr_iff.mp h1] at e
    cases e
  · subst h1
    simp only [List.nil_append, List.cons_append, List.cons.injEq, true_and] at e
    exact ⟨u, v, unit_iff.mp h7, h8, by rw [e]; simp⟩

theorem char_match {u : Str} (h : Unit1 u) : Matches charRe ([39] ++ u ++ [39]) :=
  seq_iff.mpr ⟨[], [39] ++ u ++ [39], rfl, opt_iff.mpr (.inr rfl), seq_iff.mpr ⟨[39], u ++ [39], by simp, chr_iff.mpr rfl,
    seq_iff.mpr ⟨u, [39], rfl, seq_iff.mpr ⟨u, [], by simp, unit_iff.mpr h, .nil⟩, chr_iff.mpr rfl⟩⟩⟩

/-- a quoted character is matched as such -/
theorem next_quoted (tg : Target) (T : Str → Bool) (b rest : Str) {u : Str} (hu : Unit1 u) :
    next tg T ⟨.initial, b⟩ (([39] ++ u ++ [39]) ++ rest) = act T ⟨.initial, b⟩ .char ([39] ++ u ++ [39]) rest := by
  refine next_of_chosen (st := ⟨.initial, b⟩) (r := ⟨[.initial], charRe, .char⟩)
    (chosen_at (rule48 tg) (List.prefix_append _ _) ⟨by simp, char_match hu, by simp⟩ ?_)
  intro i r' w' hi hw' ha
  cases w' with
  | nil => exact absurd rfl ha.2.2
  | cons c w' =>
    rw [show ([39] ++ u ++ [39]) ++ rest = 39 :: (u ++ 39 :: rest) by simp] at hw'
    obtain ⟨rfl, hw2⟩ := List.cons_prefix_cons.mp hw'
    have hi2 := cands_sq tg i (mem_cands hi ha)
    simp only [List.mem_cons, List.not_mem_nil, or_false] at hi2
    rcases hi2 with rfl | rfl
    · rw [rule48] at hi
      cases hi
      obtain ⟨x, v, hx, hv, rfl⟩ := char_shape ha.2.1
      rw [unit_unique hu hx hw2 hv rfl]
      exact ⟨by simp, fun h => absurd h (by decide)⟩
    · rw [rule68] at hi
      cases hi
      have := litS_iff.mp ha.2.1
      rw [this]
      exact ⟨by simp [bytes], fun h => absurd h (by decide)⟩

/-- C55, partly: a character constant has the value of its character for every character that stands
for itself (a `char` is signed) and for `\n`, `\\` and `\r`, whatever follows. -/
theorem C55_value_partial (tg : Target) (T : Str → Bool) (b rest : Str) (p : Piece) (hp : p.Ok 39)
    (hr : (∃ c, p = .plain c) ∨ p = .simple 110 ∨ p = .simple 92 ∨ p = .simple 114) :
    next tg T ⟨.initial, b⟩ ([39] ++ p.text ++ [39] ++ rest) = .tok (.integer (Int.bmod p.val.toNat 256)) ⟨.initial, b⟩ rest := by
  rcases hr with ⟨c, rfl⟩ | rfl | rfl | rfl
  · rw [next_quoted tg T b rest (u := (Piece.plain c).text) (.inr ⟨c, rfl, hp.2.1, hp.1, hp.2.2.1⟩)]
    have : lexChar [39, c, 39] = some (Int.bmod c.toNat 256) := by
      have := hp.2.1
      simp [lexChar, this]
    simp [act, Piece.text, this, Piece.val]
  · have : lexChar ([39] ++ (Piece.simple 110).text ++ [39]) = some (Int.bmod (Piece.simple 110).val.toNat 256) := by decide +kernel
    rw [next_quoted tg T b rest (u := Piece.text _) (.inl ⟨_, rfl, by decide⟩)]
    simp only [act, this]
  · have : lexChar ([39] ++ (Piece.simple 92).text ++ [39]) = some (Int.bmod (Piece.simple 92).val.toNat 256) := by decide +kernel
    rw [next_quoted tg T b rest (u := Piece.text _) (.inl ⟨_, rfl, by decide⟩)]
    simp only [act, this]
  · have : lexChar ([39] ++ (Piece.simple 114).text ++ [39]) = some (Int.bmod (Piece.simple 114).val.toNat 256) := by decide +kernel
    rw [next_quoted tg T b rest (u := Piece.text _) (.inl ⟨_, rfl, by decide⟩)]
    simp only [act, this]

/-- C55, where it fails: every other escape of one character in a character constant is an error. -/
theorem C55_unknown_escape (tg : Target) (T : Str → Bool) (b rest : Str) (c : Byte) (hn : c ≠ 10)
    (hc : c ≠ 110 ∧ c ≠ 92 ∧ c ≠ 114) : next tg T ⟨.initial, b⟩ ([39] ++ [92, c] ++ [39] ++ rest) = .err := by
  rw [next_quoted tg T b rest (u := [92, c]) (.inl ⟨c, rfl, by simpa [isAny] using hn⟩)]
  have : lexChar [39, 92, c, 39] = none := by
    unfold lexChar
    simp only [List.length_cons, List.length_nil, List.getD_cons_zero, List.getD_cons_succ]
    split
    · rfl
    · split
      · rfl
      · split
        · rename_i h; simp at h
        · split
          · exact absurd rfl hc.1
          · exact absurd rfl hc.2.1
          · exact absurd rfl hc.2.2
          · rfl
  simp [act, this]

/-- C55 is false: `'\t'` is an error. -/
theorem C55_refuted : ¬ C55_statement := by
  intro h
  have h1 := h .repl (fun _ => false) [] [] (.simple 116) (by simp only [Piece.Ok]; decide)
  rw [show ([39] ++ (Piece.simple 116).text ++ [39] ++ [] : Str) = [39] ++ [92, 116] ++ [39] ++ [] from rfl,
    C55_unknown_escape _ _ _ _ _ (by decide) (by decide)] at h1
  cases h1

/-- C55 for `'A'` and `'\n'` -/
example : next .cscript (fun _ => false) start (bytes "'A'+1") = .tok (.integer 65) start (bytes "+1") := by
  have h := C55_value_partial .cscript (fun _ => false) [] (bytes "+1") (.plain 65) (by simp only [Piece.Ok]; decide) (.inl ⟨65, rfl⟩)
  rw [show Int.bmod (Piece.plain 65).val.toNat 256 = 65 by decide +kernel] at h
  exact h

example : next .repl (fun _ => false) start (bytes "'\\n';") = .tok (.integer 10) start (bytes ";") := by
  have h := C55_value_partial .repl (fun _ => false) [] (bytes ";") (.simple 110) (by simp only [Piece.Ok]; decide) (.inr (.inl rfl))
  rw [show Int.bmod (Piece.simple 110).val.toNat 256 = 10 by decide +kernel] at h
  exact h

end Bic.Lexer
