import Verif.Spec.Headers
import Verif.Props.Text
/-!
# The lexer on `#include` lines and on the output of the preprocessor
-/

namespace Bic.Lexer
open Bic.Parser (K ofTok)
open CText (Text HText Marker IncLine Flags Extends ascii isSpace isTag spell IsName)
open Re

theorem newline_extends (w : Str) : ¬ Extends w 10 := by
  unfold Extends
  cases w.head? with
  | none => exact id
  | some d =>
    simp only
    split
    · rintro (h | ⟨_, h | h⟩) <;> exact absurd h (by decide)
    · split
      · rintro (h | h | ⟨h | h, _⟩) <;> exact absurd h (by decide)
      · split
        · exact id
        · rintro (⟨p, hp, h⟩ | ⟨_, h⟩ | ⟨_, h | h⟩)
          · have : (10 : UInt8) ∈ ascii p := h.subset (by simp)
            have key : ∀ p ∈ CText.punctuators, (10 : UInt8) ∉ ascii p := by decide +kernel
            exact key p hp this
          all_goals exact absurd h (by decide)

theorem newline_ends (t : Parser.T) (w : Str) : ¬ Follows t w 10 := by
  rintro (h | ⟨_, h⟩ | ⟨_, h⟩)
  · exact newline_extends w h
  all_goals exact absurd h (by decide)

theorem head_then {s v : Str} {P : UInt8 → Prop} (h : ∀ c, s.head? = some c → ¬ P c) (hv : ∀ c, v.head? = some c → c = 10) (hn : ¬ P 10) :
    ∀ c, (s ++ v).head? = some c → ¬ P c := by
  intro c hc
  cases s with
  | nil => rw [hv c hc]; exact hn
  | cons d s => exact h c hc

/-- a text, and something else after it -/
theorem text_then (tg : Target) (ty : Str → Bool) {ts ts2 : List Parser.T} {u v : Str} {toks2 : List Tok} (h : Text (Reads ty) Follows ts u)
    (hv : ∀ c, v.head? = some c → c = 10) (e2 : toks2.map ofTok = ts2.map some) (h2 : ∀ b, Lex tg ty ⟨.initial, b⟩ v toks2 (some .initial)) :
    ∃ toks, toks.map ofTok = (ts ++ ts2).map some ∧ ∀ b, Lex tg ty ⟨.initial, b⟩ (u ++ v) toks (some .initial) := by
  induction h with
  | nil => exact ⟨toks2, e2, h2⟩
  | space hc _ ih =>
    obtain ⟨toks, h1, h2⟩ := ih
    exact ⟨toks, h1, fun b => .skip (next_space tg ty (by simp) b _ hc) (h2 b)⟩
  | @tok t w ts s htag hr hf _ ih =>
    obtain ⟨toks, h1, h2⟩ := ih
    have hf := head_then hf hv (newline_ends t w)
    rw [List.append_assoc]
    generalize s ++ v = s at hf h2
    have one : ∀ {t'}, ofTok t' = some t → (∀ b, next tg ty ⟨.initial, b⟩ (w ++ s) = .tok t' ⟨.initial, b⟩ s) →
        ∃ toks, toks.map ofTok = (t :: ts ++ ts2).map some ∧ ∀ b, Lex tg ty ⟨.initial, b⟩ (w ++ s) toks (some .initial) :=
      fun {t'} e hn => ⟨t' :: toks, by rw [List.map_cons, List.cons_append, List.map_cons, e, h1], fun b => .tok (hn b) (h2 b)⟩
    have hf' : ∀ c, s.head? = some c → ¬ Extends w c := fun c hc h => hf c hc (.inl h)
    cases hr with
    | @word k sp hs hd =>
      obtain ⟨t', h3, h4⟩ := next_wordB tg ty s hs hd hf
      exact one h3 fun b => by rw [h4 b, htag]; rfl
    | ident hx hi ht =>
      refine one (t' := .ident w) rfl fun b => ?_
      rw [next_name tg ty b (IsName.name hx hi) (IsName.ends hx hf'), ht]
      rfl
    | typeName hx hi ht =>
      refine one (t' := .typeName w) rfl fun b => ?_
      rw [next_name tg ty b (IsName.name hx hi) (IsName.ends hx hf'), ht]
      rfl
    | dec hd _ => exact one rfl fun b => C80_decimal_partial tg ty b hd hf'
    | hex hne hd => exact one rfl fun b => C80_hex_partial tg ty b hne hd hf'
    | char hp hr => exact one rfl fun b => C55_value_partial tg ty b s _ hp hr
    | @float d1 d2 ha hb =>
      refine one (t' := .floatCst (d1 ++ [46] ++ d2)) rfl fun b => ?_
      obtain ⟨c, l, e, hc⟩ := Digits.cons (ds := d1) ha
      have e' : d1 ++ [46] ++ d2 = d1 ++ 46 :: d2 := by simp
      rw [e'] at hf' ⊢
      exact next_float tg ty b ha hb (ends_number (d := c) (u := l ++ 46 :: d2) (by rw [e]; rfl) hc hf')
    | string hl hread hnd =>
      exact ⟨.string _ :: toks, by rw [List.map_cons, List.cons_append, List.map_cons, h1]; rfl,
        fun b => C54_bytes_partial tg ty b s _ toks (some .initial) hl hread hnd h2⟩
  | @tag k w sp x ts s htag hk hsp hall hx hs _ ih =>
    obtain ⟨toks, h1, h2⟩ := ih
    have hs := head_then hs hv (newline_extends x)
    rw [List.append_assoc]
    generalize s ++ v = s at hs h2
    obtain ⟨c, l, e, hc⟩ : ∃ c l, sp = c :: l ∧ isSpace c = true := by
      cases sp with
      | nil => exact absurd rfl hsp
      | cons c l => exact ⟨c, l, rfl, hall c (by simp)⟩
    have hf : ∀ d, (sp ++ (x ++ s)).head? = some d → ¬ Follows (.p k) (ascii w) d := by
      intro d hd
      rw [e] at hd
      simp only [List.cons_append, List.head?_cons, Option.some.injEq] at hd
      subst hd
      exact tag_ends htag hk (List.mem_append_left [123] (mem_spaces hc))
    simp only [List.append_assoc]
    refine lex_tag htag hk hf (toks := .ident x :: toks) (ts := .ident x :: (ts ++ ts2)) ?_ fun b => ?_
    · rw [List.map_cons, List.map_cons, h1]; rfl
    · exact lex_spaces (by simp) (.tok (next_tag tg ty b hx.shape (IsName.ends hx hs).1) (h2 b)) hall
  | @anonymous k w sp ts s htag hk hall _ ih =>
    obtain ⟨toks, h1, h2⟩ := ih
    rw [List.append_assoc]
    generalize s ++ v = s at h2
    have hf : ∀ d, (sp ++ ([123] ++ s)).head? = some d → ¬ Follows (.p k) (ascii w) d := by
      intro d hd
      refine tag_ends htag hk ?_
      cases sp with
      | nil => cases hd; decide
      | cons c l =>
        simp only [List.cons_append, List.head?_cons, Option.some.injEq] at hd
        subst hd
        have := mem_spaces (hall c (by simp))
        simp only [List.mem_cons, List.not_mem_nil, or_false] at this ⊢
        tauto
    simp only [List.append_assoc]
    refine lex_tag htag hk hf (toks := .tok "{" :: toks) (ts := .p .lbrace :: (ts ++ ts2)) ?_ fun b => ?_
    · rw [List.map_cons, List.map_cons, h1]; rfl
    · exact lex_spaces (by simp) (.tok (next_brace tg ty b s) (h2 b)) hall

/-! ## Line markers -/

/-- the bytes bic allows in the name of a file in a line marker (lex.m4:190) -/
def markByte (c : UInt8) : Bool := isL c || isD c || c == 45 || c == 46 || c == 47 || c == 60 || c == 62 || c == 32

def flagByte (c : UInt8) : Bool := c == 32 || (49 ≤ c && c ≤ 52)

def markRe : Re :=
  .seq (chr 35) (.seq blanks (.seq (plus (.cls isD)) (.seq blanks (.seq (chr 34) (.seq (plus (.cls markByte))
    (.seq (chr 34) (.star (.cls flagByte))))))))

theorem rule43 : (rules .cscript)[43]? = some ⟨[.initial], markRe, .lineMarker⟩ := rfl

theorem cands_mark : cands .initial .cscript 35 = [43] := by decide +kernel

theorem blanks_iff {w : Str} : Matches blanks w ↔ ∀ c ∈ w, c = 32 ∨ c = 9 := by
  unfold blanks
  rw [star_cls]
  simp only [isBlank, Bool.or_eq_true, beq_iff_eq]

theorem flags_bytes {fs : Str} (h : Flags fs) : ∀ c ∈ fs, flagByte c = true := by
  induction h with
  | nil => nofun
  | cons hd _ ih =>
    intro c hc
    rcases List.mem_cons.mp hc with rfl | hc
    · rfl
    · rcases List.mem_cons.mp hc with rfl | hc
      · simp only [List.mem_cons, List.not_mem_nil, or_false] at hd
        rcases hd with rfl | rfl | rfl | rfl <;> decide
      · exact ih c hc

theorem mark_no_newline {w : Str} (h : Matches markRe w) : (10 : UInt8) ∉ w := by
  unfold markRe at h
  obtain ⟨u1, v1, rfl, h1, g1⟩ := seq_iff.mp h
  obtain ⟨u2, v2, rfl, h2, g2⟩ := seq_iff.mp g1
  obtain ⟨u3, v3, rfl, h3, g3⟩ := seq_iff.mp g2
  obtain ⟨u4, v4, rfl, h4, g4⟩ := seq_iff.mp g3
  obtain ⟨u5, v5, rfl, h5, g5⟩ := seq_iff.mp g4
  obtain ⟨u6, v6, rfl, h6, g6⟩ := seq_iff.mp g5
  obtain ⟨u7, v7, rfl, h7, g7⟩ := seq_iff.mp g6
  rw [chr_iff] at h1 h5 h7
  subst h1 h5 h7
  rw [blanks_iff] at h2 h4
  rw [plus_cls] at h3 h6
  rw [star_cls] at g7
  simp only [List.mem_append, List.mem_singleton, not_or]
  refine ⟨by decide, fun hm => ?_, fun hm => ?_, fun hm => ?_, by decide, fun hm => ?_, by decide, fun hm => ?_⟩
  · exact absurd (h2 _ hm) (by decide)
  · exact absurd (h3.2 _ hm) (by decide)
  · exact absurd (h4 _ hm) (by decide)
  · exact absurd (h6.2 _ hm) (by decide)
  · exact absurd (g7 _ hm) (by decide)

theorem next_marker (T : Str → Bool) (b : Str) {m s : Str} (hm : Marker (fun c => markByte c = true) m) :
    next .cscript T ⟨.initial, b⟩ (m ++ 10 :: s) = .skip ⟨.initial, b⟩ (10 :: s) := by
  obtain ⟨ds, name, fs, e, hd, hn, hp, hf⟩ := hm
  have hmatch : Matches markRe m := by
    unfold markRe
    rw [e]
    refine seq_iff.mpr ⟨[35], _, rfl, chr_iff.mpr rfl, seq_iff.mpr ⟨[32], _, rfl, blanks_iff.mpr (by simp), seq_iff.mpr ⟨ds, _, rfl, plus_cls.mpr ?_,
      seq_iff.mpr ⟨[32], _, rfl, blanks_iff.mpr (by simp), seq_iff.mpr ⟨[34], _, rfl, chr_iff.mpr rfl, seq_iff.mpr ⟨name, _, rfl, plus_cls.mpr ⟨hn, hp⟩,
      seq_iff.mpr ⟨[34], fs, rfl, chr_iff.mpr rfl, star_cls.mpr (flags_bytes hf)⟩⟩⟩⟩⟩⟩⟩
    exact hd
  refine next_of_chosen (st := ⟨.initial, b⟩) (r := ⟨[.initial], markRe, .lineMarker⟩)
    (chosen_at rule43 (List.prefix_append _ _) ⟨by simp, hmatch, by rw [e]; simp⟩ ?_)
  intro i r' w' hi hw' ha
  cases w' with
  | nil => exact absurd rfl ha.2.2
  | cons d w' =>
    have hd : d = 35 := by
      rw [e] at hw'
      exact (List.cons_prefix_cons.mp hw').1
    subst hd
    have := mem_cands hi ha
    rw [cands_mark, List.mem_singleton] at this
    subst this
    rw [rule43] at hi
    cases hi
    refine ⟨?_, fun h => absurd h (Nat.lt_irrefl _)⟩
    have hno := mark_no_newline ha.2.1
    rcases Nat.lt_or_ge m.length (35 :: w').length with hlt | hge
    · exfalso
      apply hno
      have h1 : m ++ [10] <+: 35 :: w' := by
        refine List.prefix_of_prefix_length_le (l₃ := m ++ 10 :: s) ?_ hw' ?_
        · exact ⟨s, by simp⟩
        · simp only [List.length_append, List.length_singleton]; exact hlt
      exact h1.subset (by simp)
    · exact hge

/-- from the output of the preprocessor the lexer of scripts reads its tokens -/
theorem htext_tokens (ty : Str → Bool) {ts : List Parser.T} {s : Str} (h : HText (Reads ty) Follows (Marker fun c => markByte c = true) ts s) :
    ∃ toks, toks.map ofTok = ts.map some ∧ ∀ b, Lex .cscript ty ⟨.initial, b⟩ s toks (some .initial) := by
  have nl : ∀ {s ts}, (∀ b, Lex .cscript ty ⟨.initial, b⟩ s ts (some .initial)) → ∀ b, Lex .cscript ty ⟨.initial, b⟩ (10 :: s) ts (some .initial) :=
    fun h b => .skip (next_space .cscript ty (by simp) b _ (by decide)) (h b)
  induction h with
  | text h => exact C81_tokens_partial _ ty h
  | marker hm _ ih =>
    obtain ⟨toks, h1, h2⟩ := ih
    exact ⟨toks, h1, fun b => .skip (next_marker ty b hm) (nl h2 b)⟩
  | after hu hm _ ih =>
    obtain ⟨toks, h1, h2⟩ := ih
    exact text_then .cscript ty hu (by simp) h1 (nl fun b => .skip (next_marker ty b hm) (nl h2 b))

/-! ## `#include` lines -/

/-- the bytes bic allows in the name of a header (lex.m4:187) -/
def incByte (c : UInt8) : Bool := isL c || isD c || c == 46 || c == 47

def incRe : Re :=
  .seq (litS "#include") (.seq blanks (.seq (chr 60) (.seq
      (plus (.alt (.cls isL) (.alt (.cls isD) (.alt (chr 46) (chr 47))))) (chr 62))))

theorem rule43' : (rules .repl)[43]? = some ⟨[.initial], incRe, .include⟩ := rfl

theorem cands_inc : cands .initial .repl 35 = [43] := by decide +kernel

theorem incName_iff {c : UInt8} : Matches (.alt (.cls isL) (.alt (.cls isD) (.alt (chr 46) (chr 47)))) [c] ↔ incByte c = true := by
  simp only [alt_iff, chr_iff, cls_iff, incByte, Bool.or_eq_true, beq_iff_eq, List.cons.injEq, and_true]
  constructor
  · rintro (⟨d, rfl, h⟩ | ⟨d, rfl, h⟩ | h | h) <;> simp [h]
  · rintro (((h | h) | h) | h)
    · exact .inl ⟨c, rfl, h⟩
    · exact .inr (.inl ⟨c, rfl, h⟩)
    · exact .inr (.inr (.inl h))
    · exact .inr (.inr (.inr h))

theorem star_of {r : Re} {p : UInt8 → Bool} (h : ∀ c, p c = true → Matches r [c]) : ∀ {w : Str}, (∀ c ∈ w, p c = true) → Matches (.star r) w
  | [], _ => .nil
  | c :: w, hw => .cons (u := [c]) (h c (hw c (by simp))) (star_of h fun d hd => hw d (by simp [hd]))

theorem next_include (T : Str → Bool) (b : Str) {line : Str} (h : IncLine (fun c => incByte c = true) line) :
    next .repl T ⟨.initial, b⟩ line = .tok (.cPreInc line) ⟨.initial, b⟩ [] := by
  obtain ⟨bs, name, e, hb, hn, hp⟩ := h
  have hmatch : Matches incRe line := by
    unfold incRe
    rw [e]
    refine seq_iff.mpr ⟨_, _, rfl, litS_iff.mpr rfl, seq_iff.mpr ⟨bs, _, rfl, blanks_iff.mpr hb, seq_iff.mpr ⟨[60], _, rfl, chr_iff.mpr rfl,
      seq_iff.mpr ⟨name, [62], rfl, ?_, chr_iff.mpr rfl⟩⟩⟩⟩
    cases name with
    | nil => exact absurd rfl hn
    | cons c name =>
      exact seq_iff.mpr ⟨[c], name, rfl, incName_iff.mpr (hp c (by simp)), star_of (fun c => incName_iff.mpr) fun d hd => hp d (by simp [hd])⟩
  have hc : Chosen Mode.initial (line ++ []) (rules .repl) line ⟨[.initial], incRe, .include⟩ := by
    refine chosen_at rule43' (List.prefix_append _ _) ⟨by simp, hmatch, by rw [e]; simp⟩ ?_
    intro i r' w' hi hw' ha
    rw [List.append_nil] at hw'
    cases w' with
    | nil => exact absurd rfl ha.2.2
    | cons d w' =>
      have hd : d = 35 := by
        rw [e] at hw'
        exact (List.cons_prefix_cons.mp (show d :: w' <+: 35 :: _ from hw')).1
      subst hd
      have := mem_cands hi ha
      rw [cands_inc, List.mem_singleton] at this
      subst this
      exact ⟨hw'.length_le, fun h => absurd h (Nat.lt_irrefl _)⟩
  have := next_of_chosen (tg := .repl) (T := T) (st := ⟨.initial, b⟩) hc
  rw [List.append_nil] at this
  exact this

end Bic.Lexer
