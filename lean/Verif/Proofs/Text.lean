import Verif.Proofs.Words
import Verif.Props.Literals
/-!
# Texts and their tokens
-/

namespace Bic.Lexer
open Re
open Bic.Parser (K tokNames ofTok)
open CText (IsName Extends isWord isSpace isTag spell ascii)

/-! ## Words -/

/-- the table agrees with the spellings of C, and its actions with the names of the tokens -/
def entryOk (k : K) : Bool :=
  match wordB k with
  | none => true
  | some (w, a) =>
    decide ((spell k).map ascii = some w) && (w != []) && (w.head? != some 35) &&
    (match w.head? with | some d => isL d || !(isD d || d == 34 || d == 39) | none => false) &&
    (w != [45] || k == .minus) && (w != [60] || k == .lt) &&
    (match a with
     | .ret n => !isTag (.p k) && tokNames.lookup n == some k
     | .beginCompound n => isTag (.p k) && tokNames.lookup n == some k
     | _ => false)

theorem entryOk_all (k : K) : entryOk k = true := by
  cases k <;> decide +kernel

/-- the byte may not follow the token: as in C, a digit after `-`, `R` after `<` -/
def Follows (t : Parser.T) (w : Str) (c : Byte) : Prop :=
  Extends w c ∨ (t = .p .minus ∧ CText.isDigit c = true) ∨ (t = .p .lt ∧ c = 82)

theorem mem_succs {w : Str} {c : Byte} (h : c ∈ succs w) : ∃ p ∈ CText.punctuators, w ++ [c] <+: ascii p := by
  unfold succs at h
  rw [← punctuators_eq] at h
  obtain ⟨q, hq, h⟩ := List.mem_filterMap.mp h
  obtain ⟨p, hp, rfl⟩ := List.mem_map.mp hq
  refine ⟨p, hp, ?_⟩
  split at h
  · rename_i hpre
    obtain ⟨t, ht⟩ := List.isPrefixOf_iff_prefix.mp hpre
    rw [← ht] at h ⊢
    rw [List.drop_left] at h
    cases t with
    | nil => cases h
    | cons e t =>
      cases h
      exact ⟨t, by simp⟩
  · cases h

theorem word_facts {k : K} {s : String} (hs : spell k = some s) {w : Str} {a : Action} (hw : wordB k = some (w, a)) :
    ascii s = w ∧ (∃ d u, w = d :: u ∧ d ≠ 35) ∧ (∀ c, goesOn w c = true → Follows (.p k) w c) ∧
    ((isTag (.p k) = false ∧ ∃ n, a = .ret n ∧ tokNames.lookup n = some k) ∨
     (isTag (.p k) = true ∧ ∃ n, a = .beginCompound n ∧ tokNames.lookup n = some k)) := by
  have h := entryOk_all k
  unfold entryOk at h
  rw [hw] at h
  simp only [Bool.and_eq_true, decide_eq_true_eq] at h
  obtain ⟨⟨⟨⟨⟨⟨h1, h2⟩, h3⟩, h4⟩, h5⟩, h6⟩, h7⟩ := h
  rw [hs, Option.map_some, Option.some.injEq] at h1
  obtain ⟨d, u, rfl⟩ : ∃ d u, w = d :: u := by
    cases w with
    | nil => cases h2
    | cons d u => exact ⟨d, u, rfl⟩
  refine ⟨h1, ⟨d, u, rfl, by simpa using h3⟩, ?_, ?_⟩
  · intro c hc
    unfold goesOn at hc
    dsimp only at hc
    simp only [List.head?_cons] at h4
    by_cases hL : isL d = true
    · rw [if_pos hL] at hc
      refine .inl ?_
      unfold Extends
      simp only [List.head?_cons]
      rw [if_pos (show CText.isLetter d = true from hL)]
      exact .inl hc
    · rw [if_neg hL] at hc
      simp only [Bool.or_eq_true, Bool.and_eq_true] at hc
      rcases hc with (hc | ⟨hc, hd⟩) | ⟨hc, hd⟩
      · refine .inl ?_
        unfold Extends
        simp only [List.head?_cons]
        have hD : ¬ CText.isDigit d = true ∧ ¬ (d = 34 ∨ d = 39) := by
          have : ¬ (isD d = true) ∧ d ≠ 34 ∧ d ≠ 39 := by
            simpa [hL, not_or, and_assoc] using h4
          exact ⟨this.1, by simp [this.2.1, this.2.2]⟩
        rw [if_neg (show ¬ CText.isLetter d = true from hL), if_neg hD.1, if_neg hD.2]
        exact .inl (mem_succs (by simpa using hc))
      · refine .inr (.inl ⟨?_, hd⟩)
        rw [show (d :: u) = [45] by simpa using hc] at h5
        simp only [bne_self_eq_false, Bool.false_or, beq_iff_eq] at h5
        rw [h5]
      · refine .inr (.inr ⟨?_, by simpa using hd⟩)
        rw [show (d :: u) = [60] by simpa using hc] at h6
        simp only [bne_self_eq_false, Bool.false_or, beq_iff_eq] at h6
        rw [h6]
  · cases a <;> simp only [Bool.and_eq_true, Bool.not_eq_true', beq_iff_eq, Bool.false_eq_true] at h7
    · exact .inl ⟨h7.1, _, rfl, h7.2⟩
    · exact .inr ⟨h7.1, _, rfl, h7.2⟩

/-- words the lexer has a token for -/
theorem wordB_some {k : K} (h : dropped k = false) : ∃ w a, wordB k = some (w, a) := by
  cases k <;> first | exact ⟨_, _, rfl⟩ | cases h

theorem next_wordB (tg : Target) (T : Str → Bool) (s : Str) {k : K} {sp : String} (hs : spell k = some sp) (hd : dropped k = false)
    (hf : ∀ c, s.head? = some c → ¬ Follows (.p k) (ascii sp) c) :
    ∃ t, ofTok t = some (.p k) ∧ ∀ b,
      next tg T ⟨.initial, b⟩ (ascii sp ++ s) = .tok t ⟨if isTag (.p k) then .compound else .initial, b⟩ s := by
  obtain ⟨w, a, hw⟩ := wordB_some hd
  obtain ⟨rfl, ⟨d, u, e, h35⟩, h3, h4⟩ := word_facts hs hw
  have hok := wordOk'_all k
  unfold wordOk' at hok
  rw [hw] at hok
  simp only [wordOk, Bool.and_eq_true, decide_eq_true_eq, List.all_eq_true, List.mem_range] at hok
  have hn : ∀ b, next tg T ⟨.initial, b⟩ (ascii sp ++ s) = act T ⟨.initial, b⟩ a (ascii sp) s := by
    intro b
    refine next_word ?_ ?_ ?_
    · show pick .initial _ _ = _
      rw [e, pick_base h35, ← e]
      exact hok.1
    · rw [e]; simp
    · intro c hc
      rw [e]
      refine stops_of_live h35 ?_
      rw [← e]
      intro r hr
      have := hok.2 c.toNat (UInt8.toNat_lt c)
      rw [UInt8.ofNat_toNat, Bool.or_eq_true, List.all_eq_true] at this
      rcases this with h | h
      · exact absurd (h3 c h) (hf c hc)
      · exact h r hr
  rcases h4 with ⟨h4, n, rfl, hn'⟩ | ⟨h4, n, rfl, hn'⟩
  · exact ⟨.tok n, by simp [ofTok, hn'], fun b => by rw [hn b]; simp [act, h4]⟩
  · exact ⟨.tok n, by simp [ofTok, hn'], fun b => by rw [hn b]; simp [act, h4]⟩

/-! ## Blanks -/

def isEps : Re → Bool
  | .eps => true
  | _ => false

theorem deriv_isEps {r : Re} (c : Byte) (h : isEps r = true) : (r.deriv c).isNone = true := by
  cases r <;> first | rfl | cases h

/-- a byte that is skipped: by the rules for blanks, or because no rule begins with it -/
def skips (m : Mode) (c : Byte) : Bool :=
  decide (c ≠ 35) &&
  ((decide (pick m [c] base = some (1, .skip)) && (live m [c]).all isEps) ||
   base.all fun r => !decide (m ∈ r.modes) || (r.re.deriv c).isNone)

theorem skips_spaces : ∀ m ∈ [Mode.initial, .compound], ∀ c ∈ ([32, 9, 10, 11, 12, 13] : List Byte), skips m c = true := by decide +kernel

theorem mem_spaces {c : Byte} (h : isSpace c = true) : c ∈ ([32, 9, 10, 11, 12, 13] : List Byte) := by
  simp only [isSpace, Bool.or_eq_true, beq_iff_eq] at h
  simp only [List.mem_cons, List.not_mem_nil, or_false]
  tauto

theorem pick_none (m : Mode) : ∀ rs : List Rule, pick m [] rs = none
  | [] => rfl
  | r :: rs => by
    rw [pick, pick_none m rs]
    have : (if m ∈ r.modes then r.re.longest [] else none) = none ∨ (if m ∈ r.modes then r.re.longest [] else none) = some 0 := by
      unfold Re.longest
      split <;> [split; skip] <;> simp
    rcases this with h | h <;> rw [h]

theorem next_space (tg : Target) (T : Str → Bool) {m : Mode} (hm : m ∈ [Mode.initial, .compound]) (b s : Str) {c : Byte}
    (hc : isSpace c = true) : next tg T ⟨m, b⟩ (c :: s) = .skip ⟨m, b⟩ s := by
  have h := skips_spaces m hm c (mem_spaces hc)
  simp only [skips, Bool.and_eq_true, Bool.or_eq_true, decide_eq_true_eq] at h
  obtain ⟨h35, h | h⟩ := h
  · rw [show c :: s = [c] ++ s from rfl, next_word (a := .skip) (w := [c]) ?_ (by simp) ?_]
    · rfl
    · show pick m _ _ = _
      rw [pick_base h35]
      exact h.1
    · intro d _
      exact stops_of_live h35 fun r hr => deriv_isEps d (List.all_eq_true.mp h.2 r hr)
  · have hp : pick m (c :: s) (rules tg) = none := by
      rw [pick_base h35, show c :: s = [] ++ c :: s from rfl, pick_dead s (by exact h), pick_none]
    unfold next
    simp only [hp]

theorem lex_spaces {tg : Target} {T : Str → Bool} {m : Mode} (hm : m ∈ [Mode.initial, .compound]) {b s : Str} {ts : List Tok} {ok : Option Mode}
    (h : Lex tg T ⟨m, b⟩ s ts ok) : ∀ {sp : Str}, (∀ c ∈ sp, isSpace c = true) → Lex tg T ⟨m, b⟩ (sp ++ s) ts ok
  | [], _ => h
  | c :: sp, hs => .skip (next_space tg T hm b _ (hs c (by simp))) (lex_spaces hm h fun d hd => hs d (by simp [hd]))

/-! ## After `struct` and `union` -/

theorem next_brace (tg : Target) (T : Str → Bool) (b s : Str) :
    next tg T ⟨.compound, b⟩ ([123] ++ s) = .tok (.tok "{") ⟨.initial, b⟩ s := by
  rw [next_word (a := .structBrace) (w := [123]) ?_ (by simp) ?_]
  · rfl
  · show pick .compound _ _ = _
    rw [pick_base (by decide)]
    decide +kernel
  · intro d _
    have h : (live .compound [123]).all isEps = true := by decide +kernel
    exact stops_of_live (by decide) fun r hr => deriv_isEps d (List.all_eq_true.mp h r hr)

theorem cands_tag (tg : Target) (c : Byte) (hc : isL c = true) : ∀ i ∈ cands .compound tg c, i = 35 := by
  revert hc
  cases tg
  · exact byte_all (P := fun c => isL c = true → ∀ i ∈ cands .compound .repl c, i = 35) (by decide +kernel) c
  · exact byte_all (P := fun c => isL c = true → ∀ i ∈ cands .compound .cscript c, i = 35) (by decide +kernel) c

theorem rule35 (tg : Target) : (rules tg)[35]? = some ⟨[.compound], identRe, .structId⟩ := by cases tg <;> rfl

theorem next_tag (tg : Target) (T : Str → Bool) (b : Str) {x s : Str} (hx : ∃ c u, x = c :: u ∧ isL c = true ∧ ∀ d ∈ u, isLD d = true)
    (he : ∀ c, s.head? = some c → isLD c = false) :
    next tg T ⟨.compound, b⟩ (x ++ s) = .tok (.ident x) ⟨.initial, b⟩ s := by
  obtain ⟨c, u, hcu, hc, hu⟩ := hx
  refine next_of_chosen (st := ⟨.compound, b⟩) (r := ⟨[.compound], identRe, .structId⟩)
    (chosen_at (rule35 tg) (List.prefix_append _ _) ⟨by simp, ident_iff.mpr ⟨c, u, hcu, hc, hu⟩, by rw [hcu]; simp⟩ ?_)
  intro i r' w' hi hw' ha
  cases w' with
  | nil => exact absurd rfl ha.2.2
  | cons d w' =>
    have hd : d = c := by
      rw [hcu] at hw'
      exact (List.cons_prefix_cons.mp hw').1
    subst hd
    obtain rfl := cands_tag tg d hc i (mem_cands hi ha)
    rw [rule35] at hi
    cases hi
    refine ⟨(prefix_le he hw' ?_).length_le, fun h => absurd h (Nat.lt_irrefl _)⟩
    obtain ⟨c, u, e, h1, h2⟩ := ident_iff.mp ha.2.1
    rw [e]
    intro d hd
    rcases List.mem_cons.mp hd with rfl | hd
    · simp [isLD, h1]
    · exact h2 d hd

instance (t : Parser.T) (w : Str) (c : Byte) : Decidable (Follows t w c) := by unfold Follows; infer_instance

/-- what may follow `struct` and `union` -/
theorem tag_ends {k : K} {w : String} (ht : isTag (.p k) = true) (hk : spell k = some w) {d : Byte}
    (hd : d ∈ ([32, 9, 10, 11, 12, 13, 123] : List Byte)) : ¬ Follows (.p k) (ascii w) d := by
  have key : ∀ d ∈ ([32, 9, 10, 11, 12, 13, 123] : List Byte),
      ¬ Follows (.p .struct) (ascii "struct") d ∧ ¬ Follows (.p .union) (ascii "union") d := by decide +kernel
  cases k <;> try cases ht
  · cases hk; exact (key d hd).1
  · cases hk; exact (key d hd).2

theorem tag_dropped {k : K} (h : isTag (.p k) = true) : dropped k = false := by
  cases k <;> first | rfl | cases h

theorem lex_tag {tg : Target} {T : Str → Bool} {k : K} {w : String} (ht : isTag (.p k) = true) (hk : spell k = some w) {s : Str}
    (hf : ∀ d, s.head? = some d → ¬ Follows (.p k) (ascii w) d) {ts : List Parser.T} {toks : List Tok}
    (h1 : toks.map ofTok = ts.map some) (h2 : ∀ b, Lex tg T ⟨.compound, b⟩ s toks (some .initial)) :
    ∃ toks, toks.map ofTok = (.p k :: ts).map some ∧ ∀ b, Lex tg T ⟨.initial, b⟩ (ascii w ++ s) toks (some .initial) := by
  obtain ⟨t, h3, h4⟩ := next_wordB tg T s hk (tag_dropped ht) hf
  refine ⟨t :: toks, by rw [List.map_cons, List.map_cons, h3, h1], fun b => .tok (h4 b) ?_⟩
  rw [if_pos ht]
  exact h2 b

/-! ## Names -/

theorem reserved_split : ∀ y ∈ reserved, y ∈ CText.keywords.map ascii ∨ y = ascii "inline__" ∨ [95, 95] <+: y ∨ [95, 78] <+: y := by
  decide +kernel

theorem IsName.name {x : Str} (h : IsName x) (hi : x ≠ ascii "inline__") : Name x := by
  refine ⟨h.shape, fun hr => ?_⟩
  rcases reserved_split x hr with hr | hr | ⟨t, rfl⟩ | ⟨t, rfl⟩
  · exact h.free hr
  · exact hi hr
  · exact h.unreserved t rfl
  · exact h.unreserved' 78 t rfl (by decide)

theorem IsName.ends {x s : Str} (h : IsName x) (he : ∀ c, s.head? = some c → ¬ Extends x c) : EndsName x s := by
  obtain ⟨c, u, rfl, hc, hu⟩ := h.shape
  refine ⟨fun d hd => ?_, fun e h39 => ?_⟩
  · have := he d hd
    unfold Extends at this
    simp only [List.head?_cons, hc, if_true, not_or] at this
    exact Bool.eq_false_iff.mpr this.1
  · refine he 39 h39 ?_
    unfold Extends
    simp only [List.head?_cons, hc, if_true]
    rw [e]
    exact .inr ⟨by decide +kernel, by simp⟩

/-! ## Numbers -/

/-- what follows a number -/
theorem ends_number {w s : Str} {d : Byte} {u : Str} (hw : w = d :: u) (hd : isD d = true)
    (he : ∀ c, s.head? = some c → ¬ Extends w c) : Ends s := by
  intro c hc
  have := he c hc
  unfold Extends at this
  rw [hw] at this
  have hl : CText.isLetter d = false := digit_not_L d hd
  simp only [List.head?_cons, hl, Bool.false_eq_true, if_false, if_pos (show CText.isDigit d = true from hd), not_or] at this
  obtain ⟨h1, h2, -⟩ := this
  have h1' : isLD c = false := Bool.eq_false_iff.mpr h1
  unfold isLD at h1'
  rw [Bool.or_eq_false_iff] at h1'
  exact ⟨h1'.1, h1'.2, h2⟩

theorem foldl_digits (b : Nat) (f : Byte → Nat) (p : Byte → Bool) (hp : ∀ c, p c = true → digit c = f c) (ds : Str) :
    ∀ n, (∀ c ∈ ds, p c = true) → ds.foldl (fun n c => n * b + digit c) n = ds.foldl (fun n c => b * n + f c) n := by
  induction ds with
  | nil => intros; rfl
  | cons c ds ih =>
    intro n hd
    rw [List.foldl_cons, List.foldl_cons, hp c (hd c (by simp)), Nat.mul_comm n b]
    exact ih _ fun d h => hd d (by simp [h])

theorem digit_dec (c : Byte) (h : isD c = true) : digit c = c.toNat - 48 := by
  unfold digit
  rw [if_pos h]

theorem int10_dec {ds : Str} (hd : Digits ds) : int10 ds = (CText.decVal ds : Int) := by
  obtain ⟨c, l, rfl, hc⟩ := hd.cons
  have h45 : c ≠ 45 := by rintro rfl; exact absurd hc (by decide)
  have : natOf 10 (c :: l) = CText.decVal (c :: l) := foldl_digits 10 _ isD digit_dec (c :: l) 0 hd.2
  rw [← this]
  unfold int10
  split
  · rename_i h
    simp only [List.cons.injEq] at h
    exact absurd h.1 h45
  · rfl

theorem hex_iff {w : Str} : Matches hexRe w ↔ ∃ ds, w = 48 :: 120 :: ds ∧ ds ≠ [] ∧ ∀ c ∈ ds, isX c = true := by
  constructor
  · intro h
    obtain ⟨u, v, rfl, h1, h2⟩ := seq_iff.mp h
    rw [litS_iff.mp h1]
    exact ⟨v, rfl, plus_cls.mp h2⟩
  · rintro ⟨ds, rfl, h⟩
    exact seq_iff.mpr ⟨[48, 120], ds, rfl, litS_iff.mpr (by decide +kernel), plus_cls.mpr h⟩

theorem chosen_hex (tg : Target) {ds s : Str} (hne : ds ≠ []) (hd : ∀ c ∈ ds, isX c = true) (he : Ends s) :
    Chosen .initial ((48 :: 120 :: ds) ++ s) (rules tg) (48 :: 120 :: ds) ⟨[.initial], hexRe, .int0⟩ := by
  refine chosen_at (rule47 tg) (List.prefix_append _ _) ⟨by simp, hex_iff.mpr ⟨ds, rfl, hne, hd⟩, by simp⟩ ?_
  intro i r' w' hi hw' ha
  cases w' with
  | nil => exact absurd rfl ha.2.2
  | cons c w' =>
    obtain ⟨rfl, hw2⟩ := List.cons_prefix_cons.mp hw'
    have hi3 := cands_digit tg 48 (by decide) i (mem_cands hi ha)
    simp only [List.mem_cons, List.not_mem_nil, or_false] at hi3
    -- the digits before the `x` are the 0
    have zero : ∀ d1 v, Digits d1 → 48 :: w' = d1 ++ v → d1 = [48] := by
      rintro d1 v hd1 e
      obtain ⟨c, l, rfl, -⟩ := hd1.cons
      simp only [List.cons_append, List.cons.injEq] at e
      obtain ⟨rfl, rfl⟩ := e
      cases l with
      | nil => rfl
      | cons e l =>
        obtain ⟨rfl, -⟩ := List.cons_prefix_cons.mp hw2
        exact absurd (hd1.2 120 (by simp)) (by decide)
    rcases hi3 with rfl | rfl | rfl
    · rw [rule45] at hi
      cases hi
      obtain ⟨es, h1 | h1, h2⟩ := int_iff.mp ha.2.1
      · have := zero es [] h2 (by rw [List.append_nil]; exact h1)
        rw [h1, this]
        refine ⟨by simp, fun _ e => ?_⟩
        simp at e
      · cases h1
    · rw [rule46] at hi
      cases hi
      obtain ⟨d1, d2, h1 | h1, h2⟩ := float_shape ha.2.1
      · have := zero d1 _ h2 h1
        subst this
        simp only [List.cons_append, List.nil_append, List.cons.injEq, true_and] at h1
        subst h1
        obtain ⟨h, -⟩ := List.cons_prefix_cons.mp hw2
        cases h
      · cases h1
    · rw [rule47] at hi
      cases hi
      obtain ⟨es, h1, -, h2⟩ := hex_iff.mp ha.2.1
      simp only [List.cons.injEq, true_and] at h1
      subst h1
      obtain ⟨-, hw3⟩ := List.cons_prefix_cons.mp hw2
      have hX : ∀ c, s.head? = some c → isX c = false := by
        intro c hc
        obtain ⟨h1, h2, -⟩ := he c hc
        revert h1 h2
        exact byte_all (P := fun c => isL c = false → isD c = false → isX c = false) (by decide +kernel) c
      have := (prefix_le hX hw3 h2).length_le
      exact ⟨by simpa using this, fun h => absurd h (by decide)⟩

theorem digit_hex (c : Byte) (h : isX c = true) : digit c = Spec.hexDigit c := by
  revert h
  exact byte_all (P := fun c => isX c = true → digit c = Spec.hexDigit c) (by decide +kernel) c

theorem next_hex (tg : Target) (T : Str → Bool) (b : Str) {ds s : Str} (hne : ds ≠ []) (hd : ∀ c ∈ ds, isX c = true) (he : Ends s) :
    next tg T ⟨.initial, b⟩ ((48 :: 120 :: ds) ++ s) = .tok (.integer (Spec.hexVal ds)) ⟨.initial, b⟩ s := by
  rw [next_of_chosen (st := ⟨.initial, b⟩) (chosen_hex tg hne hd he)]
  have : natOf 16 ds = Spec.hexVal ds := foldl_digits 16 _ isX digit_hex ds 0 hd
  simp [act, this]

theorem float_iff {w : Str} : Matches floatRe w ↔ ∃ d1 d2, (w = d1 ++ 46 :: d2 ∨ w = 45 :: (d1 ++ 46 :: d2)) ∧ Digits d1 ∧ Digits d2 := by
  constructor
  · intro h
    obtain ⟨u, v, rfl, h1, h2⟩ := seq_iff.mp h
    obtain ⟨d1, v, rfl, h3, h4⟩ := seq_iff.mp h2
    obtain ⟨e, d2, rfl, h5, h6⟩ := seq_iff.mp h4
    rw [chr_iff.mp h5]
    refine ⟨d1, d2, ?_, plus_cls.mp h3, plus_cls.mp h6⟩
    rcases opt_iff.mp h1 with h | rfl
    · right; rw [chr_iff.mp h]; rfl
    · left; rfl
  · rintro ⟨d1, d2, h, h1, h2⟩
    have key : Matches (.seq (plus (.cls isD)) (.seq (chr 46) (plus (.cls isD)))) (d1 ++ 46 :: d2) :=
      seq_iff.mpr ⟨d1, 46 :: d2, rfl, plus_cls.mpr h1, seq_iff.mpr ⟨[46], d2, rfl, chr_iff.mpr rfl, plus_cls.mpr h2⟩⟩
    rcases h with rfl | rfl
    · exact seq_iff.mpr ⟨[], _, rfl, opt_iff.mpr (.inr rfl), key⟩
    · exact seq_iff.mpr ⟨[45], _, rfl, opt_iff.mpr (.inl (chr_iff.mpr rfl)), key⟩

theorem next_float (tg : Target) (T : Str → Bool) (b : Str) {d1 d2 s : Str} (h1 : Digits d1) (h2 : Digits d2) (he : Ends s) :
    next tg T ⟨.initial, b⟩ ((d1 ++ 46 :: d2) ++ s) = .tok (.floatCst (d1 ++ 46 :: d2)) ⟨.initial, b⟩ s := by
  refine next_of_chosen (st := ⟨.initial, b⟩) (r := ⟨[.initial], floatRe, .float⟩)
    (chosen_at (rule46 tg) (List.prefix_append _ _) ⟨by simp, float_iff.mpr ⟨d1, d2, .inl rfl, h1, h2⟩, by simp⟩ ?_)
  intro i r' w' hi hw' ha
  obtain ⟨c0, l0, hd1, hc0⟩ := h1.cons
  have hw1 : w' <+: d1 ++ (46 :: d2 ++ s) := by rw [List.append_assoc] at hw'; exact hw'
  have h46 : ∀ c, (46 :: d2 ++ s : Str).head? = some c → isD c = false := by
    intro c hc
    simp only [List.cons_append, List.head?_cons, Option.some.injEq] at hc
    subst hc
    decide
  have hc : ∀ c l, w' = c :: l → isD c = true := by
    rintro c l rfl
    rw [hd1] at hw1
    obtain ⟨rfl, -⟩ := List.cons_prefix_cons.mp hw1
    exact hc0
  have hi3 : i ∈ [45, 46, 47] := by
    cases w' with
    | nil => exact absurd rfl ha.2.2
    | cons c w' => exact cands_digit tg c (hc c w' rfl) i (mem_cands hi ha)
  simp only [List.mem_cons, List.not_mem_nil, or_false] at hi3
  rcases hi3 with rfl | rfl | rfl
  · rw [rule45] at hi
    cases hi
    obtain ⟨es, e | e, h3⟩ := int_iff.mp ha.2.1
    · rw [e] at hw1 ⊢
      have := (prefix_le h46 hw1 h3.2).length_le
      have hlt : es.length < (d1 ++ 46 :: d2).length := by
        rw [List.length_append, List.length_cons]
        omega
      exact ⟨Nat.le_of_lt hlt, fun _ e => absurd (congrArg List.length e) (Nat.ne_of_lt hlt)⟩
    · exact absurd (hc 45 es e) (by decide)
  · rw [rule46] at hi
    cases hi
    obtain ⟨e1, e2, e | e, h3, h4⟩ := float_iff.mp ha.2.1
    · rw [e] at hw1 ⊢
      obtain ⟨rfl, h5⟩ := class_split (p := isD) h3.2 (by decide) h1.2 h46 hw1
      have h6 : e2 <+: d2 ++ s := (List.cons_prefix_cons.mp h5).2
      have := (prefix_le (fun c hc => (he c hc).2.1) h6 h4.2).length_le
      refine ⟨?_, fun h => absurd h (Nat.lt_irrefl _)⟩
      rw [List.length_append, List.length_append, List.length_cons, List.length_cons]
      omega
    · exact absurd (hc 45 _ e) (by decide)
  · rw [rule47] at hi
    cases hi
    obtain ⟨v, e⟩ := hex_shape ha.2.1
    rw [e] at hw1
    obtain ⟨-, h5⟩ := class_split (p := isD) (u := [48]) (v := v) (by decide) (by decide) h1.2 h46 hw1
    obtain ⟨h, -⟩ := List.cons_prefix_cons.mp h5
    cases h

end Bic.Lexer
