import Verif.Proofs.Text
/-!
# C80, C81: from the text to the tokens
-/

namespace Bic.Lexer
open Bic.Parser (K tokNames ofTok)
open CText (IsName Extends isSpace isTag spell ascii IntConst Spells Text CText decVal)
open Spec (Piece Literal)

/-! ## C80: integer constants -/

/-- C80: an integer constant of C has its value, whatever follows that is not part of it. -/
def C80_statement : Prop :=
  ∀ (tg : Target) (ty : Str → Bool) (b w s : Str) (n : Nat), IntConst w n → (∀ c, s.head? = some c → ¬ Extends w c) →
    next tg ty ⟨.initial, b⟩ (w ++ s) = .tok (.integer n) ⟨.initial, b⟩ s

/-- C80, partly: a decimal constant, whose first digit is not 0 or which is 0, has its value. -/
theorem C80_decimal_partial (tg : Target) (ty : Str → Bool) (b : Str) {ds s : Str} (hd : CText.Digits ds)
    (hs : ∀ c, s.head? = some c → ¬ Extends ds c) :
    next tg ty ⟨.initial, b⟩ (ds ++ s) = .tok (.integer (decVal ds)) ⟨.initial, b⟩ s := by
  have hd' : Digits ds := hd
  obtain ⟨c, l, e, hc⟩ := hd'.cons
  rw [next_int tg ty b hd' (ends_number e hc hs) (.inl rfl), int10_dec hd']

/-- C80, partly: a hexadecimal constant after `0x` has its value. -/
theorem C80_hex_partial (tg : Target) (ty : Str → Bool) (b : Str) {ds s : Str} (hne : ds ≠ [])
    (hd : ∀ c ∈ ds, Spec.isHexDigit c = true) (hs : ∀ c, s.head? = some c → ¬ Extends (48 :: 120 :: ds) c) :
    next tg ty ⟨.initial, b⟩ (48 :: 120 :: ds ++ s) = .tok (.integer (Spec.hexVal ds)) ⟨.initial, b⟩ s := by
  refine next_hex tg ty b hne (fun c hc => ?_) (ends_number rfl (by decide) hs)
  have := hd c hc
  revert this
  exact byte_all (P := fun c => Spec.isHexDigit c = true → isX c = true) (by decide +kernel) c

/-- C80, where it fails: an octal constant is read as a decimal one. -/
theorem C80_octal (tg : Target) (ty : Str → Bool) (b : Str) {ds s : Str} (hd : ∀ c ∈ ds, Spec.isOctDigit c = true)
    (hs : ∀ c, s.head? = some c → ¬ Extends (48 :: ds) c) :
    next tg ty ⟨.initial, b⟩ (48 :: ds ++ s) = .tok (.integer (decVal ds)) ⟨.initial, b⟩ s := by
  have hd' : CText.Digits (48 :: ds) := by
    refine ⟨by simp, fun c hc => ?_⟩
    rcases List.mem_cons.mp hc with rfl | hc
    · decide
    · have := hd c hc
      revert this
      exact byte_all (P := fun c => Spec.isOctDigit c = true → CText.isDigit c = true) (by decide +kernel) c
  have h := C80_decimal_partial tg ty b hd' hs
  rwa [show decVal (48 :: ds) = decVal ds from rfl] at h

/-- C80, where it fails: the letters after a decimal constant, such as a suffix, do not belong to it. -/
theorem C80_suffix (tg : Target) (ty : Str → Bool) (b : Str) {ds s : Str} {x : Byte} (hd : CText.Digits ds)
    (hx : x ∈ ([117, 85, 108, 76] : List Byte)) :
    next tg ty ⟨.initial, b⟩ (ds ++ x :: s) = .tok (.integer (decVal ds)) ⟨.initial, b⟩ (x :: s) := by
  have hd' : Digits ds := hd
  rw [← int10_dec hd']
  refine next_of_chosen (st := ⟨.initial, b⟩) (r := ⟨[.initial], intRe, .int10⟩)
    (chosen_at (rule45 tg) (List.prefix_append _ _) ⟨by simp, int_iff.mpr ⟨ds, .inl rfl, hd'⟩, hd'.1⟩ ?_)
  intro i r' w' hi hw' ha
  obtain ⟨c0, l0, hds, hc0⟩ := hd'.cons
  have hx' : isD x = false ∧ x ≠ 46 ∧ x ≠ 120 := by
    simp only [List.mem_cons, List.not_mem_nil, or_false] at hx
    rcases hx with rfl | rfl | rfl | rfl <;> decide
  have hend : ∀ c, (x :: s).head? = some c → isD c = false := by
    intro c hc
    cases hc
    exact hx'.1
  have hc : ∀ c l, w' = c :: l → isD c = true := by
    rintro c l rfl
    rw [hds] at hw'
    obtain ⟨rfl, -⟩ := List.cons_prefix_cons.mp hw'
    exact hc0
  have hi3 : i ∈ [45, 46, 47] := by
    cases w' with
    | nil => exact absurd rfl ha.2.2
    | cons c w' => exact cands_digit tg c (hc c w' rfl) i (mem_cands hi ha)
  simp only [List.mem_cons, List.not_mem_nil, or_false] at hi3
  rcases hi3 with rfl | rfl | rfl
  · rw [rule45] at hi
    cases hi
    obtain ⟨es, h1 | h1, h2⟩ := int_iff.mp ha.2.1
    · rw [h1] at hw' ⊢
      exact ⟨(prefix_le hend hw' h2.2).length_le, fun h => absurd h (Nat.lt_irrefl _)⟩
    · exact absurd (hc 45 es h1) (by decide)
  · rw [rule46] at hi
    cases hi
    obtain ⟨d1, d2, h1 | h1, h2⟩ := float_shape ha.2.1
    · rw [h1] at hw'
      obtain ⟨-, h⟩ := class_split (p := isD) h2.2 (by decide) hd'.2 hend hw'
      exact absurd (List.cons_prefix_cons.mp h).1.symm hx'.2.1
    · exact absurd (hc 45 _ h1) (by decide)
  · rw [rule47] at hi
    cases hi
    obtain ⟨v, rfl⟩ := hex_shape ha.2.1
    obtain ⟨-, h⟩ := class_split (p := isD) (u := [48]) (v := v) (by decide) (by decide) hd'.2 hend hw'
    exact absurd (List.cons_prefix_cons.mp h).1.symm hx'.2.2

/-- C80 is false: `010` is 10. -/
theorem C80_refuted : ¬ C80_statement := by
  intro h
  have h1 := h .repl (fun _ => false) [] [48, 49, 48] [] 8 (.oct (ds := [49, 48]) (x := "") (by decide) (by decide)) (by simp)
  have h2 := C80_octal .repl (fun _ => false) [] (ds := [49, 48]) (s := []) (by decide) (by simp)
  rw [show ([48, 49, 48] ++ [] : Str) = 48 :: [49, 48] ++ [] from rfl, h2] at h1
  exact absurd h1 (by decide)

/-- C80 for `0x7Ff)` and `250;` -/
example : next .cscript (fun _ => false) start (bytes "0x7Ff)") = .tok (.integer 2047) start (bytes ")") :=
  C80_hex_partial .cscript (fun _ => false) [] (ds := bytes "7Ff") (s := bytes ")") (by decide +kernel) (by decide +kernel)
    (fun c hc => by cases hc; decide +kernel)

example : next .repl (fun _ => false) start (bytes "250;") = .tok (.integer 250) start (bytes ";") :=
  C80_decimal_partial .repl (fun _ => false) [] (ds := bytes "250") (s := bytes ";") (by unfold CText.Digits; decide +kernel)
    (fun c hc => by cases hc; decide +kernel)

/-! ## C81: texts -/

/-- C81: from a text of C the lexer reads its tokens, in their order, to the end. -/
def C81_statement : Prop :=
  ∀ (tg : Target) (ty : Str → Bool) (ts : List Parser.T) (s : Str), CText ty ts s →
    ∃ toks, toks.map ofTok = ts.map some ∧ ∀ b, Lex tg ty ⟨.initial, b⟩ s toks (some .initial)

/-- the spellings bic reads: all keywords but `const`, `restrict`, `volatile` and `inline`; all names but
`inline__`; constants as in C80 and C55, strings as in C54 -/
inductive Reads (ty : Str → Bool) : Parser.T → Str → Prop
  | word {k s} : spell k = some s → dropped k = false → Reads ty (.p k) (ascii s)
  | ident {x} : IsName x → x ≠ ascii "inline__" → ty x = false → Reads ty (.ident x) x
  | typeName {x} : IsName x → x ≠ ascii "inline__" → ty x = true → Reads ty (.typeName x) x
  | dec {ds} : CText.Digits ds → ds = [48] ∨ ds.head? ≠ some 48 → Reads ty (.integer (decVal ds)) ds
  | hex {ds} : ds ≠ [] → (∀ c ∈ ds, Spec.isHexDigit c = true) → Reads ty (.integer (Spec.hexVal ds)) (48 :: 120 :: ds)
  | char {p : Piece} : p.Ok 39 → (∃ c, p = .plain c) ∨ p = .simple 110 ∨ p = .simple 92 ∨ p = .simple 114 →
      Reads ty (.integer (Int.bmod p.val.toNat 256)) ([39] ++ p.text ++ [39])
  | float {a b} : CText.Digits a → CText.Digits b → Reads ty (.floatCst (a ++ [46] ++ b)) (a ++ [46] ++ b)
  | string {ps} : Literal 34 ps → (∀ p ∈ ps, Read p) → NoDigit ps → Reads ty (.string (Spec.vals ps)) ([34] ++ Spec.text ps ++ [34])

/-- these are spellings of C -/
theorem Reads.spells {ty : Str → Bool} {t : Parser.T} {w : Str} (h : Reads ty t w) : Spells ty t w := by
  cases h with
  | word h _ => exact .word h
  | ident h _ h' => exact .ident h h'
  | typeName h _ h' => exact .typeName h h'
  | dec h h' =>
    rcases h' with rfl | h'
    · exact .int (.oct (ds := []) (x := "") (by simp) (by decide))
    · have := IntConst.dec h h' (x := "") (by decide)
      rw [show w ++ ascii "" = w from List.append_nil w] at this
      exact .int this
  | @hex ds h h' =>
    have := IntConst.hex (p := 120) (.inl rfl) h h' (x := "") (by decide)
    rw [show 48 :: 120 :: ds ++ ascii "" = 48 :: 120 :: ds from List.append_nil _] at this
    exact .int this
  | char h _ => exact .char h
  | float h h' => exact .float h h'
  | string h _ _ => exact .string h

theorem text_mono {S S' : Parser.T → Str → Prop} {X X' : Parser.T → Str → Byte → Prop} (hS : ∀ t w, S t w → S' t w)
    (hX : ∀ t w c, X' t w c → X t w c) {ts : List Parser.T} {s : Str} (h : Text S X ts s) : Text S' X' ts s := by
  induction h with
  | nil => exact .nil
  | space h _ ih => exact .space h ih
  | tok h1 h2 h3 _ ih => exact .tok h1 (hS _ _ h2) (fun c hc hx => h3 c hc (hX _ _ _ hx)) ih
  | tag h1 h2 h3 h4 h5 h6 _ ih => exact .tag h1 h2 h3 h4 h5 h6 ih
  | anonymous h1 h2 h3 _ ih => exact .anonymous h1 h2 h3 ih

/-- the texts bic reads are texts of C -/
theorem C81_texts {ty : Str → Bool} {ts : List Parser.T} {s : Str} (h : Text (Reads ty) Follows ts s) : CText ty ts s :=
  text_mono (fun _ _ h => h.spells) (fun _ _ _ h => .inl h) h

/-- C81, partly: from a text the lexer reads its tokens if the text has none of the words it drops,
spells its constants and strings as above, and has no digit right after `-` and no `R` right after `<`. -/
theorem C81_tokens_partial (tg : Target) (ty : Str → Bool) {ts : List Parser.T} {s : Str} (h : Text (Reads ty) Follows ts s) :
    ∃ toks, toks.map ofTok = ts.map some ∧ ∀ b, Lex tg ty ⟨.initial, b⟩ s toks (some .initial) := by
  induction h with
  | nil => exact ⟨[], rfl, fun b => .eof rfl⟩
  | space hc _ ih =>
    obtain ⟨toks, h1, h2⟩ := ih
    exact ⟨toks, h1, fun b => .skip (next_space tg ty (by simp) b _ hc) (h2 b)⟩
  | @tok t w ts s htag hr hf _ ih =>
    obtain ⟨toks, h1, h2⟩ := ih
    have one : ∀ {t'}, ofTok t' = some t → (∀ b, next tg ty ⟨.initial, b⟩ (w ++ s) = .tok t' ⟨.initial, b⟩ s) →
        ∃ toks, toks.map ofTok = (t :: ts).map some ∧ ∀ b, Lex tg ty ⟨.initial, b⟩ (w ++ s) toks (some .initial) :=
      fun {t'} e hn => ⟨t' :: toks, by rw [List.map_cons, List.map_cons, e, h1], fun b => .tok (hn b) (h2 b)⟩
    have hf' : ∀ c, s.head? = some c → ¬ Extends w c := fun c hc h => hf c hc (.inl h)
    cases hr with
    | @word k sp hs hd =>
      obtain ⟨t', h3, h4⟩ := next_wordB tg ty s hs hd hf
      exact one h3 fun b => by rw [h4 b, htag]; rfl
    | ident hx hi ht =>
      refine one (t' := .ident w) rfl fun b => ?_
      rw [next_name tg ty b (IsName.name hx hi) (IsName.ends hx hf'), ht]
      rfl
    | typeName hx hi ht =>
      refine one (t' := .typeName w) rfl fun b => ?_
      rw [next_name tg ty b (IsName.name hx hi) (IsName.ends hx hf'), ht]
      rfl
    | dec hd _ => exact one rfl fun b => C80_decimal_partial tg ty b hd hf'
    | hex hne hd => exact one rfl fun b => C80_hex_partial tg ty b hne hd hf'
    | char hp hr => exact one rfl fun b => C55_value_partial tg ty b s _ hp hr
    | @float d1 d2 ha hb =>
      refine one (t' := .floatCst (d1 ++ [46] ++ d2)) rfl fun b => ?_
      obtain ⟨c, l, e, hc⟩ := Digits.cons (ds := d1) ha
      have e' : d1 ++ [46] ++ d2 = d1 ++ 46 :: d2 := by simp
      rw [e'] at hf' ⊢
      exact next_float tg ty b ha hb (ends_number (d := c) (u := l ++ 46 :: d2) (by rw [e]; rfl) hc hf')
    | string hl hread hnd =>
      exact ⟨.string _ :: toks, by rw [List.map_cons, List.map_cons, h1]; rfl,
        fun b => C54_bytes_partial tg ty b s _ toks (some .initial) hl hread hnd h2⟩
  | @tag k w sp x ts s htag hk hsp hall hx hs _ ih =>
    obtain ⟨toks, h1, h2⟩ := ih
    obtain ⟨c, l, e, hc⟩ : ∃ c l, sp = c :: l ∧ isSpace c = true := by
      cases sp with
      | nil => exact absurd rfl hsp
      | cons c l => exact ⟨c, l, rfl, hall c (by simp)⟩
    have hf : ∀ d, (sp ++ (x ++ s)).head? = some d → ¬ Follows (.p k) (ascii w) d := by
      intro d hd
      rw [e] at hd
      simp only [List.cons_append, List.head?_cons, Option.some.injEq] at hd
      subst hd
      exact tag_ends htag hk (List.mem_append_left [123] (mem_spaces hc))
    simp only [List.append_assoc]
    refine lex_tag htag hk hf (toks := .ident x :: toks) (ts := .ident x :: ts) ?_ fun b => ?_
    · rw [List.map_cons, List.map_cons, h1]; rfl
    · exact lex_spaces (by simp) (.tok (next_tag tg ty b hx.shape (IsName.ends hx hs).1) (h2 b)) hall
  | @anonymous k w sp ts s htag hk hall _ ih =>
    obtain ⟨toks, h1, h2⟩ := ih
    have hf : ∀ d, (sp ++ ([123] ++ s)).head? = some d → ¬ Follows (.p k) (ascii w) d := by
      intro d hd
      refine tag_ends htag hk ?_
      cases sp with
      | nil => cases hd; decide
      | cons c l =>
        simp only [List.cons_append, List.head?_cons, Option.some.injEq] at hd
        subst hd
        have := mem_spaces (hall c (by simp))
        simp only [List.mem_cons, List.not_mem_nil, or_false] at this ⊢
        tauto
    simp only [List.append_assoc]
    refine lex_tag htag hk hf (toks := .tok "{" :: toks) (ts := .p .lbrace :: ts) ?_ fun b => ?_
    · rw [List.map_cons, List.map_cons, h1]; rfl
    · exact lex_spaces (by simp) (.tok (next_brace tg ty b s) (h2 b)) hall

/-- C81, where it fails: the words `const`, `restrict`, `volatile` and `inline` are skipped. -/
theorem C81_dropped (tg : Target) (ty : Str → Bool) (b s : Str) {w : String} (hw : w ∈ ["const", "restrict", "volatile", "inline"])
    (hs : ∀ c, s.head? = some c → ¬ Extends (ascii w) c) :
    next tg ty ⟨.initial, b⟩ (ascii w ++ s) = .skip ⟨.initial, b⟩ s := by
  have hl : ∀ c, s.head? = some c → isLD c = false := by
    intro c hc
    have := hs c hc
    unfold Extends at this
    have hL : ∃ d u, ascii w = d :: u ∧ CText.isLetter d = true := by
      simp only [List.mem_cons, List.not_mem_nil, or_false] at hw
      rcases hw with rfl | rfl | rfl | rfl <;> exact ⟨_, _, rfl, by decide⟩
    obtain ⟨d, u, e, hd⟩ := hL
    rw [e] at this
    simp only [List.head?_cons, hd, if_true, not_or] at this
    exact Bool.eq_false_iff.mpr this.1
  have key : ∀ {d : Byte} {u : Str}, d ≠ 35 → wordOk (d :: u) .skip = true → isL d = true →
      next tg ty ⟨.initial, b⟩ (d :: u ++ s) = .skip ⟨.initial, b⟩ s := by
    intro d u h35 hok hL
    simp only [wordOk, Bool.and_eq_true, decide_eq_true_eq, List.all_eq_true, List.mem_range] at hok
    rw [next_word (a := .skip) ?_ (by simp) ?_]
    · rfl
    · show pick .initial _ _ = _
      rw [pick_base h35]
      exact hok.1
    · intro c hc
      refine stops_of_live h35 fun r hr => ?_
      have := hok.2 c.toNat (UInt8.toNat_lt c)
      rw [UInt8.ofNat_toNat, Bool.or_eq_true, List.all_eq_true] at this
      rcases this with h | h
      · simp [goesOn, hL, hl c hc] at h
      · exact h r hr
  simp only [List.mem_cons, List.not_mem_nil, or_false] at hw
  rcases hw with rfl | rfl | rfl | rfl
  · exact key (d := 99) (u := [111, 110, 115, 116]) (by decide) (by decide +kernel) (by decide)
  · exact key (d := 114) (u := [101, 115, 116, 114, 105, 99, 116]) (by decide) (by decide +kernel) (by decide)
  · exact key (d := 118) (u := [111, 108, 97, 116, 105, 108, 101]) (by decide) (by decide +kernel) (by decide)
  · exact key (d := 105) (u := [110, 108, 105, 110, 101]) (by decide) (by decide +kernel) (by decide)

/-- C81, where it fails: a `-` right before a decimal number is read as its sign, also where it is an operator. -/
theorem C81_sign (tg : Target) (ty : Str → Bool) (b : Str) {ds s : Str} (hd : CText.Digits ds)
    (hs : ∀ c, s.head? = some c → ¬ Extends ds c) :
    next tg ty ⟨.initial, b⟩ (45 :: ds ++ s) = .tok (.integer (-(decVal ds : Int))) ⟨.initial, b⟩ s := by
  have hd' : Digits ds := hd
  obtain ⟨c, l, e, hc⟩ := hd'.cons
  rw [next_int tg ty b hd' (ends_number e hc hs) (.inr rfl)]
  have := int10_dec hd'
  congr 2
  have h45 : int10 ds = natOf 10 ds := by
    rw [e]
    unfold int10
    split
    · rename_i h
      simp only [List.cons.injEq] at h
      rw [h.1] at hc
      exact absurd hc (by decide)
    · rfl
  rw [show int10 (45 :: ds) = -(natOf 10 ds : Int) from rfl, ← this, h45]

/-- C81 is false: `const` is no token. -/
theorem C81_refuted : ¬ C81_statement := by
  intro h
  obtain ⟨toks, h1, h2⟩ := h .repl (fun _ => false) [.p .const] (ascii "const" ++ [])
    (.tok rfl (.word rfl) (by simp) .nil)
  have h3 := Lex.skip (C81_dropped .repl (fun _ => false) [] [] (w := "const") (by decide) (by simp)) (.eof rfl)
  have := (Lex.unique (h2 []) h3).1
  subst this
  cases h1

/-! C81 for `if(x<=0x1F)x +='a'; ` and for `struct p{T q;}` where `T` is a type -/

def text81 : Str :=
  ascii "if" ++ (ascii "(" ++ ([120] ++ (ascii "<=" ++ ((48 :: 120 :: [49, 70]) ++ (ascii ")" ++ ([120] ++ (32 :: (ascii "+=" ++
    (([39] ++ (Piece.plain 97).text ++ [39]) ++ (ascii ";" ++ (32 :: [])))))))))))

theorem name_x : IsName [120] := ⟨⟨120, [], rfl, by decide, by simp⟩, by decide +kernel, by simp, by simp⟩

theorem isText81 : Text (Reads fun _ => false) Follows
    [.p .if_, .p .lparen, .ident [120], .p .le, .integer 31, .p .rparen, .ident [120], .p .addA, .integer 97, .p .semi] text81 := by
  refine .tok rfl (.word rfl rfl) (by decide +kernel) (.tok rfl (.word rfl rfl) (by decide +kernel) (.tok rfl (.ident name_x (by decide) rfl)
    (by decide +kernel) (.tok rfl (.word rfl rfl) (by decide +kernel) ?_)))
  refine .tok (t := .integer (Spec.hexVal [49, 70])) rfl (.hex (by simp) (by decide)) (by decide +kernel) (.tok rfl (.word rfl rfl) (by decide +kernel)
    (.tok rfl (.ident name_x (by decide) rfl) (by decide +kernel) (.space (by decide) (.tok rfl (.word rfl rfl) (by decide +kernel) ?_))))
  rw [show (Parser.T.integer 97) = .integer (Int.bmod (Piece.plain 97).val.toNat 256) by decide +kernel]
  exact .tok rfl (.char (by simp only [Piece.Ok]; decide) (.inl ⟨97, rfl⟩))
    (by decide +kernel) (.tok rfl (.word rfl rfl) (by decide +kernel) (.space (by decide) .nil))

example : text81 = ascii "if(x<=0x1F)x +='a'; " ∧ ∃ toks, toks.map ofTok =
    [.p .if_, .p .lparen, .ident [120], .p .le, .integer 31, .p .rparen, .ident [120], .p .addA, .integer 97, .p .semi].map some ∧
    ∀ b, Lex .repl (fun _ => false) ⟨.initial, b⟩ text81 toks (some .initial) :=
  ⟨by decide +kernel, C81_tokens_partial _ _ isText81⟩

def text81' : Str := ascii "struct" ++ [32] ++ [112] ++ (ascii "{" ++ ([84] ++ (32 :: ([113] ++ (ascii ";" ++ (ascii "}" ++ []))))))

theorem isText81' : Text (Reads fun x => x == [84]) Follows
    [.p .struct, .ident [112], .p .lbrace, .typeName [84], .ident [113], .p .semi, .p .rbrace] text81' := by
  refine .tag rfl rfl (by simp) (by decide) ⟨⟨112, [], rfl, by decide, by simp⟩, by decide +kernel, by simp, by simp⟩ (by decide +kernel) ?_
  refine .tok rfl (.word rfl rfl) (by decide +kernel) (.tok rfl (.typeName ⟨⟨84, [], rfl, by decide, by simp⟩, by decide +kernel, by simp, by simp⟩
    (by decide) rfl) (by decide +kernel) (.space (by decide) ?_))
  exact .tok rfl (.ident ⟨⟨113, [], rfl, by decide, by simp⟩, by decide +kernel, by simp, by simp⟩ (by decide) rfl) (by decide +kernel)
    (.tok rfl (.word rfl rfl) (by decide +kernel) (.tok rfl (.word rfl rfl) (by decide +kernel) .nil))

example : text81' = ascii "struct p{T q;}" ∧ ∃ toks, toks.map ofTok =
    [.p .struct, .ident [112], .p .lbrace, .typeName [84], .ident [113], .p .semi, .p .rbrace].map some ∧
    ∀ b, Lex .cscript (fun x => x == [84]) ⟨.initial, b⟩ text81' toks (some .initial) :=
  ⟨by decide +kernel, C81_tokens_partial _ _ isText81'⟩

end Bic.Lexer
