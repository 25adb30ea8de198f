import Verif.Proofs.Tokens
import Verif.Model.Yylex
import Verif.Spec.Text
/-!
# Keywords, punctuators and hexadecimal constants
-/

namespace Bic.Lexer
open Re
open Bic.Parser (K tokNames)

/-- what has to follow a text -/
def derivs : Re → Str → Re
  | r, [] => r
  | r, c :: s => derivs (r.deriv c) s

theorem longest_nil (s : Str) : Re.nil.longest s = none := by
  induction s with
  | nil => rfl
  | cons c s ih => simp only [Re.longest, Re.deriv, ih, Re.nullable]; rfl

theorem isNone_eq {r : Re} (h : r.isNone = true) : r = .nil := by
  cases r <;> first | rfl | cases h

/-- bytes after which nothing can match do not matter -/
theorem longest_dead {c : Byte} (rest : Str) : ∀ (w : Str) (r : Re), ((derivs r w).deriv c).isNone = true →
    r.longest (w ++ c :: rest) = r.longest w
  | [], r, h => by
    rw [List.nil_append]
    unfold Re.longest
    rw [show r.deriv c = .nil from isNone_eq h, longest_nil]
  | d :: w, r, h => by
    rw [List.cons_append]
    unfold Re.longest
    rw [longest_dead rest w (r.deriv d) h]

/-- no rule of the start condition goes on with `c` after `w` -/
def stops (m : Mode) (rs : List Rule) (w : Str) (c : Byte) : Bool :=
  rs.all fun r => !decide (m ∈ r.modes) || ((derivs r.re w).deriv c).isNone

theorem pick_dead {m : Mode} {w : Str} {c : Byte} (rest : Str) : ∀ {rs : List Rule}, stops m rs w c = true →
    pick m (w ++ c :: rest) rs = pick m w rs
  | [], _ => rfl
  | r :: rs, h => by
    unfold stops at h
    rw [List.all_cons, Bool.and_eq_true] at h
    unfold pick
    rw [pick_dead rest (rs := rs) h.2]
    by_cases hm : m ∈ r.modes
    · have h1 := h.1
      simp only [hm, decide_true, Bool.not_true, Bool.false_or] at h1
      rw [if_pos hm, if_pos hm, longest_dead rest w r.re h1]
    · rw [if_neg hm, if_neg hm]

/-- a word is matched whatever follows that does not go on with it -/
theorem next_word {tg : Target} {T : Str → Bool} {st : LSt} {w s : Str} {a : Action}
    (hp : pick st.mode w (rules tg) = some (w.length, a)) (hne : w ≠ [])
    (hs : ∀ c, s.head? = some c → stops st.mode (rules tg) w c = true) : next tg T st (w ++ s) = act T st a w s := by
  have hp' : pick st.mode (w ++ s) (rules tg) = some (w.length, a) := by
    cases s with
    | nil => rw [List.append_nil]; exact hp
    | cons c s => rw [pick_dead s (hs c rfl)]; exact hp
  cases hw : w with
  | nil => exact absurd hw hne
  | cons c w' =>
    rw [hw] at hp'
    unfold next
    simp only [List.cons_append] at hp' ⊢
    rw [hp']
    simp only
    rw [← List.cons_append, List.take_left, List.drop_left]

/-! ## The rules with their bytes -/

def ignoredB : List Rule :=
  [ignore (.seq (Re.lit [95, 95, 97, 116, 116, 114, 105, 98, 117, 116, 101, 95, 95]) (.seq blanks (.seq (Re.lit [40, 40]) (.seq anys (Re.lit [41, 41]))))),
   ignore (Re.lit [95, 78, 117, 108, 108, 97, 98, 108, 101]),
   ignore (Re.lit [95, 78, 111, 110, 110, 117, 108, 108]),
   ignore (.seq (opt (Re.lit [95, 95])) (Re.lit [114, 101, 115, 116, 114, 105, 99, 116])),
   ignore (.seq (Re.lit [95, 95, 97, 115, 109]) (.seq (opt (Re.lit [95, 95])) (.seq blanks (.seq (Re.lit [40]) (.seq anys (Re.lit [41])))))),
   ignore (Re.lit [95, 95, 101, 120, 116, 101, 110, 115, 105, 111, 110, 95, 95]),
   ignore (Re.lit [118, 111, 108, 97, 116, 105, 108, 101]),
   ignore (.seq (opt (Re.lit [95, 95])) (.seq (Re.lit [105, 110, 108, 105, 110, 101]) (opt (Re.lit [95, 95]))))]

def keywordsB : List Rule :=
  [⟨[.initial], Re.lit [97, 117, 116, 111], .ret "AUTO"⟩,
   ⟨[.initial], Re.lit [98, 114, 101, 97, 107], .ret "BREAK"⟩,
   ⟨[.initial], Re.lit [99, 97, 115, 101], .ret "CASE"⟩,
   ⟨[.initial], Re.lit [99, 104, 97, 114], .ret "CHAR"⟩,
   ⟨[.initial], Re.lit [60, 82, 69, 80, 76, 62], .ret "REPL"⟩,
   ignore (Re.lit [99, 111, 110, 115, 116]),
   ⟨[.initial], Re.lit [99, 111, 110, 116, 105, 110, 117, 101], .ret "CONTINUE"⟩,
   ⟨[.initial], Re.lit [100, 101, 102, 97, 117, 108, 116], .ret "DEFAULT"⟩,
   ⟨[.initial], Re.lit [100, 111], .ret "DO"⟩,
   ⟨[.initial], Re.lit [100, 111, 117, 98, 108, 101], .ret "DOUBLE"⟩,
   ⟨[.initial], Re.lit [101, 108, 115, 101], .ret "ELSE"⟩,
   ⟨[.initial], Re.lit [101, 110, 117, 109], .ret "ENUM"⟩,
   ⟨[.initial], Re.lit [101, 120, 116, 101, 114, 110], .ret "EXTERN"⟩,
   ⟨[.initial], Re.lit [102, 108, 111, 97, 116], .ret "FLOAT"⟩,
   ⟨[.initial], Re.lit [102, 111, 114], .ret "FOR"⟩,
   ⟨[.initial], Re.lit [103, 111, 116, 111], .ret "GOTO"⟩,
   ⟨[.initial], Re.lit [105, 102], .ret "IF"⟩,
   ⟨[.initial], Re.lit [105, 110, 116], .ret "INT"⟩,
   ⟨[.initial], Re.lit [95, 66, 111, 111, 108], .ret "BOOL"⟩,
   ⟨[.initial], Re.lit [108, 111, 110, 103], .ret "LONG"⟩,
   ⟨[.initial], Re.lit [114, 101, 103, 105, 115, 116, 101, 114], .ret "REGISTER"⟩,
   ⟨[.initial], Re.lit [114, 101, 116, 117, 114, 110], .ret "RETURN"⟩,
   ⟨[.initial], Re.lit [115, 104, 111, 114, 116], .ret "SHORT"⟩,
   ⟨[.initial], Re.lit [115, 105, 103, 110, 101, 100], .ret "SIGNED"⟩,
   ⟨[.initial], Re.lit [115, 105, 122, 101, 111, 102], .ret "SIZEOF"⟩,
   ⟨[.initial], Re.lit [115, 116, 97, 116, 105, 99], .ret "STATIC"⟩,
   ⟨[.initial], Re.lit [115, 116, 114, 117, 99, 116], .beginCompound "STRUCT"⟩,
   ⟨[.compound], identRe, .structId⟩,
   ⟨[.compound], Re.lit [123], .structBrace⟩,
   ⟨[.initial], Re.lit [115, 119, 105, 116, 99, 104], .ret "SWITCH"⟩,
   ⟨[.initial], Re.lit [116, 121, 112, 101, 100, 101, 102], .ret "TYPEDEF"⟩,
   ⟨[.initial], Re.lit [117, 110, 105, 111, 110], .beginCompound "UNION"⟩,
   ⟨[.initial], Re.lit [117, 110, 115, 105, 103, 110, 101, 100], .ret "UNSIGNED"⟩,
   ⟨[.initial], Re.lit [118, 111, 105, 100], .ret "VOID"⟩,
   ⟨[.initial], Re.lit [119, 104, 105, 108, 101], .ret "WHILE"⟩]

def valuesB : List Rule :=
  [⟨[.initial], identRe, .ident⟩,
   ⟨[.initial], intRe, .int10⟩,
   ⟨[.initial], floatRe, .float⟩,
   ⟨[.initial], hexRe, .int0⟩,
   ⟨[.initial], charRe, .char⟩,
   ⟨[.initial], chr 34, .strBegin⟩,
   ⟨[.strLit], .star (.cls isPlain), .strText⟩,
   ⟨[.strLit], Re.lit [92, 110], .strChar 10⟩,
   ⟨[.strLit], Re.lit [92, 116], .strChar 9⟩,
   ⟨[.strLit], .seq (chr 92) (.star (.cls isOct)), .strOct⟩,
   ⟨[.strLit], .seq (chr 92) (.cls fun c => c == 92 || c == 34), .strEsc⟩,
   ⟨[.strLit], chr 34, .strEnd⟩,
   ⟨[.strLit], .seq (chr 92) (.cls isAny), .bogus⟩,
   ⟨[.strLit], chr 10, .newlineInStr⟩]

def operatorsB : List Rule :=
  [⟨[.initial, .compound], .cls fun c => c == 32 || c == 9 || c == 13, .skip⟩,
   ⟨[.initial, .compound], chr 10, .skip⟩,
   ⟨[.initial], Re.lit [46, 46, 46], .ret "ELLIPSIS"⟩,
   ⟨[.initial], Re.lit [61, 61], .ret "EQUATE"⟩,
   ⟨[.initial], Re.lit [33, 61], .ret "NOT_EQUATE"⟩,
   ⟨[.initial], Re.lit [61], .ret "="⟩,
   ⟨[.initial], Re.lit [40], .ret "("⟩,
   ⟨[.initial], Re.lit [41], .ret ")"⟩,
   ⟨[.initial], Re.lit [59], .ret ";"⟩,
   ⟨[.initial], Re.lit [44], .ret ","⟩,
   ⟨[.initial], Re.lit [39], .ret "'"⟩,
   ⟨[.initial], Re.lit [58], .ret ":"⟩,
   ⟨[.initial], Re.lit [91], .ret "["⟩,
   ⟨[.initial], Re.lit [93], .ret "]"⟩,
   ⟨[.initial], Re.lit [46], .ret "."⟩,
   ⟨[.initial], Re.lit [60, 61], .ret "LESS_OR_EQUAL"⟩,
   ⟨[.initial], Re.lit [62, 61], .ret "GREATER_OR_EQUAL"⟩,
   ⟨[.initial], Re.lit [43, 61], .ret "ADD_ASSIGN"⟩,
   ⟨[.initial], Re.lit [45, 61], .ret "SUB_ASSIGN"⟩,
   ⟨[.initial], Re.lit [47, 61], .ret "DIV_ASSIGN"⟩,
   ⟨[.initial], Re.lit [60, 60, 61], .ret "LSHIFT_ASSIGN"⟩,
   ⟨[.initial], Re.lit [62, 62, 61], .ret "RSHIFT_ASSIGN"⟩,
   ⟨[.initial], Re.lit [94, 61], .ret "XOR_ASSIGN"⟩,
   ⟨[.initial], Re.lit [60], .ret "<"⟩,
   ⟨[.initial], Re.lit [62], .ret ">"⟩,
   ⟨[.initial], Re.lit [33], .ret "!"⟩,
   ⟨[.initial], Re.lit [43], .ret "+"⟩,
   ⟨[.initial], Re.lit [45], .ret "-"⟩,
   ⟨[.initial], Re.lit [42], .ret "*"⟩,
   ⟨[.initial], Re.lit [47], .ret "/"⟩,
   ⟨[.initial], Re.lit [37], .ret "%"⟩,
   ⟨[.initial], Re.lit [123], .ret "{"⟩,
   ⟨[.initial], Re.lit [125], .ret "}"⟩,
   ⟨[.initial], Re.lit [38], .ret "&"⟩,
   ⟨[.initial], Re.lit [124], .ret "|"⟩,
   ⟨[.initial], Re.lit [63], .ret "?"⟩,
   ⟨[.initial], Re.lit [94], .ret "^"⟩,
   ⟨[.initial], Re.lit [126], .ret "~"⟩,
   ⟨[.initial], Re.lit [60, 60], .ret "SHIFT_LEFT"⟩,
   ⟨[.initial], Re.lit [62, 62], .ret "SHIFT_RIGHT"⟩,
   ⟨[.initial], Re.lit [43, 43], .ret "INC"⟩,
   ⟨[.initial], Re.lit [45, 45], .ret "DEC"⟩,
   ⟨[.initial], Re.lit [45, 62], .ret "PTR_ACCESS"⟩,
   ⟨[.initial], Re.lit [38, 38], .ret "BOOL_OP_AND"⟩,
   ⟨[.initial], Re.lit [124, 124], .ret "BOOL_OP_OR"⟩]

theorem ignored_eq : ignored = ignoredB := by rfl
theorem keywords_eq : keywords = keywordsB := by rfl
theorem values_eq : values = valuesB := by rfl
theorem operators_eq : operators = operatorsB := by rfl

/-- all rules but those for the preprocessor -/
def base : List Rule := (ignoredB ++ keywordsB) ++ (valuesB ++ operatorsB)

theorem rules_eq (tg : Target) : rules tg = (ignoredB ++ keywordsB) ++ (directives tg ++ (valuesB ++ operatorsB)) := by
  rw [rules, ignored_eq, keywords_eq, values_eq, operators_eq]
  simp only [List.append_assoc]

theorem directive_dead (tg : Target) {c : Byte} (h : c ≠ 35) : ∀ r ∈ directives tg, r.re.deriv c = .nil := by
  have key : ∀ tg, ∀ r ∈ directives tg, (r.re.deriv c).isNone = true := by
    revert h
    refine byte_all (P := fun c => c ≠ 35 → ∀ tg, ∀ r ∈ directives tg, (r.re.deriv c).isNone = true) (fun n hn h tg => ?_) c
    revert n
    cases tg <;> decide +kernel
  exact fun r hr => isNone_eq (key tg r hr)

theorem pick_front {m : Mode} {s : Str} {X Y : List Rule} (h : pick m s X = pick m s Y) : ∀ a, pick m s (a ++ X) = pick m s (a ++ Y)
  | [] => h
  | r :: a => by
    rw [List.cons_append, List.cons_append, pick, pick, pick_front h a]

theorem pick_skip {m : Mode} {c : Byte} {s : Str} {X : List Rule} : ∀ {d : List Rule}, (∀ r ∈ d, r.re.deriv c = .nil) →
    pick m (c :: s) (d ++ X) = pick m (c :: s) X
  | [], _ => rfl
  | r :: d, h => by
    have hl : (if m ∈ r.modes then r.re.longest (c :: s) else none) = none ∨
        (if m ∈ r.modes then r.re.longest (c :: s) else none) = some 0 := by
      split
      · unfold Re.longest
        rw [h r (by simp), longest_nil]
        dsimp only
        split
        · exact .inr rfl
        · exact .inl rfl
      · exact .inl rfl
    rw [List.cons_append, pick, pick_skip fun r hr => h r (by simp [hr])]
    rcases hl with hl | hl <;> rw [hl]

theorem pick_base {m : Mode} {tg : Target} {c : Byte} {s : Str} (h : c ≠ 35) : pick m (c :: s) (rules tg) = pick m (c :: s) base := by
  rw [rules_eq]
  exact pick_front (pick_skip (directive_dead tg h)) _

theorem derivs_nil : ∀ s, derivs .nil s = .nil
  | [] => rfl
  | _ :: s => derivs_nil s

/-- the rules that can still match after `w` -/
def live (m : Mode) (w : Str) : List Re :=
  (base.filter fun r => decide (m ∈ r.modes) && !(derivs r.re w).isNone).map fun r => derivs r.re w

theorem stops_of_live {m : Mode} {tg : Target} {d : Byte} {w : Str} {c : Byte} (hd : d ≠ 35)
    (h : ∀ r ∈ live m (d :: w), (r.deriv c).isNone = true) : stops m (rules tg) (d :: w) c = true := by
  unfold stops
  rw [List.all_eq_true]
  intro r hr
  have key : r ∈ base ∨ r ∈ directives tg := by
    rw [rules_eq] at hr
    simp only [base, List.mem_append] at hr ⊢
    tauto
  by_cases hm : m ∈ r.modes
  · by_cases hn : (derivs r.re (d :: w)).isNone = true
    · rw [isNone_eq hn]; simp [Re.deriv, Re.isNone]
    · rcases key with hr | hr
      · have := h (derivs r.re (d :: w)) (List.mem_map.mpr ⟨r, List.mem_filter.mpr ⟨hr, by simp [hm, hn]⟩, rfl⟩)
        simp [this]
      · rw [derivs, directive_dead tg hd r hr, derivs_nil] at hn
        exact absurd rfl hn
  · simp [hm]

/-! ## The words of C -/

def punctuatorsB : List Str :=
  [[91], [93], [40], [41], [123], [125], [46], [45, 62], [43, 43], [45, 45], [38], [42], [43], [45], [126], [33], [47], [37], [60, 60],
   [62, 62], [60], [62], [60, 61], [62, 61], [61, 61], [33, 61], [94], [124], [38, 38], [124, 124], [63], [58], [59], [46, 46, 46], [61],
   [42, 61], [47, 61], [37, 61], [43, 61], [45, 61], [60, 60, 61], [62, 62, 61], [38, 61], [94, 61], [124, 61], [44], [35], [35, 35],
   [60, 58], [58, 62], [60, 37], [37, 62], [37, 58], [37, 58, 37, 58]]

theorem punctuators_eq : CText.punctuators.map CText.ascii = punctuatorsB := by decide +kernel

/-- the bytes that go on with a punctuator -/
def succs (w : Str) : List Byte := punctuatorsB.filterMap fun p => if w.isPrefixOf p then (p.drop w.length).head? else none

/-- the byte goes on with the word: as in C, or in one of the two ways bic adds -/
def goesOn (w : Str) (c : Byte) : Bool :=
  match w with
  | [] => false
  | d :: _ => if isL d then isLD c else (succs w).contains c || (w == [45] && isD c) || (w == [60] && c == 82)

/-- what has to be checked of a word -/
def wordOk (w : Str) (a : Action) : Bool :=
  decide (pick .initial w base = some (w.length, a)) &&
  match live .initial w with
  | l => (List.range 256).all fun n => goesOn w (UInt8.ofNat n) || l.all fun r => (r.deriv (UInt8.ofNat n)).isNone

/-- the words the lexer drops, and the one that is none of C -/
def dropped : K → Bool
  | .const => true | .restrict => true | .volatile => true | .inline => true | .repl => true | _ => false

/-- the words with the actions of their rules -/
def wordB : K → Option (Str × Action)
  | .lparen => some ([40], .ret "(")
  | .rparen => some ([41], .ret ")")
  | .lbrack => some ([91], .ret "[")
  | .rbrack => some ([93], .ret "]")
  | .lbrace => some ([123], .ret "{")
  | .rbrace => some ([125], .ret "}")
  | .dot => some ([46], .ret ".")
  | .arrow => some ([45, 62], .ret "PTR_ACCESS")
  | .incr => some ([43, 43], .ret "INC")
  | .decr => some ([45, 45], .ret "DEC")
  | .bang => some ([33], .ret "!")
  | .amp => some ([38], .ret "&")
  | .star => some ([42], .ret "*")
  | .tilde => some ([126], .ret "~")
  | .slash => some ([47], .ret "/")
  | .percent => some ([37], .ret "%")
  | .plus => some ([43], .ret "+")
  | .minus => some ([45], .ret "-")
  | .shl => some ([60, 60], .ret "SHIFT_LEFT")
  | .shr => some ([62, 62], .ret "SHIFT_RIGHT")
  | .lt => some ([60], .ret "<")
  | .gt => some ([62], .ret ">")
  | .le => some ([60, 61], .ret "LESS_OR_EQUAL")
  | .ge => some ([62, 61], .ret "GREATER_OR_EQUAL")
  | .eqeq => some ([61, 61], .ret "EQUATE")
  | .ne => some ([33, 61], .ret "NOT_EQUATE")
  | .caret => some ([94], .ret "^")
  | .bar => some ([124], .ret "|")
  | .andand => some ([38, 38], .ret "BOOL_OP_AND")
  | .oror => some ([124, 124], .ret "BOOL_OP_OR")
  | .question => some ([63], .ret "?")
  | .colon => some ([58], .ret ":")
  | .assign => some ([61], .ret "=")
  | .addA => some ([43, 61], .ret "ADD_ASSIGN")
  | .subA => some ([45, 61], .ret "SUB_ASSIGN")
  | .divA => some ([47, 61], .ret "DIV_ASSIGN")
  | .shlA => some ([60, 60, 61], .ret "LSHIFT_ASSIGN")
  | .shrA => some ([62, 62, 61], .ret "RSHIFT_ASSIGN")
  | .xorA => some ([94, 61], .ret "XOR_ASSIGN")
  | .comma => some ([44], .ret ",")
  | .semi => some ([59], .ret ";")
  | .ellipsis => some ([46, 46, 46], .ret "ELLIPSIS")
  | .sizeof => some ([115, 105, 122, 101, 111, 102], .ret "SIZEOF")
  | .typedef => some ([116, 121, 112, 101, 100, 101, 102], .ret "TYPEDEF")
  | .extern => some ([101, 120, 116, 101, 114, 110], .ret "EXTERN")
  | .static => some ([115, 116, 97, 116, 105, 99], .ret "STATIC")
  | .auto => some ([97, 117, 116, 111], .ret "AUTO")
  | .register => some ([114, 101, 103, 105, 115, 116, 101, 114], .ret "REGISTER")
  | .void => some ([118, 111, 105, 100], .ret "VOID")
  | .char => some ([99, 104, 97, 114], .ret "CHAR")
  | .short => some ([115, 104, 111, 114, 116], .ret "SHORT")
  | .int => some ([105, 110, 116], .ret "INT")
  | .long => some ([108, 111, 110, 103], .ret "LONG")
  | .float => some ([102, 108, 111, 97, 116], .ret "FLOAT")
  | .double => some ([100, 111, 117, 98, 108, 101], .ret "DOUBLE")
  | .signed => some ([115, 105, 103, 110, 101, 100], .ret "SIGNED")
  | .unsigned => some ([117, 110, 115, 105, 103, 110, 101, 100], .ret "UNSIGNED")
  | .bool => some ([95, 66, 111, 111, 108], .ret "BOOL")
  | .struct => some ([115, 116, 114, 117, 99, 116], .beginCompound "STRUCT")
  | .union => some ([117, 110, 105, 111, 110], .beginCompound "UNION")
  | .enum => some ([101, 110, 117, 109], .ret "ENUM")
  | .if_ => some ([105, 102], .ret "IF")
  | .else_ => some ([101, 108, 115, 101], .ret "ELSE")
  | .while_ => some ([119, 104, 105, 108, 101], .ret "WHILE")
  | .for_ => some ([102, 111, 114], .ret "FOR")
  | .return_ => some ([114, 101, 116, 117, 114, 110], .ret "RETURN")
  | .break_ => some ([98, 114, 101, 97, 107], .ret "BREAK")
  | .case => some ([99, 97, 115, 101], .ret "CASE")
  | .continue => some ([99, 111, 110, 116, 105, 110, 117, 101], .ret "CONTINUE")
  | .default => some ([100, 101, 102, 97, 117, 108, 116], .ret "DEFAULT")
  | .do_ => some ([100, 111], .ret "DO")
  | .goto => some ([103, 111, 116, 111], .ret "GOTO")
  | .switch => some ([115, 119, 105, 116, 99, 104], .ret "SWITCH")
  | _ => none

def wordOk' (k : K) : Bool :=
  match wordB k with
  | some (w, a) => wordOk w a
  | none => true

theorem words0 : [.lparen, .rparen, .lbrack, .rbrack, .lbrace, .rbrace, .dot, .arrow, .incr, .decr, .bang, .amp].all wordOk' = true := by decide +kernel
theorem words1 : [.star, .tilde, .slash, .percent, .plus, .minus, .shl, .shr, .lt, .gt, .le, .ge].all wordOk' = true := by decide +kernel
theorem words2 : [.eqeq, .ne, .caret, .bar, .andand, .oror, .question, .colon, .assign, .addA, .subA, .divA].all wordOk' = true := by decide +kernel
theorem words3 : [.shlA, .shrA, .xorA, .comma, .semi, .ellipsis, .sizeof, .typedef, .extern, .static, .auto, .register].all wordOk' = true := by decide +kernel
theorem words4 : [.void, .char, .short, .int, .long, .float, .double, .signed, .unsigned, .bool, .struct, .union].all wordOk' = true := by decide +kernel
theorem words5 : [.enum, .if_, .else_, .while_, .for_, .return_, .break_, .case, .continue, .default, .do_, .goto].all wordOk' = true := by decide +kernel
theorem words6 : [.switch].all wordOk' = true := by decide +kernel

theorem wordOk'_all (k : K) : wordOk' k = true := by
  by_cases h : (wordB k).isSome = true
  · have hk : k ∈ ([.lparen, .rparen, .lbrack, .rbrack, .lbrace, .rbrace, .dot, .arrow, .incr, .decr, .bang, .amp] : List K) ++ ([.star, .tilde, .slash, .percent, .plus, .minus, .shl, .shr, .lt, .gt, .le, .ge] : List K) ++ ([.eqeq, .ne, .caret, .bar, .andand, .oror, .question, .colon, .assign, .addA, .subA, .divA] : List K) ++ ([.shlA, .shrA, .xorA, .comma, .semi, .ellipsis, .sizeof, .typedef, .extern, .static, .auto, .register] : List K) ++ ([.void, .char, .short, .int, .long, .float, .double, .signed, .unsigned, .bool, .struct, .union] : List K) ++ ([.enum, .if_, .else_, .while_, .for_, .return_, .break_, .case, .continue, .default, .do_, .goto] : List K) ++ ([.switch] : List K) := by
      revert h
      cases k <;> decide
    simp only [List.mem_append] at hk
    rcases hk with (((((hk | hk) | hk) | hk) | hk) | hk) | hk
    · exact List.all_eq_true.mp words0 k hk
    · exact List.all_eq_true.mp words1 k hk
    · exact List.all_eq_true.mp words2 k hk
    · exact List.all_eq_true.mp words3 k hk
    · exact List.all_eq_true.mp words4 k hk
    · exact List.all_eq_true.mp words5 k hk
    · exact List.all_eq_true.mp words6 k hk
  · unfold wordOk'
    rw [Option.not_isSome_iff_eq_none.mp h]

end Bic.Lexer
