import Verif.Spec.Print
import Verif.Proofs.Dialogue
import Verif.Props.PtrAssign
/-!
# C94, C95: printing structures, pointers and strings
-/

namespace Bic.Print
open Spec
open Printer (Floats Prints PP PPs PPall decimal hexDigits pointerText isChar)
open CText (Str ascii)
open Lexer (IsInt)

/-! ## Hexadecimal texts -/

/-- a small hexadecimal digit -/
def HexChar (c : UInt8) : Prop := 48 ≤ c ∧ c ≤ 57 ∨ 97 ≤ c ∧ c ≤ 102

theorem hexChar_spec (c : UInt8) (h : HexChar c) :
    hexDigit c < 16 ∧ UInt8.ofNat (if hexDigit c < 10 then 48 + hexDigit c else 87 + hexDigit c) = c ∧ (c ≠ 48 → 0 < hexDigit c) := by
  revert h
  unfold HexChar
  exact Lexer.byte_all (P := fun c => (48 ≤ c ∧ c ≤ 57 ∨ 97 ≤ c ∧ c ≤ 102) → hexDigit c < 16 ∧
    UInt8.ofNat (if hexDigit c < 10 then 48 + hexDigit c else 87 + hexDigit c) = c ∧ (c ≠ 48 → 0 < hexDigit c)) (by decide +kernel) c

theorem digit_hexChar (d : Nat) (h : d < 16) :
    HexChar (UInt8.ofNat (if d < 10 then 48 + d else 87 + d)) ∧ hexDigit (UInt8.ofNat (if d < 10 then 48 + d else 87 + d)) = d ∧
      (d ≠ 0 → UInt8.ofNat (if d < 10 then 48 + d else 87 + d) ≠ 48) := by
  unfold HexChar
  revert d
  decide +kernel

theorem hexVal_append (ds : Str) (c : UInt8) : hexVal (ds ++ [c]) = 16 * hexVal ds + hexDigit c := by simp [hexVal]

/-- what is printed is a hexadecimal text of the number -/
theorem hexDigits_spec (n : Nat) : HexNumeral n (hexDigits n) ∧ (n ≠ 0 → (hexDigits n).head? ≠ some 48) := by
  induction n using Nat.strongRecOn with
  | _ n ih =>
    obtain ⟨h1, h2, h3⟩ := digit_hexChar (n % 16) (Nat.mod_lt _ (by decide))
    rw [hexDigits]
    by_cases h : n < 16
    · have e : n % 16 = n := Nat.mod_eq_of_lt h
      rw [e] at h1 h2 h3
      simp only [e, h, if_true]
      refine ⟨⟨by simp, ?_, ?_, ?_⟩, ?_⟩
      · intro c hc
        rw [List.mem_singleton] at hc
        subst hc
        exact h1
      · by_cases h0 : n = 0
        · subst h0; left; rfl
        · right; simpa using h3 h0
      · simp only [hexVal, List.foldl_cons, List.foldl_nil]
        omega
      · intro h0
        simpa using h3 h0
    · simp only [h, if_false]
      obtain ⟨⟨i1, i2, i3, i4⟩, i5⟩ := ih (n / 16) (by omega)
      have i5 := i5 (by omega)
      have hh : (hexDigits (n / 16) ++ [UInt8.ofNat (if n % 16 < 10 then 48 + n % 16 else 87 + n % 16)]).head? ≠ some 48 := by
        match hd : hexDigits (n / 16), i1 with
        | a :: l, _ =>
          rw [hd] at i5
          simpa using i5
      refine ⟨⟨by simp, ?_, .inr hh, ?_⟩, fun _ => hh⟩
      · intro c hc
        rw [List.mem_append, List.mem_singleton] at hc
        rcases hc with hc | rfl
        · exact i2 c hc
        · exact h1
      · rw [hexVal_append, i4, h2]
        omega

/-- and the only one -/
theorem hexDigits_unique : ∀ (k : Nat) (ds : Str), ds.length = k + 1 → (∀ c ∈ ds, HexChar c) → (ds = [48] ∨ ds.head? ≠ some 48) →
    hexDigits (hexVal ds) = ds ∧ (ds ≠ [48] → 0 < hexVal ds) := by
  intro k
  induction k with
  | zero =>
    intro ds hl hd h0
    match ds, hl with
    | [c], _ =>
      obtain ⟨h1, h2, h3⟩ := hexChar_spec c (hd c (by simp))
      have e : hexVal [c] = hexDigit c := by simp [hexVal]
      rw [e]
      refine ⟨?_, fun h => h3 fun e => h (by rw [e])⟩
      rw [hexDigits]
      simp only [h1, if_true, Nat.mod_eq_of_lt h1, h2]
  | succ k ih =>
    intro ds hl hd h0
    have hne : ds ≠ [] := by intro e; rw [e] at hl; simp at hl
    obtain ⟨l, c, rfl⟩ : ∃ l c, ds = l ++ [c] := ⟨ds.dropLast, ds.getLast hne, (List.dropLast_concat_getLast hne).symm⟩
    have hl' : l.length = k + 1 := by simpa using hl
    have h1 : l.head? ≠ some 48 := by
      rcases h0 with h0 | h0
      · rw [h0] at hl; simp at hl
      · match l, hl' with
        | a :: l, _ => simpa using h0
    obtain ⟨i1, i2⟩ := ih l hl' (fun c hc => hd c (by simp [hc])) (.inr h1)
    have hpos := i2 (by rintro rfl; exact h1 rfl)
    obtain ⟨c1, c2, c3⟩ := hexChar_spec c (hd c (by simp))
    rw [hexVal_append]
    refine ⟨?_, fun _ => by omega⟩
    rw [hexDigits]
    have e1 : (16 * hexVal l + hexDigit c) / 16 = hexVal l := by omega
    have e2 : (16 * hexVal l + hexDigit c) % 16 = hexDigit c := by omega
    simp only [e1, e2, i1, c2, show ¬ (16 * hexVal l + hexDigit c < 16) by omega, if_false]

theorem addressText_iff (a : Nat) (t : Str) : AddressText a t ↔ t = pointerText a := by
  unfold AddressText pointerText
  constructor
  · rintro (⟨rfl, rfl⟩ | ⟨h, ds, ⟨h1, h2, h3, h4⟩, rfl⟩)
    · rfl
    · rw [if_neg h, ← h4]
      have hpos : 0 < ds.length := List.length_pos_iff.mpr h1
      rw [(hexDigits_unique (ds.length - 1) ds (by omega) h2 h3).1]
      rfl
  · rintro rfl
    by_cases h : a = 0
    · exact .inl ⟨h, by rw [if_pos h]; rfl⟩
    · exact .inr ⟨h, _, (hexDigits_spec a).1, by rw [if_neg h]; rfl⟩

/-! ## Decimal texts -/

theorem byte_dec (d : Nat) (h : d < 10) : CText.isDigit (UInt8.ofNat (48 + d)) = true ∧ (UInt8.ofNat (48 + d)).toNat - 48 = d ∧
    (d ≠ 0 → UInt8.ofNat (48 + d) ≠ 48) := by
  revert d
  decide +kernel

theorem digits_dec (n : Nat) : CText.Digits (Printer.digits n) ∧ (Printer.digits n = [48] ∨ (Printer.digits n).head? ≠ some 48) ∧
    CText.decVal (Printer.digits n) = n ∧ (n ≠ 0 → (Printer.digits n).head? ≠ some 48) := by
  induction n using Nat.strongRecOn with
  | _ n ih =>
    unfold Printer.digits
    by_cases h : n < 10
    · rw [if_pos h]
      obtain ⟨h1, h2, h3⟩ := byte_dec n h
      refine ⟨⟨by simp, by simpa using h1⟩, ?_, ?_, ?_⟩
      · by_cases h0 : n = 0
        · subst h0; left; rfl
        · right; simpa using h3 h0
      · simp only [CText.decVal, List.foldl_cons, List.foldl_nil]
        omega
      · intro h0
        simpa using h3 h0
    · rw [if_neg h]
      obtain ⟨⟨i1, i2⟩, -, i4, i5⟩ := ih (n / 10) (by omega)
      have i5 := i5 (by omega)
      obtain ⟨h1, h2, h3⟩ := byte_dec (n % 10) (Nat.mod_lt _ (by decide))
      have hh : (Printer.digits (n / 10) ++ [UInt8.ofNat (48 + n % 10)]).head? ≠ some 48 := by
        match hd : Printer.digits (n / 10), i1 with
        | a :: l, _ =>
          rw [hd] at i5
          simpa using i5
      refine ⟨⟨by simp, ?_⟩, .inr hh, ?_, fun _ => hh⟩
      · intro c hc
        rw [List.mem_append, List.mem_singleton] at hc
        rcases hc with hc | rfl
        · exact i2 c hc
        · exact h1
      · unfold CText.decVal at i4 ⊢
        rw [List.foldl_append, i4]
        simp only [List.foldl_cons, List.foldl_nil, h2]
        omega

/-- what is printed for an integer is its decimal text -/
theorem decimal_is (v : Int) : Decimal v (decimal v) := by
  obtain ⟨h1, h2, h3, h4⟩ := digits_dec v.natAbs
  refine ⟨_, h1, h2, ?_⟩
  unfold decimal
  by_cases h : v < 0
  · rw [if_pos h]
    refine .inr ⟨rfl, ?_, by rw [h3]; omega⟩
    intro e
    have := h4 (by omega)
    rw [e] at this
    exact this rfl
  · rw [if_neg h]
    exact .inl ⟨rfl, by rw [h3]; omega⟩

/-! ## Strings in memory -/

/-- the characters of a string in memory -/
def chars (bs : List Byte) : Str := bs.map fun b => UInt8.ofNat b.val

theorem stringAt_intro {s : St} {m : Nat} {bs : List Byte} (h : StringAt s m bs) (hz : ∀ b ∈ bs, b ≠ 0) :
    Printer.StringAt s.mem m (chars bs) := by
  obtain ⟨h1, h2, h3⟩ := h
  induction bs generalizing m with
  | nil =>
    refine .nul ?_ h3
    simpa using h1
  | cons b bs ih =>
    have hb := h2 0 (by simp)
    simp only [Nat.add_zero, List.getElem_cons_zero] at hb
    have h1' := h1
    simp only [List.length_cons, Mem.ok, Bool.and_eq_true] at h1'
    have e : chars (b :: bs) = UInt8.ofNat (s.mem.byte m).val :: chars bs := by rw [hb]; rfl
    rw [e]
    refine .char (by simp [Mem.ok, h1'.1]) (by rw [hb]; exact hz b (by simp)) (ih (fun b hb => hz b (by simp [hb])) ?_ ?_ ?_)
    · simp only [Mem.ok, Bool.and_eq_true]
      exact h1'.2
    · intro i hi
      have := h2 (i + 1) (by simp; omega)
      rw [show m + 1 + i = m + (i + 1) by omega]
      simpa using this
    · rw [show m + 1 + bs.length = m + (bs.length + 1) by omega]
      simpa using h3

theorem stringAt_unique {m : Mem} {a : Nat} {x y : Str} (h : Printer.StringAt m a x) (h' : Printer.StringAt m a y) : x = y := by
  induction h generalizing y with
  | nul h1 h2 =>
    cases h' with
    | nul => rfl
    | char h3 h4 => exact absurd h2 h4
  | char h1 h2 _ ih =>
    cases h' with
    | nul h3 h4 => exact absurd h4 h2
    | char h3 h4 h5 => rw [ih h5]

/-! ## C95: pointers and strings -/

/-- the type a pointer points to is `char` -/
def CharType (s : St) (bt : Ref) : Prop := ∃ τ e, bt = some τ ∧ s.nodes τ = some (.ctype .char e)

theorem pp_ptr_iff {fl : Floats} {s : St} {d : Nat} {t : TId} {bt : Ref} {p : Nat} (h : PtrTo s t bt p) (hc : ¬ CharType s bt ∨ p = 0)
    (out : Str) : PP fl s d t out ↔ AddressText p out := by
  obtain ⟨τ, a, arr, sz, h1, h2, h3, rfl⟩ := h.lv
  rw [addressText_iff]
  constructor
  · intro h
    cases h with
    | lvInt j1 j2 j3 => rw [h1] at j1; cases j1; rw [h2] at j2; cases j2; cases j3
    | lvFp j1 j2 j3 => rw [h1] at j1; cases j1; rw [h2] at j2; cases j2; cases j3
    | lvPtr j1 j2 => rw [h1] at j1; cases j1; rfl
    | lvStr j1 j2 j3 j4 j5 =>
      rw [h1] at j1; cases j1; rw [h2] at j2; cases j2
      rcases hc with hc | hc
      · exact absurd j4 hc
      · exact absurd hc j5
    | lvOther j1 j2 j3 => rw [h1] at j1; cases j1; rw [h2] at j2; cases j2; exact absurd rfl (j3 _ _)
    | other j1 j2 => rw [h1] at j1; cases j1; cases j2
    | _ j1 => rw [h1] at j1; cases j1
  · rintro rfl
    exact .lvPtr h1 h2 h3 hc

theorem pp_charptr_iff {fl : Floats} {s : St} {d : Nat} {t : TId} {bt : Ref} {p : Nat} {bs : List Byte} (h : PtrTo s t bt p)
    (hc : CharType s bt) (hs : p ≠ 0 → StringAt s p bs ∧ ∀ b ∈ bs, b ≠ 0) (out : Str) :
    PP fl s d t out ↔ CharPtrText p (chars bs) out := by
  by_cases hp : p = 0
  · rw [pp_ptr_iff h (.inr hp)]
    unfold CharPtrText AddressText
    simp [hp]
  · obtain ⟨hs1, hs2⟩ := hs hp
    obtain ⟨τ, a, arr, sz, h1, h2, h3, e⟩ := h.lv
    have h4 := stringAt_intro hs1 hs2
    have e2 : CharPtrText p (chars bs) out ↔ out = pointerText p ++ ascii " (\"" ++ chars bs ++ ascii "\")" := by
      unfold CharPtrText
      simp only [hp, false_and, false_or, ne_eq, not_false_eq_true, true_and, addressText_iff]
      constructor
      · rintro ⟨u, rfl, h⟩; exact h
      · intro h; exact ⟨_, rfl, h⟩
    rw [e2]
    constructor
    · intro h
      cases h with
      | lvInt j1 j2 j3 => rw [h1] at j1; cases j1; rw [h2] at j2; cases j2; cases j3
      | lvFp j1 j2 j3 => rw [h1] at j1; cases j1; rw [h2] at j2; cases j2; cases j3
      | lvPtr j1 j2 j3 j4 =>
        rw [h1] at j1; cases j1; rw [h2] at j2; cases j2
        rw [← e] at j4
        rcases j4 with j4 | j4
        · exact absurd hc j4
        · exact absurd j4 hp
      | lvStr j1 j2 j3 j4 j5 j6 =>
        rw [h1] at j1; cases j1; rw [h2] at j2; cases j2
        rw [← e] at j6 ⊢
        rw [stringAt_unique j6 h4]
        rfl
      | lvOther j1 j2 j3 => rw [h1] at j1; cases j1; rw [h2] at j2; cases j2; exact absurd rfl (j3 _ _)
      | other j1 j2 => rw [h1] at j1; cases j1; cases j2
      | _ j1 => rw [h1] at j1; cases j1
    · rintro rfl
      have := PP.lvStr (fl := fl) (d := d) h1 h2 h3 hc (by rw [← e]; exact hp) (out := chars bs) (by rw [← e]; exact h4)
      rw [← e] at this
      exact this

theorem prints_iff {fl : Floats} {s : St} {t : TId} {n : Node} (h : s.nodes t = some n) (hn : ∀ ts, n ≠ .chain ts) (out : Str) :
    Prints fl s t out ↔ PP fl s 0 t out := by
  constructor
  · rintro (⟨h1, _⟩ | ⟨_, _, h2⟩)
    · rw [h] at h1; cases h1; exact absurd rfl (hn _)
    · exact h2
  · exact .one h hn

theorem prints_ptr {fl : Floats} {s : St} {t : TId} {bt : Ref} {p : Nat} (h : PtrTo s t bt p) (out : Str) :
    Prints fl s t out ↔ PP fl s 0 t out := by
  obtain ⟨τ, a, arr, sz, h1, -⟩ := h.lv
  exact prints_iff h1 nofun out

/-- **C95.** For a pointer to anything but `char` its address is printed. -/
theorem C95_pointer (fl : Floats) (s : St) (t : TId) (bt : Ref) (p : Nat) (h : PtrTo s t bt p) (hc : ¬ CharType s bt) (out : Str) :
    Prints fl s t out ↔ AddressText p out := by
  rw [prints_ptr h, pp_ptr_iff h (.inl hc)]

/-- **C95.** For a pointer to `char` its address is printed and, if it is not null, the string it points to. -/
theorem C95_string (fl : Floats) (s : St) (t : TId) (bt : Ref) (p : Nat) (bs : List Byte) (h : PtrTo s t bt p)
    (hc : CharType s bt) (hs : p ≠ 0 → StringAt s p bs ∧ ∀ b ∈ bs, b ≠ 0) (out : Str) :
    Prints fl s t out ↔ CharPtrText p (chars bs) out := by
  rw [prints_ptr h, pp_charptr_iff h hc hs]

/-- **C95.** A string literal is printed between quotes. -/
theorem C95_literal (fl : Floats) (s : St) (t : TId) (bs : List Byte) (h : s.nodes t = some (.str bs)) (hz : ∀ b ∈ bs, b ≠ 0) (out : Str) :
    Prints fl s t out ↔ out = ascii "\"" ++ chars bs ++ ascii "\"" := by
  rw [prints_iff h nofun]
  have e : Printer.upToNul bs = chars bs := by
    unfold Printer.upToNul chars
    congr 1
    clear h
    induction bs with
    | nil => rfl
    | cons b bs ih =>
      rw [List.takeWhile_cons, if_pos (by simpa using hz b (by simp)), ih fun b hb => hz b (by simp [hb])]
  constructor
  · intro h'
    cases h' with
    | str j1 => rw [h] at j1; cases j1; rw [e]; rfl
    | other j1 j2 => rw [h] at j1; cases j1; cases j2
    | _ j1 => rw [h] at j1; cases j1
  · rintro rfl
    have := PP.str (fl := fl) (d := 0) h
    rw [e] at this
    exact this

/-- the `char` pointer at 4096 points to "hi" at 4104 = 0x1008 -/
example (fl : Floats) (out : Str) : Prints fl stStr 2 out ↔ out = ascii "0x1008 (\"hi\")" := by
  have h := C95_string fl stStr 2 (some 0) 4104 [104, 105] ⟨1, 4096, false, 0, rfl, rfl, by decide +kernel, by decide +kernel⟩
    ⟨0, none, rfl, rfl⟩ (fun _ => ⟨stStr_hi, by decide +kernel⟩) out
  have e : pointerText 4104 ++ ascii " (\"" ++ chars [104, 105] ++ ascii "\")" = ascii "0x1008 (\"hi\")" := by decide +kernel
  rw [h, ← e]; clear h
  generalize hp : (4104 : Nat) = p
  unfold CharPtrText
  have hp0 : p ≠ 0 := by omega
  constructor
  · rintro (⟨h, _⟩ | ⟨_, u, h, rfl⟩)
    · exact absurd h hp0
    · rw [(addressText_iff _ _).mp h]
  · rintro rfl
    exact .inr ⟨hp0, _, (addressText_iff _ _).mpr rfl, rfl⟩

/-! ## C94: structures -/

mutual
/-- the objects of a value and the texts of its parts: integers in decimal notation, addresses, strings -/
inductive Depicts (s : St) : TId → Shape → Prop
  | int {t v x} : IsInt s t v → Decimal v x → Depicts s t (.leaf x)
  | ptr {t bt p x} : PtrTo s t bt p → ¬ CharType s bt → AddressText p x → Depicts s t (.leaf x)
  | str {t bt p bs x} : PtrTo s t bt p → CharType s bt → (p ≠ 0 → StringAt s p bs ∧ ∀ b ∈ bs, b ≠ 0) → CharPtrText p (chars bs) x →
      Depicts s t (.leaf x)
  | comp {t c ms b vs} : s.nodes t = some (.lcomp c ms b) → Members s ms vs → Depicts s t (.comp vs)
/-- the members of a structure, in the order of their declaration -/
inductive Members (s : St) : List Binding → List (String × Shape) → Prop
  | nil : Members s [] []
  | cons {m v ms x vs} : m.val = some v → Depicts s v x → Members s ms vs → Members s (m :: ms) ((m.name, x) :: vs)
end

/-- C94 in full: a structure is printed with its members one per line, with their names and values, those
of structures within it one level deeper, and each closing brace as deep as the line of its opening brace. -/
def C94_statement : Prop := ∀ (fl : Floats) (s : St) (t : TId) (v : Shape) (out : Str), Depicts s t v → (Prints fl s t out ↔ out = v.text)

theorem tabs_indent (d : Nat) : Printer.indent d = tabs d := by
  unfold Printer.indent tabs
  induction d with
  | zero => rfl
  | succ d ih =>
    rw [List.replicate_succ, List.flatten_cons, ← ih, show 4 * (d + 1) = 4 + 4 * d by omega, List.replicate_add]
    rfl

theorem pp_int_iff {fl : Floats} {s : St} {d : Nat} {t : TId} {v : Int} (h : IsInt s t v) (out : Str) :
    PP fl s d t out ↔ Decimal v out := by
  have hd : Decimal v out ↔ out = decimal v := ⟨Repl.decimal_unique, by rintro rfl; exact decimal_is v⟩
  rw [hd]
  rcases h with h | ⟨c, hi, h⟩
  · constructor
    · intro h2
      cases h2 with
      | integer h2 => rw [h] at h2; cases h2; rfl
      | other h2 h3 => rw [h] at h2; cases h2; cases h3
      | _ h2 => rw [h] at h2; cases h2
    · rintro rfl
      exact .integer h
  · have hp := Lexer.print_holds hi h
    obtain ⟨τ, a, hl, hv⟩ := h
    obtain ⟨arr, sz, h1⟩ := hl.lv
    obtain ⟨e, h2⟩ := hl.ty
    unfold Printer.ppInt at hp
    simp only [h1, h2] at hp
    have hf : ∃ f, Printer.fmtOf c = some f := by
      cases c <;> first | exact ⟨_, rfl⟩ | exact absurd hi (by decide)
    obtain ⟨f, hf⟩ := hf
    have hnfp : c.isFp = false := by
      cases c <;> first | rfl | exact absurd hi (by decide)
    have hnp : c ≠ .ptr := by
      rintro rfl
      exact absurd hi (by decide)
    rw [hf] at hp
    simp only [Option.map_some, Option.some.injEq] at hp
    constructor
    · intro h4
      cases h4 with
      | lvInt j1 j2 j3 =>
        rw [h1] at j1; cases j1
        rw [h2] at j2; cases j2
        rw [hf] at j3; cases j3
        exact hp
      | lvFp j1 j2 j3 =>
        rw [h1] at j1; cases j1
        rw [h2] at j2; cases j2
        rw [hnfp] at j3; cases j3
      | lvPtr j1 j2 =>
        rw [h1] at j1; cases j1
        rw [h2] at j2; cases j2
        exact absurd rfl hnp
      | lvStr j1 j2 =>
        rw [h1] at j1; cases j1
        rw [h2] at j2; cases j2
        exact absurd rfl hnp
      | lvOther j1 j2 j3 =>
        rw [h1] at j1; cases j1
        rw [h2] at j2; cases j2
        exact absurd rfl (j3 _ _)
      | other j1 j2 => rw [h1] at j1; cases j1; cases j2
      | _ j1 => rw [h1] at j1; cases j1
    · rintro rfl
      rw [← hp]
      exact .lvInt h1 h2 hf hl.ok

/-- the text printed: all closing braces stand at the left margin -/
theorem pp_depicts {fl : Floats} {s : St} {t : TId} {v : Shape} (h : Depicts s t v) (d : Nat) (out : Str) :
    PP fl s d t out ↔ out = v.lines (fun _ => 0) d := by
  refine Depicts.rec (s := s) (motive_1 := fun t v _ => ∀ d out, PP fl s d t out ↔ out = v.lines (fun _ => 0) d)
    (motive_2 := fun ms vs _ => ∀ d out, PPs fl s d ms out ↔ out = Shape.memberLines (fun _ => 0) d vs)
    ?_ ?_ ?_ ?_ ?_ ?_ h d out
  · intro t v x h1 h2 d out
    rw [pp_int_iff h1, Shape.lines]
    rw [Repl.decimal_unique h2]
    exact ⟨Repl.decimal_unique, by rintro rfl; exact decimal_is v⟩
  · intro t bt p x h1 h2 h3 d out
    rw [pp_ptr_iff h1 (.inl h2), Shape.lines, addressText_iff, (addressText_iff _ _).mp h3]
  · intro t bt p bs x h1 h2 h3 h4 d out
    rw [pp_charptr_iff h1 h2 h3, Shape.lines]
    constructor
    · intro h5
      rcases h4 with ⟨e, rfl⟩ | ⟨e, u, h6, rfl⟩
      · rcases h5 with ⟨e', rfl⟩ | ⟨e', _⟩
        · rfl
        · exact absurd e e'
      · rcases h5 with ⟨e', _⟩ | ⟨_, u', h7, rfl⟩
        · exact absurd e' e
        · rw [(addressText_iff _ _).mp h6, (addressText_iff _ _).mp h7]
    · rintro rfl; exact h4
  · intro t c ms b vs h1 _ ih d out
    rw [Shape.lines]
    constructor
    · intro h2
      cases h2 with
      | comp j1 j2 =>
        rw [h1] at j1; cases j1
        rw [(ih _ _).mp j2]
        simp [tabs]
        rfl
      | other j1 j2 => rw [h1] at j1; cases j1; cases j2
      | _ j1 => rw [h1] at j1; cases j1
    · rintro rfl
      have := PP.comp (fl := fl) (d := d) h1 ((ih _ _).mpr rfl)
      have e : Lexer.bytes "{\n" ++ Shape.memberLines (fun _ => 0) (d + 1) vs ++ Lexer.bytes "}" =
          ascii "{\n" ++ Shape.memberLines (fun _ => 0) (d + 1) vs ++ tabs 0 ++ ascii "}" := by
        simp only [tabs, List.replicate_zero, List.flatten_nil, List.append_nil]
        rfl
      rw [← e]
      exact this
  · intro d out
    rw [Shape.memberLines]
    constructor
    · intro h; cases h; rfl
    · rintro rfl; exact .nil
  · intro m v ms x vs h1 _ _ ih1 ih2 d out
    rw [Shape.memberLines]
    constructor
    · intro h
      cases h with
      | cons j1 j2 j3 =>
        rw [h1] at j1; cases j1
        rw [(ih1 _ _).mp j2, (ih2 _ _).mp j3, tabs_indent]
        rfl
    · rintro rfl
      have := PPs.cons (fl := fl) h1 ((ih1 d _).mpr rfl) ((ih2 d _).mpr rfl)
      rw [tabs_indent] at this
      exact this

theorem prints_depicts {fl : Floats} {s : St} {t : TId} {v : Shape} (h : Depicts s t v) (out : Str) : Prints fl s t out ↔ PP fl s 0 t out := by
  cases h with
  | int h =>
    rcases h with h | ⟨c, _, τ, a, hl, _⟩
    · exact prints_iff h nofun out
    · obtain ⟨arr, sz, h1⟩ := hl.lv
      exact prints_iff h1 nofun out
  | ptr h => exact prints_ptr h out
  | str h => exact prints_ptr h out
  | comp h => exact prints_iff h nofun out

/-- C94, what bic prints: as stated, but that all closing braces stand at the left margin. -/
theorem C94_printed (fl : Floats) (s : St) (t : TId) (v : Shape) (out : Str) (h : Depicts s t v) :
    Prints fl s t out ↔ out = v.lines (fun _ => 0) 0 := by
  rw [prints_depicts h, pp_depicts h]

theorem flat_members (c c' : Nat → Nat) (d : Nat) : ∀ ms : List (String × Shape), (∀ m ∈ ms, ∃ t, m.2 = .leaf t) →
    Shape.memberLines c d ms = Shape.memberLines c' d ms
  | [], _ => rfl
  | (x, v) :: ms, h => by
    obtain ⟨t, rfl⟩ : ∃ t, v = .leaf t := h (x, v) (by simp)
    simp only [Shape.memberLines, Shape.lines, flat_members c c' d ms fun m hm => h m (by simp [hm])]

/-- C94, partly: it holds of structures that do not contain structures.

Missing: structures within structures, for which see `C94_printed`. -/
theorem C94_flat_partial (fl : Floats) (s : St) (t : TId) (v : Shape) (out : Str) (h : Depicts s t v) (hf : v.Flat) :
    Prints fl s t out ↔ out = v.text := by
  rw [C94_printed fl s t v out h]
  unfold Shape.text
  cases v with
  | leaf x => rfl
  | comp ms => simp only [Shape.lines, flat_members (fun _ => 0) id _ ms hf, id]

/-- `struct { int x; char *s; }` (6) with the values 7 and NULL, and a structure (8) with it as its member `in` -/
def st94 : St :=
  stOf [.ctype .int none, .ctype .char none, .ctype .ptr (some 1), .lv (some 0) 4096 false 0, .lv (some 2) 4104 false 0, .ident "x",
        .lcomp none [⟨"x", 5, some 3⟩, ⟨"s", 5, some 4⟩] 4096, .ident "in", .lcomp none [⟨"in", 7, some 6⟩] 4096]
    [] [7, 0, 0, 0, 0, 0, 0, 0, 0, 0, 0, 0, 0, 0, 0, 0]

theorem st94_inner : Depicts st94 6 (.comp [("x", .leaf (ascii "7")), ("s", .leaf (ascii "(nil)"))]) := by
  refine .comp rfl (.cons rfl (.int (v := 7) (.inr ⟨.int, trivial, 0, 4096, ⟨⟨_, _, rfl⟩, ⟨_, rfl⟩, .inl trivial, by decide +kernel⟩,
    by decide +kernel⟩) ⟨[55], ⟨by simp, by decide⟩, .inr (by decide), .inl ⟨rfl, by decide +kernel⟩⟩)
    (.cons rfl (.str (bt := some 1) (p := 0) (bs := []) ⟨2, 4104, false, 0, rfl, rfl, by decide +kernel, by decide +kernel⟩
      ⟨1, none, rfl, rfl⟩ (fun h => absurd rfl h) (.inl ⟨rfl, rfl⟩)) .nil))

example (fl : Floats) (out : Str) : Prints fl st94 6 out ↔ out = ascii "{\n    .x = 7\n    .s = (nil)\n}" := by
  rw [C94_flat_partial fl st94 6 _ out st94_inner (by intro m hm; simp at hm; rcases hm with rfl | rfl <;> exact ⟨_, rfl⟩)]
  rw [show Shape.text _ = ascii "{\n    .x = 7\n    .s = (nil)\n}" by
    simp only [Shape.text, Shape.lines, Shape.memberLines]; decide +kernel]

/-- C94 is false: in
```
{
    .in = {
        .x = 7
        .s = (nil)
}
}
```
the closing brace of `in` stands at the left margin. -/
theorem C94_refuted : ¬ C94_statement := by
  intro h
  have hd : Depicts st94 8 (.comp [("in", _)]) := .comp rfl (.cons rfl st94_inner .nil)
  have h1 := h ⟨fun _ => [], fun _ _ => []⟩ st94 8 _ _ hd |>.mp ((C94_printed ⟨fun _ => [], fun _ _ => []⟩ st94 8 _ _ hd).mpr rfl)
  simp only [Shape.text, Shape.lines, Shape.memberLines] at h1
  revert h1
  decide +kernel

end Bic.Print
