import Verif.Spec.Dump
import Verif.Props.PrintValue
/-!
# Reading dumps back
-/

namespace Bic.Dump
open LangGen
open Bic.Lexer (Str bytes)
open Bic.Printer (decimal digits pointerText hexDigits)

/-- nothing more, or another line -/
def End (r : Str) : Prop := r = [] ∨ ∃ r', r = 10 :: r'

theorem End.nl (r : Str) : End (10 :: r) := .inr ⟨r, rfl⟩

/-- texts of one line before the end of the line -/
theorem line_inj : ∀ {x x' r r' : Str}, 10 ∉ x → 10 ∉ x' → End r → End r' → x ++ r = x' ++ r' → x = x' ∧ r = r'
  | [], [], _, _, _, _, _, _, h => ⟨rfl, h⟩
  | [], c :: x', r, r', _, hx', hr, _, h => by
    rcases hr with rfl | ⟨q, rfl⟩
    · simp at h
    · simp only [List.nil_append, List.cons_append, List.cons.injEq] at h
      exact absurd (h.1 ▸ List.mem_cons_self) hx'
  | c :: x, [], r, r', hx, _, _, hr', h => by
    rcases hr' with rfl | ⟨q, rfl⟩
    · simp at h
    · simp only [List.nil_append, List.cons_append, List.cons.injEq] at h
      exact absurd (h.1 ▸ List.mem_cons_self) hx
  | c :: x, c' :: x', r, r', hx, hx', hr, hr', h => by
    simp only [List.cons_append, List.cons.injEq] at h
    obtain ⟨rfl, h⟩ := h
    obtain ⟨rfl, h'⟩ := line_inj (fun m => hx (List.mem_cons_of_mem _ m)) (fun m => hx' (List.mem_cons_of_mem _ m)) hr hr' h
    exact ⟨rfl, h'⟩

/-- words before a character that is not in words -/
theorem word_inj {p : UInt8 → Bool} : ∀ {x x' r r' : Str} {c c' : UInt8}, (∀ y ∈ x, p y = true) → (∀ y ∈ x', p y = true) →
    p c = false → p c' = false → x ++ c :: r = x' ++ c' :: r' → x = x' ∧ c :: r = c' :: r'
  | [], [], _, _, _, _, _, _, _, _, h => ⟨rfl, h⟩
  | [], y :: x', _, _, _, _, _, hx', hc, _, h => by
    simp only [List.nil_append, List.cons_append, List.cons.injEq] at h
    have := hx' y (by simp)
    rw [← h.1, hc] at this
    exact absurd this (by simp)
  | y :: x, [], _, _, _, _, hx, _, _, hc', h => by
    simp only [List.nil_append, List.cons_append, List.cons.injEq] at h
    have := hx y (by simp)
    rw [h.1, hc'] at this
    exact absurd this (by simp)
  | y :: x, y' :: x', _, _, _, _, hx, hx', hc, hc', h => by
    simp only [List.cons_append, List.cons.injEq] at h
    obtain ⟨rfl, h⟩ := h
    obtain ⟨rfl, h'⟩ := word_inj (fun z m => hx z (by simp [m])) (fun z m => hx' z (by simp [m])) hc hc' h
    exact ⟨rfl, h'⟩

/-! ## Names -/

def isLDb (c : UInt8) : Bool := isLD (Char.ofNat c.toNat)

theorem isLD_lt {c : Char} (h : isLD c = true) : c.toNat < 128 := by
  simp only [isLD, isL, Bool.or_eq_true, Bool.and_eq_true, decide_eq_true_eq, beq_iff_eq, Char.le_def, UInt32.le_iff_toNat_le] at h
  have e : c.val.toNat = c.toNat := rfl
  rcases h with ((⟨_, h⟩ | ⟨_, h⟩) | rfl) | ⟨_, h⟩
  · exact Nat.lt_of_le_of_lt h (by decide)
  · exact Nat.lt_of_le_of_lt h (by decide)
  · decide
  · exact Nat.lt_of_le_of_lt h (by decide)

theorem byte_char {c : Char} (h : isLD c = true) : Char.ofNat (UInt8.ofNat c.toNat).toNat = c := by
  have := isLD_lt h
  have e : (UInt8.ofNat c.toNat).toNat = c.toNat := by
    simp only [UInt8.toNat_ofNat']
    omega
  rw [e, Char.ofNat_toNat]

theorem bytes_word {s : String} (h : ∀ c ∈ s.toList, isLD c = true) : ∀ y ∈ bytes s, isLDb y = true := by
  intro y hy
  obtain ⟨c, hc, rfl⟩ := List.mem_map.mp hy
  unfold isLDb
  rw [byte_char (h c hc)]
  exact h c hc

theorem bytes_inj {s s' : String} (h : ∀ c ∈ s.toList, isLD c = true) (h' : ∀ c ∈ s'.toList, isLD c = true)
    (e : bytes s = bytes s') : s = s' := by
  have key : ∀ l l' : List Char, (∀ c ∈ l, isLD c = true) → (∀ c ∈ l', isLD c = true) →
      (l.map fun c => UInt8.ofNat c.toNat) = (l'.map fun c => UInt8.ofNat c.toNat) → l = l' := by
    intro l
    induction l with
    | nil => intro l' _ _ e; cases l' with | nil => rfl | cons => simp at e
    | cons c l ih =>
      intro l' h h' e
      cases l' with
      | nil => simp at e
      | cons c' l' =>
        simp only [List.map_cons, List.cons.injEq] at e
        have hc : c = c' := by
          rw [← byte_char (h c (by simp)), e.1, byte_char (h' c' (by simp))]
        rw [hc, ih l' (fun x m => h x (by simp [m])) (fun x m => h' x (by simp [m])) e.2]
  exact String.toList_inj.mp (key _ _ h h' e)

/-! ## Data -/

theorem digits_inj {m n : Nat} (h : digits m = digits n) : m = n := by
  have h1 := (Print.digits_dec m).2.2.1
  rw [h] at h1
  exact h1.symm.trans (Print.digits_dec n).2.2.1

theorem digits_range (n : Nat) : ∀ c ∈ digits n, 48 ≤ c ∧ c ≤ 57 := by
  intro c hc
  have := (Print.digits_dec n).1.2 c hc
  simpa [CText.isDigit] using this

theorem digits_nl (n : Nat) : (10 : UInt8) ∉ digits n := fun h => absurd (digits_range n _ h).1 (by decide)
theorem digits_minus (n : Nat) : (45 : UInt8) ∉ digits n := fun h => absurd (digits_range n _ h).1 (by decide)

theorem decimal_inj {v w : Int} (h : decimal v = decimal w) : v = w := by
  unfold decimal at h
  split at h <;> split at h
  · have := digits_inj (List.cons.inj h).2
    omega
  · exact absurd (h ▸ List.mem_cons_self) (digits_minus _)
  · exact absurd (h.symm ▸ List.mem_cons_self) (digits_minus _)
  · have := digits_inj h
    omega

theorem decimal_nl (v : Int) : (10 : UInt8) ∉ decimal v := by
  unfold decimal
  split
  · intro h
    rcases List.mem_cons.mp h with h | h
    · exact absurd h (by decide)
    · exact digits_nl _ h
  · exact digits_nl _

theorem hex_inj {m n : Nat} (h : hexDigits m = hexDigits n) : m = n := by
  have h1 := (Print.hexDigits_spec m).1.2.2.2
  rw [h] at h1
  exact h1.symm.trans (Print.hexDigits_spec n).1.2.2.2

theorem hex_nl (n : Nat) : (10 : UInt8) ∉ hexDigits n := fun h => by
  rcases (Print.hexDigits_spec n).1.2.1 _ h with h | h <;> exact absurd h.1 (by decide)

theorem pointer_inj {a b : Nat} (h : pointerText a = pointerText b) : a = b := by
  have k : ∀ ds : Str, bytes "(nil)" ≠ bytes "0x" ++ ds := by
    intro ds e
    have h1 : bytes "(nil)" = [40, 110, 105, 108, 41] := by decide
    have h2 : bytes "0x" = [48, 120] := by decide
    rw [h1, h2] at e
    simp at e
  unfold pointerText at h
  split at h <;> split at h
  · omega
  · exact absurd h (k _)
  · exact absurd h.symm (k _)
  · exact hex_inj (List.append_cancel_left h)

theorem pointer_nl (a : Nat) : (10 : UInt8) ∉ pointerText a := by
  unfold pointerText
  split
  · decide
  · intro h
    rcases List.mem_append.mp h with h | h
    · exact absurd h (by decide)
    · exact hex_nl _ h

theorem print_nl {x : Datum} (h : x.OneLine) : (10 : UInt8) ∉ x.print false := by
  cases x with
  | str s =>
    intro m
    simp only [Datum.print, Bool.false_eq_true, if_false, List.cons_append, List.mem_cons, List.mem_append, List.not_mem_nil, or_false] at m
    rcases m with m | m | m
    · exact absurd m (by decide)
    · exact h m
    · exact absurd m (by decide)
  | int v => exact decimal_nl v
  | float t => exact h
  | flag b => cases b <;> decide
  | size n => exact digits_nl n
  | ptr a => exact pointer_nl a
  | comp b => cases b <;> decide
  | live t => exact h
  | hidden b => simp [Datum.print]

theorem print_inj {x y : Datum} (hb : x.base = y.base) (h : x.print false = y.print false) : x = y := by
  have hh : ∀ k : Hidden, k.base ≠ "string" ∧ k.base ≠ "integer" ∧ k.base ≠ "ffloat" ∧ k.base ≠ "flag" ∧ k.base ≠ "sz" ∧ k.base ≠ "ptr" ∧
      k.base ≠ "comp_decl_type" ∧ k.base ≠ "live_var_val" := by
    intro k; cases k <;> decide
  have hi : ∀ k k' : Hidden, k.base = k'.base → k = k' := by
    intro k k'
    cases k <;> cases k' <;> decide
  cases x <;> cases y <;> simp only [Datum.base] at hb <;>
    first
      | exact absurd hb (by decide)
      | (rename_i k k'; exact congrArg _ (hi k k' hb))
      | (rename_i k; exact absurd hb (by have := hh k; simp_all))
      | (rename_i k _; exact absurd hb (by have := hh k; simp_all))
      | skip
  case str s s' =>
    simp only [Datum.print, Bool.false_eq_true, if_false, List.cons_append, List.cons.injEq, true_and] at h
    rw [List.append_cancel_right h]
  case int v w => rw [decimal_inj h]
  case float t t' => exact congrArg _ h
  case flag b b' => cases b <;> cases b' <;> first | rfl | exact absurd h (by decide)
  case size m n => rw [digits_inj h]
  case ptr a b => rw [pointer_inj h]
  case comp b b' => cases b <;> cases b' <;> first | rfl | exact absurd h (by decide)
  case live t t' => exact congrArg _ h

/-! ## Trees -/

theorem indent_succ (d : Nat) : indent (d + 1) = indent d ++ [32, 32] := by
  unfold indent
  rw [Nat.add_mul, List.replicate_add]
  rfl

theorem b_sp : bytes " " = [32] := by decide
theorem b_gt : bytes ">" = [62] := by decide
theorem b_null : bytes "<null>\n" = [60, 110, 117, 108, 108, 62, 10] := by decide
theorem b_chain : bytes "<chain" = [60, 99, 104, 97, 105, 110] := by decide
theorem b_tree : bytes "<tree " = [60, 116, 114, 101, 101, 32] := by decide

theorem indent_ne (d : Nat) (q q' : Str) : indent d ++ 60 :: q ≠ 10 :: q' := by
  cases d with
  | zero => simp [indent]
  | succ d =>
    unfold indent
    rw [Nat.add_mul, Nat.add_comm, Nat.add_comm, show d * 2 + 1 * 2 = (d * 2 + 1) + 1 by omega, List.replicate_succ]
    simp

/-- the hypotheses on a tree, for all its parts -/
def Ok (L : List TreeType) (o : Obj Unit) : Prop := ∀ s, Sub s o → FitsHere L s ∧ PlainHere s

theorem Ok.field {L a t vs v} (h : Ok L (.node a t vs)) (hv : v ∈ vs) : Ok L v := fun s hs => h s (.field hv hs)
theorem Ok.elem {L a es e} (h : Ok L (.chain a es)) (he : e ∈ es) : Ok L e := fun s hs => h s (.elem he hs)

/-- an element of a plain chain is a tree of a type -/
theorem Ok.elem_node {L a es e} (h : Ok L (.chain a es)) (he : e ∈ es) : ∃ a' t vs, e = .node a' t vs := by
  obtain ⟨h1, h2⟩ := h _ (.refl _)
  obtain ⟨h3, h4⟩ := h1 e he
  have h5 := h2 e he
  cases e with
  | null => exact absurd rfl h3
  | data x => exact absurd rfl (h4 x)
  | chain a es => exact absurd rfl (h5 a es)
  | node a t vs => exact ⟨a, t, vs, rfl⟩

/-- the texts after the properties of a type: closing and then the end of a line -/
theorem closing_inj {d t r r'} (h : closing d t ++ r = closing d t ++ r') : r = r' := List.append_cancel_left h

theorem head_props (d : Nat) (t : TreeType) (vs : List (Obj Unit)) (h : FieldsFit t.props vs) (r : Str) :
    ∃ c q, isLDb c = false ∧ dumpProps d t true t.props vs ++ (closing d t ++ r) = c :: q := by
  match hp : t.props, vs, h with
  | [], [], _ =>
    refine ⟨62, r, by decide, ?_⟩
    simp [dumpProps, closing, hasTree, hp, b_gt]
  | p :: ps, v :: vs, _ =>
    simp only [dumpProps, sep, if_true, List.nil_append, List.append_assoc, b_sp, List.cons_append]
    exact ⟨32, _, by decide, rfl⟩
  | [], _ :: _, h => exact absurd h (by simp [FieldsFit])
  | _ :: _, [], h => exact absurd h (by simp [FieldsFit])

theorem elems_end (es : List (Obj Unit)) (d : Nat) (q : Str) (h : ∀ e ∈ es, ∃ a t vs, e = .node a t vs) :
    End (dumpElems d es ++ 10 :: q) := by
  cases es with
  | nil => exact End.nl _
  | cons e es =>
    obtain ⟨a, t, vs, rfl⟩ := h e (by simp)
    simp only [dumpElems, dump1, List.cons_append]
    exact End.nl _

/-- after a property comes a new line, unless it is the last one and nothing was a tree -/
theorem props_rest (t : TreeType) (ps : List (String × Inst)) (vs : List (Obj Unit)) (d : Nat) (r : Str) (h : FieldsFit ps vs) :
    End (dumpProps d t false ps vs ++ (closing d t ++ r)) ∨ ps = [] ∧ vs = [] ∧ hasTree t = false := by
  match ps, vs, h with
  | [], [], _ =>
    cases ht : hasTree t with
    | false => exact .inr ⟨rfl, rfl, rfl⟩
    | true =>
      left
      simp only [dumpProps, closing, ht, if_true, List.nil_append, List.cons_append]
      exact End.nl _
  | p :: ps, v :: vs, _ =>
    left
    simp only [dumpProps, sep, Bool.false_eq_true, if_false, List.cons_append]
    exact End.nl _
  | [], _ :: _, h => exact absurd h (by simp [FieldsFit])
  | _ :: _, [], h => exact absurd h (by simp [FieldsFit])

theorem props_end (t : TreeType) (ps : List (String × Inst)) (vs : List (Obj Unit)) (d : Nat) (r : Str) (h : FieldsFit ps vs)
    (ht : hasTree t = true) : End (dumpProps d t false ps vs ++ (closing d t ++ r)) := by
  rcases props_rest t ps vs d r h with h | ⟨_, _, h⟩
  · exact h
  · rw [ht] at h
    exact absurd h (by simp)

mutual
theorem dump_inj {L : List TreeType} (hL : GoodTypes L) : ∀ (o o' : Obj Unit) (d : Nat) (r r' : Str), Ok L o → Ok L o' →
    (∀ x, o ≠ .data x) → (∀ x, o' ≠ .data x) → End r → End r' → dump d o ++ r = dump d o' ++ r' → o = o' ∧ r = r'
  | .null, .null, d, r, r', _, _, _, _, _, _, h => ⟨rfl, List.append_cancel_left h⟩
  | .null, .chain _ es, d, r, r', _, _, _, _, _, _, h => by
    simp only [dump, b_null, List.cons_append, List.append_assoc] at h
    exact absurd h (indent_ne _ _ _)
  | .null, .node _ t vs, d, r, r', _, _, _, _, _, _, h => by
    simp only [dump, b_null, List.cons_append, List.append_assoc] at h
    exact absurd h (indent_ne _ _ _)
  | .chain _ es, .null, d, r, r', _, _, _, _, _, _, h => by
    simp only [dump, b_null, List.cons_append, List.append_assoc] at h
    exact absurd h.symm (indent_ne _ _ _)
  | .node _ t vs, .null, d, r, r', _, _, _, _, _, _, h => by
    simp only [dump, b_null, List.cons_append, List.append_assoc] at h
    exact absurd h.symm (indent_ne _ _ _)
  | .chain _ es, .node _ t vs, d, r, r', _, _, _, _, _, _, h => by
    simp only [dump, b_chain, b_tree, List.cons_append, List.append_assoc, List.cons.injEq, true_and] at h
    have h1 := List.append_cancel_left h
    simp at h1
  | .node _ t vs, .chain _ es, d, r, r', _, _, _, _, _, _, h => by
    simp only [dump, b_chain, b_tree, List.cons_append, List.append_assoc, List.cons.injEq, true_and] at h
    have h1 := List.append_cancel_left h
    simp at h1
  | .chain _ es, .chain _ es', d, r, r', k, k', _, _, hr, hr', h => by
    simp only [dump, List.cons_append, List.append_assoc, List.cons.injEq, true_and] at h
    have h1 := List.append_cancel_left (List.append_cancel_left h)
    obtain ⟨e1, e2⟩ := elems_inj hL es es' d r r' (fun e he => ⟨k.elem he, k.elem_node he⟩) (fun e he => ⟨k'.elem he, k'.elem_node he⟩)
      hr hr' h1
    exact ⟨by rw [e1], e2⟩
  | .node _ t vs, .node _ t' vs', d, r, r', k, k', _, _, hr, hr', h => by
    obtain ⟨⟨ht, _, hf⟩, _⟩ := k _ (.refl _)
    obtain ⟨⟨ht', _, hf'⟩, _⟩ := k' _ (.refl _)
    simp only [dump, List.cons_append, List.append_assoc, List.cons.injEq, true_and] at h
    have h1 := List.append_cancel_left (List.append_cancel_left h)
    obtain ⟨c, q, hc, e⟩ := head_props d t vs hf r
    obtain ⟨c', q', hc', e'⟩ := head_props d t' vs' hf' r'
    rw [e, e'] at h1
    obtain ⟨hn, h2⟩ := word_inj (bytes_word (hL.1 t ht)) (bytes_word (hL.1 t' ht')) hc hc' h1
    have htt := hL.2 t ht t' ht' (bytes_inj (hL.1 t ht) (hL.1 t' ht') hn)
    subst htt
    rw [← e, ← e'] at h2
    obtain ⟨e1, e2⟩ := props_inj hL vs vs' t t.props true d r r' (fun v hv => k.field hv) (fun v hv => k'.field hv) hf hf'
      (fun p hp htr => List.any_eq_true.mpr ⟨p, hp, htr⟩) hr hr' h2
    exact ⟨by rw [e1], e2⟩
  | .data x, _, _, _, _, _, _, h, _, _, _, _ => absurd rfl (h x)
  | _, .data x, _, _, _, _, _, _, h, _, _, _ => absurd rfl (h x)
theorem elems_inj {L : List TreeType} (hL : GoodTypes L) : ∀ (es es' : List (Obj Unit)) (d : Nat) (r r' : Str),
    (∀ e ∈ es, Ok L e ∧ ∃ a t vs, e = .node a t vs) → (∀ e ∈ es', Ok L e ∧ ∃ a t vs, e = .node a t vs) → End r → End r' →
    dumpElems (d + 1) es ++ 10 :: (indent d ++ (bytes ">" ++ r)) = dumpElems (d + 1) es' ++ 10 :: (indent d ++ (bytes ">" ++ r')) →
    es = es' ∧ r = r'
  | [], [], d, r, r', _, _, _, _, h => by
    simp only [dumpElems, List.nil_append, List.cons.injEq, true_and] at h
    exact ⟨rfl, List.append_cancel_left (List.append_cancel_left h)⟩
  | [], e' :: es', d, r, r', _, k', hr, hr', h => by
    obtain ⟨a, t, vs, rfl⟩ := (k' e' (by simp)).2
    simp only [dumpElems, dump1, List.nil_append, List.cons_append, List.append_assoc, List.cons.injEq, true_and, indent_succ, b_gt] at h
    exact absurd (List.append_cancel_left h) (by simp)
  | e :: es, [], d, r, r', k, _, hr, hr', h => by
    obtain ⟨a, t, vs, rfl⟩ := (k e (by simp)).2
    simp only [dumpElems, dump1, List.nil_append, List.cons_append, List.append_assoc, List.cons.injEq, true_and, indent_succ, b_gt] at h
    exact absurd (List.append_cancel_left h) (by simp)
  | e :: es, e' :: es', d, r, r', k, k', hr, hr', h => by
    have he : dump1 (d + 1) e = dump (d + 1) e ∧ ∀ x, e ≠ .data x := by
      obtain ⟨a, t, vs, rfl⟩ := (k e (by simp)).2
      exact ⟨by simp only [dump1, dump], fun x hx => by cases hx⟩
    have he' : dump1 (d + 1) e' = dump (d + 1) e' ∧ ∀ x, e' ≠ .data x := by
      obtain ⟨a, t, vs, rfl⟩ := (k' e' (by simp)).2
      exact ⟨by simp only [dump1, dump], fun x hx => by cases hx⟩
    simp only [dumpElems, he.1, he'.1, List.append_assoc] at h
    obtain ⟨e1, h1⟩ := dump_inj hL e e' (d + 1) _ _ (k e (by simp)).1 (k' e' (by simp)).1 he.2 he'.2
      (elems_end es _ _ fun x hx => (k x (by simp [hx])).2) (elems_end es' _ _ fun x hx => (k' x (by simp [hx])).2) h
    obtain ⟨e2, h2⟩ := elems_inj hL es es' d r r' (fun x hx => k x (by simp [hx])) (fun x hx => k' x (by simp [hx])) hr hr' h1
    exact ⟨by rw [e1, e2], h2⟩
theorem props_inj {L : List TreeType} (hL : GoodTypes L) : ∀ (vs vs' : List (Obj Unit)) (t : TreeType) (ps : List (String × Inst))
    (first : Bool) (d : Nat) (r r' : Str),
    (∀ v ∈ vs, Ok L v) → (∀ v ∈ vs', Ok L v) → FieldsFit ps vs → FieldsFit ps vs' →
    (∀ p ∈ ps, p.2.baseType.isTree = true → hasTree t = true) → End r → End r' →
    dumpProps d t first ps vs ++ (closing d t ++ r) = dumpProps d t first ps vs' ++ (closing d t ++ r') → vs = vs' ∧ r = r'
  | [], [], t, [], first, d, r, r', _, _, _, _, _, _, _, h => ⟨rfl, List.append_cancel_left (List.append_cancel_left h)⟩
  | v :: vs, v' :: vs', t, p :: ps, first, d, r, r', k, k', hf, hf', ht, hr, hr', h => by
    simp only [dumpProps, List.append_assoc] at h
    have h1 := List.append_cancel_left (List.append_cancel_left (List.append_cancel_left (List.append_cancel_left h)))
    have hrec : dumpProps d t false ps vs ++ (closing d t ++ r) = dumpProps d t false ps vs' ++ (closing d t ++ r') → vs = vs' ∧ r = r' :=
      fun h => props_inj hL vs vs' t ps false d r r' (fun x hx => k x (by simp [hx])) (fun x hx => k' x (by simp [hx])) hf.2 hf'.2
        (fun q hq => ht q (by simp [hq])) hr hr' h
    by_cases hp : p.2.baseType.isTree = true
    · have hv : ∀ x, v ≠ .data x := by
        rintro x rfl
        exact absurd (hf.1.1.symm.trans hp) (by simp)
      have hv' : ∀ x, v' ≠ .data x := by
        rintro x rfl
        exact absurd (hf'.1.1.symm.trans hp) (by simp)
      have hh := ht p (by simp) hp
      obtain ⟨e1, h2⟩ := dump_inj hL v v' (d + 1) _ _ (k v (by simp)) (k' v' (by simp)) hv hv'
        (props_end t ps vs d r hf.2 hh) (props_end t ps vs' d r' hf'.2 hh) h1
      obtain ⟨e2, h3⟩ := hrec h2
      exact ⟨by rw [e1, e2], h3⟩
    · obtain ⟨x, rfl, hx⟩ : ∃ x, v = .data x ∧ x.base = p.2.baseType.name := by
        cases v with
        | data x => exact ⟨x, rfl, hf.1.2⟩
        | _ => exact absurd hf.1 hp
      obtain ⟨x', rfl, hx'⟩ : ∃ x, v' = .data x ∧ x.base = p.2.baseType.name := by
        cases v' with
        | data x => exact ⟨x, rfl, hf'.1.2⟩
        | _ => exact absurd hf'.1 hp
      have n1 := print_nl (k (.data x) (by simp) _ (.refl _)).2
      have n2 := print_nl (k' (.data x') (by simp) _ (.refl _)).2
      simp only [dump] at h1
      have key : x.print false = x'.print false ∧
          dumpProps d t false ps vs ++ (closing d t ++ r) = dumpProps d t false ps vs' ++ (closing d t ++ r') := by
        rcases props_rest t ps vs d r hf.2 with e1 | ⟨rfl, rfl, e1⟩
        · rcases props_rest t ps vs' d r' hf'.2 with e2 | ⟨rfl, rfl, e2⟩
          · exact line_inj n1 n2 e1 e2 h1
          · obtain ⟨q, hq⟩ := e1.resolve_left (by cases vs <;> simp_all [FieldsFit, dumpProps, closing, b_gt])
            cases vs with
            | cons => exact absurd hf.2 (by simp [FieldsFit])
            | nil => simp [dumpProps, closing, e2, b_gt] at hq
        · cases vs' with
          | cons => exact absurd hf'.2 (by simp [FieldsFit])
          | nil =>
            simp only [dumpProps, List.nil_append, closing, e1, Bool.false_eq_true, if_false, b_gt, List.cons_append] at h1 ⊢
            have m1 : (10 : UInt8) ∉ x.print false ++ [62] := by
              intro m
              rcases List.mem_append.mp m with m | m
              · exact n1 m
              · exact absurd m (by decide)
            have m2 : (10 : UInt8) ∉ x'.print false ++ [62] := by
              intro m
              rcases List.mem_append.mp m with m | m
              · exact n2 m
              · exact absurd m (by decide)
            have h2 : (x.print false ++ [62]) ++ r = (x'.print false ++ [62]) ++ r' := by simpa using h1
            obtain ⟨a1, a2⟩ := line_inj m1 m2 hr hr' h2
            exact ⟨List.append_cancel_right a1, by rw [a2]⟩
      obtain ⟨e2, h3⟩ := hrec key.2
      rw [print_inj (hx.trans hx'.symm) key.1, e2]
      exact ⟨rfl, h3⟩
  | [], _ :: _, _, [], _, _, _, _, _, _, _, hf', _, _, _, _ => absurd hf' (by simp [FieldsFit])
  | [], _ :: _, _, _ :: _, _, _, _, _, _, _, hf, _, _, _, _, _ => absurd hf (by simp [FieldsFit])
  | _ :: _, [], _, [], _, _, _, _, _, _, hf, _, _, _, _, _ => absurd hf (by simp [FieldsFit])
  | _ :: _, [], _, _ :: _, _, _, _, _, _, _, _, hf', _, _, _, _ => absurd hf' (by simp [FieldsFit])
  | [], [], _, _ :: _, _, _, _, _, _, _, hf, _, _, _, _, _ => absurd hf (by simp [FieldsFit])
  | _ :: _, _ :: _, _, [], _, _, _, _, _, _, hf, _, _, _, _, _ => absurd hf (by simp [FieldsFit])
end

/-! ## The graph -/

theorem Adj.cons {α} {l : List α} {x y z : α} (h : Adj l x y) : Adj (z :: l) x y := by
  obtain ⟨l1, l2, rfl⟩ := h
  exact ⟨z :: l1, l2, rfl⟩

theorem adj_cons {α} {l : List α} {x y z : α} : Adj (z :: l) x y ↔ (z = x ∧ l.head? = some y) ∨ Adj l x y := by
  constructor
  · rintro ⟨l1, l2, h⟩
    cases l1 with
    | nil =>
      simp only [List.nil_append, List.cons.injEq] at h
      exact .inl ⟨h.1, by rw [h.2]; rfl⟩
    | cons w l1 =>
      simp only [List.cons_append, List.cons.injEq] at h
      exact .inr ⟨l1, l2, h.2⟩
  · rintro (⟨rfl, h⟩ | h)
    · cases l with
      | nil => simp at h
      | cons w l =>
        simp only [List.head?_cons, Option.some.injEq] at h
        subst h
        exact ⟨[], l, rfl⟩
    · exact h.cons

theorem adj_nil {α} {x y : α} : ¬ Adj [] x y := by
  rintro ⟨l1, l2, h⟩
  cases l1 <;> simp at h

theorem drawn_node {a t vs s} (hz : ∀ v ∈ vs, ∃ p, (p, v) ∈ t.props.zip vs) :
    Drawn (.node a t vs) s ↔ s = .node (.tree a) (bytes t.name) ∨
      ∃ p v, (p, v) ∈ t.props.zip vs ∧ (FieldDrawn a p.1 v s ∨ Drawn v s) := by
  constructor
  · rintro ⟨o', ho, h⟩
    cases ho with
    | refl =>
      rcases h with h | ⟨p, v, h1, h2⟩
      · exact .inl h
      · exact .inr ⟨p, v, h1, .inl h2⟩
    | field hv hs =>
      obtain ⟨p, hp⟩ := hz _ hv
      exact .inr ⟨p, _, hp, .inr ⟨_, hs, h⟩⟩
  · rintro (h | ⟨p, v, h1, h2 | ⟨o', h2, h3⟩⟩)
    · exact ⟨_, .refl _, .inl h⟩
    · exact ⟨_, .refl _, .inr ⟨p, v, h1, h2⟩⟩
    · exact ⟨o', .field (List.of_mem_zip h1).2 h2, h3⟩

theorem drawn_chain {a es s} : Drawn (.chain a es) s ↔
    (∃ e ∈ es, Drawn e s) ∨ ∃ e e', Adj es e e' ∧ s = .next (.tree e.addr) (.tree e'.addr) := by
  constructor
  · rintro ⟨o', ho, h⟩
    cases ho with
    | refl => exact .inr h
    | elem he hs => exact .inl ⟨_, he, _, hs, h⟩
  · rintro (⟨e, he, o', h1, h2⟩ | h)
    · exact ⟨o', .elem he h1, h2⟩
    · exact ⟨_, .refl _, h⟩

theorem zip_fields {α} : ∀ {ps : List (String × Inst)} {vs : List (Obj α)}, FieldsFit ps vs → ∀ v ∈ vs, ∃ p, (p, v) ∈ ps.zip vs
  | [], [], _, _, h => absurd h (by simp)
  | p :: ps, v :: vs, hf, w, h => by
    rcases List.mem_cons.mp h with rfl | h
    · exact ⟨p, by simp⟩
    · obtain ⟨q, hq⟩ := zip_fields hf.2 w h
      exact ⟨q, by simp [hq]⟩
  | [], _ :: _, hf, _, _ => absurd hf (by simp [FieldsFit])
  | _ :: _, [], hf, _, _ => absurd hf (by simp [FieldsFit])

/-- the hypotheses on a tree, for all its parts -/
def OkN (L : List TreeType) (o : Obj Nat) : Prop := ∀ s, Sub s o → FitsHere L s ∧ PlainHere s

theorem OkN.elem_node {L a es e} (h : OkN L (.chain a es)) (he : e ∈ es) : ∃ a' t vs, e = .node a' t vs := by
  obtain ⟨h1, h2⟩ := h _ (.refl _)
  obtain ⟨h3, h4⟩ := h1 e he
  have h5 := h2 e he
  cases e with
  | null => exact absurd rfl h3
  | data x => exact absurd rfl (h4 x)
  | chain a es => exact absurd rfl (h5 a es)
  | node a t vs => exact ⟨a, t, vs, rfl⟩

theorem drawn_data {x s} : ¬ Drawn (.data x) s := by
  rintro ⟨o', ho, h⟩
  cases ho
  exact h

theorem drawn_null {s} : ¬ Drawn .null s := by
  rintro ⟨o', ho, h⟩
  cases ho
  exact h

theorem treeEdge_mem {a p v s} (h : ∀ x, v ≠ .data x) : s ∈ treeEdge a (bytes p) v ↔ FieldDrawn a p v s := by
  cases v with
  | null => simp [treeEdge, FieldDrawn]
  | data x => exact absurd rfl (h x)
  | node b t vs => simp [treeEdge, FieldDrawn]
  | chain b es => cases es <;> simp [treeEdge, FieldDrawn]

mutual
theorem dot_mem {L : List TreeType} : ∀ (o : Obj Nat) (s : Stmt), OkN L o → s.isDrawn = true → (s ∈ dot o ↔ Drawn o s)
  | .null, s, _, _ => by
    simp only [dot, List.not_mem_nil, false_iff]
    exact drawn_null
  | .data x, s, _, _ => by
    simp only [dot, List.not_mem_nil, false_iff]
    exact drawn_data
  | .node a t vs, s, k, hs => by
    have hf := (k _ (.refl _)).1.2.2
    rw [drawn_node (zip_fields hf), dot, List.mem_cons, props_mem vs t.props a s (fun v hv o' ho => k o' (.field hv ho)) hs]
  | .chain a es, s, k, hs => by
    rw [drawn_chain, dot, elems_mem es a none 0 s (fun e he => ⟨fun o' ho => k o' (.elem he ho), k.elem_node he⟩) hs]
    simp
theorem elems_mem {L : List TreeType} : ∀ (es : List (Obj Nat)) (a : Nat) (last : Option Nat) (n : Nat) (s : Stmt),
    (∀ e ∈ es, OkN L e ∧ ∃ a t vs, e = .node a t vs) → s.isDrawn = true →
    (s ∈ dotElems a last n es ↔ (∃ e ∈ es, Drawn e s) ∨ (∃ e e', Adj es e e' ∧ s = .next (.tree e.addr) (.tree e'.addr)) ∨
      ∃ l e, last = some l ∧ es.head? = some e ∧ s = .next (.tree l) (.tree e.addr))
  | [], a, last, n, s, _, _ => by
    simp [dotElems, adj_nil]
  | e :: es, a, last, n, s, k, hs => by
    have hd : dot1 e = dot e := by
      obtain ⟨b, t, vs, rfl⟩ := (k e (by simp)).2
      simp only [dot1, dot]
    have i1 := dot_mem e s (k e (by simp)).1 hs
    have i2 := elems_mem es a (some e.addr) (n + 1) s (fun x hx => k x (by simp [hx])) hs
    have n1 : s ≠ .sub a n := by rintro rfl; simp [Stmt.isDrawn] at hs
    have n2 : s ≠ .close := by rintro rfl; simp [Stmt.isDrawn] at hs
    have n3 : s ∈ nextEdge last e.addr ↔ ∃ l, last = some l ∧ s = .next (.tree l) (.tree e.addr) := by
      cases last <;> simp [nextEdge]
    simp only [dotElems, hd, List.cons_append, List.append_assoc, List.mem_cons, List.mem_append, n1, n2, false_or, i1, i2, n3, adj_cons,
      List.head?_cons, Option.some.injEq]
    constructor
    · rintro (h | ⟨l, rfl, rfl⟩ | ⟨x, hx, h⟩ | ⟨x, y, h1, rfl⟩ | ⟨l, y, rfl, h1, rfl⟩)
      · exact .inl ⟨e, .inl rfl, h⟩
      · exact .inr (.inr ⟨l, e, rfl, rfl, rfl⟩)
      · exact .inl ⟨x, .inr hx, h⟩
      · exact .inr (.inl ⟨x, y, .inr h1, rfl⟩)
      · exact .inr (.inl ⟨e, y, .inl ⟨rfl, h1⟩, rfl⟩)
    · rintro (⟨x, rfl | hx, h⟩ | ⟨x, y, ⟨rfl, h1⟩ | h1, rfl⟩ | ⟨l, x, rfl, rfl, rfl⟩)
      · exact .inl h
      · exact .inr (.inr (.inl ⟨x, hx, h⟩))
      · exact .inr (.inr (.inr (.inr ⟨_, y, rfl, h1, rfl⟩)))
      · exact .inr (.inr (.inr (.inl ⟨x, y, h1, rfl⟩)))
      · exact .inr (.inl ⟨l, rfl, rfl⟩)
theorem props_mem {L : List TreeType} : ∀ (vs : List (Obj Nat)) (ps : List (String × Inst)) (a : Nat) (s : Stmt),
    (∀ v ∈ vs, OkN L v) → s.isDrawn = true →
    (s ∈ dotProps a ps vs ↔ ∃ p v, (p, v) ∈ ps.zip vs ∧ (FieldDrawn a p.1 v s ∨ Drawn v s))
  | [], ps, a, s, _, _ => by
    cases ps <;> simp [dotProps]
  | v :: vs, [], a, s, _, _ => by simp [dotProps]
  | v :: vs, p :: ps, a, s, k, hs => by
    have i1 := dot_mem v s (k v (by simp)) hs
    have i2 := props_mem vs ps a s (fun x hx => k x (by simp [hx])) hs
    have key : s ∈ dotProps a (p :: ps) (v :: vs) ↔ (FieldDrawn a p.1 v s ∨ Drawn v s) ∨ s ∈ dotProps a ps vs := by
      cases v with
      | data x =>
        simp only [dotProps, List.mem_append, List.mem_cons, List.not_mem_nil, or_false, FieldDrawn]
        have := @drawn_data x s
        simp [this]
      | null =>
        have := @treeEdge_mem a p.1 .null s (fun x h => by cases h)
        simp only [dotProps, List.mem_append, this, i1]
      | node b t ws =>
        have := @treeEdge_mem a p.1 (.node b t ws) s (fun x h => by cases h)
        simp only [dotProps, List.mem_append, this, i1]
      | chain b es =>
        have := @treeEdge_mem a p.1 (.chain b es) s (fun x h => by cases h)
        simp only [dotProps, List.mem_append, this, i1]
    rw [key, i2]
    simp only [List.zip_cons_cons, List.mem_cons, Prod.mk.injEq]
    constructor
    · rintro (h | ⟨q, w, h1, h2⟩)
      · exact ⟨p, v, .inl ⟨rfl, rfl⟩, h⟩
      · exact ⟨q, w, .inr h1, h2⟩
    · rintro ⟨q, w, ⟨rfl, rfl⟩ | h1, h2⟩
      · exact .inl h2
      · exact .inr ⟨q, w, h1, h2⟩
end

end Bic.Dump
