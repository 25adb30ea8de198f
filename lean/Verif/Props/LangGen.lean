import Verif.Proofs.LangGen
import Mathlib.Data.List.Nodup

/-!
# C50, C67: the fields and accessors generated from a language description

`Spec/LangDesc.lean` says what a language description is, how it is written and what it
declares.  The theorems here relate it to what the generators (`Model/LangGen.lean`) emit.
Every text the generators accept is the text of some description (`C50_accepted`), so the
theorems speak about all texts they accept.
-/

namespace Bic.LangGen
open Spec

/-- Each declared property of each declared type has an accessor, which checks for the type and
addresses a field of the C type of the declared kind; no field of another C type has that
name; and accessors of one type with different names address different fields. -/
def Separate (d : List Form) (L : Lang) : Prop :=
  ∀ T b, (T, b) ∈ types d → ∃ t ∈ L.types, t.name = T ∧
    (∀ p k, kindOf b p = some k → ∃ m ∈ t.macros, m.name = b.pre ++ "_" ++ p ∧ m.check = T ∧
      ∃ c, cType d k = some c ∧ (c, m.field) ∈ L.fields ∧ ∀ c', (c', m.field) ∈ L.fields → c' = c) ∧
    (∀ m ∈ t.macros, ∀ m' ∈ t.macros, m.name ≠ m'.name → m.field ≠ m'.field)

/-- C50 in full: for every text that describes `d` and that the generators accept -/
def C50_statement : Prop :=
  ∀ (text : List Char) (d : List Form) (L : Lang), lex text = d.flatMap Form.toks → read text = .ok L → Separate d L

/-! ## The refutation: a base type named `t` -/

/-- a base type with the name of the tree pool -/
def clashText : List Char := "(defbasetypes (t \"int\"))(deftype A \"a\" \"tA\" (\"X\" (\"Y\" t)))".toList
def clashDesc : List Form := [.base [("t", "int")], .type "A" "a" (some ⟨"tA", [⟨"X", .tree⟩, ⟨"Y", .data "t"⟩]⟩)]
def clashLang : Lang :=
  { treeTypes := [⟨"A", "a", "tA", [("X", ⟨"t0", ⟨"tree", "t", true⟩⟩), ("Y", ⟨"t0", ⟨"int", "t", false⟩⟩)]⟩]
    treeCTypes := [], specMaps := [], ignored := [], selfs := []
    pools := [("t", ⟨⟨"int", "t", false⟩, [⟨"t0", ⟨"int", "t", false⟩⟩]⟩)]
    treePool := ⟨⟨"tree", "t", true⟩, [⟨"t0", ⟨"tree", "t", true⟩⟩]⟩ }

theorem clash_lex : lex clashText = clashDesc.flatMap Form.toks := by decide +kernel
theorem clash_read : read clashText = .ok clashLang := by decide +kernel

/-- the two properties of `A` share the field `t0` -/
theorem C50_refuted : ¬ C50_statement := by
  intro h
  obtain ⟨t, ht, -, -, h2⟩ := h clashText clashDesc clashLang clash_lex clash_read "A" _ (List.mem_singleton.mpr rfl)
  obtain rfl : t = ⟨"A", "a", "tA", [("X", ⟨"t0", ⟨"tree", "t", true⟩⟩), ("Y", ⟨"t0", ⟨"int", "t", false⟩⟩)]⟩ := by
    simpa [Lang.types, clashLang] using ht
  exact h2 ⟨"tA_X", "A", "t0"⟩ (by decide) ⟨"tA_Y", "A", "t0"⟩ (by decide) (by decide) rfl

/-! ## Descriptions without such a clash -/

/-- the names of the base types are neither `t` nor end in a digit -/
def GoodNames (d : List Form) : Prop := ∀ e ∈ bases d, e.1 ≠ "t" ∧ ∀ c ∈ e.1.toList.getLast?, c.isDigit = false

instance (d : List Form) : Decidable (GoodNames d) := by unfold GoodNames; infer_instance

theorem digits (n : Nat) : ∀ c ∈ (toString n).toList, c.isDigit = true := by
  intro c hc
  rw [show toString n = n.repr from rfl, Nat.repr_eq_ofList_toDigits, String.toList_ofList] at hc
  exact Nat.isDigit_of_mem_toDigits (b := 10) (by decide) (by decide) hc

theorem toString_inj {i j : Nat} (h : toString i = toString j) : i = j := by
  rw [show toString i = i.repr from rfl, show toString j = j.repr from rfl, Nat.repr_eq_ofList_toDigits, Nat.repr_eq_ofList_toDigits] at h
  have h := congrArg String.toList h
  rw [String.toList_ofList, String.toList_ofList] at h
  rw [← Nat.ofDigitChars_ten_toDigits (n := i), h, Nat.ofDigitChars_ten_toDigits]

theorem split_digits {xs ys ds es : List Char} (hd : ∀ c ∈ ds, c.isDigit = true) (he : ∀ c ∈ es, c.isDigit = true)
    (hx : ∀ c ∈ xs.getLast?, c.isDigit = false) (hy : ∀ c ∈ ys.getLast?, c.isDigit = false)
    (h : xs ++ ds = ys ++ es) : xs = ys ∧ ds = es := by
  have drop : ∀ {xs ds : List Char}, (∀ c ∈ ds, c.isDigit = true) → (∀ c ∈ xs.getLast?, c.isDigit = false) →
      (xs ++ ds).reverse.dropWhile Char.isDigit = xs.reverse := by
    intro xs ds h1 h2
    rw [List.reverse_append, List.dropWhile_append_of_pos (by simpa using h1)]
    cases e : xs.reverse with
    | nil => rfl
    | cons c l =>
      have : c ∈ xs.getLast? := by rw [← List.head?_reverse, e]; rfl
      simp [h2 c this]
  have e : xs.reverse = ys.reverse := by rw [← drop hd hx, h, drop he hy]
  have e := List.reverse_inj.mp e
  subst e
  exact ⟨rfl, List.append_cancel_left h⟩

theorem name_inj {a b : String} {i j : Nat} (ha : ∀ c ∈ a.toList.getLast?, c.isDigit = false)
    (hb : ∀ c ∈ b.toList.getLast?, c.isDigit = false) (h : a ++ toString i = b ++ toString j) : a = b ∧ i = j := by
  have h := congrArg String.toList h
  rw [String.toList_append, String.toList_append] at h
  obtain ⟨h1, h2⟩ := split_digits (digits i) (digits j) ha hb h
  exact ⟨String.toList_injective h1, toString_inj (String.toList_injective h2)⟩

/-- the kinds of a description with good names have different names -/
theorem slot_inj {bs : List (String × String)} {ts keys cty n L} (r : Rep bs ts keys cty n L)
    (hg : ∀ e ∈ bs, e.1 ≠ "t" ∧ ∀ c ∈ e.1.toList.getLast?, c.isDigit = false) {s s' : Slot}
    (hs : KindKnown keys s.1) (hs' : KindKnown keys s'.1) (h : (instOf cty s).memberName = (instOf cty s').memberName) : s = s' := by
  have mem : ∀ k ∈ keys, k ≠ "t" ∧ ∀ c ∈ k.toList.getLast?, c.isDigit = false := by
    intro k hk
    have := r.bases k
    rw [if_pos hk] at this
    obtain ⟨l1, l2, e, -⟩ := List.lookup_eq_some_iff.mp this
    exact hg (k, cty k) (by rw [e]; simp)
  have name : ∀ k, KindKnown keys k → ∀ c ∈ (baseOf cty k).name.toList.getLast?, c.isDigit = false := by
    intro k hk
    cases k with
    | tree => show ∀ c ∈ "t".toList.getLast?, c.isDigit = false; decide
    | data k => exact (mem k hk).2
  obtain ⟨k, i⟩ := s
  obtain ⟨k', j⟩ := s'
  obtain ⟨h1, rfl⟩ := name_inj (name _ hs) (name _ hs') h
  congr 1
  cases k with
  | tree =>
    cases k' with
    | tree => rfl
    | data k' => exact absurd h1.symm (mem k' hs').1
  | data k =>
    cases k' with
    | tree => exact absurd h1 (mem k hs).1
    | data k' => exact congrArg Kind.data h1

/-- the fields that are declared -/
theorem mem_fields {bs ts keys cty n L} (r : Rep bs ts keys cty n L) (c f : String) :
    (c, f) ∈ L.fields ↔ ∃ s : Slot, KindKnown keys s.1 ∧ s.2 < n s.1 ∧ c = (baseOf cty s.1).type ∧ f = (instOf cty s).memberName := by
  simp only [Lang.fields, r.pools, r.treePool, List.mem_append, List.mem_flatMap, List.mem_map, mkPool, List.mem_range]
  constructor
  · rintro (⟨_, ⟨k, hk, rfl⟩, _, h, e⟩ | ⟨_, ⟨j, hj, rfl⟩, e⟩)
    · obtain ⟨j, hj, rfl⟩ := List.mem_map.mp h
      rw [List.mem_range] at hj
      cases e; exact ⟨(.data k, j), hk, hj, rfl, rfl⟩
    · cases e; exact ⟨(.tree, j), trivial, hj, rfl, rfl⟩
  · rintro ⟨⟨k, j⟩, hk, hj, rfl, rfl⟩
    cases k with
    | tree => exact .inr ⟨_, ⟨j, hj, rfl⟩, rfl⟩
    | data k => exact .inl ⟨_, ⟨k, hk, rfl⟩, _, List.mem_map.mpr ⟨j, List.mem_range.mpr hj, rfl⟩, rfl⟩

theorem rep_of_read {text : List Char} {d : List Form} {L : Lang} (hl : lex text = d.flatMap Form.toks) (hr : read text = .ok L) :
    ∃ keys cty n, Rep (bases d) (types d) keys cty n L := by
  unfold read at hr
  rw [hl, parse_toks] at hr
  cases e : applyAll d Lang.empty with
  | none => rw [e] at hr; cases hr
  | some L' =>
    rw [e] at hr
    cases hr
    obtain ⟨keys, cty, n, r⟩ := rep_empty.applyAll d e
    exact ⟨keys, cty, n, by simpa using r⟩

theorem cType_known {d : List Form} {ts keys cty n L} (r : Rep (bases d) ts keys cty n L) {k : Kind} (hk : KindKnown keys k) :
    cType d k = some (baseOf cty k).type := by
  cases k with
  | tree => rfl
  | data k =>
    show (bases d).lookup k = _
    rw [r.bases, if_pos (show k ∈ keys from hk)]
    rfl

theorem macro_name_inj {t : TreeType} {p q : String} (h : t.accessor p = t.accessor q) : p = q := by
  have h := congrArg String.toList h
  simp only [TreeType.accessor, String.toList_append] at h
  exact String.toList_injective (List.append_cancel_left h)

/-- the accessors of a type whose properties are kept in slots -/
theorem mem_macros {keys cty u t sl} (h : Slots keys cty u (TreeType.props t) sl) (m : Macro) :
    m ∈ t.macros ↔ ∃ e ∈ sl, m = ⟨t.accessor e.1, t.name, (instOf cty e.2).memberName⟩ := by
  simp only [TreeType.macros, h.props, List.map_map, List.mem_map, Function.comp_def, eq_comm]

theorem slot_unique {sl : List (String × Slot)} {e e' : String × Slot} (h : (sl.map (·.2)).Nodup) (h1 : e ∈ sl) (h2 : e' ∈ sl)
    (he : e.2 = e'.2) : e = e' := (List.inj_on_of_nodup_map h) h1 h2 he

/-- **C50** for descriptions whose base types are neither named `t` nor named with a digit at the
end -- all those of `c.lang` (`C50_clang`): different properties of a type have different fields,
each of the declared kind. -/
theorem C50_separate_partial {text : List Char} {d : List Form} {L : Lang} (hl : lex text = d.flatMap Form.toks)
    (hr : read text = .ok L) (hg : GoodNames d) : Separate d L := by
  obtain ⟨keys, cty, n, r⟩ := rep_of_read hl hr
  intro T b hT
  obtain ⟨t, ht, rfl, hp, sl, hs, hk⟩ := r.types T b hT
  refine ⟨t, ht, rfl, ?_, ?_⟩
  · intro p k hpk
    rw [← hk] at hpk
    unfold slotKind at hpk
    obtain ⟨e, he, rfl⟩ := Option.map_eq_some_iff.mp hpk
    have hem := List.mem_of_find?_eq_some he
    obtain rfl : e.1 = p := by simpa using List.find?_some he
    refine ⟨_, (mem_macros hs _).mpr ⟨e, hem, rfl⟩, by simp [TreeType.accessor, hp], rfl, _, cType_known r (hs.known e hem), ?_, ?_⟩
    · exact (mem_fields r _ _).mpr ⟨e.2, hs.known e hem, hs.below e hem, rfl, rfl⟩
    · intro c' hc'
      obtain ⟨s, h1, -, rfl, h3⟩ := (mem_fields r _ _).mp hc'
      rw [slot_inj r hg (hs.known e hem) h1 h3]
  · intro m hm m' hm' hne hf
    obtain ⟨e, he, rfl⟩ := (mem_macros hs m).mp hm
    obtain ⟨e', he', rfl⟩ := (mem_macros hs m').mp hm'
    have := slot_inj r hg (hs.known e he) (hs.known e' he') hf
    rw [slot_unique hs.slots he he' this] at hne
    exact hne rfl

/-- the struct of the fields declares no field twice -/
theorem C50_fields_nodup_partial {text : List Char} {d : List Form} {L : Lang} (hl : lex text = d.flatMap Form.toks)
    (hr : read text = .ok L) (hg : GoodNames d) : (L.fields.map (·.2)).Nodup := by
  obtain ⟨keys, cty, n, r⟩ := rep_of_read hl hr
  have e : L.fields.map (·.2) = ((keys.flatMap fun k => (List.range (n (.data k))).map fun j => ((.data k, j) : Slot)) ++
      (List.range (n .tree)).map fun j => ((.tree, j) : Slot)).map fun s => (instOf cty s).memberName := by
    simp [Lang.fields, r.pools, r.treePool, List.map_flatMap, List.flatMap_map, mkPool, instOf, Function.comp_def]
  rw [e]
  refine List.Nodup.map_on ?_ ?_
  · have known : ∀ s ∈ (keys.flatMap fun k => (List.range (n (.data k))).map fun j => ((.data k, j) : Slot)) ++
        (List.range (n .tree)).map fun j => ((.tree, j) : Slot), KindKnown keys s.1 := by
      intro s hs
      rcases List.mem_append.mp hs with hs | hs
      · obtain ⟨k, hk, hs⟩ := List.mem_flatMap.mp hs
        obtain ⟨j, -, rfl⟩ := List.mem_map.mp hs
        exact hk
      · obtain ⟨j, -, rfl⟩ := List.mem_map.mp hs
        trivial
    intro s hs s' hs' h
    exact slot_inj r hg (known s hs) (known s' hs') h
  · rw [List.nodup_append]
    refine ⟨?_, List.Nodup.map (fun i j h => by cases h; rfl) List.nodup_range, ?_⟩
    · rw [List.nodup_flatMap]
      refine ⟨fun k _ => List.Nodup.map (fun i j h => by cases h; rfl) List.nodup_range, ?_⟩
      refine r.nodup.imp ?_
      intro k k' hne
      simp only [Function.onFun, List.disjoint_left, List.mem_map]
      rintro s ⟨i, -, rfl⟩ ⟨j, -, h⟩
      cases h
      exact hne rfl
    · rintro s hs s' hs' rfl
      obtain ⟨k, -, hs⟩ := List.mem_flatMap.mp hs
      obtain ⟨j, -, rfl⟩ := List.mem_map.mp hs
      obtain ⟨j', -, h⟩ := List.mem_map.mp hs'
      cases h

/-- every text that the generators accept is the text of a description -/
theorem C50_accepted {text : List Char} {L : Lang} (h : read text = .ok L) : ∃ d : List Form, lex text = d.flatMap Form.toks := by
  obtain ⟨d, e, -⟩ := parse_inv h
  exact ⟨d, e⟩

/-! ## C67: what the collector traverses -/

/-- **C67**: `mark_object` marks the value of a property of a node exactly when the description
declares the property as a tree -/
theorem C67_marked {text : List Char} {d : List Form} {L : Lang} (hl : lex text = d.flatMap Form.toks) (hr : read text = .ok L)
    {T : String} {b : Body} (hT : (T, b) ∈ types d) (hc : T ≠ "CHAIN_HEAD") :
    ∃ t ∈ L.types, t.name = T ∧ ∀ a, a ∈ t.marked ↔ ∃ p, a = b.pre ++ "_" ++ p ∧ kindOf b p = some .tree := by
  obtain ⟨keys, cty, n, r⟩ := rep_of_read hl hr
  obtain ⟨t, ht, rfl, hp, sl, hs, hk⟩ := r.types T b hT
  refine ⟨t, ht, rfl, fun a => ?_⟩
  have acc : ∀ p, t.accessor p = b.pre ++ "_" ++ p := fun p => by rw [TreeType.accessor, hp]
  simp only [TreeType.marked, if_neg hc, hs.props, List.mem_map, List.mem_filter]
  constructor
  · rintro ⟨_, ⟨⟨e, he, rfl⟩, htr⟩, rfl⟩
    refine ⟨e.1, acc _, ?_⟩
    rw [← hk]
    obtain ⟨p, k, j⟩ := e
    have hfind : sl.find? (·.1 = p) = some (p, k, j) := by
      have h1 : (sl.find? (·.1 = p)).isSome := by rw [List.find?_isSome]; exact ⟨_, he, by simp⟩
      obtain ⟨e', h2⟩ := Option.isSome_iff_exists.mp h1
      have h3 := List.mem_of_find?_eq_some h2
      have h4 : e'.1 = p := by simpa using List.find?_some h2
      rw [h2, (List.inj_on_of_nodup_map hs.names) h3 he h4]
    cases k with
    | tree => simp [slotKind, hfind]
    | data k => simp [instOf, mkInst, baseOf] at htr
  · rintro ⟨p, rfl, hpk⟩
    rw [← hk] at hpk
    unfold slotKind at hpk
    obtain ⟨e, he, h1⟩ := Option.map_eq_some_iff.mp hpk
    have hem := List.mem_of_find?_eq_some he
    obtain rfl : e.1 = p := by simpa using List.find?_some he
    exact ⟨(e.1, instOf cty e.2), ⟨⟨e, hem, rfl⟩, by rw [instOf, h1]; rfl⟩, acc _⟩

end Bic.LangGen
