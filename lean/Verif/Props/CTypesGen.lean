import Verif.Proofs.CTypesGen
import Verif.Props.Clang

/-!
# C122, C123: the tables generated from the C types

**C122**: `get_ffi_type`, as the generated `ffi-types.c` defines it, returns for every C type of a description the libffi type
named there; for `c.lang` that type has the size and the kind the C type has.

**C123**: `ctypes.def` is a list of invocations of `DEFCTYPE`, one for each C type of the description in its order, whose arguments
are the fields of that type.  Refuted in full: fields are written as they are, so a comma in the C name of a type gives one argument
too many.
-/

namespace Bic.LangGen
open _root_.Bic.LangGen.Spec
open _root_.Bic.Spec (abiSize)

theorem lookup_mem {α : Type} [BEq α] [LawfulBEq α] {β : Type} (l : List (α × β)) (hn : (l.map (·.1)).Nodup) {a : α} {b : β} (h : (a, b) ∈ l) :
    l.lookup a = some b := by
  induction l with
  | nil => cases h
  | cons e l ih =>
    obtain ⟨a', b'⟩ := e
    rw [List.map_cons, List.nodup_cons] at hn
    rcases List.mem_cons.mp h with h1 | h1
    · cases h1; simp
    · have : a ≠ a' := by
        rintro rfl
        exact hn.1 (List.mem_map.mpr ⟨(a, b), by assumption, rfl⟩)
      rw [List.lookup_cons, beq_eq_false_iff_ne.mpr this]
      exact ih hn.2 h1

/-- **C122**: what `get_ffi_type` returns is the libffi type the description names -/
theorem C122_selected (text : List Char) (d : List Form) (L : Lang) (hl : lex text = d.flatMap Form.toks) (hr : read text = .ok L)
    (hn : ((ctypes d).map CDecl.name).Nodup) (c : CDecl) (hc : c ∈ ctypes d) :
    selected L.ffiTypes c.name = some c.ffi.toList := by
  have hd := read_ctypes hl hr
  have hw : ∀ t ∈ L.treeCTypes, WordCT t := fun t ht => by
    have := ctype_ok hl (c := t.decl) (by rw [← hd]; exact List.mem_map.mpr ⟨t, ht, rfl⟩)
    exact ⟨this.1, this.2.1⟩
  unfold selected
  rw [ffiTypes_cases L hw]
  have e : L.treeCTypes.map (fun t => (t.tree.name.toList, t.ffi.toList)) = (ctypes d).map fun t => (t.name.toList, t.ffi.toList) := by
    rw [← hd, List.map_map]; rfl
  show List.lookup _ _ = _
  rw [e]
  refine lookup_mem ((ctypes d).map fun t => (t.name.toList, t.ffi.toList)) ?_ (List.mem_map.mpr ⟨c, hc, rfl⟩)
  rw [List.map_map]
  have : ((ctypes d).map (((·.1) : List Char × List Char → List Char) ∘ fun t => (t.name.toList, t.ffi.toList)))
      = ((ctypes d).map CDecl.name).map String.toList := by rw [List.map_map]; rfl
  rw [this]
  refine List.Pairwise.map _ (fun a b hab h => hab (String.toList_inj.mp h)) hn

/-- … and for every other type the program ends with an error -/
theorem C122_other (text : List Char) (d : List Form) (L : Lang) (hl : lex text = d.flatMap Form.toks) (hr : read text = .ok L)
    (x : String) (hx : x ∉ (ctypes d).map CDecl.name) : selected L.ffiTypes x = none := by
  have hd := read_ctypes hl hr
  have hw : ∀ t ∈ L.treeCTypes, WordCT t := fun t ht => by
    have := ctype_ok hl (c := t.decl) (by rw [← hd]; exact List.mem_map.mpr ⟨t, ht, rfl⟩)
    exact ⟨this.1, this.2.1⟩
  unfold selected
  rw [ffiTypes_cases L hw]
  show List.lookup _ _ = _
  rw [List.lookup_eq_none_iff]
  intro p hp
  obtain ⟨t, ht, rfl⟩ := List.mem_map.mp hp
  simp only [bne_iff_ne, ne_eq]
  intro h
  refine hx ?_
  rw [← hd, List.map_map]
  have h' : x.toList = t.tree.name.toList := by simpa using h
  exact List.mem_map.mpr ⟨t, ht, (String.toList_inj.mp h').symm⟩

theorem clang_ctypes : ((ctypes clangDesc).map CDecl.name).Nodup ∧
    (ctypes clangDesc).map (fun c => (c.name, (ffiInfo c.ffi.toList))) =
      [CT.char, .short, .int, .long, .longlong, .uchar, .ushort, .uint, .ulong, .ulonglong, .float, .double, .longdouble, .ptr].map
        (fun c => (treeName c, some (abiSize c, kindOfCT c))) := by decide +kernel

/-- **C122** for bic itself: every C type is passed to and from libraries with its size and kind -/
theorem C122_clang : ∃ L, read clangText = .ok L ∧
    ∀ c : CT, ∃ f, selected L.ffiTypes (treeName c) = some f ∧ ffiInfo f = some (abiSize c, kindOfCT c) := by
  obtain ⟨L, hL⟩ := clang_read
  refine ⟨L, hL, fun c => ?_⟩
  have hm : (treeName c, some (abiSize c, kindOfCT c)) ∈ (ctypes clangDesc).map (fun c => (c.name, (ffiInfo c.ffi.toList))) := by
    rw [clang_ctypes.2]
    refine List.mem_map.mpr ⟨c, ?_, rfl⟩
    cases c <;> simp
  obtain ⟨t, ht, e⟩ := List.mem_map.mp hm
  have e1 : t.name = treeName c := congrArg Prod.fst e
  have e2 : ffiInfo t.ffi.toList = some (abiSize c, kindOfCT c) := congrArg Prod.snd e
  refine ⟨t.ffi.toList, ?_, e2⟩
  rw [← e1]
  exact C122_selected clangText clangDesc L clang_lex hL clang_ctypes.1 t ht

/-! ## C123 -/

/-- **C123**, the full statement -/
def C123_statement : Prop :=
  ∀ (text : List Char) (d : List Form) (L : Lang), lex text = d.flatMap Form.toks → read text = .ok L →
    invocations .out (ctoks L.ctypesDef) = some ((ctypes d).map CDecl.row)

/-- the fields of a C type that are written without quotes have no comma, parenthesis, quote, `/` or `#`, and its friendly name is on one line -/
def Plain (c : CDecl) : Prop :=
  '\n' ∉ c.friendly.toList ∧ (∀ x ∈ c.ctype.toList, Harmless x) ∧ (∀ x ∈ c.format.toList, Harmless x) ∧ ∀ x ∈ c.member.toList, Harmless x

/-- **C123** for types whose fields are plain -/
theorem C123_partial (text : List Char) (d : List Form) (L : Lang) (hl : lex text = d.flatMap Form.toks) (hr : read text = .ok L)
    (hp : ∀ c ∈ ctypes d, Plain c) : invocations .out (ctoks L.ctypesDef) = some ((ctypes d).map CDecl.row) := by
  have hd := read_ctypes hl hr
  rw [ctypesDef_rows L, ← hd, List.map_map]
  · rfl
  intro t ht
  have hm : t.decl ∈ ctypes d := by rw [← hd]; exact List.mem_map.mpr ⟨t, ht, rfl⟩
  obtain ⟨h1, _, h3⟩ := ctype_ok hl hm
  obtain ⟨p1, p2, p3, p4⟩ := hp _ hm
  exact ⟨h1, h3, p1, p2, p3, p4⟩

instance (c : Char) : Decidable (Harmless c) := by unfold Harmless; infer_instance
instance (c : CDecl) : Decidable (Plain c) := by unfold Plain; infer_instance

theorem clang_plain : ∀ c ∈ ctypes clangDesc, Plain c := by decide +kernel

/-- **C123** for bic itself -/
theorem C123_clang : ∃ L, read clangText = .ok L ∧ invocations .out (ctoks L.ctypesDef) = some ((ctypes clangDesc).map CDecl.row) := by
  obtain ⟨L, hL⟩ := clang_read
  exact ⟨L, hL, C123_partial clangText clangDesc L clang_lex hL clang_plain⟩

/-- a C type with a comma in its C name -/
def commaText : List Char := "(defctype T_A \"a\" \"a, b\" \"d\" \"ival\" ffi_a)".toList
def commaDesc : List Form := [.ctype "T_A" "a" "a, b" "d" "ival" "ffi_a" none]

theorem comma_lex : lex commaText = commaDesc.flatMap Form.toks := by decide +kernel

theorem comma_read : ∃ L, read commaText = .ok L ∧ L.treeCTypes.map CType.decl = ctypes commaDesc := by
  unfold read
  rw [comma_lex, parse_toks]
  exact ⟨_, rfl, rfl⟩

theorem C123_refuted : ¬ C123_statement := by
  intro h
  obtain ⟨L, hL, hd⟩ := comma_read
  have := h commaText commaDesc L comma_lex hL
  obtain ⟨t, ht⟩ : ∃ t, L.treeCTypes = [t] := by
    cases e : L.treeCTypes with
    | nil => have h := congrArg List.length hd; rw [e] at h; cases h
    | cons t l =>
      cases l with
      | nil => exact ⟨t, rfl⟩
      | cons u l => have h := congrArg List.length hd; rw [e] at h; simp [ctypes, commaDesc] at h
  have ht' : t.decl = ⟨"T_A", "a", "a, b", "d", "ival", "ffi_a"⟩ := by rw [ht] at hd; exact List.head_eq_of_cons_eq hd
  have e : L.ctypesDef = ctypesHead ++ "DEFCTYPE(T_A, \"a\", a, b, d, ival)\n".toList := by
    unfold Lang.ctypesDef CType.defLine
    rw [ht]
    simp only [CType.decl, CDecl.mk.injEq] at ht'
    obtain ⟨h1, h2, h3, h4, h5, h6⟩ := ht'
    simp only [List.flatMap_cons, List.flatMap_nil, h1, h2, h3, h4, h5]
    decide +kernel
  rw [e] at this
  revert this
  decide +kernel

/-! ## The table itself -/

/-- what a conversion of `printf` takes -/
def conversion (f : String) : Option (Nat × FKind) :=
  [("hd", 2, FKind.signed), ("d", 4, .signed), ("ld", 8, .signed), ("lld", 8, .signed), ("hu", 2, .unsigned), ("u", 4, .unsigned),
   ("lu", 8, .unsigned), ("llu", 8, .unsigned), ("f", 8, .float), ("Lf", 16, .float), ("p", 8, .pointer)].lookup f

/-- the names of the C types in C -/
def cName : CT → String
  | .char => "char" | .short => "short" | .int => "int" | .long => "long" | .longlong => "long long"
  | .uchar => "unsigned char" | .ushort => "unsigned short" | .uint => "unsigned int" | .ulong => "unsigned long"
  | .ulonglong => "unsigned long long"
  | .float => "float" | .double => "double" | .longdouble => "long double" | .ptr => "void *"

/-- the size with which a value of a C type is printed: characters as integers, `float` as `double` -/
def printSize : CT → Nat
  | .char | .uchar => 4
  | .float => 8
  | c => abiSize c

/-- the member of a live variable's value that holds it -/
def memberOf (c : CT) : String := match kindOfCT c with | .float => "dval" | _ => "ival"

theorem clang_table :
    (ctypes clangDesc).map (fun c => (c.name, c.ctype, conversion c.format, c.member)) =
      [CT.char, .short, .int, .long, .longlong, .uchar, .ushort, .uint, .ulong, .ulonglong, .float, .double, .longdouble, .ptr].map
        (fun c => (treeName c, cName c, some (printSize c, kindOfCT c), memberOf c)) := by decide +kernel

/-- **C123**, the table of bic itself: the invocation for every C type has its name in C, a conversion that prints it with its size and
kind, and the member for its kind -/
theorem C123_table : ∃ L rows, read clangText = .ok L ∧ invocations .out (ctoks L.ctypesDef) = some rows ∧
    ∀ c : CT, ∃ fr f, [[.word (treeName c).toList], [.str fr], ctoks (cName c).toList, ctoks f.toList, ctoks (memberOf c).toList] ∈ rows ∧
      conversion f = some (printSize c, kindOfCT c) := by
  obtain ⟨L, hL, h⟩ := C123_clang
  refine ⟨L, _, hL, h, fun c => ?_⟩
  have hm : (treeName c, cName c, some (printSize c, kindOfCT c), memberOf c) ∈
      (ctypes clangDesc).map (fun c => (c.name, c.ctype, conversion c.format, c.member)) := by
    rw [clang_table]
    refine List.mem_map.mpr ⟨c, ?_, rfl⟩
    cases c <;> simp
  obtain ⟨t, ht, e⟩ := List.mem_map.mp hm
  simp only [Prod.mk.injEq] at e
  obtain ⟨e1, e2, e3, e4⟩ := e
  refine ⟨t.friendly.toList, t.format, ?_, e3⟩
  rw [← e1, ← e2, ← e4]
  exact List.mem_map.mpr ⟨t, ht, rfl⟩

/-- the friendly names do not tell the types apart: `unsigned short` is called `signed short` -/
theorem clang_friendly : ¬ ((ctypes clangDesc).map CDecl.friendly).Nodup := by decide +kernel

end Bic.LangGen
