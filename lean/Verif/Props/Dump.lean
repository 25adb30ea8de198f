import Verif.Proofs.Dump
import Verif.Props.Clang
/-!
# C110: the dump of a tree tells the tree
-/

namespace Bic.Dump
open LangGen
open Bic.Lexer (Str bytes)

/-- Different trees of the language of bic have different dumps. -/
def C110_statement : Prop :=
  ∀ L, read clangText = .ok L → ∀ o o' : Obj Unit, Fits L.types o → Fits L.types o' → treeDump o = treeDump o' → o = o'

/-- **C110**, for trees whose strings have no newline and without chains in chains, and for all descriptions
with different names. -/
theorem C110_dump_partial {L : List TreeType} (hL : GoodTypes L) {o o' : Obj Unit} (h : Fits L o) (h' : Fits L o') (hp : AllPlain o)
    (hp' : AllPlain o') (e : treeDump o = treeDump o') : o = o' :=
  (dump_inj hL o o' 0 _ _ (fun s hs => ⟨h.2 s hs, hp s hs⟩) (fun s hs => ⟨h'.2 s hs, hp' s hs⟩) h.1 h'.1 (End.nl _) (End.nl _) e).1

/-- the names of the types of `c.lang`, read by the kernel -/
def goodTypesB (L : List TreeType) : Bool :=
  L.all (fun t => t.name.toList.all isLD) && decide (L.map (·.name)).Nodup

theorem goodTypes_of {L : List TreeType} (h : goodTypesB L = true) : GoodTypes L := by
  simp only [goodTypesB, Bool.and_eq_true, List.all_eq_true, decide_eq_true_eq] at h
  refine ⟨h.1, fun t ht t' ht' e => ?_⟩
  obtain ⟨i, hi, rfl⟩ := List.mem_iff_getElem.mp ht
  obtain ⟨j, hj, rfl⟩ := List.mem_iff_getElem.mp ht'
  have := List.Nodup.getElem_inj_iff h.2 (i := i) (j := j) (hi := by simpa using hi) (hj := by simpa using hj)
  have hij : i = j := this.mp (by simpa using e)
  subst hij
  rfl

theorem clang_types_b : (applied clangDesc).all (fun L => goodTypesB L.types) = true := by decide +kernel

theorem clang_get {L : Lang} (h : read clangText = .ok L) : applied clangDesc = some L := by
  obtain ⟨L', h'⟩ := Option.isSome_iff_exists.mp clang_applied
  unfold LangGen.read at h
  rw [clang_lex, parse_toks] at h
  have h2 := h'
  unfold applied at h2
  rw [h2] at h
  have h3 : Res.ok L' = Res.ok L := h
  exact h'.trans (congrArg some (Res.ok.inj h3))

/-- `c.lang` meets the hypothesis -/
theorem C110_clang {L : Lang} (h : read clangText = .ok L) : GoodTypes L.types := by
  have := clang_types_b
  rw [clang_get h] at this
  exact goodTypes_of this

/-! ## Where it fails -/

def strType : TreeType := ⟨"T_STRING", "Constant string", "tSTRING", [("VAL", ⟨"string0", ⟨"char *", "string", false⟩⟩)]⟩
def addType : TreeType := ⟨"T_ADD", "Addition", "tADD", [("LHS", ⟨"t0", ⟨"tree", "t", true⟩⟩), ("RHS", ⟨"t1", ⟨"tree", "t", true⟩⟩)]⟩
def compType : TreeType := ⟨"T_DECL_COMPOUND", "Compound Declataion", "tCOMP_DECL",
  [("ID", ⟨"t0", ⟨"tree", "t", true⟩⟩), ("DECLS", ⟨"t1", ⟨"tree", "t", true⟩⟩), ("SZ", ⟨"sz0", ⟨"size_t", "sz", false⟩⟩),
    ("EXPANDED", ⟨"flag0", ⟨"bool", "flag", false⟩⟩), ("TYPE", ⟨"comp_decl_type0", ⟨"compound_type", "comp_decl_type", false⟩⟩)]⟩

theorem clang_some_b : (applied clangDesc).all (fun L => decide (strType ∈ L.types) && decide (addType ∈ L.types) && decide (compType ∈ L.types)) = true := by
  decide +kernel

theorem clang_some {L : Lang} (h : read clangText = .ok L) : strType ∈ L.types ∧ addType ∈ L.types ∧ compType ∈ L.types := by
  have := clang_some_b
  rw [clang_get h] at this
  simpa [and_assoc] using this

/-- a string -/
def strObj (s : String) : Obj Unit := .node () strType [.data (.str (bytes s))]
/-- the trees of the scripts `"a"; "b";` and `"a\">\n  <tree T_STRING tSTRING_VAL: \"b";` -/
def two : Obj Unit := .chain () [strObj "a", strObj "b"]
def one : Obj Unit := .chain () [strObj "a\">\n  <tree T_STRING tSTRING_VAL: \"b"]

theorem two_one : treeDump two = treeDump one := by decide +kernel

theorem sub_data {α} {x : Datum} {s : Obj α} (h : Sub s (.data x)) : s = .data x := by cases h; rfl

theorem strObj_sub {s : String} {o : Obj Unit} (h : Sub o (strObj s)) : o = strObj s ∨ o = .data (.str (bytes s)) := by
  cases h with
  | refl => exact .inl rfl
  | field hv hs =>
    rw [List.mem_singleton] at hv
    subst hv
    exact .inr (sub_data hs)

theorem str_fits {L : List TreeType} (hL : strType ∈ L) (ss : List String) : Fits L (.chain () (ss.map strObj)) := by
  refine ⟨fun x h => (by cases h), fun s hs => ?_⟩
  cases hs with
  | refl =>
    intro e he
    obtain ⟨t, _, rfl⟩ := List.mem_map.mp he
    exact ⟨by simp [strObj], by simp [strObj]⟩
  | elem he hs =>
    obtain ⟨t, _, rfl⟩ := List.mem_map.mp he
    rcases strObj_sub hs with rfl | rfl
    · exact ⟨hL, by decide, ⟨rfl, rfl⟩, trivial⟩
    · exact trivial

/-- **C110** fails: strings are printed as they are, with their newlines and quotes -/
theorem C110_refuted : ¬ C110_statement := by
  intro H
  obtain ⟨L, h⟩ := clang_read
  have hs := (clang_some h).1
  have e := H L h two one (str_fits hs ["a", "b"]) (str_fits hs ["a\">\n  <tree T_STRING tSTRING_VAL: \"b"]) two_one
  simp only [two, one, Obj.chain.injEq, true_and] at e
  exact absurd (congrArg List.length e) (by decide)

/-- chains in chains fail as well: of a chain that is an element of a chain nothing is printed -/
theorem C110_nested (d : Nat) (a b : Unit) (es es' : List (Obj Unit)) : dump d (.chain a [.chain b es]) = dump d (.chain a [.chain b es']) := by
  simp only [dump, dumpElems, dump1]

/-- a case of `C110_dump_partial`: a sum whose right operand is missing -/
def sumObj : Obj Unit := .node () addType [strObj "a", .null]

example : treeDump sumObj = bytes "\n<tree T_ADD tADD_LHS: \n  <tree T_STRING tSTRING_VAL: \"a\">\n      tADD_RHS:   <null>\n\n>\n" := by decide +kernel

theorem sum_sub {o : Obj Unit} (h : Sub o sumObj) : o = sumObj ∨ o = strObj "a" ∨ o = .data (.str (bytes "a")) ∨ o = .null := by
  cases h with
  | refl => exact .inl rfl
  | field hv hs =>
    simp only [List.mem_cons, List.not_mem_nil, or_false] at hv
    rcases hv with rfl | rfl
    · rcases strObj_sub hs with h | h
      · exact .inr (.inl h)
      · exact .inr (.inr (.inl h))
    · cases hs
      exact .inr (.inr (.inr rfl))

theorem sum_ok {L : List TreeType} (h1 : strType ∈ L) (h2 : addType ∈ L) : Fits L sumObj ∧ AllPlain sumObj := by
  refine ⟨⟨fun x h => (by cases h), fun s hs => ?_⟩, fun s hs => ?_⟩
  · rcases sum_sub hs with rfl | rfl | rfl | rfl
    · exact ⟨h2, by decide, rfl, rfl, trivial⟩
    · exact ⟨h1, by decide, ⟨rfl, rfl⟩, trivial⟩
    · exact trivial
    · exact trivial
  · rcases sum_sub hs with rfl | rfl | rfl | rfl
    · exact trivial
    · exact trivial
    · show (10 : UInt8) ∉ bytes "a"
      decide
    · exact trivial

example {L : Lang} (h : read clangText = .ok L) {o : Obj Unit} (hf : Fits L.types o) (hp : AllPlain o) (e : treeDump o = treeDump sumObj) :
    o = sumObj :=
  C110_dump_partial (C110_clang h) hf (sum_ok (clang_some h).1 (clang_some h).2.1).1 hp (sum_ok (clang_some h).1 (clang_some h).2.1).2 e

/-! # C111: the graph of a tree -/

/-- The graph `bic -D` writes has an end for each edge and shows the content of each field. -/
def C111_statement : Prop :=
  ∀ L, read clangText = .ok L → ∀ o : Obj Nat, Fits L.types o → AllPlain o → Addresses o → EdgesEnd (treeDot o) ∧ ValuesShown o (treeDot o)

theorem okN_of {L : List TreeType} {o : Obj Nat} (h : Fits L o) (hp : AllPlain o) : OkN L o := fun s hs => ⟨h.2 s hs, hp s hs⟩

/-- **C111**: the nodes and edges written are exactly those of the graph of the tree -/
theorem C111_graph {L : List TreeType} {o : Obj Nat} (h : Fits L o) (hp : AllPlain o) {s : Stmt} (hs : s.isDrawn = true) :
    s ∈ treeDot o ↔ Drawn o s := dot_mem o s (okN_of h hp) hs

theorem Sub.trans {α} {o o' o'' : Obj α} (h : Sub o o') (h' : Sub o' o'') : Sub o o'' := by
  induction h' with
  | refl => exact h
  | field hv _ ih => exact .field hv ih
  | elem he _ ih => exact .elem he ih

theorem node_drawn {L : List TreeType} {o : Obj Nat} (h : Fits L o) (hp : AllPlain o) {a t vs} (hs : Sub (.node a t vs) o) :
    .node (.tree a) (bytes t.name) ∈ treeDot o := (C111_graph h hp rfl).mpr ⟨_, hs, .inl rfl⟩

/-- the elements of chains are nodes of the graph -/
theorem elem_drawn {L : List TreeType} {o : Obj Nat} (h : Fits L o) (hp : AllPlain o) {a es e} (hs : Sub (.chain a es) o) (he : e ∈ es) :
    ∃ l, .node (.tree e.addr) l ∈ treeDot o := by
  have hse : Sub e o := Sub.trans (.elem he (.refl _)) hs
  obtain ⟨b, t, vs, rfl⟩ := OkN.elem_node (fun s hx => okN_of h hp s (hx.trans hs)) he
  exact ⟨_, node_drawn h hp hse⟩

/-- no part of the tree is a chain without elements -/
def NoEmpty (o : Obj Nat) : Prop := ∀ a, ¬ Sub (.chain a []) o

/-- **C111**, the edges: if there are no chains without elements, every edge ends at nodes of the graph -/
theorem C111_edges_partial {L : List TreeType} {o : Obj Nat} (h : Fits L o) (hp : AllPlain o) (hn : NoEmpty o) : EdgesEnd (treeDot o) := by
  intro i j hij
  rcases hij with ⟨l, hl⟩ | hl
  · obtain ⟨o', ho, hh⟩ := (C111_graph h hp rfl).mp hl
    cases o' with
    | null => exact hh.elim
    | data x => exact hh.elim
    | chain a es => obtain ⟨_, _, _, hh⟩ := hh; cases hh
    | node a t vs =>
      rcases hh with hh | ⟨p, v, hz, hh⟩
      · cases hh
      have hv : Sub v o := Sub.trans (.field (List.of_mem_zip hz).2 (.refl _)) ho
      have hfst : ∀ k l', Stmt.edge i j l = .edge (.tree a) k l' → i = .tree a ∧ j = k := by
        intro k l' e
        cases e
        exact ⟨rfl, rfl⟩
      cases v with
      | null => exact hh.elim
      | data x =>
        rcases hh with hh | hh
        · cases hh
        · obtain ⟨rfl, rfl⟩ := hfst _ _ hh
          exact ⟨⟨_, node_drawn h hp ho⟩, _, (C111_graph h hp rfl).mpr ⟨_, ho, .inr ⟨p, _, hz, .inl rfl⟩⟩⟩
      | node b t' vs' =>
        obtain ⟨rfl, rfl⟩ := hfst _ _ hh
        exact ⟨⟨_, node_drawn h hp ho⟩, _, node_drawn h hp hv⟩
      | chain b es =>
        cases es with
        | nil => exact absurd hv (hn b)
        | cons e es =>
          obtain ⟨rfl, rfl⟩ := hfst _ _ hh
          exact ⟨⟨_, node_drawn h hp ho⟩, elem_drawn h hp hv (by simp)⟩
  · obtain ⟨o', ho, hh⟩ := (C111_graph h hp rfl).mp hl
    cases o' with
    | null => exact hh.elim
    | data x => exact hh.elim
    | node a t vs =>
      rcases hh with hh | ⟨p, v, hz, hh⟩
      · cases hh
      · cases v with
        | null => exact hh.elim
        | data x => rcases hh with hh | hh <;> cases hh
        | node b t' vs' => cases hh
        | chain b es => cases es <;> cases hh
    | chain a es =>
      obtain ⟨e, e', ⟨l1, l2, rfl⟩, hh⟩ := hh
      cases hh
      exact ⟨elem_drawn h hp ho (by simp), elem_drawn h hp ho (by simp)⟩

/-- a type with one property that is not a tree has one such field -/
theorem one_datum {α} : ∀ {ps : List (String × Inst)} {vs : List (Obj α)}, FieldsFit ps vs → (ps.filter fun p => !p.2.baseType.isTree).length ≤ 1 →
    ∀ {p q x y}, (p, .data x) ∈ ps.zip vs → (q, .data y) ∈ ps.zip vs → p = q ∧ x = y
  | [], [], _, _, _, _, _, _, h, _ => absurd h (by simp)
  | r :: ps, v :: vs, hf, hl, p, q, x, y, h1, h2 => by
    have hno : (∃ z, v = .data z) → ∀ {p x}, (p, .data x) ∈ ps.zip vs → False := by
      rintro ⟨z, rfl⟩ p x h
      have hr : r.2.baseType.isTree = false := hf.1.1
      simp only [List.filter_cons, hr, Bool.not_false, if_true, List.length_cons] at hl
      have hz := zip_data hf.2 h
      have : p ∈ ps.filter fun p => !p.2.baseType.isTree := List.mem_filter.mpr ⟨(List.of_mem_zip h).1, by simp [hz]⟩
      have := List.length_pos_of_mem this
      omega
    simp only [List.zip_cons_cons, List.mem_cons, Prod.mk.injEq] at h1 h2
    rcases h1 with ⟨rfl, e1⟩ | h1 <;> rcases h2 with ⟨rfl, e2⟩ | h2
    · rw [← e1] at e2
      cases e2
      exact ⟨rfl, rfl⟩
    · exact (hno ⟨_, e1.symm⟩ h2).elim
    · exact (hno ⟨_, e2.symm⟩ h1).elim
    · refine one_datum hf.2 ?_ h1 h2
      simp only [List.filter_cons] at hl
      split at hl
      · simp only [List.length_cons] at hl; omega
      · exact hl
  | [], _ :: _, hf, _, _, _, _, _, _, _ => absurd hf (by simp [FieldsFit])
  | _ :: _, [], hf, _, _, _, _, _, _, _ => absurd hf (by simp [FieldsFit])
where
  zip_data {α} : ∀ {ps : List (String × Inst)} {vs : List (Obj α)}, FieldsFit ps vs → ∀ {p x}, (p, .data x) ∈ ps.zip vs →
      p.2.baseType.isTree = false
    | [], [], _, _, _, h => absurd h (by simp)
    | r :: ps, v :: vs, hf, p, x, h => by
      simp only [List.zip_cons_cons, List.mem_cons, Prod.mk.injEq] at h
      rcases h with ⟨rfl, rfl⟩ | h
      · exact hf.1.1
      · exact zip_data hf.2 h
    | [], _ :: _, hf, _, _, _ => absurd hf (by simp [FieldsFit])
    | _ :: _, [], hf, _, _, _ => absurd hf (by simp [FieldsFit])

/-- **C111**, the values: if no type has two properties that are not trees, the graph shows the content of all fields -/
theorem C111_values_partial {L : List TreeType} {o : Obj Nat} (h : Fits L o) (hp : AllPlain o) (ha : Addresses o)
    (h1 : ∀ a t vs, Sub (.node a t vs) o → TreeType.dataProps t ≤ 1) : ValuesShown o (treeDot o) := by
  intro a t vs p x hs hz
  refine ⟨.val a, (C111_graph h hp rfl).mpr ⟨_, hs, .inr ⟨p, _, hz, .inr rfl⟩⟩, fun l => ⟨fun hl => ?_, fun e => ?_⟩⟩
  · obtain ⟨o', ho, hh⟩ := (C111_graph h hp rfl).mp hl
    cases o' with
    | null => exact hh.elim
    | data x => exact hh.elim
    | chain b es => obtain ⟨_, _, _, hh⟩ := hh; cases hh
    | node b t' vs' =>
      rcases hh with hh | ⟨q, v, hz', hh⟩
      · cases hh
      · cases v with
        | null => exact hh.elim
        | node c t'' vs'' => cases hh
        | chain c es => cases es <;> cases hh
        | data y =>
          rcases hh with hh | hh
          · cases hh
            obtain ⟨rfl, rfl⟩ := ha _ _ _ _ _ hs ho
            have hf := (h.2 _ hs).2.2
            rw [(one_datum hf (h1 _ _ _ hs) hz hz').2]
          · cases hh
  · rw [e]
    exact (C111_graph h hp rfl).mpr ⟨_, hs, .inr ⟨p, _, hz, .inl rfl⟩⟩

/-- the types of `c.lang` with two properties that are not trees -/
theorem C111_clang_b : (applied clangDesc).map (fun L => (L.types.filter fun t => decide (1 < TreeType.dataProps t)).map (·.name)) =
    some ["T_DECL_COMPOUND", "T_CLOSURE", "T_LIVE_VAR", "E_CTX"] := by decide +kernel

/-- **C111** for bic itself: a tree without structure declarations (and without the trees the evaluator
makes for variables, closures and scopes) and without empty chains is drawn with all fields -/
theorem C111_clang {L : Lang} (hL : read clangText = .ok L) {o : Obj Nat} (h : Fits L.types o) (hp : AllPlain o) (ha : Addresses o)
    (hn : NoEmpty o)
    (ht : ∀ a t vs, Sub (.node a t vs) o → t.name ∉ ["T_DECL_COMPOUND", "T_CLOSURE", "T_LIVE_VAR", "E_CTX"]) :
    EdgesEnd (treeDot o) ∧ ValuesShown o (treeDot o) := by
  refine ⟨C111_edges_partial h hp hn, C111_values_partial h hp ha fun a t vs hs => ?_⟩
  have hb := C111_clang_b
  rw [clang_get hL] at hb
  simp only [Option.map_some, Option.some.injEq] at hb
  refine Classical.byContradiction fun hlt => ht a t vs hs ?_
  rw [← hb]
  exact List.mem_map.mpr ⟨t, List.mem_filter.mpr ⟨(h.2 _ hs).1, by simp; omega⟩, rfl⟩

/-! ## Where it fails -/

/-- `struct { } …;` as it is parsed: three fields that are not trees -/
def structObj : Obj Nat := .node 1 compType [.null, .null, .data (.size 0), .data (.flag false), .data (.comp true)]

theorem struct_sub {s : Obj Nat} (h : Sub s structObj) :
    s = structObj ∨ s = .null ∨ s = .data (.size 0) ∨ s = .data (.flag false) ∨ s = .data (.comp true) := by
  cases h with
  | refl => exact .inl rfl
  | field hv hs =>
    simp only [List.mem_cons, List.not_mem_nil, or_false] at hv
    rcases hv with rfl | rfl | rfl | rfl | rfl <;> cases hs <;> simp

/-- **C111** fails: the fields of a structure declaration that are not trees share one node, whose label
is that of the last one -/
theorem C111_refuted : ¬ C111_statement := by
  intro H
  obtain ⟨L, h⟩ := clang_read
  have hc := (clang_some h).2.2
  have hf : Fits L.types structObj := by
    refine ⟨fun x h => (by cases h), fun s hs => ?_⟩
    rcases struct_sub hs with rfl | rfl | rfl | rfl | rfl
    · exact ⟨hc, by decide, rfl, rfl, ⟨rfl, rfl⟩, ⟨rfl, rfl⟩, ⟨rfl, rfl⟩, trivial⟩
    all_goals exact trivial
  have hp : AllPlain structObj := by
    intro s hs
    rcases struct_sub hs with rfl | rfl | rfl | rfl | rfl <;> exact trivial
  have ha : Addresses structObj := by
    intro a t vs t' vs' h1 h2
    rcases struct_sub h1 with h1 | h1 | h1 | h1 | h1 <;> rcases struct_sub h2 with h2 | h2 | h2 | h2 | h2 <;> cases h1 <;> cases h2
    exact ⟨rfl, rfl⟩
  obtain ⟨j, h1, h2⟩ := (H L h structObj hf hp ha).2 1 compType _ ("SZ", ⟨"sz0", ⟨"size_t", "sz", false⟩⟩) (.size 0) (.refl _)
    (by simp [compType])
  have hj : j = .val 1 := by
    have h3 : ∀ s ∈ treeDot structObj, ∀ j, s = .edge (.tree 1) j (bytes "SZ") → j = .val 1 := by
      intro s hs j e
      subst e
      have hg : treeDot structObj = [.node (.tree 1) (bytes "T_DECL_COMPOUND"), .node (.val 1) (bytes "0"), .edge (.tree 1) (.val 1) (bytes "SZ"),
          .node (.val 1) (bytes "false"), .edge (.tree 1) (.val 1) (bytes "EXPANDED"), .node (.val 1) (bytes "struct"),
          .edge (.tree 1) (.val 1) (bytes "TYPE")] := by decide +kernel
      rw [hg] at hs
      simp only [List.mem_cons, List.not_mem_nil, or_false, Stmt.edge.injEq, reduceCtorEq, false_or, true_and] at hs
      rcases hs with hs | hs | hs <;> exact hs.1
    exact h3 _ h1 j rfl
  subst hj
  have h4 : Stmt.node (.val 1) (bytes "struct") ∈ treeDot structObj := by decide +kernel
  have h5 := (h2 _).mp h4
  exact absurd h5 (by decide +kernel)

/-- a case of `C111_clang`: the graph of `"a" + …` -/
def sumDot : Obj Nat := .node 1 addType [.node 2 strType [.data (.str (bytes "a"))], .null]

example : treeDot sumDot = [.node (.tree 1) (bytes "T_ADD"), .edge (.tree 1) (.tree 2) (bytes "LHS"), .node (.tree 2) (bytes "T_STRING"),
    .node (.val 2) (bytes "a"), .edge (.tree 2) (.val 2) (bytes "VAL")] := by decide +kernel

theorem sumDot_sub {s : Obj Nat} (h : Sub s sumDot) :
    s = sumDot ∨ s = .node 2 strType [.data (.str (bytes "a"))] ∨ s = .data (.str (bytes "a")) ∨ s = .null := by
  cases h with
  | refl => exact .inl rfl
  | field hv hs =>
    simp only [List.mem_cons, List.not_mem_nil, or_false] at hv
    rcases hv with rfl | rfl
    · cases hs with
      | refl => exact .inr (.inl rfl)
      | field hv hs =>
        rw [List.mem_singleton] at hv
        subst hv
        exact .inr (.inr (.inl (sub_data hs)))
    · cases hs
      exact .inr (.inr (.inr rfl))

example {L : Lang} (hL : read clangText = .ok L) : EdgesEnd (treeDot sumDot) ∧ ValuesShown sumDot (treeDot sumDot) := by
  obtain ⟨h1, h2, -⟩ := clang_some hL
  refine C111_clang hL ⟨fun x h => (by cases h), fun s hs => ?_⟩ (fun s hs => ?_) ?_ ?_ ?_
  · rcases sumDot_sub hs with rfl | rfl | rfl | rfl
    · exact ⟨h2, by decide, rfl, rfl, trivial⟩
    · exact ⟨h1, by decide, ⟨rfl, rfl⟩, trivial⟩
    · exact trivial
    · exact trivial
  · rcases sumDot_sub hs with rfl | rfl | rfl | rfl
    · exact trivial
    · exact trivial
    · show (10 : UInt8) ∉ bytes "a"
      decide
    · exact trivial
  · intro a t vs t' vs' e1 e2
    rcases sumDot_sub e1 with e1 | e1 | e1 | e1 <;> rcases sumDot_sub e2 with e2 | e2 | e2 | e2 <;> cases e1 <;> cases e2 <;> exact ⟨rfl, rfl⟩
  · intro a e
    rcases sumDot_sub e with e | e | e | e <;> cases e
  · intro a t vs e
    rcases sumDot_sub e with e | e | e | e <;> cases e <;> decide

end Bic.Dump
