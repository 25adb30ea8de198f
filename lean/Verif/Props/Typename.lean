import Verif.Model.Typename
import Mathlib.Data.List.Induction
/-!
# C39: type names
-/

namespace Bic.Typename

/-! ## Specification -/

/-- the name a declarator declares -/
inductive Names : Dcl → String → Prop
  | ident (x) : Names (.ident x) x
  | pointer {d x} : Names d x → Names (.pointer d) x
  | fn {d x} : Names d x → Names (.fn d) x
  | array {d x} : Names d x → Names (.array d) x

/-- one of the declarations is a typedef that introduces `x` -/
def Introduces (ds : List Decl) (x : String) : Prop :=
  ∃ d ∈ ds, d.typedef = true ∧ ∃ y ∈ d.decls, Names y x

/-- `x` is introduced in the program -/
def InProgram (es : List Event) (x : String) : Prop := ∃ d, Event.decl d ∈ es ∧ Introduces [d] x

/-- `ds` are the declarations of the last include -/
def LastInclude (es : List Event) (ds : List Decl) : Prop :=
  ∃ before after, es = before ++ .incl ds :: after ∧ ∀ ds', Event.incl ds' ∉ after

/-- `x` is a type name after the history -/
def TypeName (es : List Event) (x : String) : Prop :=
  x = "__builtin_va_list" ∨ x = "_Float128" ∨ InProgram es x ∨ ∃ ds, LastInclude es ds ∧ Introduces ds x

/-! ## Proof -/

/-- names get added to the list the flag selects -/
structure Adds (s s' : TN) (P : String → Prop) : Prop where
  flag : s'.inInclude = s.inInclude
  prog : ∀ x, x ∈ s'.typeNames ↔ x ∈ s.typeNames ∨ (s.inInclude = false ∧ P x)
  incl : ∀ x, x ∈ s'.includeTypeNames ↔ x ∈ s.includeTypeNames ∨ (s.inInclude = true ∧ P x)

theorem Adds.none (s : TN) : Adds s s fun _ => False := ⟨rfl, by simp, by simp⟩

theorem Adds.trans {s s' s'' : TN} {P Q : String → Prop} (h : Adds s s' P) (h' : Adds s' s'' Q) :
    Adds s s'' fun x => P x ∨ Q x := by
  refine ⟨h'.flag.trans h.flag, fun x => ?_, fun x => ?_⟩
  · rw [h'.prog, h.prog, h.flag, or_assoc, and_or_left]
  · rw [h'.incl, h.incl, h.flag, or_assoc, and_or_left]

theorem Adds.congr {s s' : TN} {P Q : String → Prop} (h : Adds s s' P) (e : ∀ x, P x ↔ Q x) : Adds s s' Q :=
  ⟨h.flag, fun x => by rw [h.prog, e], fun x => by rw [h.incl, e]⟩

theorem addName_adds (x : String) (s : TN) : Adds s (addName x s) fun y => y = x := by
  unfold addName
  split
  · rename_i h; exact ⟨rfl, by simp [h], by simp [h]⟩
  · rename_i h; exact ⟨rfl, by simp [h], by simp [h]⟩

theorem findIds_adds (d : Dcl) (s : TN) : Adds s (findIds d s) (Names d) := by
  induction d with
  | ident x =>
    rw [findIds, addTypename]
    exact (addName_adds x s).congr fun y => ⟨fun h => h ▸ .ident _, fun h => by cases h; rfl⟩
  | pointer d ih => exact ih.congr fun y => ⟨.pointer, fun h => by cases h; assumption⟩
  | fn d ih => exact ih.congr fun y => ⟨.fn, fun h => by cases h; assumption⟩
  | array d ih => exact ih.congr fun y => ⟨.array, fun h => by cases h; assumption⟩
  | assign d => exact (Adds.none s).congr fun y => ⟨False.elim, fun h => by cases h⟩
  | null => exact (Adds.none s).congr fun y => ⟨False.elim, fun h => by cases h⟩
  | other => exact (Adds.none s).congr fun y => ⟨False.elim, fun h => by cases h⟩

theorem foldl_adds {α : Type} (f : TN → α → TN) (P : α → String → Prop) (h : ∀ a s, Adds s (f s a) (P a)) :
    ∀ (l : List α) (s : TN), Adds s (l.foldl f s) fun x => ∃ a ∈ l, P a x
  | [], s => (Adds.none s).congr (by simp)
  | a :: l, s => ((h a s).trans (foldl_adds f P h l (f s a))).congr (by simp)

theorem maybeAdd_adds (d : Decl) (s : TN) : Adds s (maybeAdd d s) fun x => d.typedef = true ∧ ∃ y ∈ d.decls, Names y x := by
  unfold maybeAdd
  split
  · rename_i h
    exact (foldl_adds _ Names (fun a s => findIds_adds a s) d.decls s).congr (by simp [h])
  · rename_i h
    exact (Adds.none s).congr (by simp [h])

theorem maybeAdds (ds : List Decl) (s : TN) : Adds s (ds.foldl (fun s d => maybeAdd d s) s) (Introduces ds) :=
  foldl_adds _ _ (fun a s => maybeAdd_adds a s) ds s

/-- what the two lists contain after a history -/
theorem runs_names (es : List Event) :
    (runs es).inInclude = false ∧
    (∀ x, x ∈ (runs es).typeNames ↔ x = "__builtin_va_list" ∨ x = "_Float128" ∨ InProgram es x) ∧
    (∀ x, x ∈ (runs es).includeTypeNames ↔ ∃ ds, LastInclude es ds ∧ Introduces ds x) := by
  induction es using List.reverseRecOn with
  | nil =>
    refine ⟨rfl, fun x => ?_, fun x => ?_⟩
    · simp [runs, init, addTypename, addName, resetInclude, InProgram]
    · simp [runs, init, addTypename, addName, resetInclude, LastInclude]
  | append_singleton es e ih =>
    obtain ⟨h1, h2, h3⟩ := ih
    have hr : runs (es ++ [e]) = step (runs es) e := by simp [runs]
    rw [hr]
    cases e with
    | decl d =>
      have a := maybeAdd_adds d (runs es)
      refine ⟨a.flag.trans h1, fun x => ?_, fun x => ?_⟩
      · show x ∈ (maybeAdd d (runs es)).typeNames ↔ _
        rw [a.prog, h2, h1]
        simp only [InProgram, List.mem_append, List.mem_singleton, Event.decl.injEq, or_assoc, true_and, Introduces,
          exists_eq_left, or_and_right, exists_or]
      · show x ∈ (maybeAdd d (runs es)).includeTypeNames ↔ _
        rw [a.incl, h3, h1]
        simp only [Bool.false_eq_true, false_and, or_false]
        refine exists_congr fun ds => and_congr_left fun _ => ?_
        constructor
        · rintro ⟨b, c, rfl, hc⟩
          exact ⟨b, c ++ [.decl d], by simp, fun ds' h => by simp at h; exact hc ds' h⟩
        · rintro ⟨b, c, he, hc⟩
          rcases List.eq_nil_or_concat c with rfl | ⟨c', e', rfl⟩
          · have := (List.append_inj' he rfl).2
            simp at this
          · rw [List.concat_eq_append, ← List.cons_append, ← List.append_assoc] at he
            have := List.append_inj' he rfl
            exact ⟨b, c', this.1, fun ds' h => hc ds' (by simp [h])⟩
    | incl ds =>
      have a := maybeAdds ds (setInclude true (resetInclude (runs es)))
      refine ⟨rfl, fun x => ?_, fun x => ?_⟩
      · refine (a.prog x).trans ?_
        show x ∈ (runs es).typeNames ∨ (true = false ∧ _) ↔ _
        rw [h2]
        simp [InProgram]
      · refine (a.incl x).trans ?_
        show x ∈ [] ∨ (true = true ∧ _) ↔ _
        simp only [List.not_mem_nil, false_or, true_and]
        constructor
        · intro h
          exact ⟨ds, ⟨es, [], rfl, by simp⟩, h⟩
        · rintro ⟨ds', ⟨b, c, he, hc⟩, h⟩
          rcases List.eq_nil_or_concat c with rfl | ⟨c', e', rfl⟩
          · have := (List.append_inj' he rfl).2
            simp at this
            rw [this]; exact h
          · rw [List.concat_eq_append, ← List.cons_append, ← List.append_assoc] at he
            have := (List.append_inj' he rfl).2
            exact absurd (by rw [← (List.singleton_inj.mp this)]; simp) (hc ds)

/-- **C39.** After every history of declarations and includes a name is a type name iff
a typedef introduced it in the program or in the latest include, or it is built in. -/
theorem C39_typenames (es : List Event) (x : String) : isTypename x (runs es) = true ↔ TypeName es x := by
  obtain ⟨-, h2, h3⟩ := runs_names es
  simp only [isTypename, Bool.or_eq_true, List.any_eq_true, beq_iff_eq, exists_eq_right, h2, h3, TypeName, or_assoc]

/-- `typedef int a, *b;`, a header with `typedef int c;`, a header with `typedef int (*d)(…);` and
`int e;`: `a`, `b` and `d` are type names, `c` and `e` are not -/
example : let es : List Event := [.decl ⟨true, [.ident "a", .pointer (.ident "b")]⟩, .incl [⟨true, [.ident "c"]⟩],
      .incl [⟨true, [.fn (.pointer (.ident "d"))]⟩, ⟨false, [.ident "e"]⟩]]
    TypeName es "b" ∧ TypeName es "d" ∧ ¬ TypeName es "c" ∧ ¬ TypeName es "e" := by
  simp only [← C39_typenames]
  decide +kernel

end Bic.Typename
