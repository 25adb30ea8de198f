import Verif.Model.Inspect
import Verif.Spec.Inspect
import Verif.Props.PrintValue
/-!
# C96: the inspector
-/

namespace Bic.Inspect
open Spec
open Printer (Floats Prints decimal)
open CText (Str ascii)
open Print (Depicts C94_printed)

/-- the type object `ty` is of type `τ` -/
inductive HasType (s : St) : TId → ObjType → Prop
  | base {ty c e} : s.nodes ty = some (.ctype c e) → integral c → HasType s ty (.base c)
  | ptr {ty e τ} : s.nodes ty = some (.ctype .ptr (some e)) → HasType s e τ → HasType s ty (.ptr τ)

/-- `x` denotes the variable `o` of type `τ`, an array of `size` bytes or an object of the size of its type, the value of
which is shown by the text `v` -/
structure Variable (s : St) (x : String) (o : TId) (τ : ObjType) (arr : Bool) (size : Nat) (v : Str) : Prop where
  name : resolveGlobal x .normal s = some o
  lv : ∃ ty a n, s.nodes o = some (.lv (some ty) a arr n) ∧ HasType s ty τ ∧ (arr = true → n = size) ∧ (arr = false → τ.size = size)
  isArr : arr = true → ∃ τ', τ = .ptr τ'
  val : Depicts s o (.leaf v)
  small : size < 2 ^ 64
  wf : WF s
  room : Room s 1

/-- C96 in full: the inspector says of each variable what type, value and size it has and where it was
declared. -/
def C96_statement : Prop :=
  ∀ (E : Env) (oth : Node → Str) (fl : Floats) (loc : TId → Option Locus) (s : St) (x : String) (o : TId) (τ : ObjType)
    (arr : Bool) (size : Nat) (v : Str) (l : Locus), Variable s x o τ arr size v → loc o = some l →
    ∃ out s', InspectText (ascii x) τ size v l.file l.line out ∧ EvalInspect E oth fl loc s x (.shows out s')

/-- the words of bic -/
inductive BicWords : ObjType → Str → Prop
  | base {c} : integral c → BicWords (.base c) (ascii (ctypeText c))
  | ptr {t w} : BicWords t w → BicWords (.ptr t) (ascii "pointer to a " ++ w)

theorem typeText_iff {oth : Node → Str} {s : St} {ty : TId} {τ : ObjType} (h : HasType s ty τ) {w : Str} (hw : BicWords τ w) (out : Str) :
    TypeText oth s ty out ↔ out = w := by
  induction h generalizing w out with
  | base h hi =>
    rename_i c e
    cases hw
    have hp : c ≠ .ptr := by rintro rfl; exact absurd hi (by decide)
    constructor
    · intro h'
      cases h' with
      | ptr j => rw [h] at j; cases j; exact absurd rfl hp
      | comp j => rw [h] at j; cases j
      | other j => rw [h] at j; cases j; rfl
    · rintro rfl
      exact .other h (by intro e' h'; cases h'; exact hp rfl) nofun
  | ptr h _ ih =>
    cases hw with
    | ptr hw =>
      constructor
      · intro h'
        cases h' with
        | ptr j1 j2 => rw [h] at j1; cases j1; rw [(ih hw _).mp j2]; rfl
        | comp j => rw [h] at j; cases j
        | other j1 j2 => rw [h] at j1; cases j1; exact absurd rfl (j2 _)
      · rintro rfl
        exact .ptr h ((ih hw _).mpr rfl)

theorem HasType.words {s : St} {ty : TId} {τ : ObjType} (h : HasType s ty τ) : ∃ w, BicWords τ w := by
  induction h with
  | base _ hi => exact ⟨_, .base hi⟩
  | ptr _ _ ih => exact ⟨_, .ptr ih.choose_spec⟩

theorem BicWords.unique {τ : ObjType} {w w' : Str} (h : BicWords τ w) (h' : BicWords τ w') : w = w' := by
  induction h generalizing w' with
  | base => cases h'; rfl
  | ptr _ ih => cases h' with | ptr h => rw [ih h]

theorem HasType.ctype {s : St} {ty : TId} {τ : ObjType} (h : HasType s ty τ) : ∃ c e, s.nodes ty = some (.ctype c e) ∧ c.size = τ.size := by
  cases h with
  | base h hi =>
    rename_i c e
    refine ⟨_, _, h, ?_⟩
    cases c <;> first | exact absurd hi (by decide) | rfl
  | ptr h _ => exact ⟨_, _, h, rfl⟩

/-- the size of the variable -/
theorem sizeof_var (E : Env) {s : St} {x : String} {o : TId} {τ : ObjType} {arr : Bool} {size : Nat} {v : Str} (h : Variable s x o τ arr size v) :
    ∃ r s', Conv E (fun R => do let z ← mk (.sizeof (some o)); R.ev (some z)) s (.ok (some r) s') ∧ Grow s s' ∧ Holds s' r .ulong size := by
  obtain ⟨ty, a, n, h1, h2, h3, h4⟩ := h.lv
  obtain ⟨c, e, h5, h6⟩ := h2.ctype
  have x1 := addNode_ext h.wf (.sizeof (some o))
  have hev : Conv E (fun R => R.ev (some o)) (addNode s (.sizeof (some o))) (.ok (some o) (addNode s (.sizeof (some o)))) :=
    Conv.evNode (x1.nodes _ _ h1) (Conv.pure _)
  have ht : (addNode s (.sizeof (some o))).nodes s.next = some (.sizeof (some o)) := addNode_self _ _
  have wf' := x1.wf h.wf
  have key : ∃ r s', Conv E (fun R => R.ev (some s.next)) (addNode s (.sizeof (some o))) (.ok (some r) s') ∧
      IsSize (addNode s (.sizeof (some o))) s' r size := by
    cases arr with
    | false =>
      rw [← h4 rfl, ← h6]
      exact C38_var_partial E _ _ s.next o ty (some o) c a n e ht hev wf' (h.room.ext x1) (x1.nodes _ _ h1) (x1.nodes _ _ h5)
    | true =>
      obtain ⟨τ', rfl⟩ := h.isArr rfl
      cases h2 with
      | ptr hp _ =>
        rw [← h3 rfl]
        refine ⟨_, _, sizeof_conv ht hev wf' (h.room.ext x1) (.array (x1.nodes _ _ h1) (x1.nodes _ _ hp)), szSt_isSize wf' (h.room.ext x1) ?_⟩
        rw [h3 rfl]
        exact h.small
  obtain ⟨r, s', k1, k2, k3⟩ := key
  exact ⟨r, s', Conv.bind (Conv.fixed fun R => mk_apply _ _) k1, x1.grow.trans k2, k3⟩

theorem bytes_eq : Lexer.bytes = ascii := rfl

/-- what the inspector says of a variable -/
theorem C96_says (E : Env) (oth : Node → Str) (fl : Floats) (loc : TId → Option Locus) (s : St) (x : String) (o : TId) (τ : ObjType)
    (arr : Bool) (size : Nat) (v w z : Str) (h : Variable s x o τ arr size v) (hw : BicWords τ w) (hz : Decimal size z) :
    ∃ s', Grow s s' ∧ ∀ r, EvalInspect E oth fl loc s x r ↔ r = locusLine (ascii x) (locusOf loc s o)
      (ascii x ++ ascii " is a " ++ w ++ ascii ".\n" ++ (ascii "value of " ++ ascii x ++ ascii " is " ++ v ++ ascii "\n") ++
        (ascii "sizeof(" ++ ascii x ++ ascii ") = " ++ z ++ ascii " bytes.\n")) s' := by
  obtain ⟨r, s', h1, h2, h3⟩ := sizeof_var E h
  obtain ⟨ty, a, n, h4, h5, -⟩ := h.lv
  have hv : ∀ out, Prints fl s o out ↔ out = v := fun out => C94_printed fl s o (.leaf v) out h.val
  have hs : ∀ out, Prints fl s' r out ↔ out = z := fun out =>
    C94_printed fl s' r (.leaf z) out (.int (.inr ⟨.ulong, trivial, h3⟩) hz)
  refine ⟨s', h2, fun res => ?_⟩
  unfold EvalInspect
  rw [h.name]
  constructor
  · intro hr
    cases hr with
    | var j1 j2 j3 j4 j5 =>
      rw [h4] at j1
      cases j1
      obtain ⟨k1, k2⟩ : _ ∧ _ := by
        have := Conv.unique h1 j4
        injection this with k1 k2
        exact ⟨k1, k2⟩
      cases k1
      cases k2
      rw [(typeText_iff h5 hw _).mp j2, (hv _).mp j3, (hs _).mp j5]
      simp only [bytes_eq, List.append_assoc]
    | fn j => rw [h4] at j; cases j
    | ext j => rw [h4] at j; cases j
    | other j1 j2 => rw [h4] at j1; cases j1; exact absurd rfl (j2 _ _ _ _)
  · rintro rfl
    have := Inspects.var (E := E) (oth := oth) (fl := fl) (loc := loc) (x := Lexer.bytes x) h4 ((typeText_iff h5 hw _).mpr rfl) ((hv _).mpr rfl) h1 ((hs _).mpr rfl)
    simp only [bytes_eq, List.append_assoc] at this ⊢
    exact this

/-- `unsigned short` is not behind the pointers -/
def NoUshort : ObjType → Prop
  | .base c => c ≠ .ushort
  | .ptr t => NoUshort t

theorem words_bic {τ : ObjType} {w : Str} (h : BicWords τ w) (hn : NoUshort τ) : Words τ w := by
  induction h with
  | base hi =>
    rename_i c
    cases c <;> first | exact absurd hi (by decide) | exact absurd rfl hn | exact .base rfl
  | ptr _ ih => exact .ptr (ih hn)

/-- C96, partly: it holds of all variables but arrays, if their type is not `unsigned short` or a pointer
to it; and the text is the only one.

Missing: `unsigned short` (`C96_ushort`), arrays (`C96_array_crashes`). -/
theorem C96_variable_partial (E : Env) (oth : Node → Str) (fl : Floats) (loc : TId → Option Locus) (s : St) (x : String) (o : TId) (τ : ObjType)
    (size : Nat) (v : Str) (l : Locus) (h : Variable s x o τ false size v) (hn : NoUshort τ) (hl : loc o = some l) :
    ∃ out s', InspectText (ascii x) τ size v l.file l.line out ∧ Grow s s' ∧ ∀ r, EvalInspect E oth fl loc s x r ↔ r = .shows out s' := by
  obtain ⟨ty, a, n, h4, h5, -⟩ := h.lv
  obtain ⟨w, hw⟩ := h5.words
  obtain ⟨s', h1, h2⟩ := C96_says E oth fl loc s x o τ false size v w _ h hw (Print.decimal_is size)
  have e : locusOf loc s o = some l := by simp [locusOf, h4, hl]
  rw [e] at h2
  refine ⟨_, s', ⟨w, _, _, words_bic hw hn, Print.decimal_is size, Print.decimal_is l.line, rfl⟩, h1, fun r => ?_⟩
  rw [h2 r]
  simp only [locusLine, bytes_eq, List.append_assoc]

/-- C96, where it fails: for every array the program reads a null pointer. -/
theorem C96_array_crashes (E : Env) (oth : Node → Str) (fl : Floats) (loc : TId → Option Locus) (s : St) (x : String) (o : TId) (τ : ObjType)
    (size : Nat) (v : Str) (h : Variable s x o τ true size v) : ∃ out, ∀ r, EvalInspect E oth fl loc s x r ↔ r = .crash out := by
  obtain ⟨ty, a, n, h4, h5, -⟩ := h.lv
  obtain ⟨w, hw⟩ := h5.words
  obtain ⟨s', h1, h2⟩ := C96_says E oth fl loc s x o τ true size v w _ h hw (Print.decimal_is size)
  have e : locusOf loc s o = none := by simp [locusOf, h4]
  rw [e] at h2
  exact ⟨_, h2⟩

/-- C96, where it fails: `unsigned short` is called `signed short`, behind any number of pointers. -/
theorem C96_ushort (E : Env) (oth : Node → Str) (fl : Floats) (loc : TId → Option Locus) (s : St) (x : String) (o : TId) (τ : ObjType)
    (size : Nat) (v w : Str) (l : Locus) (h : Variable s x o τ false size v) (hn : ¬ NoUshort τ) (hl : loc o = some l) (hw : Words τ w)
    (r : Result) (hr : EvalInspect E oth fl loc s x r) : ∃ out s' ps u, r = .shows out s' ∧ w = ps ++ ascii "unsigned short" ∧
      out = ascii x ++ ascii " is a " ++ ps ++ ascii "signed short" ++ ascii ".\n" ++ u := by
  obtain ⟨ty, a, n, h4, h5, -⟩ := h.lv
  obtain ⟨w', hw'⟩ := h5.words
  obtain ⟨s', h1, h2⟩ := C96_says E oth fl loc s x o τ false size v w' _ h hw' (Print.decimal_is size)
  have e : locusOf loc s o = some l := by simp [locusOf, h4, hl]
  rw [e] at h2
  have key : ∀ {τ : ObjType} {w w' : Str}, ¬ NoUshort τ → Words τ w → BicWords τ w' →
      ∃ ps, w = ps ++ ascii "unsigned short" ∧ w' = ps ++ ascii "signed short" := by
    intro τ w w' hn hw hw'
    induction hw generalizing w' with
    | base hi =>
      cases hw'
      obtain rfl := Classical.not_not.mp hn
      cases hi
      exact ⟨[], rfl, rfl⟩
    | ptr _ ih =>
      cases hw' with
      | ptr hw' =>
        obtain ⟨ps, rfl, rfl⟩ := ih hn hw'
        exact ⟨ascii "pointer to a " ++ ps, (List.append_assoc _ _ _).symm, (List.append_assoc _ _ _).symm⟩
  obtain ⟨ps, rfl, rfl⟩ := key hn hw hw'
  have hr := (h2 r).mp hr
  subst hr
  have cut : ∀ A B C D F V Z K : Str, A ++ B ++ (C ++ D) ++ F ++ V ++ Z ++ K = A ++ B ++ C ++ D ++ F ++ (V ++ Z ++ K) := by
    intros; simp only [List.append_assoc]
  refine ⟨_, _, ps, (ascii "value of " ++ ascii x ++ ascii " is " ++ v ++ ascii "\n") ++
    (ascii "sizeof(" ++ ascii x ++ ascii ") = " ++ decimal size ++ ascii " bytes.\n") ++
    (ascii x ++ (ascii " was declared at: " ++ (l.file ++ (ascii ":" ++ (decimal l.line ++ ascii "\n"))))), rfl, rfl, ?_⟩
  rw [← cut]
  simp only [bytes_eq, List.append_assoc]

/-- `int *p` pointing nowhere, `unsigned short u` with value 5, `int a[3]` -/
def st96 : St :=
  stOf [.ctype .int none, .ctype .ptr (some 0), .lv (some 1) 4096 false 0, .ident "p", .ctype .ushort none, .lv (some 4) 4104 false 0, .ident "u",
        .lv (some 1) 4112 true 12, .ident "a"]
    [⟨"p", 3, some 2⟩, ⟨"u", 6, some 5⟩, ⟨"a", 8, some 7⟩]
    [0, 0, 0, 0, 0, 0, 0, 0, 5, 0, 0, 0, 0, 0, 0, 0, 24, 16, 0, 0, 0, 0, 0, 0, 1, 0, 0, 0, 2, 0, 0, 0, 3, 0, 0, 0]

theorem room96 : Room st96 1 := ⟨by decide +kernel, by simp [st96, stOf], memOf_livelt _⟩

theorem p96 : Variable st96 "p" 2 (.ptr (.base .int)) false 8 (ascii "(nil)") :=
  ⟨by decide +kernel, ⟨1, 4096, 0, rfl, .ptr rfl (.base rfl trivial), nofun, fun _ => rfl⟩, nofun,
    .ptr (bt := some 0) (p := 0) ⟨1, 4096, false, 0, rfl, rfl, by decide +kernel, by decide +kernel⟩
      (by rintro ⟨τ, e, h1, h2⟩; cases h1; cases h2) (.inl ⟨rfl, rfl⟩), by decide, stOf_WF _ _ _, room96⟩

theorem u96 : Variable st96 "u" 5 (.base .ushort) false 2 (ascii "5") :=
  ⟨by decide +kernel, ⟨4, 4104, 0, rfl, .base rfl trivial, nofun, fun _ => rfl⟩, nofun,
    .int (v := 5) (.inr ⟨.ushort, trivial, 4, 4104, ⟨⟨_, _, rfl⟩, ⟨_, rfl⟩, .inl trivial, by decide +kernel⟩, by decide +kernel⟩)
      ⟨[53], ⟨by simp, by decide⟩, .inr (by decide), .inl ⟨rfl, by decide +kernel⟩⟩, by decide, stOf_WF _ _ _, room96⟩

example (oth : Node → Str) (fl : Floats) : ∃ out s', InspectText (ascii "p") (.ptr (.base .int)) 8 (ascii "(nil)") (ascii "<REPL>") 1 out ∧ Grow st96 s' ∧
    ∀ r, EvalInspect E0 oth fl (fun _ => some ⟨ascii "<REPL>", 1⟩) st96 "p" r ↔ r = .shows out s' :=
  C96_variable_partial E0 oth fl _ st96 "p" 2 _ 8 _ ⟨ascii "<REPL>", 1⟩ p96 (by unfold NoUshort NoUshort; decide) rfl

theorem a96 : Variable st96 "a" 7 (.ptr (.base .int)) true 12 (ascii "0x1018") :=
  ⟨by decide +kernel, ⟨1, 4112, 12, rfl, .ptr rfl (.base rfl trivial), fun _ => rfl, nofun⟩, fun _ => ⟨_, rfl⟩,
    .ptr (bt := some 0) (p := 4120) ⟨1, 4112, true, 12, rfl, rfl, by decide +kernel, by decide +kernel⟩
      (by rintro ⟨τ, e, h1, h2⟩; cases h1; cases h2) ((Print.addressText_iff _ _).mpr (by decide +kernel)), by decide, stOf_WF _ _ _, room96⟩

example (oth : Node → Str) (fl : Floats) (loc : TId → Option Locus) : ∃ out, ∀ r, EvalInspect E0 oth fl loc st96 "a" r ↔ r = .crash out :=
  C96_array_crashes E0 oth fl loc st96 "a" 7 _ 12 _ a96

example (oth : Node → Str) (fl : Floats) (r : Result) (hr : EvalInspect E0 oth fl (fun _ => some ⟨ascii "<REPL>", 1⟩) st96 "u" r) :
    ∃ out s' ps u, r = .shows out s' ∧ ascii "unsigned short" = ps ++ ascii "unsigned short" ∧
      out = ascii "u" ++ ascii " is a " ++ ps ++ ascii "signed short" ++ ascii ".\n" ++ u :=
  C96_ushort E0 oth fl _ st96 "u" 5 _ 2 _ _ ⟨ascii "<REPL>", 1⟩ u96 (by intro h; exact h rfl) rfl (.base rfl) r hr

/-- C96 is false: `?u` says that `u` is a signed short. -/
theorem C96_refuted : ¬ C96_statement := by
  intro h
  obtain ⟨out, s', ⟨w, z, l, h1, -, -, rfl⟩, h2⟩ :=
    h E0 (fun _ => []) ⟨fun _ => [], fun _ _ => []⟩ (fun _ => some ⟨[], 0⟩) st96 "u" 5 _ _ _ _ ⟨[], 0⟩ u96 rfl
  obtain ⟨s'', -, h3⟩ := C96_says E0 (fun _ => []) ⟨fun _ => [], fun _ _ => []⟩ (fun _ => some ⟨[], 0⟩) st96 "u" 5 _ _ _ _ _ _ u96
    (.base trivial) (Print.decimal_is _)
  have h4 := (h3 _).mp h2
  cases h1 with
  | base hb =>
    simp only [intWords, Option.some.injEq] at hb
    subst hb
    have e0 : locusOf (fun _ => some ⟨[], 0⟩) st96 5 = some ⟨[], 0⟩ := rfl
    rw [e0] at h4
    injection h4 with h5 _
    have h6 := congrArg (fun l => l[7]?) h5
    have e1 : ascii "u" = [117] := by decide +kernel
    have e2 : ascii " is a " = [32, 105, 115, 32, 97, 32] := by decide +kernel
    have e3 : ascii "unsigned short" = 117 :: ascii "nsigned short" := by decide +kernel
    have e4 : ascii (ctypeText .ushort) = 115 :: ascii "igned short" := by decide +kernel
    simp only [e1, e2, e3, e4, List.append_assoc, List.cons_append, List.nil_append] at h6
    exact absurd (Option.some.inj h6) (by decide)

end Bic.Inspect
