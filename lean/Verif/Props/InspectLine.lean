import Verif.Model.InspectLine
import Verif.Props.Inspect
import Verif.Props.Several
/-!
# C133: `?name` at the prompt
-/

namespace Bic.Inspect
open Spec
open CText (Str ascii)
open Print (Depicts)

theorem HasType.ext {s s' : St} {t : TId} {τ : ObjType} (h : HasType s t τ) (x : Ext s s') : HasType s' t τ := by
  induction h with
  | base h hi => exact .base (x.nodes _ _ h) hi
  | ptr h _ ih => exact .ptr (x.nodes _ _ h) ih

theorem stringAt_ext {s s' : St} {p : Nat} {bs : List Byte} (h : StringAt s p bs) (x : Ext s s') : StringAt s' p bs := by
  unfold StringAt at h ⊢
  rw [x.mem]
  exact h

/-- The objects a parse adds change nothing about a variable. -/
theorem Variable.ext {s s' : St} {x : String} {o : TId} {τ : ObjType} {arr : Bool} {size : Nat} {v : Str} (h : Variable s x o τ arr size v)
    (e : Ext s s') : Variable s' x o τ arr size v := by
  obtain ⟨ty, a, n, h1, h2, h3, h4⟩ := h.lv
  refine ⟨by rw [e.resolveGlobal]; exact h.name, ⟨ty, a, n, e.nodes _ _ h1, h2.ext e, h3, h4⟩, h.isArr, ?_, h.small, e.wf h.wf, h.room.ext e⟩
  cases h.val with
  | int j1 j2 =>
    refine .int ?_ j2
    rcases j1 with j1 | ⟨c, j1, j3⟩
    · exact .inl (e.nodes _ _ j1)
    · exact .inr ⟨c, j1, j3.ext e⟩
  | ptr j1 j2 j3 =>
    refine .ptr (j1.grow e.grow) ?_ j3
    obtain ⟨τ', a', arr', sz', k1, k2, -⟩ := j1.lv
    rw [h1] at k1
    cases k1
    rintro ⟨t, x', rfl, k3⟩
    refine j2 ⟨t, x', rfl, ?_⟩
    cases h2 with
    | base k hi => rw [k2] at k; cases k; cases hi
    | ptr k hi =>
      rw [k2] at k
      cases k
      cases hi with
      | base k4 _ => rw [e.nodes _ _ k4] at k3; rw [k4]; exact k3
      | ptr k4 _ => rw [e.nodes _ _ k4] at k3; rw [k4]; exact k3
  | str j1 j2 j3 j4 =>
    obtain ⟨t, x', rfl, k⟩ := j2
    exact .str (j1.grow e.grow) ⟨t, x', rfl, e.nodes _ _ k⟩ (fun hp => ⟨stringAt_ext (j3 hp).1 e, (j3 hp).2⟩) j4

end Bic.Inspect

namespace Bic.Repl
open Spec CSyn
open _root_.Bic.Parser (PT T Der Rep nameStr)
open Printer (Floats)
open CText (Text ascii)
open Lexer (Reads Follows)
open Inspect (Locus Variable NoUshort EvalInspect)

/-- what every parse of a line `?x` gives -/
theorem parse_inspect {F : Str → Nat} {cpp : List String → Str → Str} {r : RSt} {line text x : Str} (w : WF r.st) (hm : r.lx.mode = .initial)
    (ht : Text (Reads r.ty) Follows [.p .question, .ident x] line) (hcpp : LastLine (cpp r.st.includes line) text)
    (ht' : Text (Reads r.ty) Follows [.p .question, .ident x] text) :
    ∃ y i s', Ext r.st s' ∧ s'.nodes y = some (.inspect (some i)) ∧ s'.nodes i = some (.ident (nameStr x)) ∧
      (∃ lx', ParseLine F cpp r line (some y) ⟨lx', r.ty, s'⟩) ∧
      ∀ z r', ParseLine F cpp r line z r' → z = some y ∧ r'.st = s' ∧ r'.ty = r.ty ∧ r'.lx.mode = .initial := by
  have e : ∀ ty, addNames (.inspect (.ident x)) ty = ty := fun ty => addNames_nil rfl
  obtain ⟨y, s', h1, h2, h3, h4⟩ := parseLine_of (F := F) (t0 := .inspect (.ident x)) (t := .inspect (.ident x)) w hm ht (.ruOne .rsInspect) nofun
    hcpp (by rw [e]; exact ht') (.ruOne .rsInspect)
  simp only [e] at h3 h4
  cases h2 with
  | inspect k1 k2 =>
    cases k2 with
    | ident k2 => exact ⟨y, _, s', h1, k1, k2, h3, h4⟩

/-- what a line `?x` does is what the inspector does in a state with more objects -/
theorem inspect_line {E : Env} {oth : Node → Str} {fl : Floats} {loc : TId → Option Locus} {F : Str → Nat} {cpp : List String → Str → Str}
    {hdr : List String → Option Str} {r : RSt} {line text x : Str} (w : WF r.st) (hm : r.lx.mode = .initial)
    (ht : Text (Reads r.ty) Follows [.p .question, .ident x] line) (hcpp : LastLine (cpp r.st.includes line) text)
    (ht' : Text (Reads r.ty) Follows [.p .question, .ident x] text) :
    ∃ s1, Ext r.st s1 ∧
      (∀ out s', EvalInspect E oth fl loc s1 (nameStr x) (.shows out s') → ∃ lx', LineQ E oth fl loc F cpp hdr r line (.shows out) ⟨lx', r.ty, s'⟩) ∧
      ∀ a r', LineQ E oth fl loc F cpp hdr r line a r' → r'.ty = r.ty ∧ r'.lx.mode = .initial ∧
        ((∃ out, a = .shows out ∧ EvalInspect E oth fl loc s1 (nameStr x) (.shows out r'.st)) ∨
          (∃ m out, a = .ends (.ub m) ∧ r'.st = s1 ∧ EvalInspect E oth fl loc s1 (nameStr x) (.crash out))) := by
  obtain ⟨y, i, s1, h1, h2, h3, ⟨lx', h4⟩, h5⟩ := parse_inspect (F := F) w hm ht hcpp ht'
  refine ⟨s1, h1, fun out s' h => ⟨lx', .inspect h4 h2 h3 h⟩, ?_⟩
  intro a r' hl
  cases hl with
  | other j => exact absurd h2 (j _ _ _ h4)
  | inspect j1 j2 j3 j4 =>
    obtain ⟨e1, e2, e3, e4⟩ := h5 _ _ j1
    cases e1
    rw [e2] at j2 j3 j4
    rw [h2] at j2
    cases j2
    rw [h3] at j3
    cases j3
    exact ⟨e3, e4, .inl ⟨_, rfl, j4⟩⟩
  | crash j1 j2 j3 j4 =>
    obtain ⟨e1, e2, e3, e4⟩ := h5 _ _ j1
    cases e1
    rw [e2] at j2 j3 j4
    rw [h2] at j2
    cases j2
    rw [h3] at j3
    cases j3
    exact ⟨e3, e4, .inr ⟨_, _, rfl, e2, j4⟩⟩

/-- C133 in full: a line `?x`, however it is written, about a variable shows its type, value, size and the place of its declaration. -/
def C133_statement : Prop :=
  ∀ (E : Env) (oth : Node → Str) (fl : Floats) (loc : TId → Option Locus) (F : Str → Nat) (cpp : List String → Str → Str)
    (hdr : List String → Option Str) (r : RSt) (line text x : Str) (o : TId) (τ : ObjType) (arr : Bool) (size : Nat) (v : Str) (l : Locus),
    r.lx.mode = .initial → Text (Reads r.ty) Follows [.p .question, .ident x] line → LastLine (cpp r.st.includes line) text →
    Text (Reads r.ty) Follows [.p .question, .ident x] text → Variable r.st (nameStr x) o τ arr size v → loc o = some l →
    ∃ out r', InspectText (ascii (nameStr x)) τ size v l.file l.line out ∧ LineQ E oth fl loc F cpp hdr r line (.shows out) r'

/-- C133, where it fails: a line `?x` about an array ends bic in every run. -/
theorem C133_array {E : Env} {oth : Node → Str} {fl : Floats} {loc : TId → Option Locus} {F : Str → Nat} {cpp : List String → Str → Str}
    {hdr : List String → Option Str} {r : RSt} {line text x : Str} {o : TId} {τ : ObjType} {size : Nat} {v : Str}
    (hm : r.lx.mode = .initial) (ht : Text (Reads r.ty) Follows [.p .question, .ident x] line) (hcpp : LastLine (cpp r.st.includes line) text)
    (ht' : Text (Reads r.ty) Follows [.p .question, .ident x] text) (h : Variable r.st (nameStr x) o τ true size v) :
    ∀ a r', LineQ E oth fl loc F cpp hdr r line a r' → ∃ m, a = .ends (.ub m) := by
  obtain ⟨s1, h1, h2, h3⟩ := inspect_line (E := E) (oth := oth) (fl := fl) (loc := loc) (F := F) (hdr := hdr) h.wf hm ht hcpp ht'
  obtain ⟨out, h6⟩ := Inspect.C96_array_crashes E oth fl loc s1 _ o τ size v (h.ext h1)
  intro a r' hl
  obtain ⟨-, -, ⟨out', k3, k4⟩ | ⟨m, _, k3, _, _⟩⟩ := h3 a r' hl
  · exact absurd ((h6 _).mp k4) (by simp)
  · exact ⟨m, k3⟩

/-- C133: a line `?x`, however it is written, about a variable shows its type, value, size and the place of its declaration, and has no other
outcome; no variable changes, and the session goes on as before.

Missing: `unsigned short` and arrays, as in C96. -/
theorem C133_partial {E : Env} {oth : Node → Str} {fl : Floats} {loc : TId → Option Locus} {F : Str → Nat} {cpp : List String → Str → Str}
    {hdr : List String → Option Str} {r : RSt} {line text x : Str} {o : TId} {τ : ObjType} {size : Nat} {v : Str} {l : Locus}
    (hm : r.lx.mode = .initial) (ht : Text (Reads r.ty) Follows [.p .question, .ident x] line) (hcpp : LastLine (cpp r.st.includes line) text)
    (ht' : Text (Reads r.ty) Follows [.p .question, .ident x] text) (h : Variable r.st (nameStr x) o τ false size v) (hn : NoUshort τ)
    (hl : loc o = some l) :
    ∃ out, InspectText (ascii (nameStr x)) τ size v l.file l.line out ∧ (∃ r', LineQ E oth fl loc F cpp hdr r line (.shows out) r') ∧
      ∀ a r', LineQ E oth fl loc F cpp hdr r line a r' → a = .shows out ∧ Grow r.st r'.st ∧ r'.ty = r.ty ∧ r'.lx.mode = .initial := by
  obtain ⟨s1, h1, h2, h3⟩ := inspect_line (E := E) (oth := oth) (fl := fl) (loc := loc) (F := F) (hdr := hdr) h.wf hm ht hcpp ht'
  obtain ⟨out, s', h4, h5, h6⟩ := Inspect.C96_variable_partial E oth fl loc s1 _ o τ size v l (h.ext h1) hn hl
  obtain ⟨lx', h7⟩ := h2 _ _ ((h6 _).mpr rfl)
  refine ⟨out, h4, ⟨_, h7⟩, fun a r' hl => ?_⟩
  obtain ⟨k1, k2, ⟨out', k3, k4⟩ | ⟨_, _, _, _, k4⟩⟩ := h3 a r' hl
  · have := (h6 _).mp k4
    injection this with e1 e2
    subst e1
    exact ⟨k3, e2 ▸ h1.grow.trans h5, k1, k2⟩
  · exact absurd ((h6 _).mp k4) (by simp)

/-- C133 for a name that nothing is called: the line says so, and the session goes on with the same variables. -/
theorem C133_unknown {E : Env} {oth : Node → Str} {fl : Floats} {loc : TId → Option Locus} {F : Str → Nat} {cpp : List String → Str → Str}
    {hdr : List String → Option Str} {r : RSt} {line text x : Str} (w : WF r.st)
    (hm : r.lx.mode = .initial) (ht : Text (Reads r.ty) Follows [.p .question, .ident x] line) (hcpp : LastLine (cpp r.st.includes line) text)
    (ht' : Text (Reads r.ty) Follows [.p .question, .ident x] text) (h : resolveGlobal (nameStr x) .normal r.st = none) :
    (∃ r', LineQ E oth fl loc F cpp hdr r line (.shows (ascii "Object not found\n")) r') ∧
      ∀ a r', LineQ E oth fl loc F cpp hdr r line a r' →
        a = .shows (ascii "Object not found\n") ∧ Ext r.st r'.st ∧ r'.ty = r.ty ∧ r'.lx.mode = .initial := by
  obtain ⟨s1, h1, h2, h3⟩ := inspect_line (E := E) (oth := oth) (fl := fl) (loc := loc) (F := F) (hdr := hdr) w hm ht hcpp ht'
  rw [← h1.resolveGlobal] at h
  have h6 : ∀ res, EvalInspect E oth fl loc s1 (nameStr x) res ↔ res = .shows (ascii "Object not found\n") s1 := by
    intro res
    unfold EvalInspect
    rw [h]
    constructor
    · intro j; cases j; rfl
    · rintro rfl; exact .none
  obtain ⟨lx', h7⟩ := h2 _ _ ((h6 _).mpr rfl)
  refine ⟨⟨_, h7⟩, fun a r' hl => ?_⟩
  obtain ⟨k1, k2, ⟨out', k3, k4⟩ | ⟨_, _, _, _, k4⟩⟩ := h3 a r' hl
  · have := (h6 _).mp k4
    injection this with e1 e2
    subst e1
    exact ⟨k3, e2 ▸ h1, k1, k2⟩
  · exact absurd ((h6 _).mp k4) (by simp)

open TextCheck

theorem name133 (c : UInt8) (h1 : c = 97 ∨ c = 112) : CText.IsName [c] := by
  rcases h1 with rfl | rfl <;> exact ⟨⟨_, [], rfl, by decide, by simp⟩, by decide +kernel, by simp, by simp⟩

def r133 : RSt := ⟨Lexer.start, fun _ => false, Inspect.st96⟩

def ask133 : W89 := [kw .question "?", idn [97] (name133 _ (.inl rfl))]
def askp133 : W89 := [kw .question "?", sp, idn [112] (name133 _ (.inr rfl))]
def askx133 : W89 := [kw .question "?", idn [120] Lexer.name_x]

theorem ok133 : (okW ask133 && okW askp133 && okW askx133) = true := by decide +kernel

/-- `? p` -/
example (E : Env) (oth : Node → Str) (fl : Floats) (F : Str → Nat) (hdr : List String → Option Str) :
    ∃ out, InspectText (ascii "p") (.ptr (.base .int)) 8 (ascii "(nil)") (ascii "<REPL>") 1 out ∧
      (∃ r', LineQ E oth fl (fun _ => some ⟨ascii "<REPL>", 1⟩) F cpp89 hdr r133 (textW askp133) (.shows out) r') ∧
      ∀ a r', LineQ E oth fl (fun _ => some ⟨ascii "<REPL>", 1⟩) F cpp89 hdr r133 (textW askp133) a r' →
        a = .shows out ∧ Grow r133.st r'.st ∧ r'.ty = r133.ty ∧ r'.lx.mode = .initial := by
  have h := ok133
  simp only [Bool.and_eq_true] at h
  have e : nameStr [112] = "p" := by decide +kernel
  have := C133_partial (E := E) (oth := oth) (fl := fl) (loc := fun _ => some ⟨ascii "<REPL>", 1⟩) (F := F) (hdr := hdr) (r := r133) (x := [112])
    (l := ⟨ascii "<REPL>", 1⟩) rfl (okW_text h.1.2) (lastLine89 (by decide +kernel)) (okW_text h.1.2) (e ▸ Inspect.p96)
    (by unfold NoUshort NoUshort; decide) rfl
  rw [e] at this
  exact this

/-- `?x`, with no `x` -/
example (E : Env) (oth : Node → Str) (fl : Floats) (loc : TId → Option Locus) (F : Str → Nat) (hdr : List String → Option Str) :
    ∃ r', LineQ E oth fl loc F cpp89 hdr r133 (textW askx133) (.shows (ascii "Object not found\n")) r' := by
  have h := ok133
  simp only [Bool.and_eq_true] at h
  exact (C133_unknown (r := r133) (x := [120]) (stOf_WF _ _ _) rfl (okW_text h.2) (lastLine89 (by decide +kernel)) (okW_text h.2)
    (by decide +kernel)).1

/-- C133 in full is false: `?a`, with an array `a`, ends bic. -/
theorem C133_refuted : ¬ C133_statement := by
  intro hC
  have h := ok133
  simp only [Bool.and_eq_true] at h
  have e : nameStr [97] = "a" := by decide +kernel
  obtain ⟨out, r', -, h1⟩ := hC E0 (fun _ => []) ⟨fun _ => [], fun _ _ => []⟩ (fun _ => some ⟨[], 0⟩) (fun _ => 0) cpp89 (fun _ => none) r133
    (textW ask133) (textW ask133) [97] 7 _ true _ _ ⟨[], 0⟩ rfl (okW_text h.1.1) (lastLine89 (by decide +kernel)) (okW_text h.1.1)
    (e ▸ Inspect.a96) rfl
  obtain ⟨m, h2⟩ := C133_array (x := [97]) (text := textW ask133) rfl (okW_text h.1.1) (lastLine89 (by decide +kernel)) (okW_text h.1.1)
    (e ▸ Inspect.a96) _ _ h1
  cases h2

end Bic.Repl
