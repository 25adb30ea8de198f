import Verif.Proofs.StructText
import Verif.Proofs.Start
import Verif.Proofs.TextCheck
import Verif.Props.Dialogue
/-!
# C98: structures and unions declared by a line
-/

namespace Bic.Repl
open Spec CSyn
open Lexer (Reads Follows)
open _root_.Bic.Parser (PT T K Der Rep compVar_der)
open Printer (Floats)
open CText (Text ascii)

/-- `x` is a variable whose members `ms` are at the offsets `os` in `sz` accessible bytes, none of which was
in use in the state `s` -/
def LaidOut (s s' : St) (x : String) (ms : List (String × MTy)) (os : List Nat) (sz : Nat) : Prop :=
  ∃ v c bs base id ds b, resolveGlobal x .normal s' = some v ∧ s'.nodes v = some (.lcomp (some c) bs base) ∧
    s'.nodes c = some (.compound id ds sz true b) ∧ s'.mem.ok sz base = true ∧ (∀ a, base ≤ a → s.mem.live a = false) ∧
    bs.length = ms.length ∧ os.length = ms.length ∧
    ∀ (i : Nat) m o, ms[i]? = some m → os[i]? = some o →
      ∃ mb w, bs[i]? = some mb ∧ mb.name = m.1 ∧ mb.val = some w ∧ MemberAt s' w (base + o) m.2

/-- the line, as it is typed and after the preprocessor, declares the variable `x` of a structure or union type -/
structure CompLine (Tx : List T → Str → Prop) (cpp : Str → Str) (line : Str) (isS : Bool) (tag : Option String) (x : String)
    (ms : List (String × MTy)) : Prop where
  typed : ∃ i0 tag0 x0 ms0, Tx i0 line ∧ WCompVar isS tag0 x0 ms0 i0
  meant : ∃ i text, LastLine (cpp line) text ∧ Tx i text ∧ WCompVar isS tag x ms i

/-- the state of a session in which neither the variable nor the tag is declared and memory is left -/
structure Ready (r : RSt) (isS : Bool) (tag : Option String) (x : String) (ms : List (String × MTy)) : Prop where
  mode : r.lx.mode = .initial
  wf : WF r.st
  fresh : Fresh r.st x
  tagFresh : ∀ nm, tag = some nm → FreshTag r.st isS nm
  cap : Cap r.st (3 * (ms.map fun m => mcost m.2).sum + 48)

/-- C98: for the declaration of a structure variable bic shows the name, and the variable is laid out as the
ABI says. -/
def C98_statement : Prop :=
  ∀ (E : Env) (fl : Floats) (F : Str → Nat) (cpp : List String → Str → Str) (r : RSt) (line : Str) (tag : Option String) (x : String)
    (ms : List (String × MTy)) (os : List Nat) (sz : Nat), Ready r true tag x ms →
    CompLine (CText.CText r.ty) (cpp r.st.includes) line true tag x ms → AbiStruct (ms.map Prod.snd) os sz →
    ∃ r', Line E fl F cpp r line (.shows (ascii x ++ [newline])) r' ∧ LaidOut r.st r'.st x ms os sz

theorem items_snd {L : List Item} {ms : List (String × MTy)} (h : L.map (fun i => (i.x, i.m)) = ms) :
    L.map Item.m = ms.map Prod.snd ∧ L.map Item.x = ms.map Prod.fst := by
  subst h
  simp [Function.comp_def]

theorem Cap.ext {s s' : St} {n : Nat} (h : Cap s n) (e : Ext s s') : Cap s' n :=
  ⟨by rw [e.mem]; exact h.brk, by rw [e.ctxs]; exact h.ctxs, by rw [e.mem]; exact h.livelt⟩

/-- what a line with such a declaration does -/
theorem compLine {E : Env} {fl : Floats} {F : Str → Nat} {cpp : List String → Str → Str} {r : RSt} {line : Str} {isS : Bool}
    {tag : Option String} {x : String} {ms : List (String × MTy)} {P : St → Prop} (hr : Ready r isS tag x ms)
    (hl : CompLine (Text (Reads r.ty) Follows) (cpp r.st.includes) line isS tag x ms)
    (h : ∀ s t d c L, Ext r.st s → L.map (fun i => (i.x, i.m)) = ms → CompDecl s t d c x isS L →
      ∃ s', Conv E (fun R => R.ev (some t)) s (.ok (some d) s') ∧ s'.nodes d = some (.ident x) ∧ P s') :
    (∃ r', Line E fl F cpp r line (.shows (ascii x ++ [newline])) r') ∧
    ∀ a r', Line E fl F cpp r line a r' → a = .shows (ascii x ++ [newline]) ∧ r'.lx.mode = .initial ∧ r'.ty = r.ty ∧ P r'.st := by
  obtain ⟨i0, tag0, x0, ms0, t1, w1⟩ := hl.typed
  obtain ⟨i, text, t2, t3, w2⟩ := hl.meant
  obtain ⟨q0, d0, n0, c0, -⟩ := compVar_der w1
  obtain ⟨q, d, n, -, b⟩ := compVar_der w2
  refine line_shows hr.wf hr.mode t1 (.ruOne (.rsDecl d0)) n0 c0 t2 t3 (.ruOne (.rsDecl d)) n ?_
  intro s y e hy
  obtain ⟨dd, c, L, e1, e2⟩ := b hy (e.wf hr.wf) (Fresh.ext hr.fresh e) (fun nm hn k cs hc => hr.tagFresh nm hn k cs (by rw [← e.ctxs]; exact hc))
    (Cap.ext hr.cap e)
  obtain ⟨s', h1, h2, h3⟩ := h s y dd c L e e1 e2
  exact ⟨s', .inl ⟨dd, _, h1, rfl, fun o => prints_ident h2 o⟩, h3⟩

/-- declaring it, in terms of names and types -/
theorem laidOut_of {E : Env} {s0 s : St} {t d c : TId} {x : String} {isS : Bool} {L : List Item} {ms : List (String × MTy)} (he : Ext s0 s)
    (hL : L.map (fun i => (i.x, i.m)) = ms) (h : CompDecl s t d c x isS L) :
    ∃ s', Conv E (fun R => R.ev (some t)) s (.ok (some d) s') ∧ s'.nodes d = some (.ident x) ∧
      LaidOut s0 s' x ms (layoutPure isS 0 0 (ms.map Prod.snd)).1
        (if isS then (layoutPure isS 0 0 (ms.map Prod.snd)).2.1 else (layoutPure isS 0 0 (ms.map Prod.snd)).2.2) := by
  obtain ⟨L', v, bs, base, s', s'', hm, hx, hc, rfl, hr, ⟨tag, hg⟩, hcomp, hbase⟩ := compDecl_conv (E := E) h
  obtain ⟨id, ds, b, ht⟩ := hcomp.tree
  obtain ⟨e1, e2⟩ := items_snd hL
  have hp := hcomp.placed (L := L) hm hx
  have hsz : Laid.bytes L' isS = if isS then (layoutPure isS 0 0 (ms.map Prod.snd)).2.1 else (layoutPure isS 0 0 (ms.map Prod.snd)).2.2 := by
    rw [Laid.bytes, hm, e1]
  refine ⟨_, hc, ?_, v, c, bs, base, id, ds, b, hr, hcomp.obj, by rw [← hsz]; exact ht, by rw [← hsz]; exact hcomp.ok, ?_, ?_, ?_, ?_⟩
  · refine hg.nodes _ _ ?_ (by rw [tagged_nodes]; exact h.name)
    intro hd
    obtain ⟨specs, ch0, ts, off, sz, ds, tag, h1, h2, h3, h4, h5, h6, h7⟩ := h.trees
    have := h.name
    rw [List.mem_singleton.mp hd, h3] at this
    cases this
  · intro a ha
    cases hl : s0.mem.live a with
    | false => rfl
    | true =>
      rw [← he.mem] at hl
      have := h.cap.livelt a hl
      omega
  · rw [hp.1, ← hL, List.length_map]
  · rw [layoutPure_length, List.length_map]
  · intro i m o hi ho
    subst hL
    obtain ⟨it, hit, rfl⟩ : ∃ it, L[i]? = some it ∧ (it.x, it.m) = m := by
      rw [List.getElem?_map] at hi
      cases hL : L[i]? with
      | none => rw [hL] at hi; cases hi
      | some it => rw [hL] at hi; exact ⟨it, rfl, Option.some.inj hi⟩
    have hb : i < bs.length := by rw [hp.1]; exact (List.getElem?_eq_some_iff.mp hit).1
    rw [← e1] at ho
    obtain ⟨j1, w, j2, j3⟩ := hp.2 i it o _ hit ho (List.getElem?_eq_getElem hb)
    exact ⟨_, w, List.getElem?_eq_getElem hb, j1, j2, j3⟩

theorem cap_space {s : St} {ms : List (String × MTy)} (h : Cap s (3 * (ms.map fun m => mcost m.2).sum + 48)) :
    spaceOf (ms.map Prod.snd) < 2 ^ 63 := by
  have h1 := space_le (ms.map fun m => ⟨0, 0, 0, .char, m.1, m.2⟩)
  simp only [List.map_map, Function.comp_def] at h1
  have h2 := h.brk
  have hlim : Mem.limit < 2 ^ 63 := by decide
  have e : (ms.map fun m => m.2) = ms.map Prod.snd := rfl
  rw [e] at h1
  omega

/-- C98 for the texts of `C81_tokens_partial`: the offsets are those of the ABI; the size lacks the padding at
the end (C18).  Nothing else can happen at the line. -/
theorem C98_struct_partial {E : Env} {fl : Floats} {F : Str → Nat} {cpp : List String → Str → Str} {r : RSt} {line : Str}
    {tag : Option String} {x : String} {ms : List (String × MTy)} {os : List Nat} {size : Nat} (hr : Ready r true tag x ms)
    (hl : CompLine (Text (Reads r.ty) Follows) (cpp r.st.includes) line true tag x ms) (ha : AbiStruct (ms.map Prod.snd) os size) :
    ∃ sz, Placed 0 (ms.map Prod.snd) os sz ∧ sz ≤ size ∧
      (∃ r', Line E fl F cpp r line (.shows (ascii x ++ [newline])) r') ∧
      ∀ a r', Line E fl F cpp r line a r' → a = .shows (ascii x ++ [newline]) ∧ r'.lx.mode = .initial ∧ r'.ty = r.ty ∧
        LaidOut r.st r'.st x ms os sz := by
  obtain ⟨e, a, h1, h2, h3, h4⟩ := ha
  have hs := cap_space hr.cap
  have hp := (layoutPure_placed (off := 0) (mx := 0) (ms := ms.map Prod.snd) (by omega)).1
  obtain ⟨rfl, rfl⟩ := Placed.unique h1 hp
  exact ⟨_, h1, h4.1, compLine hr hl fun s t d c L he hL hd => laidOut_of (isS := true) he hL hd⟩

/-- the same for unions: every member at the start, and the size that of the largest -/
theorem C98_union_partial {E : Env} {fl : Floats} {F : Str → Nat} {cpp : List String → Str → Str} {r : RSt} {line : Str}
    {tag : Option String} {x : String} {ms : List (String × MTy)} (hr : Ready r false tag x ms)
    (hl : CompLine (Text (Reads r.ty) Follows) (cpp r.st.includes) line false tag x ms) :
    ∃ sz, IsMaxSize (ms.map Prod.snd) sz ∧
      (∃ r', Line E fl F cpp r line (.shows (ascii x ++ [newline])) r') ∧
      ∀ a r', Line E fl F cpp r line a r' → a = .shows (ascii x ++ [newline]) ∧ r'.lx.mode = .initial ∧ r'.ty = r.ty ∧
        LaidOut r.st r'.st x ms (List.replicate ms.length 0) sz := by
  obtain ⟨h1, h2, h3, h4, h5⟩ := layoutPure_union (mx := 0) (ms := ms.map Prod.snd)
  have hne : ms ≠ [] := by
    have fields : ∀ {ms i r}, WFields ms i r → ms ≠ [] := by
      have mem : ∀ {k ms i r}, WMembers k ms i r → ms ≠ [] := by intro k ms i r h; cases h <;> simp
      intro ms i r h
      cases h with
      | one _ _ h => exact mem h
      | more _ _ h _ => simp [mem h]
    obtain ⟨i, text, _, _, w⟩ := hl.meant
    cases w with
    | tagged h => exact fields h
    | anonymous h => exact fields h
  have ho : (layoutPure false 0 0 (ms.map Prod.snd)).1 = List.replicate ms.length 0 :=
    List.eq_replicate_iff.mpr ⟨by rw [layoutPure_length, List.length_map], h1⟩
  refine ⟨(layoutPure false 0 0 (ms.map Prod.snd)).2.2, ⟨h4, ?_⟩, ?_⟩
  · rcases h5 with h5 | h5
    · cases ms with
      | nil => exact absurd rfl hne
      | cons m ms =>
        refine ⟨m.2, by simp, ?_⟩
        have := h4 m.2 (by simp)
        omega
    · exact h5
  · rw [← ho]
    exact compLine hr hl fun s t d c L he hL hd => laidOut_of (isS := false) he hL hd

/-! ### Examples: `struct t{char a,*p;short b[3];} s;` and the same with `union` -/

open TextCheck

def body98 : W89 :=
  [kw .lbrace "{", kw .char "char", sp, idn [97] (name1 97), kw .comma ",", kw .star "*", idn [112] (name1 112), kw .semi ";", kw .short "short", sp,
   idn [98] (name1 98), kw .lbrack "[", num [51], kw .rbrack "]", kw .semi ";", kw .rbrace "}", sp, idn [115] (name1 115), kw .semi ";"]

theorem ok98 : okW body98 = true := by decide +kernel

def line98 (isS : Bool) : Str := ascii (if isS then "struct" else "union") ++ [32] ++ [116] ++ textW body98

theorem line98_eq : line98 true = ascii "struct t{char a,*p;short b[3];} s;" ∧ line98 false = ascii "union t{char a,*p;short b[3];} s;" := by
  decide +kernel

def ms98 : List (String × MTy) := [("a", .val .char), ("p", .val .ptr), ("b", .arr .short 3)]

def toks98 (isS : Bool) : List T := .p (compKw isS) :: .ident [116] :: toksW body98

theorem fields98 {r : List T} : WFields ms98 (.p .char :: .ident [97] :: .p .comma :: .p .star :: .ident [112] :: .p .semi :: .p .short ::
    .ident [98] :: .p .lbrack :: .integer 3 :: .p .rbrack :: .p .semi :: r) r :=
  .more (ws := [.char]) (k := .char) (ds := [("a", .val .char), ("p", .val .ptr)]) (.one rfl) ⟨[.char], by decide, by decide⟩
    (.more (.name (s := [97])) (.one (.ptr (.name (s := [112])))))
    (.one (ws := [.short]) (k := .short) (.one rfl) ⟨[.short], by decide, by decide⟩ (.one (.arr (s := [98]) (n := 3))))

theorem wcomp98 (isS : Bool) : WCompVar isS (some "t") "s" ms98 (toks98 isS) := .tagged (s := [116]) (x := [115]) fields98

theorem text98 {S : T → Str → Prop} {X : T → Str → UInt8 → Prop} (isS : Bool) (h : Text S X (toksW body98) (textW body98)) :
    Text S X (toks98 isS) (line98 isS) := by
  refine .tag (k := compKw isS) (w := if isS then "struct" else "union") (sp := [32]) (x := [116]) (by cases isS <;> rfl) (by cases isS <;> rfl)
    (by simp) (by decide) (name1 116) (by decide +kernel) h

theorem compLine98 {Tx : List T → Str → Prop} (isS : Bool) (h : Tx (toks98 isS) (line98 isS)) :
    CompLine Tx (cpp89 []) (line98 isS) isS (some "t") "s" ms98 :=
  ⟨⟨_, _, _, _, h, wcomp98 isS⟩, ⟨_, _, lastLine89 (by cases isS <;> decide +kernel), h, wcomp98 isS⟩⟩

theorem ready98 (isS : Bool) : Ready r89 isS (some "t") "s" ms98 where
  mode := rfl
  wf := stOf_WF _ _ _
  fresh := by
    intro c cs hc b hb
    simp only [r89, st89, stOf, List.cons.injEq] at hc
    obtain ⟨rfl, -⟩ := hc
    simp only [ctx1, List.mem_singleton] at hb
    subst hb
    decide
  tagFresh := by
    intro nm _ c cs hc b hb
    simp only [r89, st89, stOf, List.cons.injEq] at hc
    obtain ⟨rfl, -⟩ := hc
    cases isS <;> simp [ctx1, compNS, Ctx.map] at hb
  cap := ⟨by decide +kernel, by simp [r89, st89, stOf], memOf_livelt _⟩

example (fl : Floats) (F : Str → Nat) := C98_struct_partial (E := E0) (fl := fl) (F := F) (ready98 true)
  (cpp := cpp89) (compLine98 true (text98 true (okW_text ok98))) abiStruct_ex

example (fl : Floats) (F : Str → Nat) := C98_union_partial (E := E0) (fl := fl) (F := F) (ready98 false)
  (cpp := cpp89) (compLine98 false (text98 false (okW_text ok98)))

/-- C98 is false: `struct t{char a,*p;short b[3];} s;` gets 22 bytes, not 24. -/
theorem C98_refuted : ¬ C98_statement := by
  intro h
  obtain ⟨r', h1, h2⟩ := h E0 ⟨fun _ => [], fun _ _ => []⟩ (fun _ => 0) cpp89 r89 (line98 true) (some "t") "s" ms98 [0, 8, 16] 24 (ready98 true)
    (compLine98 true (text98 true (okW_ctext ok98))) abiStruct_ex
  obtain ⟨sz, p1, -, -, p2⟩ := C98_struct_partial (E := E0) (fl := ⟨fun _ => [], fun _ _ => []⟩) (F := fun _ => 0) (ready98 true)
    (cpp := cpp89) (compLine98 true (text98 true (okW_text ok98))) abiStruct_ex
  obtain ⟨e, a, p3, _⟩ := abiStruct_ex
  have h3 := (p2 _ _ h1).2.2.2
  obtain ⟨v, c, bs, base, id, ds, b, i1, i2, i3, _⟩ := h2
  obtain ⟨v', c', bs', base', id', ds', b', j1, j2, j3, _⟩ := h3
  rw [i1] at j1
  cases j1
  rw [i2] at j2
  cases j2
  rw [i3] at j3
  cases j3
  cases p1 with
  | cons q1 p1 =>
    cases p1 with
    | cons q2 p1 =>
      cases p1 with
      | cons q3 p1 => cases p1

end Bic.Repl
