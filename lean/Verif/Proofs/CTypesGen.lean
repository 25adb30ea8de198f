import Verif.Model.CTypesGen
import Verif.Spec.CTokens
import Verif.Proofs.LangGen
/-! # Reading `ctypes.def` and `ffi-types.c`: lemmas -/

namespace Bic.LangGen
open _root_.Bic.LangGen.Spec

/-! ## The reader, piece by piece -/

/-- the tokens that end in `cs`, and the state behind it -/
def outs : CSt → List Char → List CTok
  | _, [] => []
  | st, c :: cs => (step st c).2 ++ outs (step st c).1 cs

def after : CSt → List Char → CSt
  | st, [] => st
  | st, c :: cs => after (step st c).1 cs

theorem toksFrom_append (st : CSt) (a b : List Char) : toksFrom st (a ++ b) = outs st a ++ toksFrom (after st a) b := by
  induction a generalizing st with
  | nil => rfl
  | cons c cs ih => simp [toksFrom, outs, after, ih]

theorem toksFrom_lit {st st' : CSt} {a : List Char} {o : List CTok} (h : outs st a = o ∧ after st a = st') (b : List Char) :
    toksFrom st (a ++ b) = o ++ toksFrom st' b := by
  rw [toksFrom_append, h.1, h.2]

theorem word_run (w a : List Char) (h : ∀ c ∈ a, isWordChar c = true) : outs (.word w) a = [] ∧ after (.word w) a = .word (w ++ a) := by
  induction a generalizing w with
  | nil => simp [outs, after]
  | cons c cs ih =>
    have hc := h c List.mem_cons_self
    have := ih (w ++ [c]) fun d hd => h d (List.mem_cons_of_mem _ hd)
    simp [outs, after, step, hc, this]

theorem word_end (w : List Char) (lit r : List Char) (h : (lit.head?.map isWordChar) = some false) :
    toksFrom (.word w) (lit ++ r) = .word w :: toksFrom .start (lit ++ r) := by
  cases lit with
  | nil => cases h
  | cons c cs =>
    have hc : isWordChar c = false := by simpa using h
    simp [toksFrom, step, hc]

/-- a word and what ends it -/
theorem toks_word (w lit r : List Char) (hne : w ≠ []) (hw : ∀ c ∈ w, isWordChar c = true) (h : (lit.head?.map isWordChar) = some false) :
    toksFrom .start (w ++ (lit ++ r)) = .word w :: toksFrom .start (lit ++ r) := by
  cases w with
  | nil => exact absurd rfl hne
  | cons c cs =>
    have hc := hw c List.mem_cons_self
    have hr := word_run [c] cs fun d hd => hw d (List.mem_cons_of_mem _ hd)
    have e : outs .start (c :: cs) = [] ∧ after .start (c :: cs) = .word (c :: cs) := by
      simp only [outs, after, step, first, hc, if_true]
      exact ⟨by rw [hr.1]; rfl, by rw [hr.2]; rfl⟩
    rw [toksFrom_lit e, List.nil_append, word_end _ _ _ h]

/-! ## Cases -/

theorem ffiCase_toks (c : CType) (r : List Char) (hn : c.tree.name.toList ≠ []) (hw : ∀ x ∈ c.tree.name.toList, isWordChar x = true)
    (hn' : c.ffi.toList ≠ []) (hw' : ∀ x ∈ c.ffi.toList, isWordChar x = true) :
    toksFrom .start (c.ffiCase ++ r) = .word "case".toList :: .word c.tree.name.toList :: .punct ':' :: .word "return".toList ::
      .punct '&' :: .word c.ffi.toList :: .punct ';' :: toksFrom .start r := by
  unfold CType.ffiCase
  simp only [List.append_assoc]
  rw [toksFrom_lit (o := [.word "case".toList]) (st' := .start) (by decide +kernel),
    toks_word _ _ _ hn hw (by decide +kernel),
    toksFrom_lit (o := [.punct ':', .word "return".toList, .punct '&']) (st' := .start) (by decide +kernel),
    toks_word _ _ _ hn' hw' (by decide +kernel),
    toksFrom_lit (o := [.punct ';']) (st' := .start) (by decide +kernel)]
  rfl

/-- the name and the libffi type are words -/
def WordCT (c : CType) : Prop :=
  (c.tree.name.toList ≠ [] ∧ ∀ x ∈ c.tree.name.toList, isWordChar x = true) ∧ c.ffi.toList ≠ [] ∧ ∀ x ∈ c.ffi.toList, isWordChar x = true

theorem ffiTail_cases : cases (ctoks ffiTail) = some [] := by decide +kernel

theorem cases_toks (l : List CType) (h : ∀ c ∈ l, WordCT c) :
    cases (toksFrom .start (l.flatMap CType.ffiCase ++ ffiTail)) = some (l.map fun c => (c.tree.name.toList, c.ffi.toList)) := by
  induction l with
  | nil =>
    have h : toksFrom .start (([] : List CType).flatMap CType.ffiCase ++ ffiTail) = ctoks ffiTail := by
      rw [List.flatMap_nil, List.nil_append, ctoks]
    rw [h, ffiTail_cases, List.map_nil]
  | cons c l ih =>
    obtain ⟨⟨h1, h2⟩, h3, h4⟩ := h c List.mem_cons_self
    rw [List.flatMap_cons, List.append_assoc, ffiCase_toks c _ h1 h2 h3 h4]
    rw [cases, if_pos ⟨rfl, rfl⟩, ih fun d hd => h d (List.mem_cons_of_mem _ hd)]
    rfl

theorem switchBody_skip {t : CTok} (h : t ≠ .word "switch".toList) (ts : List CTok) : switchBody (t :: ts) = switchBody ts := by
  rw [switchBody]
  split
  · rename_i w v ts' e
    cases e
    rw [if_neg]
    exact fun h' => h (by rw [h'.1])
  · rfl

theorem switchBody_here (ts : List CTok) :
    switchBody (.word "switch".toList :: .punct '(' :: .word "ctype".toList :: .punct ')' :: .punct '{' :: ts) = some ts := by
  rw [switchBody]
  exact if_pos ⟨rfl, rfl⟩

theorem ffiHead_body (ts : List CTok) : switchBody (outs .start ffiHead ++ ts) = some ts := by
  have h : outs .start ffiHead = [.word "ffi_type".toList, .punct '*', .word "get_ffi_type".toList, .punct '(', .word "enum".toList,
      .word "tree_type".toList, .word "ctype".toList, .punct ')', .punct '{', .word "switch".toList, .punct '(', .word "ctype".toList,
      .punct ')', .punct '{'] := by decide +kernel
  rw [h]
  simp only [List.cons_append, List.nil_append]
  rw [switchBody_skip (by decide +kernel), switchBody_skip (by decide +kernel), switchBody_skip (by decide +kernel),
    switchBody_skip (by decide +kernel), switchBody_skip (by decide +kernel), switchBody_skip (by decide +kernel),
    switchBody_skip (by decide +kernel), switchBody_skip (by decide +kernel), switchBody_skip (by decide +kernel), switchBody_here]

theorem ffiTypes_cases (L : Lang) (h : ∀ c ∈ L.treeCTypes, WordCT c) :
    (switchBody (ctoks L.ffiTypes)).bind cases = some (L.treeCTypes.map fun c => (c.tree.name.toList, c.ffi.toList)) := by
  unfold ctoks Lang.ffiTypes
  have : after .start ffiHead = .start := by decide +kernel
  rw [toksFrom_append, this, ffiHead_body, Option.bind_some, cases_toks _ h]

/-! ## What the lexer of the descriptions yields -/

theorem isLD_word (c : Char) : isLD c = isWordChar c := by
  simp only [isLD, isL, isWordChar]

/-- the text of a string literal, `e`: behind a backslash -/
def StrBody : Bool → List Char → Prop
  | e, [] => e = false
  | false, c :: cs => c ≠ '"' ∧ StrBody (c == '\\') cs
  | true, c :: cs => c ≠ '\n' ∧ StrBody false cs

theorem strTail_body (cs acc : List Char) {s rest} (h : strTail cs acc = some (s, rest)) :
    ∃ b, s = acc.reverse ++ b ∧ StrBody false b := by
  fun_induction strTail cs acc with
  | case1 => cases h
  | case2 => cases h; exact ⟨[], by simp, rfl⟩
  | case3 => cases h
  | case4 c cs acc hc ih =>
    obtain ⟨b, e, hb⟩ := ih h
    exact ⟨'\\' :: c :: b, by simp [e], by decide, hc, hb⟩
  | case5 => cases h
  | case6 c cs acc h1 h2 h3 ih =>
    obtain ⟨b, e, hb⟩ := ih h
    have hc : (c == '\\') = false := by
      rw [beq_eq_false_iff_ne]
      rintro rfl
      cases cs with
      | nil => exact h3 rfl rfl
      | cons d ds => exact h2 d ds rfl rfl
    exact ⟨c :: b, by simp [e], h1, by rw [hc]; exact hb⟩

/-- what the texts of tokens are made of -/
def TokOk : Tok → Prop
  | .ident s => s.toList ≠ [] ∧ ∀ c ∈ s.toList, isWordChar c = true
  | .str s => StrBody false s.toList
  | _ => True

theorem word_ok (w : String) (h : w.toList ≠ [] ∧ ∀ c ∈ w.toList, isWordChar c = true) : TokOk (word w) := by
  unfold word
  split
  · trivial
  split
  · trivial
  split
  · trivial
  split
  · trivial
  exact h

theorem mem_takeWhile {p : Char → Bool} {l : List Char} {c : Char} (h : c ∈ l.takeWhile p) : p c = true := by
  induction l with
  | nil => cases h
  | cons d l ih =>
    rw [List.takeWhile_cons] at h
    split at h
    · rcases List.mem_cons.mp h with rfl | h
      · assumption
      · exact ih h
    · cases h

theorem lexN_ok (n : Nat) (cs : List Char) : ∀ t ∈ lexN n cs, TokOk t := by
  induction n generalizing cs with
  | zero => intro t ht; simp [lexN] at ht
  | succ n ih =>
    intro t ht
    cases cs with
    | nil => simp [lexN] at ht
    | cons c cs =>
      rw [lexN] at ht
      split at ht
      · rcases List.mem_cons.mp ht with rfl | ht
        · trivial
        · exact ih _ t ht
      split at ht
      · rcases List.mem_cons.mp ht with rfl | ht
        · trivial
        · exact ih _ t ht
      split at ht
      · split at ht
        · rename_i s rest e
          rcases List.mem_cons.mp ht with rfl | ht
          · obtain ⟨b, e1, hb⟩ := strTail_body _ _ e
            show StrBody false (String.ofList s).toList
            rw [String.toList_ofList, e1]; exact hb
          · exact ih _ t ht
        · exact ih _ t ht
      split at ht
      · rename_i hc
        rcases List.mem_cons.mp ht with rfl | ht
        · refine word_ok _ ?_
          rw [String.toList_ofList]
          refine ⟨by simp, fun d hd => ?_⟩
          rw [← isLD_word]
          rcases List.mem_cons.mp hd with rfl | hd
          · simp [isLD, hc]
          · exact mem_takeWhile hd
        · exact ih _ t ht
      split at ht
      · split at ht
        · rcases List.mem_cons.mp ht with rfl | ht
          · trivial
          · exact ih _ t ht
        split at ht
        · rcases List.mem_cons.mp ht with rfl | ht
          · trivial
          · exact ih _ t ht
        · exact ih _ t ht
      · exact ih _ t ht

/-! ## The description -/

def CType.decl (c : CType) : CDecl := ⟨c.tree.name, c.tree.friendly, c.ctype, c.format, c.member, c.ffi⟩

theorem addBases_ctypes (l : List (String × String)) (L : Lang) : (addBases l L).treeCTypes = L.treeCTypes := by
  induction l generalizing L with
  | nil => rfl
  | cons e l ih => obtain ⟨a, b⟩ := e; rw [addBases, ih]

theorem addBody_name {nm fr : String} {b : Option Body} {L L1 : Lang} {t : TreeType} (ha : addBody nm fr L b = some (L1, t)) :
    t.name = nm ∧ t.friendly = fr := by
  cases b with
  | none => cases ha; exact ⟨rfl, rfl⟩
  | some b =>
    simp only [addBody, Option.map_eq_some_iff] at ha
    obtain ⟨s', hs, e⟩ := ha
    cases e
    exact ⟨rfl, rfl⟩

theorem apply_ctypes {L L' : Lang} {f : Form} (h : apply L f = some L') :
    L'.treeCTypes.map CType.decl = L.treeCTypes.map CType.decl ++ ctypes [f] := by
  cases f with
  | base l => cases h; simp [addBases_ctypes, ctypes]
  | type nm fr b =>
    simp only [LangGen.apply, Option.map_eq_some_iff] at h
    obtain ⟨⟨L1, t⟩, hb, rfl⟩ := h
    simp [(addBody_types hb).2, ctypes]
  | ctype nm fr c fmt mem ffi b =>
    simp only [LangGen.apply, Option.map_eq_some_iff] at h
    obtain ⟨⟨L1, t⟩, hb, rfl⟩ := h
    simp [(addBody_types hb).2, ctypes, CType.decl, addBody_name hb]
  | spec _ _ => cases h; simp [ctypes]
  | ignore _ => cases h; simp [ctypes]
  | self _ => cases h; simp [ctypes]

theorem applyAll_ctypes (d : List Form) {L L' : Lang} (h : applyAll d L = some L') :
    L'.treeCTypes.map CType.decl = L.treeCTypes.map CType.decl ++ ctypes d := by
  induction d generalizing L with
  | nil => cases h; simp [ctypes]
  | cons f d ih =>
    simp only [LangGen.applyAll, Option.bind_eq_some_iff] at h
    obtain ⟨L1, h1, h2⟩ := h
    rw [ih h2, apply_ctypes h1, List.append_assoc]
    congr 1
    simp [ctypes, List.filterMap_cons]
    cases f <;> rfl

theorem read_ctypes {text : List Char} {d : List Form} {L : Lang} (hl : lex text = d.flatMap Form.toks) (hr : read text = .ok L) :
    L.treeCTypes.map CType.decl = ctypes d := by
  unfold read at hr
  rw [hl, parse_toks] at hr
  cases e : applyAll d Lang.empty with
  | none => rw [e] at hr; cases hr
  | some L' =>
    rw [e] at hr
    cases hr
    have := applyAll_ctypes d e
    exact this

/-- the fields of a C type are what tokens are made of -/
theorem ctype_ok {text : List Char} {d : List Form} (hl : lex text = d.flatMap Form.toks) {c : CDecl} (hc : c ∈ ctypes d) :
    TokOk (.ident c.name) ∧ TokOk (.ident c.ffi) ∧ TokOk (.str c.friendly) := by
  simp only [ctypes, List.mem_filterMap] at hc
  obtain ⟨f, hf, e⟩ := hc
  have hm : ∀ t ∈ f.toks, TokOk t := fun t ht => by
    have : t ∈ lex text := by rw [hl]; exact List.mem_flatMap.mpr ⟨f, hf, ht⟩
    exact lexN_ok _ _ t this
  cases f with
  | ctype n fr c fmt mem ffi b =>
    cases e
    exact ⟨hm _ (by simp [Form.toks]), hm _ (by simp [Form.toks]), hm _ (by simp [Form.toks])⟩
  | base _ => cases e
  | type _ _ _ => cases e
  | spec _ _ => cases e
  | ignore _ => cases e
  | self _ => cases e

/-! ## Lines of `ctypes.def` -/

/-- a literal without newline is read back -/
theorem str_run (fr s : List Char) (e : Bool) (h : StrBody e fr) (hn : '\n' ∉ fr) :
    outs (if e then .esc s else .str s) fr = [] ∧
      after (if e then .esc s else .str s) fr = .str (if e then s ++ '\\' :: fr else s ++ fr) := by
  induction fr generalizing s e with
  | nil => cases h; simp [outs, after]
  | cons c cs ih =>
    have hc : c ≠ '\n' := fun h => hn (by simp [h])
    have hn' : '\n' ∉ cs := fun h => hn (List.mem_cons_of_mem _ h)
    cases e with
    | true =>
      have := ih (s ++ ['\\', c]) false h.2 hn'
      simp only [Bool.false_eq_true, if_false] at this
      simp [outs, after, step, hc, this]
    | false =>
      obtain ⟨h1, h2⟩ := h
      by_cases hb : c = '\\'
      · subst hb
        have := ih s true (by simpa using h2) hn'
        simp only [if_true] at this
        simp [outs, after, step, this]
      · have := ih (s ++ [c]) false (by rw [← beq_eq_false_iff_ne.mpr hb]; exact h2) hn'
        simp only [Bool.false_eq_true, if_false] at this
        simp [outs, after, step, h1, hb, hc, this]

/-- a character that does not begin a string, a comment or a directive, and is not a comma, a parenthesis or a quote -/
def Harmless (c : Char) : Prop := c ≠ '"' ∧ c ≠ '/' ∧ c ≠ '#' ∧ c ≠ ',' ∧ c ≠ '(' ∧ c ≠ ')' ∧ c ≠ '\''

def PlainTok (t : CTok) : Prop := t ≠ .bad ∧ t ≠ .punct '(' ∧ t ≠ .punct ')' ∧ t ≠ .punct ','

theorem first_plain {c : Char} (h : Harmless c) : ((first c).1 = .start ∨ (first c).1 = .word [c]) ∧ ∀ t ∈ (first c).2, PlainTok t := by
  obtain ⟨h1, h2, h3, h4, h5, h6, h7⟩ := h
  unfold first
  by_cases w : isWordChar c = true
  · rw [if_pos w]; exact ⟨.inr rfl, by simp⟩
  rw [if_neg w]
  by_cases w : isBlank c = true
  · rw [if_pos w]; exact ⟨.inl rfl, by simp⟩
  rw [if_neg w]
  rw [if_neg h1, if_neg h2, if_neg h3]
  exact ⟨.inl rfl, by simp [PlainTok, h4, h5, h6]⟩

/-- between tokens or in a word -/
def Idle (st : CSt) : Prop := st = .start ∨ ∃ w, st = .word w

theorem plain_run (st : CSt) (s : List Char) (hs : Idle st) (h : ∀ c ∈ s, Harmless c) :
    Idle (after st s) ∧ ∀ t ∈ outs st s, PlainTok t := by
  induction s generalizing st with
  | nil => exact ⟨hs, by simp [outs]⟩
  | cons c cs ih =>
    obtain ⟨f1, f2⟩ := first_plain (h c List.mem_cons_self)
    have f1' : Idle (first c).1 := by rcases f1 with f1 | f1 <;> rw [f1]; exact .inl rfl; exact .inr ⟨_, rfl⟩
    have hstep : Idle (step st c).1 ∧ ∀ t ∈ (step st c).2, PlainTok t := by
      rcases hs with rfl | ⟨w, rfl⟩
      · exact ⟨f1', f2⟩
      · by_cases hw : isWordChar c = true
        · simp [step, hw, Idle]
        · simp only [step, hw, Bool.false_eq_true, if_false]
          refine ⟨f1', ?_⟩
          simp only [List.mem_cons]
          rintro t (rfl | ht)
          · simp [PlainTok]
          · exact f2 t ht
    obtain ⟨i1, i2⟩ := ih (step st c).1 hstep.1 fun d hd => h d (List.mem_cons_of_mem _ hd)
    refine ⟨i1, ?_⟩
    simp only [outs, List.mem_append]
    rintro t (ht | ht)
    · exact hstep.2 t ht
    · exact i2 t ht

/-- a harmless text and what ends it -/
theorem toks_plain (s lit r : List Char) (h : ∀ c ∈ s, Harmless c) (hl : (lit.head?.map isWordChar) = some false) :
    toksFrom .start (s ++ (lit ++ r)) = ctoks s ++ toksFrom .start (lit ++ r) ∧ ∀ t ∈ ctoks s, PlainTok t := by
  obtain ⟨h1, h2⟩ := plain_run .start s (.inl rfl) h
  have e : ctoks s = outs .start s ++ flush (after .start s) := by
    have := toksFrom_append .start s []
    rw [List.append_nil] at this
    exact this
  rw [toksFrom_append, e]
  rcases h1 with h1 | ⟨w, h1⟩
  · rw [h1]
    exact ⟨by simp [flush], by simpa [flush] using h2⟩
  · rw [h1, word_end _ _ _ hl]
    refine ⟨by simp [flush], ?_⟩
    simp only [flush, List.mem_append, List.mem_singleton]
    rintro t (ht | rfl)
    · exact h2 t ht
    · simp [PlainTok]

theorem inv_plain (T : List CTok) (hT : ∀ t ∈ T, PlainTok t) (cur : List CTok) (done : List (List CTok)) (ts : List CTok) :
    invocations (.args 0 cur done) (T ++ ts) = invocations (.args 0 (cur ++ T) done) ts := by
  induction T generalizing cur with
  | nil => simp
  | cons t T ih =>
    obtain ⟨h1, h2, h3, h4⟩ := hT t List.mem_cons_self
    rw [List.cons_append, invocations, if_neg h1, if_neg h2, if_neg h3, if_neg (fun h => h4 h.1), ih fun u hu => hT u (List.mem_cons_of_mem _ hu)]
    simp

/-- the fields a line of `ctypes.def` can take -/
structure LineOk (c : CDecl) : Prop where
  name : TokOk (.ident c.name)
  friendly : TokOk (.str c.friendly)
  oneLine : '\n' ∉ c.friendly.toList
  ctype : ∀ x ∈ c.ctype.toList, Harmless x
  format : ∀ x ∈ c.format.toList, Harmless x
  member : ∀ x ∈ c.member.toList, Harmless x

theorem inv_comma (cur : List CTok) (done : List (List CTok)) (ts : List CTok) :
    invocations (.args 0 cur done) (.punct ',' :: ts) = invocations (.args 0 [] (done ++ [cur])) ts := by
  rw [invocations, if_neg (by simp), if_neg (by simp), if_neg (by simp), if_pos ⟨rfl, rfl⟩]

theorem inv_close (cur : List CTok) (done : List (List CTok)) (ts : List CTok) :
    invocations (.args 0 cur done) (.punct ')' :: ts) = (invocations .out ts).map ((done ++ [cur]) :: ·) := by
  rw [invocations, if_neg (by simp), if_neg (by simp), if_pos rfl]

theorem defLine_rows (c : CType) (h : LineOk c.decl) (r : List Char) :
    invocations .out (toksFrom .start (c.defLine ++ r)) = (invocations .out (toksFrom .start r)).map (c.decl.row :: ·) := by
  have hq : ∀ s r, toksFrom (.str s) ("\", ".toList ++ r) = .str s :: .punct ',' :: toksFrom .start r := by
    intro s r
    have e : ("\", ".toList : List Char) = ['"', ',', ' '] := by decide +kernel
    rw [e]
    rfl
  have hc : ∀ r, toksFrom .start (", ".toList ++ r) = .punct ',' :: toksFrom .start r := fun r => by
    rw [toksFrom_lit (o := [.punct ',']) (st' := .start) (by decide +kernel)]; rfl
  obtain ⟨f1, f2⟩ := str_run c.tree.friendly.toList [] false h.friendly h.oneLine
  simp only [Bool.false_eq_true, if_false, List.nil_append] at f1 f2
  unfold CType.defLine
  simp only [List.append_assoc]
  rw [toksFrom_lit (o := [.word "DEFCTYPE".toList, .punct '(']) (st' := .start) (by decide +kernel),
    toks_word c.tree.name.toList _ _ h.name.1 h.name.2 (by decide +kernel),
    toksFrom_lit (o := [.punct ',']) (st' := .str []) (by decide +kernel),
    toksFrom_lit ⟨f1, f2⟩, hq]
  obtain ⟨e1, p1⟩ := toks_plain c.ctype.toList ", ".toList (c.format.toList ++ (", ".toList ++ (c.member.toList ++ (")\n".toList ++ r)))) h.ctype (by decide +kernel)
  obtain ⟨e2, p2⟩ := toks_plain c.format.toList ", ".toList (c.member.toList ++ (")\n".toList ++ r)) h.format (by decide +kernel)
  obtain ⟨e3, p3⟩ := toks_plain c.member.toList ")\n".toList r h.member (by decide +kernel)
  rw [e1, hc, e2, hc, e3, toksFrom_lit (o := [.punct ')']) (st' := .start) (by decide +kernel)]
  simp only [List.cons_append, List.nil_append]
  rw [invocations, if_pos rfl, invocations, if_pos rfl]
  have n1 := inv_plain [.word c.tree.name.toList] (by simp [PlainTok]) [] [] 
  have n2 := inv_plain [.str c.tree.friendly.toList] (by simp [PlainTok]) [] [[.word c.tree.name.toList]]
  simp only [List.cons_append, List.nil_append] at n1 n2
  rw [n1, inv_comma, List.nil_append, n2, inv_comma, inv_plain _ p1, inv_comma, inv_plain _ p2, inv_comma, inv_plain _ p3, inv_close]
  rfl

theorem ctypesDef_rows (L : Lang) (h : ∀ c ∈ L.treeCTypes, LineOk c.decl) :
    invocations .out (ctoks L.ctypesDef) = some (L.treeCTypes.map fun c => c.decl.row) := by
  unfold ctoks Lang.ctypesDef
  have e : outs .start ctypesHead = [] ∧ after .start ctypesHead = .start := by decide +kernel
  rw [toksFrom_lit e, List.nil_append]
  generalize L.treeCTypes = l at h
  induction l with
  | nil => rfl
  | cons c l ih =>
    rw [List.flatMap_cons, defLine_rows c (h c List.mem_cons_self), ih fun d hd => h d (List.mem_cons_of_mem _ hd)]
    rfl

end Bic.LangGen
