import Verif.Props.ReplErrors
import Verif.Props.ReplTypedef
import Verif.Props.ArrayDialogue
/-!
# C109: `typedef` of pointers at the REPL
-/

namespace Bic.Parser
open CSyn

/-- the first statement of a line -/
theorem unit_first {i t r} (h : Der .replUnit i t r) : ∃ t1 r1, Der .replStmt i t1 r1 := by
  generalize hn : N.replUnit = n at h
  induction h with
  | ruOne h _ => exact ⟨_, _, h⟩
  | ruMore h _ ih _ => exact ih rfl
  | _ => cases hn

/-- the first declarator of a list -/
theorem idl_first {i t r} (h : Der .initDeclList i t r) : ∃ t1 r1, Der .declarator i t1 r1 := by
  generalize hn : N.initDeclList = n at h
  induction h with
  | idlOne h _ =>
    cases h with
    | idDecl h => exact ⟨_, _, h⟩
    | idInit h => exact ⟨_, _, h⟩
  | idlMore h _ ih _ => exact ih rfl
  | _ => cases hn

/-- words of types -/
def IsWord (k : K) : Prop := ∃ w, kwTok w = some k

theorem word_der {k r} (h : IsWord k) : ∃ t, Der .declSpec (.p k :: r) t r := by
  obtain ⟨w, hk⟩ := h
  refine ⟨.kw w, .dsType (.typeKw ?_)⟩
  revert hk
  cases w <;> simp only [kwTok, Option.some.injEq, reduceCtorEq, false_implies] <;> rintro rfl <;> rfl

theorem words_der : ∀ {ks : List K} {i0 ts0 r}, (∀ k ∈ ks, IsWord k) → Der .declSpecs i0 (.chain ts0) (ks.map T.p ++ r) →
    ∃ ts, Der .declSpecs i0 (.chain (ts0 ++ ts)) r
  | [], _, _, _, _, h => ⟨[], by rw [List.append_nil]; exact h⟩
  | k :: ks, _, _, _, hk, h => by
    obtain ⟨t, ht⟩ := word_der (r := ks.map T.p ++ _) (hk k List.mem_cons_self)
    obtain ⟨ts, h'⟩ := words_der (fun k hk' => hk k (List.mem_cons_of_mem _ hk')) (.dsMore h ht)
    exact ⟨t :: ts, by rw [List.append_assoc] at h'; exact h'⟩

/-- specifiers end where no other specifier follows -/
theorem specs_end {i s s' j j'} (h : Der .declSpecs i s j) (h' : Der .declSpecs i s' j') (hj : sHd j = false) (hj' : sHd j' = false)
    (hb : hd .lbrace j = false) (hb' : hd .lbrace j' = false) : j = j' := by
  have a := (complete h hb).specs hj
  have b := (complete h' hb').specs hj'
  have := a.unique b
  cases this
  rfl

/-- `typedef`, words of a type, stars, and then the end or, behind a star, the name of a type -/
theorem not_unit {ks : List K} {k : Nat} {rest : List T} (hks : ∀ k ∈ ks, IsWord k)
    (hr : rest = [] ∨ k ≠ 0 ∧ ∃ x r, rest = .typeName x :: r) (t r) :
    ¬ Der .replUnit (.p .typedef :: (ks.map T.p ++ (List.replicate k (.p .star) ++ rest))) t r := by
  intro h
  obtain ⟨t1, r1, h⟩ := unit_first h
  have hd0 : ∀ k, hd k rest = false := by rcases hr with rfl | ⟨_, x, r, rfl⟩ <;> intro k <;> rfl
  have hs : sHd (List.replicate k (.p .star) ++ rest) = false := by
    cases k with
    | zero =>
      rcases hr with rfl | ⟨h, _⟩
      · rfl
      · exact absurd rfl h
    | succ k => rfl
  have hb : ∀ q, q ≠ .star → hd q (List.replicate k (.p .star) ++ rest) = false := by
    intro q hq
    cases k with
    | zero => exact hd0 q
    | succ k => simp only [List.replicate_succ, List.cons_append, hd, beq_eq_false_iff_ne]; exact Ne.symm hq
  obtain ⟨ts, hsp⟩ := words_der (i0 := .p .typedef :: (ks.map T.p ++ (List.replicate k (.p .star) ++ rest))) (ts0 := [.kw .typedef]) hks
    (.dsOne (.dsStorage (.storage rfl)))
  cases h with
  | rsExpr h => exact absurd (start h) (by simp [st, eHd, hd, unaryAction])
  | rsDecl h =>
    cases h with
    | dcEmpty h =>
      have := specs_end h hsp rfl hs rfl (hb _ (by decide))
      have h2 := hb .semi (by decide)
      rw [← this] at h2
      cases h2
    | dcDecl h h' =>
      have h1 := start h'
      have := specs_end h hsp (dHd_sHd h1) hs (hd_false dHd h1 fun _ => rfl) (hb _ (by decide))
      subst this
      obtain ⟨t2, r2, h2⟩ := idl_first h'
      cases h2 with
      | dDirect h2 =>
        have h3 := start h2
        cases k with
        | zero => rcases hr with rfl | ⟨h, _⟩
                  · simp [st, idHd, hd] at h3
                  · exact absurd rfl h
        | succ k => simp [List.replicate_succ, st, idHd, hd] at h3
      | dPtr h2 h3 =>
        have h4 := start h3
        have stars : ∀ k, k ≠ 0 → ∃ p, Der .pointer (List.replicate k (.p .star) ++ rest) p rest := by
          intro k
          induction k with
          | zero => intro h; exact absurd rfl h
          | succ k ih =>
            intro _
            cases k with
            | zero => exact ⟨_, .ptr⟩
            | succ k => obtain ⟨p, hp⟩ := ih (by omega); exact ⟨_, .ptrP hp⟩
        by_cases hk : k = 0
        · subst hk
          have := start h2
          exact absurd (this.symm.trans (hd0 .star)) nofun
        · obtain ⟨p, hp⟩ := stars k hk
          have q : qHd rest = false := by rcases hr with rfl | ⟨_, x, r, rfl⟩ <;> rfl
          have a := complete h2 ⟨hd_false (st .directDecl) h4 fun _ => rfl, by
            rcases Bool.or_eq_true _ _ |>.mp h4 with h | h
            · exact idHd_qHd h
            · exact hd_qHd h fun _ => rfl⟩
          have b := complete hp ⟨hd0 _, q⟩
          have := Ev.unique a b
          cases this
          rcases hr with rfl | ⟨_, x, r, rfl⟩ <;> simp [st, idHd, hd] at h4

end Bic.Parser

namespace Bic.Repl
open Spec CSyn
open Lexer (Reads Follows LSt Tok Lex)
open _root_.Bic.Parser (PT T K Der Rep nameStr specs_der' rep_kws ofTok IsWord not_unit)
open Printer (Floats)
open CText (Text ascii)

/-- tokens that leave the lexer in its first start condition -/
def calmTok : T → Bool
  | .p k => k != .struct && k != .union
  | .ident _ => true
  | .typeName _ => true
  | _ => false

theorem spell_quote : ∀ {k s}, CText.spell k = some s → (34 : UInt8) ∉ ascii s := by
  intro k
  cases k <;> simp only [CText.spell, Option.some.injEq, reduceCtorEq, false_implies, implies_true] <;> (rintro _ rfl; decide +kernel)

theorem text_quote {ty : Str → Bool} : {i : List T} → {s : Str} → Text (Reads ty) Follows i s → (∀ t ∈ i, calmTok t = true) → (34 : UInt8) ∉ s
  | _, _, .nil, _ => by simp
  | _, _, .space h h', hi => by
    simp only [List.mem_cons, not_or]
    exact ⟨by rintro rfl; revert h; decide, text_quote h' hi⟩
  | _, _, .tag (k := k) h _ _ _ _ _ _, hi => by have := hi _ List.mem_cons_self; cases k <;> simp_all [CText.isTag, calmTok]
  | _, _, .anonymous (k := k) h _ _ _, hi => by have := hi _ List.mem_cons_self; cases k <;> simp_all [CText.isTag, calmTok]
  | _, _, .tok (t := t) (w := w) h1 h2 h3 h4, hi => by
    have h5 := text_quote h4 fun t ht => hi t (List.mem_cons_of_mem _ ht)
    have h6 := hi _ List.mem_cons_self
    have nm : CText.IsName w → (34 : UInt8) ∉ w := by
      intro hw hq
      obtain ⟨c, u, rfl, hc, hu⟩ := hw.shape
      rcases List.mem_cons.mp hq with rfl | hq
      · revert hc; decide
      · exact absurd (hu _ hq) (by decide)
    rw [List.mem_append, not_or]
    refine ⟨?_, h5⟩
    cases h2 with
    | word a b => exact spell_quote a
    | ident a => exact nm a
    | typeName a => exact nm a
    | dec | hex | char | float | string => cases h6

theorem LexSome.part {tg : Lexer.Target} {ty : Str → Bool} {a e : LSt} {s : Str} {ts ts' : List Tok} (h : LexSome tg ty a s (ts ++ ts') e) :
    ∃ e', LexSome tg ty a s ts e' := by
  generalize hl : ts ++ ts' = l at h
  induction h generalizing ts with
  | nil =>
    obtain ⟨rfl, -⟩ := List.append_eq_nil_iff.mp hl
    exact ⟨_, .nil⟩
  | tok h _ ih =>
    cases ts with
    | nil => exact ⟨_, .nil⟩
    | cons t' ts =>
      cases hl
      obtain ⟨e', h1⟩ := ih rfl
      exact ⟨e', .tok h h1⟩
  | skip h _ ih =>
    cases ts with
    | nil => exact ⟨_, .nil⟩
    | cons t' ts =>
      obtain ⟨e', h1⟩ := ih hl
      exact ⟨e', .skip h h1⟩

/-- a line that is rejected at the token `t` -/
theorem rejects_at {ty : Str → Bool} {lx : LSt} {line : Str} {pre post : List T} {t : T} (hm : lx.mode = .initial)
    (ht : Text (Reads ty) Follows (pre ++ t :: post) line) (hc : ∀ u ∈ pre ++ t :: post, calmTok u = true)
    (hv : ∃ j tr, Der .replUnit (pre ++ j) tr []) (hn : ∀ j tr, ¬ Der .replUnit (pre ++ t :: j) tr []) :
    (∃ toks lx', toks.map ofTok = pre.map some ∧ Rejects ty lx line toks lx') ∧
    (∀ toks lx', Rejects ty lx line toks lx' → toks.map ofTok = pre.map some ∧ lx'.mode = .initial) ∧
    ∀ tr lx', ¬ Accepts ty lx line tr lx' := by
  obtain ⟨m, b⟩ := lx
  cases hm
  have hq := text_quote ht hc
  obtain ⟨toks, h1, h2⟩ := Lexer.C81_tokens_partial .repl ty ht
  obtain ⟨e, h3, h4⟩ := lex_to (h2 b)
  have hst : ∀ ts, ts <+: toks → .tok "STRUCT" ∉ ts ∧ .tok "UNION" ∉ ts := by
    have key : ∀ (nm : String) (k : K), ofTok (.tok nm) = some (.p k) → calmTok (.p k) = false → ∀ ts, ts <+: toks → .tok nm ∉ ts := by
      intro nm k hk hcalm ts hts hmem
      have : some (T.p k) ∈ (pre ++ t :: post).map some := by
        rw [← h1, ← hk]
        exact List.mem_map.mpr ⟨_, hts.subset hmem, rfl⟩
      obtain ⟨u, hu, he⟩ := List.mem_map.mp this
      cases he
      have := hc _ hu
      rw [hcalm] at this
      cases this
    exact fun ts hts => ⟨key "STRUCT" .struct (by decide +kernel) rfl ts hts, key "UNION" .union (by decide +kernel) rfl ts hts⟩
  rw [List.map_append] at h1
  obtain ⟨t1, t2, rfl, k1, k2⟩ := List.map_eq_append_iff.mp h1
  obtain ⟨u, t3, rfl, k3, k4⟩ := List.map_eq_cons_iff.mp k2
  have viable : ∀ ts, ts <+: t1 → Viable ts := by
    rintro ts ⟨t4, rfl⟩
    rw [List.map_append] at k1
    obtain ⟨i1, i2, rfl, l1, l2⟩ := List.map_eq_append_iff.mp k1.symm
    obtain ⟨j, tr, hj⟩ := hv
    exact ⟨i1, i2 ++ j, tr, l1.symm, by rw [← List.append_assoc]; exact hj⟩
  have nviable : ∀ ts, t1 ++ [u] <+: ts → ¬ Viable ts := by
    rintro _ ⟨t4, rfl⟩ ⟨i, j, tr, l1, l2⟩
    rw [List.map_append, List.map_append, k1, List.map_singleton, k3] at l1
    obtain ⟨i1, i2, rfl, l3, l4⟩ := List.map_eq_append_iff.mp l1.symm
    have : i1 = pre ++ [t] := map_some_inj (by rw [l3, List.map_append, List.map_singleton])
    subst this
    refine hn (i2 ++ j) tr ?_
    simpa using l2
  refine ⟨?_, ?_, ?_⟩
  · obtain ⟨e1, l1⟩ := h3.some
    obtain ⟨e2, l2⟩ := LexSome.part (ts := t1 ++ [u]) (ts' := t3) (by simpa using l1)
    exact ⟨t1, e2, k1, .token l2 (viable _ (List.prefix_refl _)) (nviable _ (List.prefix_refl _))⟩
  · intro ts lx' hr
    cases hr with
    | @token t' _ j1 j2 j3 =>
      have hp := j1.prefix h3
      have : ts = t1 := by
        have hp' : t1 ++ [u] <+: t1 ++ u :: t3 := ⟨t3, by simp⟩
        have hl : ¬ (ts ++ [t']).length ≤ t1.length := fun hle =>
          j3 (viable _ (List.prefix_of_prefix_length_le hp ⟨u :: t3, rfl⟩ hle))
        have hl' : ¬ t1.length + 1 ≤ ts.length := fun hle =>
          nviable _ (List.prefix_of_prefix_length_le hp' (((List.prefix_append ts [t'])).trans hp) (by simpa using hle)) j2
        simp only [List.length_append, List.length_singleton] at hl
        exact (List.prefix_of_prefix_length_le (((List.prefix_append ts [t'])).trans hp) (List.prefix_append t1 (u :: t3)) (by omega)).eq_of_length (by omega)
      subst this
      obtain ⟨e1, e2⟩ := hst _ hp
      exact ⟨k1, j1.calm rfl hq e1 e2⟩
    | early j1 j2 _ =>
      obtain ⟨rfl, -⟩ := Lex.unique h3.lex j1.lex
      exact absurd j2 (nviable _ ⟨t3, by simp⟩)
  · rintro tr lx' ⟨toks', i', j1, j2, j3⟩
    obtain ⟨rfl, -⟩ := Lex.unique h3.lex j1.lex
    exact nviable _ ⟨t3, by simp⟩ ⟨i', [], tr, j2, by rw [List.append_nil]; exact j3⟩

/-- parsing a line twice, when the second parse rejects it: as long as no statement was complete, only the names the
first parse has added stay -/
theorem parseLine_rejected {F : Str → Nat} {cpp : List String → Str → Str} {r : RSt} {line text : Str} {i0 pre post : List T} {u : T} {t0 : PT}
    (w : WF r.st) (hm : r.lx.mode = .initial) (ht0 : Text (Reads r.ty) Follows i0 line) (d0 : Der .replUnit i0 (.chain [t0]) [])
    (hi0 : ∀ s, t0 ≠ .cppInclude s) (hcpp : LastLine (cpp r.st.includes line) text)
    (ht : Text (Reads (addNames t0 r.ty)) Follows (pre ++ u :: post) text) (hc : ∀ v ∈ pre ++ u :: post, calmTok v = true)
    (hv : ∃ j tr, Der .replUnit (pre ++ j) tr []) (hn : ∀ j tr, ¬ Der .replUnit (pre ++ u :: j) tr [])
    (hnone : ∀ i j tr, i ++ j = pre → ¬ Der .replUnit i tr []) :
    ∃ s', Ext r.st s' ∧ (∃ lx', ParseLine F cpp r line none ⟨lx', addNames t0 r.ty, s'⟩) ∧
      ∀ z r', ParseLine F cpp r line z r' → z = none ∧ r'.st = s' ∧ r'.ty = addNames t0 r.ty ∧ r'.lx.mode = .initial := by
  obtain ⟨lx, ty, st⟩ := r
  obtain ⟨y0, s1, x1, k1, f1⟩ := doParse_of (F := F) w ht0 d0
  obtain ⟨⟨lx1, p1⟩, u1⟩ := f1 lx hm
  obtain ⟨n0, hn0, hn0'⟩ := rep_node k1 hi0
  obtain ⟨line', hl1, hl2⟩ := lastLine_of hcpp ht (by simp)
  have hty : ∀ {toks : List Tok} {ty' : Str → Bool}, toks.map ofTok = pre.map some →
      ((∀ x, ty' x = true ↔ addNames t0 ty x = true ∨ Added toks x) ↔ ty' = addNames t0 ty) := by
    intro toks ty' hp
    have : ∀ x, ¬ Added toks x := by
      rintro x ⟨i, j, ts, t, h1, h2, -⟩
      rw [hp] at h1
      exact hnone i j _ (map_some_inj h1).symm h2
    constructor
    · intro h
      funext x
      rw [Bool.eq_iff_iff, h, or_iff_left (this x)]
    · rintro rfl x
      exact (or_iff_left (this x)).symm
  refine ⟨s1, x1, ?_, ?_⟩
  · obtain ⟨⟨toks, lx2, h1, h2⟩, -, -⟩ := rejects_at (lx := lx1) (u1 _ _ p1).2.2.2 hl2 hc hv hn
    exact ⟨lx2, .line p1 hn0 hn0' (by show runCppOnLine (cpp s1.includes line) = _; rw [x1.includes]; exact hl1) (.rejected h2 ((hty h1).mpr rfl))⟩
  intro z r' hz
  cases hz with
  | rejected j => exact absurd (u1 _ _ j).1 (by simp)
  | header j1 j2 =>
    obtain ⟨a1, a2, _⟩ := u1 _ _ j1
    cases a1
    rw [a2, hn0] at j2
    cases j2
    exact absurd rfl (hn0' _)
  | @line _ _ r1 l' _ _ j1 j2 j3 j4 j5 =>
    obtain ⟨a1, a2, a3, a4⟩ := u1 _ _ j1
    obtain ⟨lx, ty, st⟩ := r1
    cases a2
    cases a3
    rw [x1.includes, hl1] at j4
    cases j4
    obtain ⟨-, h2, h3⟩ := rejects_at (lx := lx) a4 hl2 hc hv hn
    cases j5 with
    | one k1 => exact absurd k1 (h3 _ _)
    | rejected k1 k2 =>
      obtain ⟨e1, e2⟩ := h2 _ _ k1
      exact ⟨rfl, rfl, (hty e1).mp k2, e2⟩

/-- `typedef`, the words of a type, stars, and a name -/
def ptrTypedef (ks : List K) (n : Nat) (u : T) : List T := .p .typedef :: (ks.map T.p ++ (List.replicate n (.p .star) ++ [u, .p .semi]))

/-- the text of a line -/
structure LineOf (Tx : List T → Str → Prop) (cpp : Str → Str) (line : Str) (i : List T) : Prop where
  typed : Tx i line
  meant : ∃ text, LastLine (cpp line) text ∧ Tx i text

/-- C109: after a typedef of a pointer the name declares pointers.  `ws` are the words of a type, `i` and `ptrTypedef`
how it is written. -/
def C109_statement : Prop :=
  ∀ (E : Env) (fl : Floats) (F : Str → Nat) (cpp : List String → Str → Str) (r : RSt) (ks : List K) (ws : List Kw) (c : CT) (n : Nat) (x y l1 l2 : Str),
    r.lx.mode = .initial → Sane r.st → n ≠ 0 → ks.map some = ws.map kwTok → CSpec.Gives ws (.arith c) → r.ty x = false → r.ty y = false → x ≠ y →
    Fresh r.st (nameStr x) → Fresh r.st (nameStr y) → Cap r.st 192 →
    LineOf (CText.CText r.ty) (cpp r.st.includes) l1 (ptrTypedef ks n (.ident x)) →
    LineOf (CText.CText fun z => r.ty z || z == x) (cpp r.st.includes) l2 [.typeName x, .ident y, .p .semi] →
    ∃ out r', Session E fl F cpp r [l1, l2] [out, ascii (nameStr y) ++ [newline]] none r'

theorem ptr_der (d : PT) (r : List T) (x : Str) : ∀ n, n ≠ 0 → ∃ p, Der .pointer (List.replicate n (.p .star) ++ .ident x :: r) p (.ident x :: r) ∧
    declNames (Parser.fillPtr p d) = declNames d := by
  intro n
  induction n with
  | zero => intro h; exact absurd rfl h
  | succ n ih =>
    intro _
    cases n with
    | zero => exact ⟨_, .ptr, rfl⟩
    | succ n =>
      obtain ⟨p, h1, h2⟩ := ih (by omega)
      obtain ⟨q, e, rfl⟩ := Parser.ptr_tree h1
      exact ⟨_, .ptrP h1, by rw [Parser.fillPtr_more]; exact h2⟩

theorem words_isWord {ks : List K} {ws : List Kw} (h : ks.map some = ws.map kwTok) : ∀ k ∈ ks, IsWord k := by
  intro k hk
  have : some k ∈ ws.map kwTok := by rw [← h]; exact List.mem_map.mpr ⟨k, hk, rfl⟩
  obtain ⟨w, _, hw⟩ := List.mem_map.mp this
  exact ⟨w, hw⟩

theorem word_calm {k : K} (h : IsWord k) : calmTok (.p k) = true := by
  obtain ⟨w, h⟩ := h
  revert h
  cases w <;> simp only [kwTok, Option.some.injEq, reduceCtorEq, false_implies] <;> rintro rfl <;> rfl

/-- Typing a typedef of a pointer has no effect but that the name is a type name from then on: when the line is parsed
for the second time the name is a type name already, and the line is rejected. -/
theorem C109_typedef_rejected {E : Env} {fl : Floats} {F : Str → Nat} {cpp : List String → Str → Str} {r : RSt} {ks : List K} {n : Nat} {x line : Str}
    (hm : r.lx.mode = .initial) (hw : WF r.st) (hn : n ≠ 0) (hks : ∀ k ∈ ks, IsWord k)
    (hl : LineOf (Text (Reads r.ty) Follows) (cpp r.st.includes) line (ptrTypedef ks n (.ident x))) :
    (∃ r', Line E fl F cpp r line (.shows []) r') ∧ ∀ a r', Line E fl F cpp r line a r' →
      a = .shows [] ∧ r'.lx.mode = .initial ∧ r'.ty = (fun y => r.ty y || y == x) ∧ Ext r.st r'.st := by
  obtain ⟨text, hcpp, ht⟩ := hl.meant
  obtain ⟨ts, hsp⟩ := Parser.words_der (i0 := ptrTypedef ks n (.ident x)) (ts0 := [.kw .typedef]) hks (.dsOne (.dsStorage (.storage rfl)))
  obtain ⟨p, hp, hnm⟩ := ptr_der (.ident x) [.p .semi] x n hn
  have d0 : Der .replUnit (ptrTypedef ks n (.ident x)) (.chain [.decl (.chain ([.kw .typedef] ++ ts)) (.chain [Parser.fillPtr p (.ident x)])]) [] :=
    .ruOne (.rsDecl (.dcDecl hsp (.idlOne (.idDecl (.dPtr hp .ddIdent)))))
  have hadd : addNames (.decl (.chain ([.kw .typedef] ++ ts)) (.chain [Parser.fillPtr p (.ident x)])) r.ty = fun y => r.ty y || decide (y ∈ [x]) := by
    funext y
    simp [addNames, typedefNames, hasTypedef, hnm, declNames]
  have hcalm : ∀ u, calmTok u = true → ∀ v ∈ ptrTypedef ks n u, calmTok v = true := by
    intro u hu v hv
    simp only [ptrTypedef, List.mem_cons, List.mem_append, List.mem_map, List.mem_replicate, List.not_mem_nil, or_false] at hv
    rcases hv with rfl | ⟨k, hk, rfl⟩ | ⟨-, rfl⟩ | rfl | rfl
    · rfl
    · exact word_calm (hks k hk)
    · rfl
    · exact hu
    · rfl
  have htag : ∀ t ∈ ptrTypedef ks n (.ident x), CText.isTag t = false := by
    intro t h
    have := hcalm _ rfl t h
    cases t with
    | p k => cases k <;> first | rfl | cases this
    | _ => rfl
  have hre : (ptrTypedef ks n (.ident x)).map (retag x) = (.p .typedef :: (ks.map T.p ++ List.replicate n (.p .star))) ++ .typeName x :: [.p .semi] := by
    simp [ptrTypedef, retag]
  have htx := text_retag (x := x) ht htag
  rw [← hadd, hre] at htx
  obtain ⟨s', e, ⟨lx', q⟩, up⟩ := parseLine_rejected (F := F) (cpp := cpp) hw hm hl.typed d0 nofun hcpp htx
    (by rw [← hre]; intro v hv; obtain ⟨u, hu, rfl⟩ := List.mem_map.mp hv
        have := hcalm _ rfl u hu
        unfold retag
        split
        · split <;> rfl
        · exact this)
    ⟨[.ident x, .p .semi], _, by simpa [ptrTypedef] using d0⟩
    (by
      intro j tr h
      refine not_unit (k := n) (rest := .typeName x :: j) hks (.inr ⟨hn, x, j, rfl⟩) tr [] ?_
      simpa using h)
    (by
      intro i j tr hij h
      have hpre : i <+: .p .typedef :: (ks.map T.p ++ List.replicate n (.p .star)) := ⟨j, hij⟩
      cases i with
      | nil => exact der_nonempty h rfl
      | cons u i =>
        obtain ⟨rfl, hpre'⟩ := List.cons_prefix_cons.mp hpre
        rw [List.prefix_iff_eq_take, List.take_append, ← List.map_take, List.take_replicate] at hpre'
        rw [hpre'] at h
        exact not_unit (rest := []) (fun k hk => hks k (List.mem_of_mem_take hk)) (.inl rfl) tr [] (by simpa using h))
  refine ⟨⟨_, .rejected q⟩, ?_⟩
  intro a r' hr
  have key : ∀ {z r1}, ParseLine F cpp r line z r1 → z = none ∧ r1.lx.mode = .initial ∧ r1.ty = (fun y => r.ty y || y == x) ∧ Ext r.st r1.st := by
    intro z r1 h
    obtain ⟨a1, a2, a3, a4⟩ := up _ _ h
    refine ⟨a1, a4, ?_, a2 ▸ e⟩
    rw [a3, hadd]
    funext y
    simp only [List.mem_singleton]
    congr 1
    rw [Bool.eq_iff_iff]
    simp
  cases hr with
  | rejected j => exact ⟨rfl, (key j).2⟩
  | value j => exact absurd (key j).1 (by simp)
  | nothing j => exact absurd (key j).1 (by simp)
  | ends j => exact absurd (key j).1 (by simp)

/-- a declaration whose type is a name that denotes nothing -/
theorem evalUnknown {E : Env} {s : St} {t sp y : TId} {x : String} {ds : Ref} {off : Nat} (ht : s.nodes t = some (.decl (some sp) ds off))
    (hsp : s.nodes sp = some (.chain [y])) (hy : s.nodes y = some (.ident x)) (hx : resolveGlobal x .normal s = none) :
    Conv E (fun R => R.ev (some t)) s (.stop (.die "Could not resolve identifier") s) := by
  have hid : Conv E (fun R => R.ev (some y)) s (.stop (.die "Could not resolve identifier") s) := by
    refine Conv.evNode hy (Conv.fixed fun R => ?_)
    show evalIdentifier y s = _
    simp [evalIdentifier, resolveIdG, idStr, nodeR, node_apply hy, hx, Bic.get]
    rfl
  refine Conv.evNode ht (Conv.bind (a := some y) (s' := s) (Conv.fixed fun R => ?_) ?_)
  · simp [resolveSpecs, chainElems_apply hsp, resolveSpecsLoop, node_apply hy]
  · refine Conv.bind (a := some (.ident x)) (s' := s) (Conv.fixed fun R => peek_apply hy) ?_
    cases ds <;> exact Conv.bind_stop hid

/-- The name is of no use: declaring a variable with it ends bic. -/
theorem C109_typedef_ends {E : Env} {fl : Floats} {F : Str → Nat} {cpp : List String → Str → Str} {r : RSt} {ks : List K} {n : Nat} {x y l1 l2 : Str}
    (hm : r.lx.mode = .initial) (hw : WF r.st) (hn : n ≠ 0) (hks : ∀ k ∈ ks, IsWord k) (hx : resolveGlobal (nameStr x) .normal r.st = none)
    (h1 : LineOf (Text (Reads r.ty) Follows) (cpp r.st.includes) l1 (ptrTypedef ks n (.ident x)))
    (h2 : LineOf (Text (Reads fun z => r.ty z || z == x) Follows) (cpp r.st.includes) l2 [.typeName x, .ident y, .p .semi]) :
    (∃ m r', Session E fl F cpp r [l1, l2] [[]] (some (.die m)) r') ∧
    ∀ outs w r', Session E fl F cpp r [l1, l2] outs w r' → outs = [[]] ∧ ∃ m, w = some (.die m) := by
  obtain ⟨⟨r1, a1⟩, a2⟩ := C109_typedef_rejected (E := E) (fl := fl) (F := F) hm hw hn hks h1
  have d : Der .replUnit [.typeName x, .ident y, .p .semi] (.chain [.decl (.chain [.ident x]) (.chain [.ident y])]) [] :=
    .ruOne (.rsDecl (.dcDecl (.dsOne (.dsType .typeName)) (.idlOne (.idDecl (.dDirect .ddIdent)))))
  have step : ∀ r1 : RSt, r1.lx.mode = .initial → r1.ty = (fun y => r.ty y || y == x) → Ext r.st r1.st →
      (∃ m r', Line E fl F cpp r1 l2 (.ends (.die m)) r') ∧ ∀ a r', Line E fl F cpp r1 l2 a r' → ∃ m, a = .ends (.die m) := by
    intro r1 b1 b2 b3
    obtain ⟨text, hc, ht⟩ := h2.meant
    have hn : addNames (.decl (.chain [.ident x]) (.chain [.ident y])) r1.ty = r1.ty := addNames_nil rfl
    obtain ⟨z, s', e, k, ⟨lx', p⟩, up⟩ := parseLine_of (F := F) (cpp := cpp) (r := r1) (text := text) (b3.wf hw) b1 (b2 ▸ h2.typed) d nofun
      (by rw [b3.includes]; exact hc) (by rw [hn, b2]; exact ht) d
    have hend : Conv E (fun R => R.ev (some z)) s' (.stop (.die "Could not resolve identifier") s') := by
      cases k with
      | decl h1 h2 h3 =>
        cases h2 with
        | chain h4 h5 =>
          obtain ⟨q, rfl, h8⟩ := Parser.rep_one h5
          cases h8 with
          | ident h8 => exact evalUnknown h1 h4 h8 (by rw [e.resolveGlobal, b3.resolveGlobal]; exact hx)
    refine ⟨⟨_, _, .ends p hend⟩, ?_⟩
    intro a r' hr'
    have fin : ∀ {z' r1' o}, ParseLine F cpp r1 l2 (some z') r1' → Conv E (fun R => R.ev (some z')) r1'.st o →
        o = .stop (.die "Could not resolve identifier") s' := by
      intro z' r1' o j1 j2
      obtain ⟨a1, a2, _⟩ := up _ _ j1
      cases a1
      rw [a2] at j2
      exact Conv.unique j2 hend
    cases hr' with
    | rejected j => cases (up _ _ j).1
    | value j1 j2 j3 => cases fin j1 j2
    | nothing j1 j2 => cases fin j1 j2
    | ends j1 j2 => cases fin j1 j2; exact ⟨_, rfl⟩
  constructor
  · obtain ⟨-, b1, b2, b3⟩ := a2 _ _ a1
    obtain ⟨⟨m, r', h⟩, -⟩ := step r1 b1 b2 b3
    exact ⟨m, r', .cons a1 (.ends h)⟩
  · intro outs w r' hs
    cases hs with
    | cons j1 j2 =>
      obtain ⟨e, b1, b2, b3⟩ := a2 _ _ j1
      cases e
      cases j2 with
      | cons j3 _ => obtain ⟨m, e⟩ := (step _ b1 b2 b3).2 _ _ j3; cases e
      | ends j3 => obtain ⟨m, e⟩ := (step _ b1 b2 b3).2 _ _ j3; cases e; exact ⟨rfl, m, rfl⟩
    | ends j1 => cases (a2 _ _ j1).1

/-! ### Example: `typedef int *a;` and `a y;` -/

open TextCheck

def td109 : W89 := [kw .typedef "typedef", sp, kw .int "int", sp, kw .star "*", idn [97] (name1 97), kw .semi ";"]
def use109 : List (Option (Wd fun z => false || z == [97])) := [some ⟨.typeName [97], [97], rfl, .typeName (name1 97) (by decide) rfl⟩, sp, idn [121] name_y, kw .semi ";"]

theorem ok109 : (okW td109 && okW use109) = true := by decide +kernel
theorem lines109_eq : [textW td109, textW use109] = ["typedef int *a;", "a y;"].map ascii := by decide +kernel

theorem line109 {Tx : List T → Str → Prop} {ty : Str → Bool} {l : List (Option (Wd ty))} (h : Tx (toksW l) (textW l)) (hn : newline ∉ textW l) :
    LineOf Tx (cpp89 []) (textW l) (toksW l) := ⟨h, _, lastLine89 hn, h⟩

theorem ends109 (fl : Floats) (F : Str → Nat) :
    (∃ m r', Session E0 fl F cpp89 r89 [textW td109, textW use109] [[]] (some (.die m)) r') ∧
    ∀ outs w r', Session E0 fl F cpp89 r89 [textW td109, textW use109] outs w r' → outs = [[]] ∧ ∃ m, w = some (.die m) := by
  have h := ok109
  simp only [Bool.and_eq_true] at h
  exact C109_typedef_ends (r := r89) (ks := [.int]) (n := 1) (x := [97]) (y := [121]) rfl (stOf_WF _ _ _) (by decide)
    (by intro k hk; cases List.mem_singleton.mp hk; exact ⟨.int, rfl⟩) (by decide +kernel)
    (line109 (okW_text h.1) (by decide +kernel)) (line109 (okW_text h.2) (by decide +kernel))

theorem fresh109 : Fresh r89.st "y" := by
  intro c cs hc b hb
  simp only [r89, st89, stOf, List.cons.injEq] at hc
  obtain ⟨rfl, -⟩ := hc
  simp only [ctx1, List.mem_singleton] at hb
  subst hb
  decide

/-- C109 is false. -/
theorem C109_refuted : ¬ C109_statement := by
  intro h
  have hok := ok109
  simp only [Bool.and_eq_true] at hok
  obtain ⟨out, r', h1⟩ := h E0 ⟨fun _ => [], fun _ _ => []⟩ (fun _ => 0) cpp89 r89 [.int] [.int] .int 1 [97] [121] (textW td109) (textW use109)
    rfl (stOf_Sane _ _ _) (by decide) rfl ⟨[.int], by decide, by decide⟩ rfl rfl (by decide) fresh101 fresh109
    ⟨by decide +kernel, by simp [r89, st89, stOf], memOf_livelt _⟩
    (line109 (okW_ctext hok.1) (by decide +kernel)) (line109 (okW_ctext hok.2) (by decide +kernel))
  have := ((ends109 _ _).2 _ _ _ h1).1
  cases this

end Bic.Repl
