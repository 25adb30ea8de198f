import Verif.Model.Main
import Verif.Proofs.Script
import Verif.Props.Control
import Verif.Proofs.Witness
/-!
# Scripts: their arguments and their exit status (C60, C61)
-/

namespace Bic
open Spec Script

/-! ## C61: the command line -/

namespace Spec

/-- flags without a value (`-v` ends the program) -/
def Flags (fl : List Char) : Prop := ∀ c ∈ fl, c = 'T' ∨ c = 'D'

/-- the word is no option -/
def Plain (w : List Char) : Prop := ∀ c cs, w ≠ '-' :: c :: cs

/-- How a script is run: `CmdLine libOk sep ws f rest` says that the words `ws` after the
name of the program ask for running the script `f` with the arguments `rest`; `sep` says
that the option `-s` and the name of the script are separate words. -/
inductive CmdLine (libOk : List Char → Bool) : Bool → List (List Char) → List Char → List (List Char) → Prop
  | script {fl f rest} : Flags fl → CmdLine libOk true (('-' :: fl ++ ['s']) :: f :: rest) f rest
  | attached {fl f rest} : Flags fl → f ≠ [] → CmdLine libOk false (('-' :: fl ++ 's' :: f) :: rest) f rest
  | flags {sep fl ws f rest} : Flags fl → fl ≠ [] → CmdLine libOk sep ws f rest → CmdLine libOk sep (('-' :: fl) :: ws) f rest
  | value {sep fl c a ws f rest} : Flags fl → c = 'l' ∧ libOk a = true ∨ c = 'I' → CmdLine libOk sep ws f rest →
      CmdLine libOk sep (('-' :: fl ++ [c]) :: a :: ws) f rest
  | valueAttached {sep fl c a ws f rest} : Flags fl → a ≠ [] → c = 'l' ∧ libOk a = true ∨ c = 'I' →
      CmdLine libOk sep ws f rest → CmdLine libOk sep (('-' :: fl ++ c :: a) :: ws) f rest
  | plain {sep w ws f rest} : Plain w → CmdLine libOk sep ws f rest → CmdLine libOk sep (w :: ws) f rest

end Spec

theorem readWord_flags {next} {fl : List Char} (h : Flags fl) (cs : List Char) :
    readWord next (fl ++ cs) = readWord next cs := by
  induction fl with
  | nil => rfl
  | cons c fl ih =>
    have hc := h c List.mem_cons_self
    have ih := ih fun d hd => h d (List.mem_cons_of_mem _ hd)
    rw [List.cons_append, readWord.eq_def]; simp only; rw [if_neg (by rcases hc with rfl | rfl <;> decide), if_pos hc, ih]

theorem readWord_value {next} {c : Char} (hc : c = 'l' ∨ c = 's' ∨ c = 'I') {a : List Char} (ha : a ≠ []) :
    readWord next (c :: a) = .value c a false := by
  rw [readWord.eq_def]; simp only; rw [if_neg (by rcases hc with rfl | rfl | rfl <;> decide), if_neg (by rcases hc with rfl | rfl | rfl <;> decide), if_pos hc]
  cases a with
  | nil => exact absurd rfl ha
  | cons _ _ => rfl

theorem readWord_next {a} {c : Char} (hc : c = 'l' ∨ c = 's' ∨ c = 'I') :
    readWord (some a) [c] = .value c a true := by
  rw [readWord.eq_def]; simp only; rw [if_neg (by rcases hc with rfl | rfl | rfl <;> decide), if_neg (by rcases hc with rfl | rfl | rfl <;> decide), if_pos hc]

/-- a word with options -/
theorem parseArgs_word {libOk : Word → Bool} {cs : Word} {ws : List Word} {i : Nat} (h : cs ≠ []) (h2 : cs ≠ ['-']) :
    parseArgs libOk false (('-' :: cs) :: ws) i =
      match readWord ws.head? cs with
      | .flags => parseArgs libOk false ws (i + 1)
      | .exit n => .exit n
      | .value o a sep =>
        if o = 's' then .script a (if sep then i + 2 else i + 1)
        else if o = 'l' ∧ libOk a = false then .exit 1
        else parseArgs libOk sep ws (i + 1) := by
  cases cs with
  | nil => exact absurd rfl h
  | cons c cs =>
    rw [parseArgs, if_neg fun ⟨h3, h4⟩ => h2 (by rw [h3, h4])]
    cases readWord ws.head? (c :: cs) <;> rfl

theorem flags_ne {fl : List Char} {c : Char} (h : Flags fl) (hc : c ≠ '-') (cs : List Char) : fl ++ c :: cs ≠ ['-'] := by
  intro he
  cases fl with
  | nil => simp at he; exact hc he.1
  | cons d fl =>
    simp at he

/-- what `parse_args` finds -/
theorem parseArgs_script {libOk : Word → Bool} {sep ws f rest} (h : CmdLine libOk sep ws f rest) : ∀ i,
    ∃ j f', parseArgs libOk false ws i = .script f (i + (j + 1)) ∧ ws.drop j = f' :: rest ∧ (sep = true → f' = f) := by
  induction h with
  | @script fl f rest hf =>
    intro i
    refine ⟨1, f, ?_, rfl, fun _ => rfl⟩
    rw [List.cons_append, parseArgs_word (by simp) (flags_ne hf (by decide) _), readWord_flags hf]
    simp only [List.head?_cons, readWord_next (.inr (.inl rfl)), if_true]
  | @attached fl f rest hf hne =>
    intro i
    refine ⟨0, _, ?_, rfl, fun h => by cases h⟩
    rw [List.cons_append, parseArgs_word (by simp) (flags_ne hf (by decide) _), readWord_flags hf, readWord_value (.inr (.inl rfl)) hne]
    simp
  | @flags sep fl ws f rest hf hne _ ih =>
    intro i
    obtain ⟨j, f', h1, h2, h3⟩ := ih (i + 1)
    refine ⟨j + 1, f', ?_, h2, h3⟩
    have he : fl ≠ ['-'] := by
      rintro rfl
      have := hf '-' (by simp)
      revert this; decide
    rw [parseArgs_word hne he, show fl = fl ++ [] by simp, readWord_flags hf]
    simp only [readWord, h1]
    congr 1; omega
  | @value sep fl c a ws f rest hf hc _ ih =>
    intro i
    obtain ⟨j, f', h1, h2, h3⟩ := ih (i + 1 + 1)
    refine ⟨j + 2, f', ?_, h2, h3⟩
    have hne : c ≠ '-' := by rcases hc with ⟨rfl, _⟩ | rfl <;> decide
    rw [List.cons_append, parseArgs_word (by simp) (flags_ne hf hne _), readWord_flags hf]
    rw [List.head?_cons, readWord_next (hc.elim (fun h => .inl h.1) fun h => .inr (.inr h))]
    simp only
    rw [if_neg (by rcases hc with ⟨rfl, _⟩ | rfl <;> decide), if_neg (by rcases hc with ⟨_, h⟩ | rfl <;> simp [*])]
    rw [parseArgs, h1]
    congr 1; omega
  | @valueAttached sep fl c a ws f rest hf hne hc _ ih =>
    intro i
    obtain ⟨j, f', h1, h2, h3⟩ := ih (i + 1)
    refine ⟨j + 1, f', ?_, h2, h3⟩
    have hd : c ≠ '-' := by rcases hc with ⟨rfl, _⟩ | rfl <;> decide
    rw [List.cons_append, parseArgs_word (by simp) (flags_ne hf hd _), readWord_flags hf,
      readWord_value (hc.elim (fun h => .inl h.1) fun h => .inr (.inr h)) hne]
    simp only
    rw [if_neg (by rcases hc with ⟨rfl, _⟩ | rfl <;> decide), if_neg (by rcases hc with ⟨_, h⟩ | rfl <;> simp [*]), h1]
    congr 1; omega
  | @plain sep w ws f rest hw _ ih =>
    intro i
    obtain ⟨j, f', h1, h2, h3⟩ := ih (i + 1)
    refine ⟨j + 1, f', ?_, h2, h3⟩
    rw [parseArgs]
    · rw [h1]; congr 1; omega
    · exact hw

/-- **C61** (command line): a script is run with its name and its arguments -/
def C61_statement : Prop :=
  ∀ (libOk : Word → Bool) (sep : Bool) (prog f : Word) (ws rest : List Word), CmdLine libOk sep ws f rest →
    runScript libOk (prog :: ws) = some (f, f :: rest)

/-- `bic -sx.c a` gives the script the name `-sx.c` -/
theorem C61_refuted : ¬ C61_statement := by
  intro h
  have := h (fun _ => true) false "bic".toList "x.c".toList ["-sx.c".toList, "a".toList] ["a".toList]
    (CmdLine.attached (fl := []) (fun _ h => by cases h) (by decide))
  exact absurd this (by decide)

/-- the script that is run and the arguments after its name are always right -/
theorem C61_attached (libOk : Word → Bool) (sep : Bool) (prog f : Word) (ws rest : List Word) (h : CmdLine libOk sep ws f rest) :
    ∃ f', runScript libOk (prog :: ws) = some (f, f' :: rest) ∧ (sep = true → f' = f) := by
  obtain ⟨j, f', h1, h2, h3⟩ := parseArgs_script h 1
  refine ⟨f', ?_, h3⟩
  rw [runScript, List.tail_cons, h1]
  simp only [Option.some.injEq, Prod.mk.injEq, true_and]
  rw [show 1 + (j + 1) - 1 = j + 1 by omega, List.drop_succ_cons, h2]

/-- … and its name is right when it is a word of its own -/
theorem C61_command_line_partial (libOk : Word → Bool) (prog f : Word) (ws rest : List Word) (h : CmdLine libOk true ws f rest) :
    runScript libOk (prog :: ws) = some (f, f :: rest) := by
  obtain ⟨f', h1, h2⟩ := C61_attached libOk true prog f ws rest h
  rw [h1, h2 rfl]

/-- `bic -DIinc foo -s x.c -s` runs `x.c` with the argument `-s` -/
theorem C61_command_line_example : runScript (fun _ => true) ["bic".toList, "-DIinc".toList, "foo".toList, "-s".toList, "x.c".toList, "-s".toList] =
    some ("x.c".toList, ["x.c".toList, "-s".toList]) :=
  C61_command_line_partial _ _ _ _ _
    (.valueAttached (fl := ['D']) (c := 'I') (a := "inc".toList) (by simp [Flags]) (by decide) (.inr rfl)
      (.plain (by intro c cs h; simp at h) (.script (fl := []) (by simp [Flags]))))

/-! ## C61: `argc` and `argv` -/

/-- **C61** (variables): after `create_arguments`, `argc` is the number of arguments, `argv[k]` is the `k`-th; nothing
else has changed.  `ps` are the addresses of the arguments. -/
theorem C61_args (E : Env) (s : St) (ps : List Nat) (hs : Sane s) (hl : LiveLt s.mem) (hn : ps.length < 2 ^ 31)
    (hcap : s.mem.brk + 368 + 104 * ps.length < Mem.limit) (f1 : Fresh s "argc") (f2 : Fresh s "argv") :
    ∃ s', Conv E (fun R => createArguments R ps) s (.ok () s') ∧ Sane s' ∧ Room s' 4 ∧ (∀ t n, s.nodes t = some n → s'.nodes t = some n) ∧
      (∀ t, s'.nodes t = some (.ident "argc") → ∃ r, Evl E s' (some t) (some r) s' ∧ Holds s' r .int ps.length) ∧
      (∀ t o i k p, s'.nodes t = some (.arrAccess (some o) (some i)) → s'.nodes o = some (.ident "argv") →
        s'.nodes i = some (.integer (k : Nat)) → ps[k]? = some p →
        ∃ r s'', Evl E s' (some t) (some r) s'' ∧ Holds s'' r .ptr (p % 2 ^ 64 : Nat)) ∧
      GotArgs s' "argc" "argv" ps ∧
      (∀ x, x ≠ "argc" → x ≠ "argv" → resolveGlobal x .normal s' = resolveGlobal x .normal s) ∧
      (∀ b, s.mem.live b = true → s'.mem.live b = true ∧ s'.mem.byte b = s.mem.byte b) := by
  obtain ⟨s', d1, d2, x, y, bt, m, hc, hm, ⟨c, hx⟩, hA, ⟨e, hbt⟩, hok, hvals, hbrk⟩ :=
    createArguments_conv (E := E) hs.inv.wf hn (by omega) hs.ne hl f1 f2
  have got : GotArgs s' "argc" "argv" ps :=
    ⟨⟨x, c, hm.resolve f1 hs.ne (by simp [findId]), hx⟩, y, bt, e, m, hm.resolve f2 hs.ne (by simp [findId]), hA.ptr, hbt, hok, hvals⟩
  have room : Room s' 4 := ⟨by omega, hm.ctxs_ne hs.ne, hm.livelt hl⟩
  refine ⟨s', hc, (createArguments_sane hc hm hs).1, room, hm.nodes, fun t ht => got.argc_conv ht, ?_, got, ?_, fun b hb => ⟨hm.live b hb, hm.byte b hb⟩⟩
  · intro t o i k p h1 h2 h3 h4
    obtain ⟨r, s'', g1, g2, _⟩ := got.argv_conv (E := E) h1 h2 (hm.wf hs.inv.wf) (int_conv h3) (Ext.refl s').grow (room.mono (by omega)) (.inl h3) h4
    exact ⟨r, s'', g1, g2⟩
  · intro z h1 h2
    exact hm.resolve_other (by simp; exact ⟨h1.symm, h2.symm⟩)

/-- **C61** (`main`): `int main(int a, char **b)` (or `char *b[]`, which the parser reads the same way) receives
them: in its body `a` is their number and `b[k]` the `k`-th.  The names of the parameters are free, except that
the first must not be `argv`: the arguments of a call are evaluated in the scope of the parameters (C27), and the
second would be the first parameter. -/
theorem C61_main_partial (E : Env) (s : St) (args callArgs : Ref) (a b : String) (ps : List Nat) (hs : Sane s) (room : Room s 4)
    (h : GotArgs s "argc" "argv" ps) (hp : MainParams s.nodes args callArgs a b) (hab : a ≠ b) (hav : a ≠ "argv") :
    ∃ s', Bound E (enterFn s "main") args callArgs s' ∧ Sane s' ∧
      (∀ t, s'.nodes t = some (.ident a) → ∃ r, Evl E s' (some t) (some r) s' ∧ Holds s' r .int ps.length) ∧
      (∀ t o i k p, s'.nodes t = some (.arrAccess (some o) (some i)) → s'.nodes o = some (.ident b) →
        s'.nodes i = some (.integer (k : Nat)) → ps[k]? = some p →
        ∃ r s'', Evl E s' (some t) (some r) s'' ∧ Holds s'' r .ptr (p % 2 ^ 64 : Nat)) := by
  obtain ⟨s', ida, idb, xa, xb, h1, h2, h3, h4⟩ := main_receives (E := E) hs.inv.wf (room.mono (by omega)) hs.flags h hp hab hav
  have hs' := (h1.keep (hs.enterFn "main")).1
  have room' : Room s' 2 := ⟨by have := room.brk; omega, hs'.ne, h3.livelt room.livelt⟩
  refine ⟨s', h1, hs', fun t ht => h2.argc_conv ht, ?_⟩
  intro t o i k p g1 g2 g3 g4
  obtain ⟨r, s'', g5, g6, _⟩ := h2.argv_conv (E := E) g1 g2 hs'.inv.wf (int_conv g3) (Ext.refl s').grow room' (.inl g3) g4
  exact ⟨r, s'', g5, g6⟩

/-! ## C60: the exit status -/

namespace Spec

/-- the statement `t` of a script declares (or defines) `main` with `n` parameters -/
def DeclaresMain (s : St) (t : TId) (n : Nat) : Prop :=
  ∃ specs dl off f fs id args ret stmts, s.nodes t = some (.decl specs (some dl) off) ∧ s.nodes dl = some (.chain (f :: fs)) ∧
    s.nodes f = some (.fn (some id) args ret stmts) ∧ s.nodes id = some (.ident "main") ∧
    (args = none ∧ n = 0 ∨ ∃ al as, args = some al ∧ s.nodes al = some (.chain as) ∧ as.length = n)

/-- the statement `t` of a script declares something else -/
def DeclaresOther (s : St) (t : TId) : Prop :=
  (∃ specs dl off f fs n, s.nodes t = some (.decl specs (some dl) off) ∧ s.nodes dl = some (.chain (f :: fs)) ∧ s.nodes f = some n ∧
    ∀ id args ret stmts, n = .fn id args ret stmts → ∃ i m, id = some i ∧ s.nodes i = some m ∧ m ≠ .ident "main") ∨
  ∃ specs off, s.nodes t = some (.decl specs none off)

/-- the statement `t` of a script is no declaration -/
def IsCode (s : St) (t : TId) : Prop := ∃ n, s.nodes t = some n ∧ ∀ specs dl off, n ≠ .decl specs dl off

end Spec

/-- the script `head`, started with the arguments `ps`, ends with exit status `k` -/
def ExitsWith (E : Env) (s : St) (head : TId) (ps : List Nat) (k : Nat) : Prop :=
  ∃ o, Conv E (fun R => evaluateCscript R head ps) s o ∧ status o = some k

theorem ExitsWith.unique {E s head ps k k'} (h : ExitsWith E s head ps k) (h' : ExitsWith E s head ps k') : k = k' := by
  obtain ⟨o, h1, h2⟩ := h
  obtain ⟨o', h3, h4⟩ := h'
  rw [Conv.unique h1 h3, h4] at h2
  exact (Option.some.inj h2).symm

/-! ### What `__evaluate_cscript` finds out -/

theorem inspect_main {s : St} {t : TId} {n : Nat} (h : DeclaresMain s t n) (f : Found) :
    inspectDecl t f s = .ok { f with numMainArgs := f.numMainArgs + n, hasMain := true } s := by
  obtain ⟨specs, dl, off, g, fs, id, args, ret, stmts, h1, h2, h3, h4, ⟨rfl, rfl⟩ | ⟨al, as, rfl, h5, rfl⟩⟩ := h
  · simp [inspectDecl, firstDeclarator, node_apply h1, peek_apply h2, peek_apply h3, peek_apply h4, chainElems, peek_none]
  · simp [inspectDecl, firstDeclarator, node_apply h1, peek_apply h2, peek_apply h3, peek_apply h4, chainElems, peek_apply h5]

theorem inspect_other {s : St} {t : TId} (h : DeclaresOther s t) (f : Found) : inspectDecl t f s = .ok f s := by
  rcases h with ⟨specs, dl, off, g, fs, n, h1, h2, h3, h4⟩ | ⟨specs, off, h1⟩
  · by_cases hn : ∃ id args ret stmts, n = .fn id args ret stmts
    · obtain ⟨id, args, ret, stmts, rfl⟩ := hn
      obtain ⟨i, m, rfl, h5, h6⟩ := h4 _ _ _ _ rfl
      by_cases hm : ∃ x, m = .ident x
      · obtain ⟨x, rfl⟩ := hm
        have : x ≠ "main" := fun e => h6 (by rw [e])
        simp [inspectDecl, firstDeclarator, node_apply h1, peek_apply h2, peek_apply h3, peek_apply h5, this]
      · simp only [inspectDecl, firstDeclarator, bind_apply, node_apply h1, peek_apply h2, peek_apply h3, peek_apply h5, pure_apply]
        cases m <;> first | exact absurd ⟨_, rfl⟩ hm | rfl
    · simp only [inspectDecl, firstDeclarator, bind_apply, node_apply h1, peek_apply h2, peek_apply h3, pure_apply]
      cases n <;> first | exact absurd ⟨_, _, _, _, rfl⟩ hn | rfl
  · simp [inspectDecl, firstDeclarator, node_apply h1, peek_none]

theorem inspect_code {s : St} {t : TId} (h : IsCode s t) (f : Found) : inspectDecl t f s = .ok { f with hasNonDecls := true } s := by
  obtain ⟨n, h1, h2⟩ := h
  simp only [inspectDecl, bind_apply, node_apply h1]
  cases n <;> first | exact absurd rfl (h2 _ _ _) | rfl

/-- no `main` -/
theorem inspect_noMain {s : St} {es : List TId} (h : ∀ t ∈ es, DeclaresOther s t ∨ IsCode s t) : ∀ f : Found, f.hasMain = false →
    ∃ f', inspectDecls es f s = .ok f' s ∧ f'.hasMain = false := by
  induction es with
  | nil => exact fun f hf => ⟨f, rfl, hf⟩
  | cons t ts ih =>
    intro f hf
    have ht := ih fun u hu => h u (List.mem_cons_of_mem _ hu)
    rcases h t List.mem_cons_self with h1 | h1
    · obtain ⟨f', e, h2⟩ := ht f hf
      exact ⟨f', by simp [inspectDecls, inspect_other h1, e], h2⟩
    · obtain ⟨f', e, h2⟩ := ht { f with hasNonDecls := true } hf
      exact ⟨f', by simp [inspectDecls, inspect_code h1, e], h2⟩

/-- in general -/
theorem inspect_all {s : St} {es : List TId} (h : ∀ t ∈ es, (∃ n, DeclaresMain s t n) ∨ DeclaresOther s t ∨ IsCode s t) : ∀ f : Found,
    ∃ f', inspectDecls es f s = .ok f' s ∧ (f'.hasMain = true ↔ f.hasMain = true ∨ ∃ t ∈ es, ∃ n, DeclaresMain s t n) ∧
      (f'.hasNonDecls = true ↔ f.hasNonDecls = true ∨ ∃ t ∈ es, IsCode s t) := by
  induction es with
  | nil => exact fun f => ⟨f, rfl, by simp, by simp⟩
  | cons t ts ih =>
    intro f
    have ht := ih fun u hu => h u (List.mem_cons_of_mem _ hu)
    have x1 : ∀ {n}, DeclaresMain s t n → ¬ DeclaresOther s t := by
      rintro n ⟨specs, dl, off, g, fs, id, args, ret, stmts, h1, h2, h3, h4, _⟩ (⟨specs', dl', off', g', fs', n', k1, k2, k3, k4⟩ | ⟨specs', off', k1⟩)
      · rw [h1] at k1; cases k1
        rw [h2] at k2; cases k2
        rw [h3] at k3; cases k3
        obtain ⟨i, m, e, k5, k6⟩ := k4 _ _ _ _ rfl
        cases e
        rw [h4] at k5; cases k5
        exact k6 rfl
      · rw [h1] at k1; cases k1
    have x2 : ∀ {n}, DeclaresMain s t n → ¬ IsCode s t := by
      rintro n ⟨specs, dl, off, g, fs, id, args, ret, stmts, h1, _⟩ ⟨m, k1, k2⟩
      rw [h1] at k1; cases k1
      exact k2 _ _ _ rfl
    have x3 : DeclaresOther s t → ¬ IsCode s t := by
      rintro (⟨specs', dl', off', g', fs', n', h1, _⟩ | ⟨specs', off', h1⟩) ⟨m, k1, k2⟩ <;>
        (rw [h1] at k1; cases k1; exact k2 _ _ _ rfl)
    rcases h t List.mem_cons_self with ⟨n, h1⟩ | h1 | h1
    · obtain ⟨f', e, h2, h3⟩ := ht { f with numMainArgs := f.numMainArgs + n, hasMain := true }
      refine ⟨f', by simp [inspectDecls, inspect_main h1, e], ?_, ?_⟩
      · exact ⟨fun _ => .inr ⟨t, List.mem_cons_self, n, h1⟩, fun _ => h2.mpr (.inl rfl)⟩
      · rw [h3]; simp [x2 h1]
    · obtain ⟨f', e, h2, h3⟩ := ht f
      refine ⟨f', by simp [inspectDecls, inspect_other h1, e], ?_, ?_⟩
      · rw [h2]
        have : ¬ ∃ n, DeclaresMain s t n := fun ⟨n, hn⟩ => x1 hn h1
        simp [this]
      · rw [h3]; simp [x3 h1]
    · obtain ⟨f', e, h2, h3⟩ := ht { f with hasNonDecls := true }
      refine ⟨f', by simp [inspectDecls, inspect_code h1, e], ?_, ?_⟩
      · rw [h2]
        have : ¬ ∃ n, DeclaresMain s t n := fun ⟨n, hn⟩ => x2 hn h1
        simp [this]
      · exact ⟨fun _ => .inr ⟨t, List.mem_cons_self, h1⟩, fun _ => h3.mpr (.inl rfl)⟩

/-- **C60** (mixed scripts): with `main` and other code a script ends with status 1, and nothing is evaluated -/
theorem C60_mixed (E : Env) (s : St) (head : TId) (es : List TId) (ps : List Nat) (hh : s.nodes head = some (.chain es))
    (h : ∀ t ∈ es, (∃ n, DeclaresMain s t n) ∨ DeclaresOther s t ∨ IsCode s t) (t u : TId) (n : Nat) (ht : t ∈ es) (hu : u ∈ es)
    (hm : DeclaresMain s t n) (hc : IsCode s u) :
    ExitsWith E s head ps 1 ∧ Conv E (fun R => evaluateCscript R head ps) s (.stop (.exit 1) s) := by
  obtain ⟨f', e, h1, h2⟩ := inspect_all h ⟨0, false, false⟩
  have hc : Conv E (fun R => evaluateCscript R head ps) s (.stop (.exit 1) s) := by
    refine Conv.fixed fun R => ?_
    simp [evaluateCscript, chainElems_apply hh, e, h1.mpr (.inr ⟨t, ht, n, hm⟩), h2.mpr (.inr ⟨u, hu, hc⟩), Bic.stop]
  exact ⟨⟨_, hc, rfl⟩, hc⟩

/-! ### `return` at top level -/

theorem getSi_mod (v : Int) : ((CT.int.decode (CT.int.encode (mpzGetSi v))) % 256).toNat = (v % 256).toNat := by
  have h1 : mpzGetSi v % 256 = v % 256 := by unfold mpzGetSi; split <;> omega
  have h2 : CT.int.decode (CT.int.encode (mpzGetSi v)) % 256 = mpzGetSi v % 256 := by
    obtain ⟨_, k, hk⟩ := CT.decode_encode_converts (c := .int) (.inl trivial) (mpzGetSi v)
    have hw : (2 : Int) ^ width .int = 4294967296 := by decide
    rw [hw] at hk
    omega
  rw [h2, h1]

theorem cscriptExit_conv {E : Env} {s : St} {r : TId} {v : Int} (h : Denotes s r v) (hf : ∀ c ∈ s.ctxs, c.shouldBreak = false) :
    ∃ s', Conv E (fun R => cscriptExit R (some r)) s (.stop (.exit (CT.int.decode (CT.int.encode (mpzGetSi v)))) s') := by
  obtain ⟨s', hc⟩ : ∃ s', CondIs E s r v s' := by
    rcases h with h | ⟨c, w, h, e⟩
    · exact ⟨s, r, s, ⟨Denotes.ev (.inl h), rfl, hf⟩, .inl ⟨h, rfl⟩⟩
    · exact ⟨_, r, s, ⟨Denotes.ev (.inr ⟨c, w, h, e⟩), rfl, hf⟩, .inr ⟨c, w, h, e, rfl⟩⟩
  refine ⟨s', ?_⟩
  unfold cscriptExit
  exact Conv.bind hc.conv (Conv.const rfl)

theorem retNode_denotes {s : St} {t r : TId} {e : Ref} {v : Int} (ht : s.nodes t = some (.ret e)) (x : Ref) (h : Denotes s r v) :
    Denotes (retNode s t x) r v := by
  have keep : ∀ q n, s.nodes q = some n → (∀ e, n ≠ .ret e) → (retNode s t x).nodes q = some n := by
    intro q n hq hn
    have : q ≠ t := by rintro rfl; rw [ht] at hq; cases hq; exact hn _ rfl
    simp [retNode, this, hq]
  rcases h with h | ⟨c, w, ⟨τ, a, hl, e1⟩, e2⟩
  · exact .inl (keep _ _ h (fun e h => by cases h))
  · obtain ⟨arr, sz, h1⟩ := hl.lv
    obtain ⟨e', h2⟩ := hl.ty
    exact .inr ⟨c, w, ⟨τ, a, ⟨⟨arr, sz, keep _ _ h1 (fun e h => by cases h)⟩, ⟨e', keep _ _ h2 (fun e h => by cases h)⟩, hl.int, hl.ok⟩, e1⟩, e2⟩

/-- a state in which scripts start with the arguments `ps`: outside of functions, with memory for the arguments, which are
not declared yet -/
structure Startable (s : St) (ps : List Nat) : Prop where
  sane : Sane s
  top : innerFn s.ctxs = none
  livelt : LiveLt s.mem
  few : ps.length < 2 ^ 31
  cap : s.mem.brk + 176 + 104 * ps.length < Mem.limit
  argc : Fresh s "argc"
  argv : Fresh s "argv"

theorem Startable.start {E : Env} {s s1 : St} {ps : List Nat} (h : Startable s ps) (hc : Conv E (fun R => createArguments R ps) s (.ok () s1)) :
    Sane s1 ∧ innerFn s1.ctxs = none ∧ ∀ t n, s.nodes t = some n → s1.nodes t = some n := by
  obtain ⟨s', d1, d2, x, y, bt, m, hc', hm, _⟩ := createArguments_conv (E := E) h.sane.inv.wf h.few h.cap h.sane.ne h.livelt h.argc h.argv
  cases Conv.unique hc hc'
  obtain ⟨h1, h2⟩ := createArguments_sane hc hm h.sane
  exact ⟨h1, h2.trans h.top, hm.nodes⟩

/-- **C60**: the exit status of a script is that of a `return` at top level, or the value `main` returns, modulo 256.
`s1` is the state in which the script starts, having its arguments. -/
def C60_statement : Prop :=
  (∀ (E : Env) (s s1 : St) (head : TId) (es : List TId) (ps : List Nat) (r : TId) (s' : St) (v : Int), Startable s ps →
    s.nodes head = some (.chain es) → (∀ t ∈ es, DeclaresOther s t ∨ IsCode s t) →
    Conv E (fun R => createArguments R ps) s (.ok () s1) →
    Exec okLang (Evt E) (CondIs E) s1 (.block es) (.ret (some r)) s' → Denotes s' r v → ExitsWith E s head ps (v % 256).toNat) ∧
  (∀ (E : Env) (s s1 s2 s' : St) (head d call i : TId) (es : List TId) (ps : List Nat) (r : TId) (v : Int), Startable s ps →
    s.nodes head = some (.chain es) → (∀ t ∈ es, DeclaresMain s t 0 ∨ DeclaresOther s t) →
    d ∈ es → DeclaresMain s d 0 → Conv E (fun R => createArguments R ps) s (.ok () s1) →
    Conv E (fun R => evalElems R es) s1 (.ok () s2) → s2.nodes call = some (.fnCall (some i) none) → s2.nodes i = some (.ident "main") →
    Evl E s2 (some call) (some r) s' → Denotes s' r v → ExitsWith E s head ps (v % 256).toNat)

/-- C60 for scripts without `main`: a `return` reached at top level ends the script with its value modulo 256,
wherever it stands (in blocks, conditional statements, loops), whatever the value.  Missing: scripts with `main`,
see `C60_main_zero`; `break` on the way and conditions outside of `okTruth`, see C31-C34. -/
theorem C60_return_partial (E : Env) (s s1 : St) (head : TId) (es : List TId) (ps : List Nat) (r : TId) (s' : St) (v : Int)
    (hs : Startable s ps) (hh : s.nodes head = some (.chain es)) (hd : ∀ t ∈ es, DeclaresOther s t ∨ IsCode s t)
    (hc : Conv E (fun R => createArguments R ps) s (.ok () s1))
    (hx : Exec okLang (Evt E) (CondIs E) s1 (.block es) (.ret (some r)) s') (hv : Denotes s' r v) :
    ExitsWith E s head ps (v % 256).toNat := by
  obtain ⟨f', e, hf⟩ := inspect_noMain hd ⟨0, false, false⟩ rfl
  obtain ⟨hs1, hin, hmore⟩ := hs.start hc
  obtain ⟨d, sc⟩ := exec_does hx hs1
  obtain ⟨t, e', ht, _, hret⟩ := (d : Returns E AnyReturn (fun R => evalElems R es) s1 (some r) s')
  have hs' : Sane s' := sc.1
  obtain ⟨s'', hx⟩ := cscriptExit_conv (E := E) (retNode_denotes ht (some r) hv) hs'.flags
  have hstop := hret _ s'' (by rw [hin]; exact hx)
  refine ⟨_, ?_, (show status (.stop (.exit _) s'') = some _ by rw [status, getSi_mod])⟩
  unfold evaluateCscript
  refine Conv.bind (Conv.const (chainElems_apply hh)) (Conv.bind (Conv.const e) ?_)
  have : Conv E (fun R => createArguments R ps >>= fun _ => evaluate R (some head)) s (.stop (.exit (CT.int.decode (CT.int.encode (mpzGetSi v)))) s'') := by
    refine Conv.bind hc (hstop.congr fun R => ?_)
    rw [evaluate_chain (hmore _ _ hh)]
  refine this.congr fun R => ?_
  simp [hf]

/-! ### `main` -/

/-- the tree `call` calls `main` with the first `n` of `argc` and `argv` -/
def CallsMain (s : St) (call : TId) (n : Nat) : Prop :=
  ∃ i args, s.nodes call = some (.fnCall (some i) args) ∧ s.nodes i = some (.ident "main") ∧
    (n = 0 ∧ args = none ∨ (∃ l x, n = 1 ∧ args = some l ∧ s.nodes l = some (.chain [x]) ∧ s.nodes x = some (.ident "argc")) ∨
      ∃ l x y, n = 2 ∧ args = some l ∧ s.nodes l = some (.chain [x, y]) ∧ s.nodes x = some (.ident "argc") ∧ s.nodes y = some (.ident "argv"))

theorem addCall_apply {s : St} {head : TId} {es : List TId} (w : WF s) (hh : s.nodes head = some (.chain es)) (n : Nat) :
    ∃ call s', addCallToMain head n s = .ok () s' ∧ s'.nodes head = some (.chain (es ++ [call])) ∧ CallsMain s' call (min n 2) ∧
      (∀ t m, t ≠ head → s.nodes t = some m → s'.nodes t = some m) ∧ s'.ctxs = s.ctxs ∧ s'.mem = s.mem ∧ s'.events = s.events := by
  have lt : ∀ {s' : St} {t m}, WF s' → s'.nodes t = some m → t < s'.next :=
    fun w h => Nat.lt_of_not_le fun h' => by rw [w _ h'] at h; cases h
  have x1 := addNode_ext w (.ident "main")
  have y1 := addNode_self s (.ident "main")
  have w1 := x1.wf w
  have x2 := addNode_ext w1 (.ident "argc")
  have y2 := addNode_self (addNode s (.ident "main")) (.ident "argc")
  have w2 := x2.wf w1
  have x3 := addNode_ext w2 (.ident "argv")
  have y3 := addNode_self (addNode (addNode s (.ident "main")) (.ident "argc")) (.ident "argv")
  have w3 := x3.wf w2
  have n2 : (addNode s (.ident "main")).next = s.next + 1 := rfl
  have n3 : (addNode (addNode s (.ident "main")) (.ident "argc")).next = s.next + 2 := rfl
  have hN : (addNode (addNode (addNode s (.ident "main")) (.ident "argc")) (.ident "argv")).next = s.next + 3 := rfl
  have x := x1.trans (x2.trans x3)
  have z1 := (x2.trans x3).nodes _ _ y1
  have z2 := x3.nodes _ _ y2
  rw [n2] at z2
  rw [n3] at y3
  have e0 : ∀ f : TId → TId → TId → M Unit, (do
      let id ← mk (.ident "main")
      let argc ← mk (.ident "argc")
      let argv ← mk (.ident "argv")
      f id argc argv) s = f s.next (s.next + 1) (s.next + 2) (addNode (addNode (addNode s (.ident "main")) (.ident "argc")) (.ident "argv")) :=
    fun _ => rfl
  have hlt : head < s.next := lt w hh
  have keep : ∀ {s' : St} {t : TId} {m : Node} (k : Node), t ≠ head → s'.nodes t = some m →
      (fun x => if x = head then some k else s'.nodes x) t = some m := by
    intro s' t m k ht hm
    simp [ht, hm]
  generalize addNode (addNode (addNode s (.ident "main")) (.ident "argc")) (.ident "argv") = s3 at *
  unfold addCallToMain
  rw [e0]
  by_cases h0 : n = 0
  · subst h0
    have x4 := addNode_ext w3 (.fnCall (some s.next) none)
    have y4 := addNode_self s3 (.fnCall (some s.next) none)
    refine ⟨s3.next, _, by simp only [bind_apply, mk_apply, if_pos, pure_apply, node_apply ((x.trans x4).nodes _ _ hh)]; exact setNode_apply _ _ _,
      if_pos rfl, ⟨s.next, none, keep _ (by rw [hN]; exact Nat.ne_of_gt (by exact Nat.lt_succ_of_lt (Nat.lt_succ_of_lt (Nat.lt_succ_of_lt hlt)))) y4,
        keep _ (Nat.ne_of_gt hlt) (x4.nodes _ _ z1), .inl ⟨rfl, rfl⟩⟩, fun t m ht hm => keep _ ht ((x.trans x4).nodes _ _ hm), ?_, ?_, ?_⟩
    · exact (x.trans x4).ctxs
    · exact (x.trans x4).mem
    · exact (x.trans x4).events
  · have x4 := addNode_ext w3 (.chain (if n = 1 then [s.next + 1] else [s.next + 1, s.next + 2]))
    have y4 := addNode_self s3 (.chain (if n = 1 then [s.next + 1] else [s.next + 1, s.next + 2]))
    have n4 : (addNode s3 (.chain (if n = 1 then [s.next + 1] else [s.next + 1, s.next + 2]))).next = s3.next + 1 := rfl
    have x5 := addNode_ext (x4.wf w3) (.fnCall (some s.next) (some s3.next))
    have y5 := addNode_self (addNode s3 (.chain (if n = 1 then [s.next + 1] else [s.next + 1, s.next + 2]))) (.fnCall (some s.next) (some s3.next))
    have g0 : s.next ≠ head := Nat.ne_of_gt hlt
    have g1 : s.next + 1 ≠ head := Nat.ne_of_gt (Nat.lt_succ_of_lt hlt)
    have g2 : s.next + 2 ≠ head := Nat.ne_of_gt (Nat.lt_succ_of_lt (Nat.lt_succ_of_lt hlt))
    have g3 : s3.next ≠ head := by rw [hN]; exact Nat.ne_of_gt (Nat.lt_succ_of_lt (Nat.lt_succ_of_lt (Nat.lt_succ_of_lt hlt)))
    have g4 : s3.next + 1 ≠ head := by
      rw [hN]; exact Nat.ne_of_gt (Nat.lt_succ_of_lt (Nat.lt_succ_of_lt (Nat.lt_succ_of_lt (Nat.lt_succ_of_lt hlt))))
    refine ⟨s3.next + 1, _, by
        simp only [bind_apply, mk_apply, if_neg h0, pure_apply, node_apply ((x.trans (x4.trans x5)).nodes _ _ hh), n4]; exact setNode_apply _ _ _,
      if_pos rfl, ⟨s.next, some s3.next, keep _ g4 y5, keep _ g0 ((x4.trans x5).nodes _ _ z1), .inr ?_⟩,
      fun t m ht hm => keep _ ht ((x.trans (x4.trans x5)).nodes _ _ hm), ?_, ?_, ?_⟩
    · by_cases h1 : n = 1
      · subst h1
        exact .inl ⟨s3.next, s.next + 1, rfl, rfl, keep _ g3 (x5.nodes _ _ y4), keep _ g1 ((x4.trans x5).nodes _ _ z2)⟩
      · have hmin : min n 2 = 2 := by omega
        refine .inr ⟨s3.next, s.next + 1, s.next + 2, hmin, rfl, keep _ g3 (x5.nodes _ _ ?_), keep _ g1 ((x4.trans x5).nodes _ _ z2),
          keep _ g2 ((x4.trans x5).nodes _ _ y3)⟩
        simpa [h1] using y4
    · exact (x.trans (x4.trans x5)).ctxs
    · exact (x.trans (x4.trans x5)).mem
    · exact (x.trans (x4.trans x5)).events

theorem pres_addCallToMain (E : Env) (head : TId) (n : Nat) : Pres E (addCallToMain head n) := by
  unfold addCallToMain
  refine Pres.bind (Pres.mk (by simp)) fun a => Pres.bind (Pres.mk (by simp)) fun b => Pres.bind (Pres.mk (by simp)) fun c =>
    Pres.bind ?_ fun d => Pres.bind (Pres.mk (by simp)) fun call => ?_
  · repeat' pres1
  · intro s hi
    refine EvolOut.bind (Pres.node _ _ hi) fun m s1 h1 _ => ?_
    obtain ⟨rfl, hn⟩ := node_ok h1
    split
    · exact (show HasKey s1 head .chain from ⟨_, hn, rfl⟩).setNode rfl hi
    · exact Pres.ub _ _ hi

theorem inspect_others {s : St} {es : List TId} (h : ∀ t ∈ es, DeclaresOther s t) (f : Found) : inspectDecls es f s = .ok f s := by
  induction es with
  | nil => rfl
  | cons t ts ih => simp [inspectDecls, inspect_other (h t List.mem_cons_self), ih fun u hu => h u (List.mem_cons_of_mem _ hu)]

theorem inspect_append {s s1 : St} {a b : List TId} {f f1 : Found} (h : inspectDecls a f s = .ok f1 s1) :
    inspectDecls (a ++ b) f s = inspectDecls b f1 s1 := by
  induction a generalizing f s with
  | nil => cases h; rfl
  | cons t ts ih =>
    simp only [List.cons_append, inspectDecls, bind_apply] at h ⊢
    cases hx : inspectDecl t f s with
    | ok g s' => rw [hx] at h; simpa using ih h
    | stop _ _ => rw [hx] at h; cases h
    | fuel => rw [hx] at h; cases h

/-- **C60** (`main`, what happens): a script that defines `main` ends with status 0 whatever `main` returns.  The call
of `main`, with as many of `argc` and `argv` as it has parameters, is added at the end. -/
theorem C60_main_zero (E : Env) (s s1 : St) (head d : TId) (pre post : List TId) (n : Nat) (ps : List Nat) (hs : Startable s ps)
    (hh : s.nodes head = some (.chain (pre ++ d :: post))) (h1 : ∀ t ∈ pre, DeclaresOther s t) (h2 : ∀ t ∈ post, DeclaresOther s t)
    (hd : DeclaresMain s d n) (hc : Conv E (fun R => createArguments R ps) s (.ok () s1)) :
    ∃ call s2, addCallToMain head n s1 = .ok () s2 ∧ s2.nodes head = some (.chain (pre ++ d :: post ++ [call])) ∧
      CallsMain s2 call (min n 2) ∧ (∀ t m, t ≠ head → s1.nodes t = some m → s2.nodes t = some m) ∧ s2.ctxs = s1.ctxs ∧
      s2.mem = s1.mem ∧ s2.events = s1.events ∧
      ∀ s', Exec okLang (Evt E) (CondIs E) s2 (.block (pre ++ d :: post ++ [call])) .next s' →
        ExitsWith E s head ps 0 ∧ Conv E (fun R => evaluateCscript R head ps) s (.ok () s') := by
  obtain ⟨hs1, hin, hmore⟩ := hs.start hc
  obtain ⟨call, s2, e, a1, a2, a3, a4, a5, a6⟩ := addCall_apply hs1.inv.wf (hmore _ _ hh) n
  have hs2 : Sane s2 := by
    have := pres_addCallToMain E head n s1 hs1.inv
    rw [e] at this
    exact ⟨EvolX.inv this, by rw [a4]; exact hs1.flags, by rw [a4]; exact hs1.ne⟩
  refine ⟨call, s2, e, a1, a2, a3, a4, a5, a6, fun s' hx => ?_⟩
  obtain ⟨dd, sc⟩ := exec_does hx hs2
  have dd : Conv E (fun R => evalElems R (pre ++ d :: post ++ [call])) s2 (.ok () s') := dd
  have hf : inspectDecls (pre ++ d :: post) ⟨0, false, false⟩ s = .ok ⟨n, true, false⟩ s := by
    rw [inspect_append (inspect_others h1 _)]
    simp [inspectDecls, inspect_main hd, inspect_others h2]
  have hall : Conv E (fun R => evaluateCscript R head ps) s (.ok () s') := by
    unfold evaluateCscript
    refine Conv.bind (Conv.const (chainElems_apply hh)) (Conv.bind (Conv.const hf) ?_)
    have : Conv E (fun R => createArguments R ps >>= fun _ => addCallToMain head n >>= fun _ => evaluate R (some head)) s (.ok () s') := by
      refine Conv.bind hc (Conv.bind (Conv.const e) (dd.congr fun R => ?_))
      rw [evaluate_chain a1]
    refine this.congr fun R => ?_
    simp
  exact ⟨⟨_, hall, rfl⟩, hall⟩

/-! ### Concrete scripts -/

open Lean.Order in
theorem mono_createArguments (ps) : monotone (fun R : Rec => createArguments R ps) := by
  unfold createArguments
  repeat' mono1

open Lean.Order in
theorem mono_evaluateCscript (h ps) : monotone (fun R : Rec => evaluateCscript R h ps) := by
  have := mono_createArguments ps
  unfold evaluateCscript
  repeat' (first | exact this | mono1)

theorem stOf_startable (l : List Node) (ps : List Nat) (h : ps.length < 1000) : Startable (stOf l [] []) ps where
  sane := stOf_Sane _ _ _
  top := rfl
  livelt := memOf_livelt _
  few := by omega
  cap := by
    have h1 : (stOf l [] []).mem.brk + 176 + 104 * 1000 < Mem.limit := by
      show (memOf []).brk + 176 + 104 * 1000 < _
      decide +kernel
    omega
  argc := by intro c cs hc b hb; cases hc; simp [ctx1] at hb
  argv := by intro c cs hc b hb; cases hc; simp [ctx1] at hb

/-- C61: two arguments, the strings at 4096 and 4100 -/
example : ∃ s', Conv E0 (fun R => createArguments R [4096, 4100]) (stOf [] [] []) (.ok () s') ∧ GotArgs s' "argc" "argv" [4096, 4100] := by
  have h := stOf_startable [] [4096, 4100] (by simp)
  obtain ⟨s', h1, _, _, _, _, _, h2, _⟩ := C61_args E0 (stOf [] [] []) [4096, 4100] h.sane h.livelt h.few
    (by show (memOf []).brk + 368 + 104 * _ < _; decide +kernel) h.argc h.argv
  exact ⟨s', h1, h2⟩

/-- the parameters of `int main(int n, char **v)`, and the arguments -/
def progMain : List Node :=
  [.ident "argc", .ident "argv", .chain [0, 1], .kw .int, .chain [3], .kw .char, .chain [5], .ident "n", .ident "v", .pointer (some 8),
   .pointer (some 9), .decl (some 4) (some 7) 0, .decl (some 6) (some 10) 0, .chain [11, 12]]

theorem progMain_params : MainParams (stOf progMain [] []).nodes (some 13) (some 2) "n" "v" :=
  ⟨⟨2, 0, 1, rfl, rfl, rfl, rfl⟩, 13, 11, 12, rfl, rfl,
    ⟨4, 7, 0, rfl, ⟨[3], [.int], rfl, .cons rfl .nil, by decide, by decide⟩, rfl⟩,
    ⟨6, 10, 9, 8, 0, rfl, ⟨[5], [.char], rfl, .cons rfl .nil, by decide, by decide⟩, rfl, rfl, rfl⟩⟩

theorem _root_.Bic.Script.MainParams.mono {nd nd' : TId → Option Node} (hn : ∀ t n, nd t = some n → nd' t = some n) {args callArgs : Ref} {a b : String}
    (h : MainParams nd args callArgs a b) : MainParams nd' args callArgs a b := by
  obtain ⟨⟨l, i1, i2, q0, q1, q2, q3⟩, ad, d1, d2, q, q4, ⟨sp1, j1, off1, q5, q6, q7⟩, sp2, p1, p2, j2, off2, q8, q9, q10, q11, q12⟩ := h
  exact ⟨⟨l, i1, i2, q0, hn _ _ q1, hn _ _ q2, hn _ _ q3⟩, ad, d1, d2, q, hn _ _ q4, ⟨sp1, j1, off1, hn _ _ q5, q6.mono hn, hn _ _ q7⟩, sp2, p1,
    p2, j2, off2, hn _ _ q8, q9.mono hn, hn _ _ q10, hn _ _ q11, hn _ _ q12⟩

/-- C61: `main` receives them -/
example : ∃ s1 s', Conv E0 (fun R => createArguments R [4096, 4100]) (stOf progMain [] []) (.ok () s1) ∧
    Bound E0 (enterFn s1 "main") (some 13) (some 2) s' := by
  have h := stOf_startable progMain [4096, 4100] (by simp)
  obtain ⟨s1, h1, h2, h3, h4, _, _, h5, _⟩ := C61_args E0 (stOf progMain [] []) [4096, 4100] h.sane h.livelt h.few
    (by show (memOf []).brk + 368 + 104 * _ < _; decide +kernel) h.argc h.argv
  obtain ⟨s', h6, _⟩ := C61_main_partial E0 s1 _ _ _ _ _ h2 h3 h5 (progMain_params.mono h4) (by decide) (by decide)
  exact ⟨s1, s', h1, h6⟩

/-- C60: `if (1) { return 300; }` ends with status 44 -/
def progReturn : List Node := [.integer 1, .integer 300, .ret (some 1), .chain [2], .ifS (some 0) (some 3) none, .chain [4]]

theorem int_evt {E : Env} {s : St} {t : TId} {v : Int} (h : s.nodes t = some (.integer v)) (hf : ∀ c ∈ s.ctxs, c.shouldBreak = false) :
    Evt E s (some t) (some t) s := ⟨int_conv h, rfl, hf⟩

example : ExitsWith E0 (stOf progReturn [] []) 5 [4096] 44 := by
  have hs := stOf_startable progReturn [4096] (by simp)
  obtain ⟨s1, h1, h2, _, h4, _⟩ := C61_args E0 (stOf progReturn [] []) [4096] hs.sane hs.livelt hs.few
    (by show (memOf []).brk + 368 + 104 * _ < _; decide +kernel) hs.argc hs.argv
  refine C60_return_partial E0 _ s1 5 [4] [4096] 1 (enter s1 "If statement") 300 hs rfl (by simp; exact .inr ⟨_, rfl, by simp⟩) h1 ?_
    (.inl (h4 1 (.integer 300) rfl))
  refine .jump (by simp) (.cond (c := 0) (v := 1) (b := true) (f := .ret (some 1)) (h4 4 _ rfl) ⟨0, s1, int_evt (h4 0 _ rfl) h2.flags,
    .inl ⟨h4 0 _ rfl, rfl⟩⟩ ?_ ?_)
  · exact ⟨by simp [cTruth], by decide⟩
  · exact .braces (h4 3 _ rfl) (.jump (by simp) (.ret trivial (h4 2 (.ret (some 1)) rfl) (int_evt (h4 1 _ rfl)
      (by intro c hc; rcases List.mem_cons.mp hc with rfl | hc; rfl; exact h2.flags c hc))))

def okU : Out Unit → Bool
  | .ok _ _ => true
  | _ => false

def stU (d : St) : Out Unit → St
  | .ok _ s => s
  | _ => d

open Lean.Order in
theorem conv_computedU {E : Env} {f : Rec → M Unit} {s : St} (hm : monotone f) (n : Nat) (h : okU (f (run E n) s) = true) :
    Conv E f s (.ok () (stU s (f (run E n) s))) := by
  refine Conv.of_run hm (n := n) ?_ (by simp)
  revert h
  cases f (run E n) s <;> simp [okU, stU]

/-- `int main() { return 3; }`; the last two trees are the call `main()` -/
def progThree : List Node :=
  [.ident "main", .integer 3, .ret (some 1), .chain [2], .fn (some 0) none none (some 3), .chain [4], .kw .int, .chain [6],
   .decl (some 7) (some 5) 0, .chain [8], .ident "main", .fnCall (some 10) none]

def stThree : St := stOf progThree [] []
def stThree1 : St := stU stThree (createArguments (run E0 40) [] stThree)
def stThree2 : St := stU stThree1 (evalElems (run E0 40) [8] stThree1)

theorem three1 : okU (createArguments (run E0 40) [] stThree) = true := by decide +kernel
theorem three2 : okU (evalElems (run E0 40) [8] stThree1) = true := by decide +kernel
theorem three3 : isOk ((run E0 40).ev (some 11) stThree2) = true := by decide +kernel
theorem three4 : outRef ((run E0 40).ev (some 11) stThree2) = some 1 := by decide +kernel
theorem three5 : (outSt stThree2 ((run E0 40).ev (some 11) stThree2)).nodes 1 = some (.integer 3) := by decide +kernel
theorem three6 : stThree2.nodes 11 = some (.fnCall (some 10) none) := by decide +kernel
theorem three7 : stThree2.nodes 10 = some (.ident "main") := by decide +kernel
theorem three8 : okU (evaluateCscript (run E0 40) 9 [] stThree) = true := by decide +kernel

theorem three_main : DeclaresMain stThree 8 0 := ⟨some 7, 5, 0, 4, [], 0, none, none, some 3, rfl, rfl, rfl, rfl, .inl ⟨rfl, rfl⟩⟩

/-- C60 is false: the script `int main() { return 3; }` ends with status 0. -/
theorem C60_refuted : ¬ C60_statement := by
  rintro ⟨_, h⟩
  have c := Conv.computed (E := E0) 40 three3
  rw [three4] at c
  have := h E0 stThree stThree1 stThree2 _ 9 8 11 10 [8] [] 1 3 (stOf_startable _ _ (by simp)) rfl
    (by simp; exact .inl three_main) (by simp) three_main (conv_computedU (mono_createArguments _) 40 three1)
    (conv_computedU (mono_evalElems _) 40 three2) three6 three7 c (.inl three5)
  have h0 : ExitsWith E0 stThree 9 [] 0 := ⟨_, conv_computedU (mono_evaluateCscript _ _) 40 three8, rfl⟩
  exact absurd (this.unique h0) (by decide)

/-- the state in which the declarations of the script are evaluated, the call having been added -/
def stThree3 : St := stU stThree1 (addCallToMain 9 0 stThree1)
def callThree : TId := stThree1.next + 3
def stThree4 : St := outSt stThree3 ((run E0 40).ev (some 8) stThree3)
def stThree5 : St := outSt stThree4 ((run E0 40).ev (some callThree) stThree4)

theorem three9 : isOk ((run E0 40).ev (some 8) stThree3) = true := by decide +kernel
theorem three10 : isOk ((run E0 40).ev (some callThree) stThree4) = true := by decide +kernel
theorem three11 : outRef ((run E0 40).ev (some callThree) stThree4) = some 1 := by decide +kernel
theorem three12 : outRef ((run E0 40).ev (some 8) stThree3) = some 4 := by decide +kernel
theorem three13 : stThree4.ctxs.map (·.shouldBreak) = [false] := by decide +kernel
theorem three14 : stThree5.ctxs.map (·.shouldBreak) = [false] := by decide +kernel
theorem three15 : stThree3.ctxs.map (·.shouldBreak) = [false] := by decide +kernel
theorem three16 : stThree5.nodes 1 = some (.integer 3) := by decide +kernel
theorem three17 : stThree3.nodes 8 = some (.decl (some 7) (some 5) 0) := by decide +kernel
theorem three18 : stThree4.nodes callThree = some (.fnCall (some stThree1.next) none) := by decide +kernel
theorem three21 : ((stThree4.nodes 4).map isJump) = some false := by decide +kernel
theorem three19 : stThree3.nodes 9 = some (.chain [8, callThree]) := by decide +kernel

theorem flags_one {s : St} (h : s.ctxs.map (·.shouldBreak) = [false]) : s.ctxs.length = 1 ∧ ∀ c ∈ s.ctxs, c.shouldBreak = false := by
  refine ⟨by simpa using congrArg List.length h, fun c hc => ?_⟩
  have := List.mem_map_of_mem (f := (·.shouldBreak)) hc
  rw [h] at this
  simpa using this

theorem three22 : Evl E0 stThree3 (some 8) (some 4) stThree4 := by
  have c := Conv.computed (E := E0) 40 three9
  rw [three12] at c
  exact c

theorem three23 : Evl E0 stThree4 (some callThree) (some 1) stThree5 := by
  have c := Conv.computed (E := E0) 40 three10
  rw [three11] at c
  exact c

theorem exec_two {E : Env} {s s1 s2 : St} {t u r q i : TId} {k specs dl off} (h1 : Evl E s (some t) (some r) s1)
    (h2 : Evl E s1 (some u) (some q) s2) (f0 : s.ctxs.map (·.shouldBreak) = [false]) (f1 : s1.ctxs.map (·.shouldBreak) = [false])
    (f2 : s2.ctxs.map (·.shouldBreak) = [false]) (n1 : s.nodes t = some (.decl specs dl off)) (n2 : s1.nodes u = some (.fnCall i none))
    (j1 : (s1.nodes r).map isJump = some false) (j2 : s2.nodes q = some (.integer k)) :
    Exec okLang (Evt E) (CondIs E) s (.block [t, u]) .next s2 := by
  obtain ⟨l0, _⟩ := flags_one f0
  obtain ⟨l1, g1⟩ := flags_one f1
  obtain ⟨l2, g2⟩ := flags_one f2
  refine .cons (.expr n1 rfl ⟨h1, l1.trans l0.symm, g1⟩ ?_)
    (.cons (.expr n2 rfl ⟨h2, l2.trans l1.symm, g2⟩ (by intro q hq; cases hq; exact ⟨_, j2, rfl⟩)) .nil)
  intro q hq
  cases hq
  cases hn : s1.nodes r with
  | none => rw [hn] at j1; cases j1
  | some n => rw [hn] at j1; exact ⟨n, rfl, by simpa using j1⟩

theorem three20 : Exec okLang (Evt E0) (CondIs E0) stThree3 (.block [8, callThree]) .next stThree5 :=
  exec_two three22 three23 three15 three13 three14 three17 three18 three21 three16

/-- C60: with `main` returning 3 -/
example : ExitsWith E0 stThree 9 [] 0 := by
  obtain ⟨call, s2, h1, h2, _, _, _, _, _, h⟩ := C60_main_zero E0 stThree stThree1 9 8 [] [] 0 [] (stOf_startable _ _ (by simp)) rfl (by simp)
    (by simp) three_main (conv_computedU (mono_createArguments _) 40 three1)
  have e : stThree3 = s2 := by rw [stThree3, h1]; rfl
  have h3 := three19
  rw [e, h2] at h3
  have h4 := three20
  rw [e] at h4
  generalize callThree = c at h3 h4
  obtain rfl : call = c := by simpa using h3
  exact (h _ h4).1

/-- C60: `int main() { return 3; } main();` ends with status 1 -/
example : ExitsWith E0 (stOf (progThree ++ [.chain [8, 11]]) [] []) 12 [] 1 :=
  (C60_mixed E0 _ 12 [8, 11] [] rfl
    (by simp; exact ⟨.inl ⟨0, some 7, 5, 0, 4, [], 0, none, none, some 3, rfl, rfl, rfl, rfl, .inl ⟨rfl, rfl⟩⟩, .inr (.inr ⟨_, rfl, by simp⟩)⟩)
    8 11 0 (by simp) (by simp) ⟨some 7, 5, 0, 4, [], 0, none, none, some 3, rfl, rfl, rfl, rfl, .inl ⟨rfl, rfl⟩⟩ ⟨_, rfl, by simp⟩).1

end Bic
