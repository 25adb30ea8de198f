import Verif.Model.Preprocess
import Verif.Spec.Shell
/-!
# C97: running the preprocessor
-/

namespace Bic.Preprocess
open Spec
open CText (Str ascii)

theorem bytes_eq : Lexer.bytes = ascii := rfl

/-! ## The buffer -/

/-- the sum of the lengths -/
def total (ds : List Str) : Nat := (ds.map fun d => d.length + 4).sum

theorem total_cons (d : Str) (ds : List Str) : total (d :: ds) = d.length + 4 + total ds := by simp [total]

theorem includeLen_eq (ds : List Str) (n : Nat) (h : n + total ds < 2 ^ 64) : includeLen ds n = n + total ds := by
  induction ds generalizing n with
  | nil => rfl
  | cons d ds ih =>
    rw [total_cons] at h ⊢
    rw [includeLen, Nat.mod_eq_of_lt (a := d.length + 4) (by omega), Nat.mod_eq_of_lt (by omega), ih _ (by omega)]
    omega

/-- the options: ` -I ` before each directory -/
def dirOptions (ds : List Str) : Str := ds.flatMap fun d => ascii " -I " ++ d

theorem catDirs_eq (ds : List Str) (b : Buf) (h : b.str.length + total ds + 1 ≤ b.cap) : catDirs ds b = some ⟨b.cap, b.str ++ dirOptions ds⟩ := by
  induction ds generalizing b with
  | nil => simp [catDirs, dirOptions]
  | cons d ds ih =>
    rw [total_cons] at h
    have e4 : (Lexer.bytes " -I ").length = 4 := by decide +kernel
    have h1 : strcat b (Lexer.bytes " -I ") = some ⟨b.cap, b.str ++ Lexer.bytes " -I "⟩ := by
      unfold strcat
      rw [if_pos (by omega)]
    have h2 : strcat ⟨b.cap, b.str ++ Lexer.bytes " -I "⟩ d = some ⟨b.cap, b.str ++ Lexer.bytes " -I " ++ d⟩ := by
      unfold strcat
      rw [if_pos (by simp only [List.length_append]; omega)]
    have h3 := ih ⟨b.cap, b.str ++ Lexer.bytes " -I " ++ d⟩ (by simp only [List.length_append]; omega)
    unfold catDirs
    rw [h1]
    show (strcat ⟨b.cap, b.str ++ Lexer.bytes " -I "⟩ d).bind _ = _
    rw [h2]
    show catDirs ds _ = _
    rw [h3]
    simp [dirOptions, bytes_eq]

/-- the directories added one after the other -/
def added (ds : List Str) : Option (List Str) := ds.foldl addIncludeDir none

theorem added_eq (ds : List Str) : added ds = if ds = [] then none else some ds := by
  have key : ∀ (ds l : List Str), ds.foldl addIncludeDir (some l) = some (l ++ ds) := by
    intro ds
    induction ds with
    | nil => intro l; simp
    | cons d ds ih => intro l; simp only [List.foldl_cons, addIncludeDir, Option.getD_some]; rw [ih]; simp
  cases ds with
  | nil => rfl
  | cons d ds => simp only [added, List.foldl_cons, addIncludeDir, Option.getD_none]; rw [key]; simp

/-- **C97.** Whatever directories are given with `-I`, the options are put together without writing
behind the end of the buffer, in the order of the command line. -/
theorem C97_options (ds : List Str) (h : total ds + 1 < 2 ^ 64) :
    includeDirOpts (added ds) = some (ds.flatMap fun d => ascii " -I " ++ d) := by
  rw [added_eq]
  by_cases hd : ds = []
  · subst hd; rfl
  · rw [if_neg hd]
    show (Buf.new ((includeLen ds 0 + 1) % 2 ^ 64)).bind _ = _
    rw [includeLen_eq ds 0 (by omega), Nat.zero_add, Nat.mod_eq_of_lt h]
    rw [Buf.new, if_pos (by omega)]
    show (catDirs ds ⟨total ds + 1, []⟩).bind _ = _
    rw [catDirs_eq ds _ (by simp)]
    rfl

/-- **C97.** The file for the preprocessor has one line for each included header, in their order, and then
the line typed. -/
theorem C97_file (includes : List Str) (line : Option Str) :
    fileText includes line = (includes.map fun i => i ++ ascii "\n").flatten ++ line.getD [] := by
  have key : ∀ (l : List Str) (t : Str), l.foldl (fun t i => t ++ i ++ Lexer.bytes "\n") t = t ++ (l.map fun i => i ++ ascii "\n").flatten := by
    intro l
    induction l with
    | nil => intro t; simp
    | cons i l ih => intro t; simp only [List.foldl_cons]; rw [ih]; simp [bytes_eq]
  unfold fileText
  rw [key]
  rfl

/-! ## The arguments of the command -/

theorem fields_unique {t : Str} {ws ws' : List Str} (h : Fields t ws) (h' : Fields t ws') : ws = ws' := by
  have key : ∀ n, ∀ (t : Str) (ws ws' : List Str), t.length ≤ n → Fields t ws → Fields t ws' → ws = ws' := by
    intro n
    induction n with
    | zero =>
      intro t ws ws' hl h h'
      match t, hl with
      | [], _ =>
        have nil : ∀ {t ws}, Fields t ws → t = [] → ws = [] := by
          intro t ws h e
          cases h with
          | nil => rfl
          | blank => cases e
          | word hw => exact absurd (List.append_eq_nil_iff.mp e).1 hw
        rw [nil h rfl, nil h' rfl]
    | succ n ih =>
      intro t ws ws' hl h h'
      cases h with
      | nil =>
        generalize e : ([] : Str) = t at h'
        cases h' with
        | nil => rfl
        | blank => cases e
        | word hw => exact absurd (List.append_eq_nil_iff.mp e.symm).1 hw
      | blank hb h =>
        rename_i c t
        generalize e : c :: t = t' at h'
        cases h' with
        | nil => cases e
        | blank hb' h' => cases e; exact ih _ _ _ (by simpa using hl) h h'
        | word hw hn =>
          rename_i w _ _ _ _
          cases w with
          | nil => exact absurd rfl hw
          | cons d w => cases e; rw [hn _ (by simp)] at hb; cases hb
      | word hw hn hs h =>
        rename_i w t ws
        generalize e : w ++ t = t' at h'
        cases h' with
        | nil => exact absurd (List.append_eq_nil_iff.mp e).1 hw
        | blank hb =>
          cases w with
          | nil => exact absurd rfl hw
          | cons d w => cases e; rw [hn _ (by simp)] at hb; cases hb
        | word hw' hn' hs' h' =>
          rename_i w' t' ws'
          have e2 : w = w' := by
            rcases List.append_eq_append_iff.mp e with ⟨a, rfl, rfl⟩ | ⟨a, rfl, rfl⟩
            · cases a with
              | nil => simp
              | cons c a => have := hs c rfl; rw [hn' c (by simp)] at this; cases this
            · cases a with
              | nil => simp
              | cons c a => have := hs' c rfl; rw [hn c (by simp)] at this; cases this
          subst e2
          have e3 := List.append_cancel_left e
          subst e3
          rw [ih t _ _ (by have := List.length_pos_iff.mpr hw; simp at hl; omega) h h']
  exact key _ _ _ _ (Nat.le_refl _) h h'

/-- C97 in full: the preprocessor is called with the options, each directory as one argument after `-I`, and the
file, and its output goes to the other file.  (The options and the names of the files are given by the
program.) -/
def C97_statement : Prop :=
  ∀ (opts : List Str) (ds : List Str) (cppFile outFile t : Str),
    (∀ w ∈ opts, w ≠ [] ∧ ∀ c ∈ w, plainChar c = true) → (∀ w ∈ [cppFile, outFile], w ≠ [] ∧ ∀ c ∈ w, plainChar c = true) →
    (∀ d ∈ ds, d ≠ []) → total ds + 1 < 2 ^ 64 → Fields t opts →
    ∃ o, includeDirOpts (added ds) = some o ∧
      Fields (command t o cppFile outFile)
        ([ascii "gcc"] ++ opts ++ ds.flatMap (fun d => [ascii "-I", d]) ++ [cppFile, ascii ">", outFile])

theorem fields_append {t u : Str} {ws ws' : List Str} (h : Fields t ws) (hu : Fields u ws') (hb : ∀ c, u.head? = some c → isBlank c = true) :
    Fields (t ++ u) (ws ++ ws') := by
  induction h with
  | nil => exact hu
  | blank h _ ih => exact .blank h ih
  | @word w t ws hw hn hs _ ih =>
    rw [List.append_assoc]
    refine .word hw hn ?_ ih
    intro c hc
    cases t with
    | nil => exact hb c hc
    | cons d t => exact hs c hc

theorem fields_one {w : Str} (hw : w ≠ []) (hn : ∀ c ∈ w, isBlank c = false) : Fields w [w] := by
  have := Fields.word hw hn (t := []) (by simp) .nil
  simpa using this

theorem plain_noblank (c : UInt8) (h : plainChar c = true) : isBlank c = false := by
  cases hb : isBlank c with
  | false => rfl
  | true =>
    simp only [isBlank, Bool.or_eq_true, beq_iff_eq] at hb
    rcases hb with (rfl | rfl) | rfl <;> exact absurd h (by decide)

theorem fields_dirs : ∀ ds : List Str, (∀ d ∈ ds, d ≠ [] ∧ ∀ c ∈ d, isBlank c = false) →
    Fields (ds.flatMap fun d => ascii " -I " ++ d) (ds.flatMap fun d => [ascii "-I", d])
  | [], _ => .nil
  | d :: ds, h => by
    simp only [List.flatMap_cons]
    have e : ascii " -I " = 32 :: (ascii "-I" ++ [32]) := by decide +kernel
    obtain ⟨h1, h2⟩ := h d (by simp)
    have hd : Fields (ascii " -I " ++ d) [ascii "-I", d] := by
      rw [e]
      refine .blank rfl ?_
      show Fields ((ascii "-I" ++ [32]) ++ d) _
      rw [List.append_assoc]
      exact .word (by decide +kernel) (by decide +kernel) (by simp [isBlank]) (.blank rfl (fields_one h1 h2))
    refine fields_append hd (fields_dirs ds fun d hd => h d (by simp [hd])) ?_
    intro c hc
    cases ds with
    | nil => cases hc
    | cons d' ds =>
      simp only [List.flatMap_cons, e, List.cons_append, List.head?_cons, Option.some.injEq] at hc
      subst hc
      rfl

/-- C97, partly: it holds of directories whose names consist of characters that are not special to the
shell.

Missing: all other names, because the command is not quoted. -/
theorem C97_arguments_partial (opts : List Str) (ds : List Str) (cppFile outFile t : Str)
    (hf : ∀ w ∈ [cppFile, outFile], w ≠ [] ∧ ∀ c ∈ w, plainChar c = true) (hd : ∀ d ∈ ds, d ≠ [] ∧ ∀ c ∈ d, plainChar c = true)
    (hl : total ds + 1 < 2 ^ 64) (ht : Fields t opts) :
    ∃ o, includeDirOpts (added ds) = some o ∧
      Fields (command t o cppFile outFile)
        ([ascii "gcc"] ++ opts ++ ds.flatMap (fun d => [ascii "-I", d]) ++ [cppFile, ascii ">", outFile]) := by
  refine ⟨_, C97_options ds hl, ?_⟩
  have hnb : ∀ w : Str, (∀ c ∈ w, plainChar c = true) → ∀ c ∈ w, isBlank c = false := fun w h c hc => plain_noblank c (h c hc)
  obtain ⟨c1, c2⟩ := hf cppFile (by simp)
  obtain ⟨o1, o2⟩ := hf outFile (by simp)
  have hends : Fields (ascii " " ++ (cppFile ++ (ascii " > " ++ outFile))) [cppFile, ascii ">", outFile] := by
    have e1 : ascii " " = [32] := by decide +kernel
    have e2 : ascii " > " = 32 :: (ascii ">" ++ [32]) := by decide +kernel
    rw [e1, e2]
    refine .blank rfl (.word c1 (hnb _ c2) (by simp [isBlank]) (.blank rfl ?_))
    show Fields ((ascii ">" ++ [32]) ++ outFile) _
    rw [List.append_assoc]
    exact .word (by decide +kernel) (by decide +kernel) (by simp [isBlank]) (.blank rfl (fields_one o1 (hnb _ o2)))
  have hmid := fields_append (fields_dirs ds fun d h => ⟨(hd d h).1, hnb _ (hd d h).2⟩) hends (by
    have e1 : ascii " " = [32] := by decide +kernel
    rw [e1]; simp [isBlank])
  have hmid' : Fields (ascii " " ++ ((ds.flatMap fun d => ascii " -I " ++ d) ++ (ascii " " ++ (cppFile ++ (ascii " > " ++ outFile)))))
      (ds.flatMap (fun d => [ascii "-I", d]) ++ [cppFile, ascii ">", outFile]) := by
    have e1 : ascii " " = [32] := by decide +kernel
    rw [e1] at hmid ⊢
    exact .blank rfl hmid
  have h2 := fields_append ht hmid' (by
    have e1 : ascii " " = [32] := by decide +kernel
    rw [e1]; simp [isBlank])
  have e3 : ascii "gcc " = ascii "gcc" ++ [32] := by decide +kernel
  have h3 : Fields (ascii "gcc " ++ (t ++ (ascii " " ++ ((ds.flatMap fun d => ascii " -I " ++ d) ++ (ascii " " ++ (cppFile ++ (ascii " > " ++ outFile)))))))
      (ascii "gcc" :: (opts ++ (ds.flatMap (fun d => [ascii "-I", d]) ++ [cppFile, ascii ">", outFile]))) := by
    rw [e3, List.append_assoc]
    exact .word (by decide +kernel) (by decide +kernel) (by simp [isBlank]) (.blank rfl h2)
  unfold command
  rw [bytes_eq]
  simpa only [List.append_assoc, List.cons_append, List.nil_append] using h3

/-- `gcc -E -P  -I /a -I b /tmp/x > /tmp/y` -/
example : ∃ o, includeDirOpts (added [ascii "/a", ascii "b"]) = some o ∧
    Fields (command (ascii "-E -P") o (ascii "/tmp/x") (ascii "/tmp/y"))
      ([ascii "gcc"] ++ [ascii "-E", ascii "-P"] ++ [ascii "/a", ascii "b"].flatMap (fun d => [ascii "-I", d]) ++ [ascii "/tmp/x", ascii ">", ascii "/tmp/y"]) :=
  C97_arguments_partial [ascii "-E", ascii "-P"] [ascii "/a", ascii "b"] (ascii "/tmp/x") (ascii "/tmp/y") (ascii "-E -P")
    (by decide +kernel) (by decide +kernel) (by decide +kernel) (by
      have e : ascii "-E -P" = ascii "-E" ++ (32 :: ascii "-P") := by decide +kernel
      rw [e]
      exact .word (by decide +kernel) (by decide +kernel) (by simp [isBlank]) (.blank rfl (fields_one (by decide +kernel) (by decide +kernel))))

/-- C97 is false: the directory `a b` is taken apart. -/
theorem C97_refuted : ¬ C97_statement := by
  intro h
  obtain ⟨o, h1, h2⟩ := h [] [[97, 32, 98]] [120] [121] [] (by simp) (by decide +kernel) (by simp) (by decide) .nil
  rw [C97_options _ (by decide)] at h1
  cases h1
  have e1 : ascii "-I" = [45, 73] := by decide +kernel
  have e2 : ascii "gcc" = [103, 99, 99] := by decide +kernel
  have e3 : ascii ">" = [62] := by decide +kernel
  have e : command [] ([[97, 32, 98]].flatMap fun d => ascii " -I " ++ d) [120] [121] =
      [103, 99, 99] ++ (32 :: 32 :: 32 :: ([45, 73] ++ (32 :: ([97] ++ (32 :: ([98] ++ (32 :: ([120] ++ (32 :: ([62] ++ (32 :: [121]))))))))))) := by decide +kernel
  rw [e] at h2
  have h3 : Fields ([103, 99, 99] ++ (32 :: 32 :: 32 :: ([45, 73] ++ (32 :: ([97] ++ (32 :: ([98] ++ (32 :: ([120] ++ (32 :: ([62] ++ (32 :: [121]))))))))))))
      [[103, 99, 99], [45, 73], [97], [98], [120], [62], [121]] := by
    refine .word (by decide) (by decide) (by simp [isBlank]) (.blank rfl (.blank rfl (.blank rfl ?_)))
    refine .word (by decide) (by decide) (by simp [isBlank]) (.blank rfl ?_)
    refine .word (by decide) (by decide) (by simp [isBlank]) (.blank rfl ?_)
    refine .word (by decide) (by decide) (by simp [isBlank]) (.blank rfl ?_)
    refine .word (by decide) (by decide) (by simp [isBlank]) (.blank rfl ?_)
    refine .word (by decide) (by decide) (by simp [isBlank]) (.blank rfl ?_)
    exact fields_one (by decide) (by decide)
  have := fields_unique h2 h3
  revert this
  decide +kernel

end Bic.Preprocess
