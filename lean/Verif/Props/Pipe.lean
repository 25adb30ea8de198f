import Verif.Model.Repl
/-!
# C51: completion matches survive the pipe
-/

namespace Bic.Repl

/-- the C string in a buffer -/
def IsStr (buf : List Byte) (s : Str) : Prop := (0 : Byte) ∉ s ∧ ∃ rest, buf = s ++ 0 :: rest

/-- what was received is the list of strings; NULL stands for no matches -/
def Denotes : Option (List (List Byte)) → List Str → Prop
  | none, ss => ss = []
  | some bs, ss => bs.length = ss.length ∧ ∀ (i : Nat) b s, bs[i]? = some b → ss[i]? = some s → IsStr b s

/-- strings as C has them -/
def Strings (ss : List Str) : Prop := ∀ s ∈ ss, (0 : Byte) ∉ s ∧ s.length + 1 < 2 ^ 64

/-- **C51.** Whatever the scheduling of the two processes, what is received is what was sent. -/
def C51_statement : Prop :=
  ∀ ss r, Strings ss → ss.length < 2 ^ 31 → Receive (pipe (send ss)) r → Denotes r ss

theorem encodeSize_length (n : Nat) : (encodeSize n).length = 8 := rfl

theorem decode_encode {n : Nat} (h : n < 2 ^ 64) : decodeSize (encodeSize n) = n := by
  simp only [encodeSize, decodeSize, List.map_cons, List.map_nil, List.foldr_cons, List.foldr_nil, UInt8.toNat_ofNat']
  omega

/-- an atomic write is read as a whole by a read of its size -/
theorem read_atomic {d : List Byte} {ws : List Write} {bs : List Byte} {p' : List Write} (hd : d ≠ [])
    (h : Read (⟨true, d⟩ :: ws) d.length bs p') : bs = d ∧ p' = ws := by
  generalize hp : (⟨true, d⟩ :: ws : List Write) = p at h
  generalize hk : d.length = k at h
  cases h with
  | zero => exact absurd (List.length_eq_zero_iff.mp hk) hd
  | eof => cases hp
  | @part w _ _ _ rest h1 h2 h3 h4 =>
    cases hp
    have h5 := h4 rfl
    simp only at h3
    have h6 : rest = [] := by
      have := congrArg List.length h3
      rw [List.length_append] at this
      simp only [hk, Nat.min_self] at h5
      exact List.length_eq_zero_iff.mp (by omega)
    subst h6
    exact ⟨by simpa using h3, by simp⟩
  | more h1 => cases hp; simp at h1; omega

theorem readBuf_atomic {d : List Byte} {ws : List Write} {buf : List Byte} {p' : List Write} (hd : d ≠ [])
    (h : ReadBuf (⟨true, d⟩ :: ws) d.length buf p') : buf = d ∧ p' = ws := by
  obtain ⟨bs, junk, h1, h2, h3⟩ := h
  obtain ⟨rfl, rfl⟩ := read_atomic hd h1
  have : junk = [] := by
    rw [h2, List.length_append] at h3
    exact List.length_eq_zero_iff.mp (by omega)
  subst this
  exact ⟨by simpa using h2, rfl⟩

theorem readBuf_ex (d : List Byte) (ws : List Write) (hd : d ≠ []) : ReadBuf (⟨true, d⟩ :: ws) d.length d ws := by
  refine ⟨d, [], ?_, by simp, rfl⟩
  have := Read.part (w := ⟨true, d⟩) (ws := ws) (k := d.length) (bs := d) (rest := []) hd (Nat.le_refl _) (by simp) (fun _ => by simp)
  simpa using this

/-- short strings: all their writes are atomic -/
def Short (ss : List Str) : Prop := ∀ s ∈ ss, s.length + 1 ≤ pipeBuf

theorem pipe_cons (w : List Byte) (ws) (h : w.length ≤ pipeBuf) : pipe (w :: ws) = ⟨true, w⟩ :: pipe ws := by
  simp [pipe, h]

theorem pipe_string (s : Str) (ws) (h : s.length + 1 ≤ pipeBuf) :
    pipe (encodeSize (s.length + 1) :: (s ++ [0]) :: ws) = ⟨true, encodeSize (s.length + 1)⟩ :: ⟨true, s ++ [0]⟩ :: pipe ws := by
  rw [pipe_cons _ _ (by rw [encodeSize_length]; decide), pipe_cons _ _ (by simpa using h)]

theorem recv_loop {ss : List Str} (h : Short ss) : ∀ {bs},
    RecvLoop ss.length (pipe (ss.flatMap fun m => [encodeSize (m.length + 1), m ++ [0]])) bs → bs = ss.map (· ++ [0]) := by
  induction ss with
  | nil => intro bs hr; cases hr; rfl
  | cons s ss ih =>
    intro bs hr
    have hs := h s (by simp)
    have e : pipe ((s :: ss).flatMap fun m => [encodeSize (m.length + 1), m ++ [0]]) =
        ⟨true, encodeSize (s.length + 1)⟩ :: ⟨true, s ++ [0]⟩ :: pipe (ss.flatMap fun m => [encodeSize (m.length + 1), m ++ [0]]) := by
      rw [List.flatMap_cons]; exact pipe_string s _ hs
    rw [e] at hr
    cases hr with
    | next h1 h2 h3 =>
      obtain ⟨rfl, rfl⟩ := readBuf_atomic (d := encodeSize (s.length + 1)) (by simp [encodeSize]) h1
      have hlt : s.length + 1 < 2 ^ 64 := by unfold pipeBuf at hs; omega
      rw [decode_encode hlt] at h2
      obtain ⟨rfl, rfl⟩ := readBuf_atomic (d := s ++ [0]) (by simp) (by simpa using h2)
      rw [ih (fun t ht => h t (by simp [ht])) h3]
      rfl

theorem recv_loop_ex {ss : List Str} (h : Short ss) :
    RecvLoop ss.length (pipe (ss.flatMap fun m => [encodeSize (m.length + 1), m ++ [0]])) (ss.map (· ++ [0])) := by
  induction ss with
  | nil => exact .done
  | cons s ss ih =>
    have hs := h s (by simp)
    have e : pipe ((s :: ss).flatMap fun m => [encodeSize (m.length + 1), m ++ [0]]) =
        ⟨true, encodeSize (s.length + 1)⟩ :: ⟨true, s ++ [0]⟩ :: pipe (ss.flatMap fun m => [encodeSize (m.length + 1), m ++ [0]]) := by
      rw [List.flatMap_cons]; exact pipe_string s _ hs
    rw [e]
    have hlt : s.length + 1 < 2 ^ 64 := by unfold pipeBuf at hs; omega
    refine .next (readBuf_ex (encodeSize (s.length + 1)) _ (by simp [encodeSize])) ?_ (ih fun t ht => h t (by simp [ht]))
    rw [decode_encode hlt]
    have := readBuf_ex (s ++ [0]) (pipe (ss.flatMap fun m => [encodeSize (m.length + 1), m ++ [0]])) (by simp)
    rwa [List.length_append] at this

theorem denotes_buffers {ss : List Str} (h : Strings ss) : Denotes (some (ss.map (· ++ [0]))) ss := by
  refine ⟨by simp, fun i b s hb hs => ?_⟩
  rw [List.getElem?_map, hs] at hb
  obtain rfl : s ++ [0] = b := by simpa using hb
  exact ⟨(h s (List.mem_of_getElem? hs)).1, [], rfl⟩

/-- **C51, part.** Lists of strings of less than PIPE_BUF = 4096 bytes are received as they were sent,
in every scheduling (and there is something that is received). -/
theorem C51_short_partial (ss : List Str) (h : Strings ss) (hn : ss.length < 2 ^ 31) (hs : Short ss) :
    (∀ r, Receive (pipe (send ss)) r → Denotes r ss) ∧ ∃ r, Receive (pipe (send ss)) r := by
  have e : pipe (send ss) = ⟨true, encodeSize ss.length⟩ :: pipe (ss.flatMap fun m => [encodeSize (m.length + 1), m ++ [0]]) :=
    pipe_cons _ _ (by rw [encodeSize_length]; decide)
  have hd : decodeSize (encodeSize ss.length) = ss.length := decode_encode (by omega)
  rw [e]
  constructor
  · intro r hr
    cases hr with
    | null h1 h2 =>
      obtain ⟨rfl, rfl⟩ := readBuf_atomic (d := encodeSize ss.length) (by simp [encodeSize]) h1
      rw [hd] at h2
      exact List.length_eq_zero_iff.mp h2
    | some h1 h2 h3 h4 =>
      obtain ⟨rfl, rfl⟩ := readBuf_atomic (d := encodeSize ss.length) (by simp [encodeSize]) h1
      rw [hd] at h4
      rw [recv_loop hs h4]
      exact denotes_buffers h
  · have h0 := readBuf_ex (encodeSize ss.length) (pipe (ss.flatMap fun m => [encodeSize (m.length + 1), m ++ [0]])) (by simp [encodeSize])
    by_cases hz : ss.length = 0
    · exact ⟨none, .null h0 (by rw [hd]; exact hz)⟩
    · exact ⟨_, .some h0 (by rw [hd]; exact hz) (by rw [hd]; exact hn) (by rw [hd]; exact recv_loop_ex hs)⟩

/-- `["ab", ""]` -/
example : Strings [[97, 98], []] ∧ Short [[97, 98], []] := ⟨by intro s hs; simp at hs; rcases hs with rfl | rfl <;> decide,
  by intro s hs; simp at hs; rcases hs with rfl | rfl <;> decide⟩

/-- Every longer string may be received wrongly: only its first byte has arrived when it is read
(here the rest of the buffer happens to be zero). -/
theorem C51_long (a b : Byte) (s : Str) (hb : b ≠ 0) (hl : pipeBuf < s.length + 3) (hm : s.length + 3 < 2 ^ 64) :
    Receive (pipe (send [a :: b :: s])) (some [a :: List.replicate (s.length + 2) 0]) ∧
      ¬ Denotes (some [a :: List.replicate (s.length + 2) 0]) [a :: b :: s] := by
  constructor
  · have e : pipe (send [a :: b :: s]) = ⟨true, encodeSize 1⟩ :: ⟨true, encodeSize (s.length + 3)⟩ :: ⟨false, a :: b :: s ++ [0]⟩ :: [] := by
      have hd : decide ((a :: b :: s ++ [0]).length ≤ pipeBuf) = false := by
        rw [decide_eq_false_iff_not]
        show ¬ (s ++ [0]).length + 2 ≤ _
        rw [List.length_append]
        simp only [List.length_singleton]
        omega
      simp only [send, pipe, List.flatMap_cons, List.flatMap_nil, List.append_nil, List.map_cons, List.map_nil, hd,
        encodeSize_length]
      rfl
    have hr : ReadBuf [⟨false, a :: b :: s ++ [0]⟩] (s.length + 3) (a :: List.replicate (s.length + 2) 0) [⟨false, b :: s ++ [0]⟩] := by
      refine ⟨[a], List.replicate (s.length + 2) 0, ?_, rfl, by rw [List.length_cons, List.length_replicate]⟩
      have := Read.part (w := ⟨false, a :: b :: s ++ [0]⟩) (ws := []) (k := s.length + 3) (bs := [a]) (rest := b :: s ++ [0])
        (by simp) (by simp) rfl (by simp)
      rwa [if_neg (by simp)] at this
    have hd : decodeSize (encodeSize 1) = 1 := decode_encode (by decide)
    have hd2 : decodeSize (encodeSize (s.length + 3)) = s.length + 3 := decode_encode hm
    rw [e]
    refine .some (readBuf_ex (encodeSize 1) _ (by simp [encodeSize])) (by rw [hd]; decide) (by rw [hd]; decide) ?_
    rw [hd]
    exact .next (readBuf_ex (encodeSize (s.length + 3)) _ (by simp [encodeSize])) (by rw [hd2]; exact hr) .done
  · rintro ⟨-, h2⟩
    obtain ⟨-, rest, h3⟩ := h2 0 _ _ rfl rfl
    rw [List.replicate_succ] at h3
    simp only [List.cons_append, List.cons.injEq] at h3
    exact hb h3.2.1.symm

/-- C51 in full is false -/
theorem C51_refuted : ¬ C51_statement := by
  intro h
  obtain ⟨h1, h2⟩ := C51_long 97 97 (List.replicate 5000 97) (by decide) (by rw [List.length_replicate]; decide)
    (by rw [List.length_replicate]; decide)
  refine h2 (h _ _ (fun s hs => ?_) (show (1:Nat) < 2 ^ 31 by decide) h1)
  obtain rfl := List.mem_singleton.mp hs
  refine ⟨fun h0 => ?_, by rw [List.length_cons, List.length_cons, List.length_replicate]; decide⟩
  rw [List.mem_cons, List.mem_cons] at h0
  rcases h0 with h0 | h0 | h0
  · exact absurd h0 (by decide)
  · exact absurd h0 (by decide)
  · exact absurd (List.eq_of_mem_replicate h0) (by decide)

end Bic.Repl
