import Verif.Proofs.ListLemmas
import Verif.Spec.Sequences
import Verif.Model.HashTable
import Mathlib.Data.Nat.Bitwise
/-!
# C40, C41, C44: lists and the hash table
-/

namespace Bic
open ListC

/-! ## C40 -/

/-- the C function for an operation of the list interface -/
def execOp (fuel : Nat) : Seqs.Op → Heap → Option Heap
  | .init a => treeMake a
  | .prepend new head => listAdd (some new) (some head)
  | .append new head => treeChain new head
  | .delete e => treeUnchain e
  | .moveAll dest src => treeSpliceChains dest src fuel
  | .single e marker => treeChainHead e marker

/-- run a history -/
def execAll (fuel : Nat) : List Seqs.Op → Heap → Option Heap
  | [], h => some h
  | op :: ops, h => do
    let h ← execOp fuel op h
    execAll fuel ops h

/-- the heap holds the sequences `A` -/
structure Holding (h : Heap) (A : Seqs.State) : Prop where
  ring : ∀ head l, A head = some l → Ring h head l
  disj : ∀ a b l l', A a = some l → A b = some l' → a ≠ b → ∀ x ∈ a :: l, x ∉ b :: l'

theorem unused_not_mem {A : Seqs.State} {a head : Nat} {l : List Nat} (hu : Seqs.Unused A a) (hne : a ≠ head)
    (hl : A head = some l) : a ∉ head :: l := by
  have := hu.2 head l hl
  simp [hne, this]

theorem spliceLoop_mono {dest src : Nat} : ∀ {fuel : Nat} {i n : Ptr} {h h' : Heap},
    spliceLoop dest src fuel i n h = some h' → spliceLoop dest src (fuel + 1) i n h = some h'
  | 0, _, _, _, _, hs => by simp [spliceLoop] at hs
  | fuel + 1, i, n, h, h', hs => by
    rw [spliceLoop] at hs ⊢
    split
    · next e => rw [if_pos e] at hs; exact hs
    · next e =>
      rw [if_neg e] at hs
      simp only [Option.bind_eq_bind, Option.bind_eq_some_iff] at hs ⊢
      obtain ⟨a, h1, h2, h3, h4, h5, n', h6, h7⟩ := hs
      exact ⟨a, h1, h2, h3, h4, h5, n', h6, spliceLoop_mono h7⟩

theorem spliceLoop_le {dest src : Nat} {fuel fuel' : Nat} {i n : Ptr} {h h' : Heap} (hf : fuel ≤ fuel')
    (hs : spliceLoop dest src fuel i n h = some h') : spliceLoop dest src fuel' i n h = some h' := by
  induction hf with
  | refl => exact hs
  | step _ ih => exact spliceLoop_mono ih

/-- one operation: for all sufficiently large step budgets it does to the heap what the
specification does to the sequences -/
theorem Holding.step {h : Heap} {A B : Seqs.State} {op : Seqs.Op} (hh : Holding h A)
    (hd : Seqs.Does A op B) : ∃ N h', (∀ fuel ≥ N, execOp fuel op h = some h') ∧ Holding h' B := by
  induction hd generalizing h with
  | @single A B C e marker _ _ ih1 ih2 =>
    obtain ⟨N1, h1, e1, hh1⟩ := ih1 hh
    obtain ⟨N2, h2, e2, hh2⟩ := ih2 hh1
    refine ⟨0, h2, fun fuel _ => ?_, hh2⟩
    have e1 : treeMake marker h = some h1 := e1 N1 (Nat.le_refl _)
    have e2 : listAdd (some e) (some marker) h1 = some h2 := e2 N2 (Nat.le_refl _)
    simp [execOp, treeChainHead, e1, e2]
  | @init A a hu =>
    obtain ⟨h', e, r, s⟩ := initList_ring a h
    refine ⟨0, h', fun _ _ => e, ?_, ?_⟩
    · intro head l hl
      by_cases e1 : head = a
      · subst e1
        simp [Seqs.State.set] at hl
        subst hl
        exact r
      · simp [Seqs.State.set, e1] at hl
        refine s.ring (hh.ring _ _ hl) ?_
        rintro x hx rfl
        exact unused_not_mem hu (Ne.symm e1) hl hx
    · intro x y l l' hx hy hne z hz hz'
      simp only [Seqs.State.set] at hx hy
      split at hx
      · next e1 =>
        subst e1
        cases hx
        rw [if_neg (Ne.symm hne)] at hy
        simp at hz; subst hz
        exact unused_not_mem hu hne hy hz'
      · next e1 =>
        split at hy
        · next e2 =>
          subst e2
          cases hy
          simp at hz'; subst hz'
          exact unused_not_mem hu (Ne.symm e1) hx hz
        · exact hh.disj _ _ _ _ hx hy hne z hz hz'
  | @prepend A new head l hl hne hu =>
    obtain ⟨h', e, r, s⟩ := listAdd_ring (hh.ring _ _ hl) (unused_not_mem hu hne hl)
    refine ⟨0, h', fun _ _ => e, ?_, ?_⟩
    · intro x lx hx
      simp only [Seqs.State.set] at hx
      split at hx
      · next e1 => subst e1; cases hx; exact r
      · next e1 =>
        split at hx
        · cases hx
        · next e2 =>
          refine s.ring (hh.ring _ _ hx) ?_
          rintro z hz (rfl | hz')
          · exact unused_not_mem hu (Ne.symm e2) hx hz
          · exact hh.disj _ _ _ _ hx hl e1 z hz hz'
    · have key : ∀ y l', y ≠ head → y ≠ new → A y = some l' → ∀ z ∈ head :: new :: l, z ∉ y :: l' := by
        intro y l' h1 h2 hy z hz hz'
        simp only [List.mem_cons] at hz
        rcases hz with rfl | rfl | hz
        · exact hh.disj _ _ _ _ hl hy (Ne.symm h1) z (by simp) hz'
        · exact unused_not_mem hu (Ne.symm h2) hy hz'
        · exact hh.disj _ _ _ _ hl hy (Ne.symm h1) z (by simp [hz]) hz'
      intro x y lx ly hx hy hxy z hz hz'
      simp only [Seqs.State.set] at hx hy
      split at hx
      · next e1 =>
        subst e1; cases hx
        rw [if_neg (Ne.symm hxy)] at hy
        split at hy
        · cases hy
        · next e2 => exact key y ly (Ne.symm hxy) e2 hy z hz hz'
      · next e1 =>
        split at hx
        · cases hx
        · next e2 =>
          split at hy
          · next e3 => subst e3; cases hy; exact key x lx e1 e2 hx z hz' hz
          · split at hy
            · cases hy
            · exact hh.disj _ _ _ _ hx hy hxy z hz hz'
  | @append A new head l hl hne hu =>
    obtain ⟨h', e, r, s⟩ := listAddTail_ring (hh.ring _ _ hl) (unused_not_mem hu hne hl)
    refine ⟨0, h', fun _ _ => e, ?_, ?_⟩
    · intro x lx hx
      simp only [Seqs.State.set] at hx
      split at hx
      · next e1 => subst e1; cases hx; exact r
      · next e1 =>
        split at hx
        · cases hx
        · next e2 =>
          refine s.ring (hh.ring _ _ hx) ?_
          rintro z hz (rfl | hz')
          · exact unused_not_mem hu (Ne.symm e2) hx hz
          · exact hh.disj _ _ _ _ hx hl e1 z hz hz'
    · have key : ∀ y l', y ≠ head → y ≠ new → A y = some l' → ∀ z ∈ head :: (l ++ [new]), z ∉ y :: l' := by
        intro y l' h1 h2 hy z hz hz'
        simp only [List.mem_cons, List.mem_append, List.not_mem_nil, or_false] at hz
        rcases hz with rfl | hz | rfl
        · exact hh.disj _ _ _ _ hl hy (Ne.symm h1) z (by simp) hz'
        · exact hh.disj _ _ _ _ hl hy (Ne.symm h1) z (by simp [hz]) hz'
        · exact unused_not_mem hu (Ne.symm h2) hy hz'
      intro x y lx ly hx hy hxy z hz hz'
      simp only [Seqs.State.set] at hx hy
      split at hx
      · next e1 =>
        subst e1; cases hx
        rw [if_neg (Ne.symm hxy)] at hy
        split at hy
        · cases hy
        · next e2 => exact key y ly (Ne.symm hxy) e2 hy z hz hz'
      · next e1 =>
        split at hx
        · cases hx
        · next e2 =>
          split at hy
          · next e3 => subst e3; cases hy; exact key x lx e1 e2 hx z hz' hz
          · split at hy
            · cases hy
            · exact hh.disj _ _ _ _ hx hy hxy z hz hz'
  | @delete A e head l₁ l₂ hl =>
    obtain ⟨h', e1, r, _, _, s⟩ := listDel_ring (hh.ring _ _ hl)
    refine ⟨0, h', fun _ _ => e1, ?_, ?_⟩
    · intro x lx hx
      simp only [Seqs.State.set] at hx
      split at hx
      · next e2 => subst e2; cases hx; exact r
      · next e2 => exact s.ring (hh.ring _ _ hx) fun z hz hz' => hh.disj _ _ _ _ hx hl e2 z hz hz'
    · have sub : ∀ z ∈ head :: (l₁ ++ l₂), z ∈ head :: (l₁ ++ e :: l₂) := by
        intro z hz; simp at hz ⊢; tauto
      intro x y lx ly hx hy hxy z hz hz'
      simp only [Seqs.State.set] at hx hy
      split at hx
      · next e2 =>
        subst e2; cases hx
        rw [if_neg (Ne.symm hxy)] at hy
        exact hh.disj _ _ _ _ hl hy hxy z (sub z hz) hz'
      · next e2 =>
        split at hy
        · next e3 => subst e3; cases hy; exact hh.disj _ _ _ _ hx hl hxy z hz (sub z hz')
        · exact hh.disj _ _ _ _ hx hy hxy z hz hz'
  | @moveAll A dest src ld ls hd hs hne =>
    have hrs := hh.ring _ _ hs
    obtain ⟨i, hi⟩ : ∃ i, (ls ++ [src]).head? = some i := by cases ls <;> exact ⟨_, rfl⟩
    have hsec : second src (h.next i) ls = h.next i := by
      cases ls with
      | nil => rfl
      | cons b l' =>
        simp at hi; subst hi
        have := hrs.2.tail
        cases l' with
        | nil => exact this.1.1.symm
        | cons c l' => exact this.1.1.symm
    obtain ⟨h', e1, r1, r2, s⟩ := spliceLoop_ring dest src ls ld h (some i) (h.next i) (ls.length + 1) hrs (hh.ring _ _ hd)
      (fun a ha => hh.disj _ _ _ _ hs hd (Ne.symm hne) a ha) (by omega) hi.symm hsec.symm
    refine ⟨ls.length + 1, h', ?_, ?_, ?_⟩
    · intro fuel hf
      simp [execOp, treeSpliceChains, getNext, hrs.next_head, hi, spliceLoop_le hf e1]
    · intro x lx hx
      simp only [Seqs.State.set] at hx
      split at hx
      · next e2 => subst e2; cases hx; exact r2
      · next e2 =>
        split at hx
        · next e3 => subst e3; cases hx; exact r1
        · next e3 =>
          refine s.ring (hh.ring _ _ hx) ?_
          rintro z hz (hz' | hz')
          · exact hh.disj _ _ _ _ hx hs e3 z hz hz'
          · exact hh.disj _ _ _ _ hx hd e2 z hz hz'
    · have kd : ∀ z ∈ dest :: (ld ++ ls), z ∈ dest :: ld ∨ z ∈ src :: ls := by
        intro z hz; simp at hz ⊢; tauto
      intro x y lx ly hx hy hxy z hz hz'
      simp only [Seqs.State.set] at hx hy
      split at hx
      · next e2 =>
        subst e2; cases hx
        rw [if_neg (Ne.symm hxy)] at hy
        split at hy
        · next e3 =>
          subst e3; cases hy
          simp only [List.mem_cons, List.not_mem_nil, or_false] at hz'
          subst hz'
          simp only [List.mem_cons, List.mem_append] at hz
          rcases hz with e | hz | hz
          · exact hxy e.symm
          · exact hh.disj _ _ _ _ hd hs hxy z (by simp [hz]) (by simp)
          · exact (List.nodup_cons.mp hrs.1).1 hz
        · next e3 =>
          rcases kd z hz with h1 | h1
          · exact hh.disj _ _ _ _ hd hy hxy z h1 hz'
          · exact hh.disj _ _ _ _ hs hy (Ne.symm e3) z h1 hz'
      · next e2 =>
        split at hx
        · next e3 =>
          subst e3; cases hx
          simp only [List.mem_cons, List.not_mem_nil, or_false] at hz
          subst hz
          split at hy
          · next e4 =>
            subst e4; cases hy
            simp only [List.mem_cons, List.mem_append] at hz'
            rcases hz' with e | hz | hz
            · exact hxy e
            · exact hh.disj _ _ _ _ hd hs (Ne.symm hxy) z (by simp [hz]) (by simp)
            · exact (List.nodup_cons.mp hrs.1).1 hz
          · next e4 =>
            rw [if_neg (Ne.symm hxy)] at hy
            exact hh.disj _ _ _ _ hs hy hxy z (by simp) hz'
        · next e3 =>
          split at hy
          · next e4 =>
            subst e4; cases hy
            rcases kd z hz' with h1 | h1
            · exact hh.disj _ _ _ _ hx hd hxy z hz h1
            · exact hh.disj _ _ _ _ hx hs e3 z hz h1
          · next e4 =>
            split at hy
            · next e5 =>
              subst e5; cases hy
              simp only [List.mem_cons, List.not_mem_nil, or_false] at hz'
              subst hz'
              exact hh.disj _ _ _ _ hx hs hxy z hz (by simp)
            · exact hh.disj _ _ _ _ hx hy hxy z hz hz'

theorem Holding.trace {A B : Seqs.State} {ops : List Seqs.Op} (ht : Seqs.Trace A ops B) :
    ∀ {h : Heap}, Holding h A → ∃ N h', (∀ fuel ≥ N, execAll fuel ops h = some h') ∧ Holding h' B := by
  induction ht with
  | nil => exact fun hh => ⟨0, _, fun _ _ => rfl, hh⟩
  | cons hd _ ih =>
    intro h hh
    obtain ⟨N, h1, e1, hh1⟩ := hh.step hd
    obtain ⟨N', h2, e2, hh2⟩ := ih hh1
    refine ⟨max N N', h2, fun fuel hf => ?_, hh2⟩
    simp [execAll, e1 fuel (by omega), e2 fuel (by omega)]

/-- C40: starting from memory with no lists, every history of list operations that
makes sense for sequences runs without a NULL dereference, and afterwards traversing
any list visits exactly its sequence, in order, and `list_empty` tells whether it is
empty.  So no operation disturbs any other list. -/
theorem C40_sequences (ops : List Seqs.Op) (A : Seqs.State) (ht : Seqs.Trace (fun _ => none) ops A) (h : Heap) :
    ∃ N h', (∀ fuel ≥ N, execAll fuel ops h = some h') ∧
      ∀ head l, A head = some l → (∀ n, l.length < n → forEach h' head n = some l) ∧
        listEmpty (some head) h' = some (decide (l = [])) := by
  obtain ⟨N, h', e, hh⟩ := Holding.trace ht (h := h) ⟨fun _ _ h => (nomatch h), fun _ _ _ _ h => (nomatch h)⟩
  refine ⟨N, h', e, fun head l hl => ?_⟩
  have hr := hh.ring head l hl
  refine ⟨fun n hn => forEach_ring hr hn, ?_⟩
  have h1 : listEmpty (some head) h' = some (decide (h'.next head = some head)) := rfl
  rw [h1, hr.next_head]
  cases l with
  | nil => simp
  | cons a l =>
    have : a ≠ head := by rintro rfl; have := hr.1; simp at this
    simp [this]

/-- two lists, 0 and 1; 10, 11 go to 0; 12 to the front of 1; 10 is deleted; all of 1
is moved to 0; 0 itself was made as a list of 10 -/
def exampleOps : List Seqs.Op :=
  [.single 10 0, .init 1, .append 11 0, .prepend 12 1, .delete 10, .moveAll 0 1]

theorem example_trace : ∃ A, Seqs.Trace (fun _ => none) exampleOps A ∧ A 0 = some [11, 12] ∧ A 1 = some [] := by
  have unused : ∀ {A : Seqs.State} {a : Nat}, (A a = none ∨ A a = some []) → (∀ head l, A head = some l → a ∉ l) →
      Seqs.Unused A a := fun h1 h2 => ⟨h1, h2⟩
  refine ⟨_, .cons (.single (.init (unused (.inl rfl) ?_)) (.prepend (l := []) rfl (by decide) (unused (.inl rfl) ?_)))
    (.cons (.init (unused (.inl rfl) ?_))
    (.cons (.append (l := [10]) rfl (by decide) (unused (.inl rfl) ?_))
    (.cons (.prepend (l := []) rfl (by decide) (unused (.inl rfl) ?_))
    (.cons (.delete (head := 0) (l₁ := []) (l₂ := [11]) rfl)
    (.cons (.moveAll (ld := [11]) (ls := [12]) rfl rfl (by decide)) .nil))))), rfl, rfl⟩
  all_goals
    intro head l hl
    unfold Seqs.State.set at hl
    repeat' split at hl
    all_goals first
      | (cases hl; decide)
      | cases hl

example : ∃ N h', (∀ fuel ≥ N, execAll fuel exampleOps ⟨fun _ => none, fun _ => none⟩ = some h') ∧
    forEach h' 0 3 = some [11, 12] := by
  obtain ⟨A, ht, h0, _⟩ := example_trace
  obtain ⟨N, h', e, hall⟩ := C40_sequences exampleOps A ht ⟨fun _ => none, fun _ => none⟩
  exact ⟨N, h', e, (hall 0 _ h0).1 3 (by decide)⟩

/-! ## C41 -/

/-- C41 in full: the elements of `from` go to the front of `head`'s list -/
def C41_statement : Prop :=
  ∀ (h : Heap) (src head : Nat) (ls lh : List Nat), Ring h src ls → Ring h head lh →
    (∀ a ∈ src :: ls, a ∉ head :: lh) →
    ∃ h', listSplice (some src) (some head) h = some h' ∧ ∃ n, forEach h' head n = some (ls ++ lh)

theorem listSplice_eq {h : Heap} {src head first last : Nat} (hn : h.next src = some first)
    (hp : h.prev src = some last) : listSplice (some src) (some head) h =
      some { next := Function.update (Function.update h.next head (some first)) last (some first)
             prev := Function.update (Function.update h.prev first (some head)) first (some last) } := by
  have hh : Function.update (Function.update h.next head (some first)) last (some first) head = some first := by
    by_cases e : head = last
    · subst e; simp
    · rw [Function.update_of_ne e]; simp
  simp only [listSplice, getNext, getPrev, Option.map_some, hn, hp, setPrev, setNext, Option.bind_eq_bind,
    Option.bind_some, Function.update_self, hh]

/-- after `list_splice` a traversal of the target never ends, whatever the lists -/
theorem splice_endless (h : Heap) (src head : Nat) (ls : List Nat) (hs : Ring h src ls)
    (hd : ∀ a ∈ src :: ls, a ≠ head) : ∃ h', listSplice (some src) (some head) h = some h' ∧
      ∀ n, forEach h' head n = none := by
  have hn := hs.next_head
  have hp := hs.prev_head
  obtain ⟨first, hf⟩ : ∃ i, (ls ++ [src]).head? = some i := by cases ls <;> exact ⟨_, rfl⟩
  obtain ⟨last, hl⟩ : ∃ p, (src :: ls).getLast? = some p := by
    cases hc : (src :: ls).getLast? with
    | none => simp at hc
    | some p => exact ⟨p, rfl⟩
  have hfm : first ∈ src :: ls := by
    have := List.mem_of_head? hf
    simp at this ⊢; tauto
  have hlm : last ∈ src :: ls := List.mem_of_getLast? hl
  rw [hf] at hn
  rw [hl] at hp
  refine ⟨_, listSplice_eq hn hp, ?_⟩
  -- every cell of the source ring points to another one
  have key : ∀ (nx : Nat → Ptr), (∀ a ∈ src :: ls, ∃ b ∈ src :: ls, nx a = some b) →
      ∀ pv n a, a ∈ src :: ls → visit ⟨nx, pv⟩ head n (some a) = none := by
    intro nx hnx pv n
    induction n with
    | zero => intro a _; rfl
    | succ n ih =>
      intro a ha
      obtain ⟨b, hb, e⟩ := hnx a ha
      have e' : (⟨nx, pv⟩ : Heap).next a = some b := e
      rw [visit, if_neg (hd a ha), e', ih b hb]
      rfl
  have hclosed : ∀ a ∈ src :: ls, ∃ b ∈ src :: ls, h.next a = some b := by
    intro a ha
    obtain ⟨l1, l2, e⟩ := List.append_of_mem ha
    have hr2 := hs.2
    rw [e] at hr2
    obtain ⟨b, r, e2⟩ : ∃ b r, l2 ++ [src] = b :: r := by
      cases hc : l2 ++ [src] with
      | nil => simp at hc
      | cons a r => exact ⟨a, r, rfl⟩
    rw [show (l1 ++ a :: l2) ++ [src] = l1 ++ a :: (l2 ++ [src]) by simp, e2] at hr2
    have h3 := (linked_append.mp hr2).2.1.1
    refine ⟨b, ?_, h3⟩
    have : b ∈ l2 ++ [src] := by rw [e2]; simp
    rcases List.mem_append.mp this with h4 | h4
    · rw [e]; simp [h4]
    · rw [List.mem_singleton.mp h4]; simp
  intro n
  rw [forEach]
  have e1 : ∀ (a : Nat), a ≠ last → Function.update (Function.update h.next head (some first)) last (some first) a =
      Function.update h.next head (some first) a := fun a ha => Function.update_of_ne ha _ _
  have hlh : head ≠ last := fun e => hd last hlm e.symm
  have hh : (Function.update (Function.update h.next head (some first)) last (some first)) head = some first := by
    rw [e1 _ hlh]; simp
  simp only [hh]
  refine key _ ?_ _ n first hfm
  intro a ha
  by_cases e : a = last
  · exact ⟨first, hfm, by rw [e]; simp⟩
  · rw [e1 a e, Function.update_of_ne (hd a ha)]
    exact hclosed a ha

/-- C41 in full is false — for all lists: after `list_splice` a traversal of the
target list never ends. -/
theorem C41_never (h : Heap) (src head : Nat) (ls lh : List Nat) (hs : Ring h src ls)
    (hd : ∀ a ∈ src :: ls, a ∉ head :: lh) : ∃ h', listSplice (some src) (some head) h = some h' ∧
      ∀ n, forEach h' head n = none :=
  splice_endless h src head ls hs fun a ha e => hd a ha (by simp [e])

/-- what does hold: no list other than the two is touched -/
theorem C41_others_partial (h : Heap) (src head other : Nat) (ls lo : List Nat) (hs : Ring h src ls)
    (ho : Ring h other lo) (hd1 : ∀ a ∈ other :: lo, a ∉ src :: ls) (hd2 : ∀ a ∈ other :: lo, a ≠ head) :
    ∃ h', listSplice (some src) (some head) h = some h' ∧ ∀ n, lo.length < n → forEach h' other n = some lo := by
  have hn := hs.next_head
  have hp := hs.prev_head
  obtain ⟨first, hf⟩ : ∃ i, (ls ++ [src]).head? = some i := by cases ls <;> exact ⟨_, rfl⟩
  obtain ⟨last, hl⟩ : ∃ p, (src :: ls).getLast? = some p := by
    cases hc : (src :: ls).getLast? with
    | none => simp at hc
    | some p => exact ⟨p, rfl⟩
  have hfm : first ∈ src :: ls := by
    have := List.mem_of_head? hf
    simp at this ⊢; tauto
  have hlm : last ∈ src :: ls := List.mem_of_getLast? hl
  rw [hf] at hn
  rw [hl] at hp
  refine ⟨_, listSplice_eq hn hp, ?_⟩
  intro n hlt
  have e1 : ∀ a, a ≠ head → a ∉ src :: ls →
      Function.update (Function.update h.next head (some first)) last (some first) a = h.next a := by
    intro a h1 h2
    rw [Function.update_of_ne (by rintro rfl; exact h2 hlm), Function.update_of_ne h1]
  refine forEach_ring (SameOff.ring (P := fun a => a = head ∨ a ∈ src :: ls) (h := h) ?_ ho ?_) hlt
  · intro a ha
    simp only [not_or] at ha
    refine ⟨e1 a ha.1 ha.2, ?_⟩
    have : a ≠ first := by rintro rfl; exact ha.2 hfm
    simp [Function.update_of_ne this]
  · rintro a ha (e | e)
    · exact hd2 a ha e
    · exact hd1 a ha e

/-- two lists, 0 with the element 10 and 1 with the element 11 -/
def twoLists : Heap where
  next := fun a => if a = 0 then some 10 else if a = 10 then some 0 else if a = 1 then some 11 else some 1
  prev := fun a => if a = 0 then some 10 else if a = 10 then some 0 else if a = 1 then some 11 else some 1

theorem twoLists_rings : Ring twoLists 0 [10] ∧ Ring twoLists 1 [11] := by
  refine ⟨⟨by decide, ⟨by decide, by decide⟩, ⟨by decide, by decide⟩, trivial⟩,
    ⟨by decide, ⟨by decide, by decide⟩, ⟨by decide, by decide⟩, trivial⟩⟩

theorem C41_refuted : ¬ C41_statement := by
  intro h
  obtain ⟨h', e, n, hn⟩ := h twoLists 0 1 [10] [11] twoLists_rings.1 twoLists_rings.2 (by decide)
  obtain ⟨h2, e2, hall⟩ := C41_never twoLists 0 1 [10] [11] twoLists_rings.1 (by decide)
  rw [e2] at e
  cases e
  rw [hall n] at hn
  cases hn

/-- the hypotheses of `C41_others_partial` can be met: the list 1 when 0 is spliced
into an empty list 2 -/
example : ∃ h', listSplice (some 0) (some 2) twoLists = some h' ∧ ∀ n, 1 < n → forEach h' 1 n = some [11] :=
  C41_others_partial twoLists 0 2 1 [10] [11] twoLists_rings.1 twoLists_rings.2 (by decide) (by decide)

/-! ## C44 -/

namespace HashTable

theorem initBins_spec (bin : Nat → Nat) (hinj : ∀ i j, bin i = bin j → i = j) (n : Nat) (h : Heap) :
    ∃ h', initBins bin n h = some h' ∧ ∀ i < n, Ring h' (bin i) [] := by
  induction n with
  | zero => exact ⟨h, rfl, by omega⟩
  | succ n ih =>
    obtain ⟨h1, e1, r1⟩ := ih
    obtain ⟨h2, e2, r2, s2⟩ := initList_ring (bin n) h1
    refine ⟨h2, by simp [initBins, e1, e2], fun i hi => ?_⟩
    by_cases e : i = n
    · subst e; exact r2
    · refine s2.ring (r1 i (by omega)) ?_
      intro a ha ha'
      simp only [List.mem_singleton] at ha
      subst ha
      exact e (hinj _ _ ha')

/-- `hash_table_add` for each pair in turn -/
def addAll (ht : Table) : List (List UInt8 × Nat) → Heap → Option Heap
  | [], h => some h
  | (k, e) :: rest, h => do
    let h ← add ht k e h
    addAll ht rest h

/-- the elements put in under keys that fall into the bin `b`, last first -/
def inBin (bits b : Nat) (adds : List (List UInt8 × Nat)) : List Nat :=
  ((adds.filter fun p => binOf bits p.1 == b).map (·.2)).reverse

theorem binOf_lt (bits : Nat) (key : List UInt8) : binOf bits key < 2 ^ bits := by
  unfold binOf
  rw [Nat.shiftLeft_eq, Nat.one_mul, Nat.and_two_pow_sub_one_eq_mod]
  exact Nat.mod_lt _ (by positivity)

theorem addAll_spec (ht : Table) (hinj : ∀ i j, ht.bin i = ht.bin j → i = j) :
    ∀ (adds done : List (List UInt8 × Nat)) (h : Heap),
    ((done ++ adds).map (·.2)).Nodup → (∀ p ∈ done ++ adds, ∀ i, p.2 ≠ ht.bin i) →
    (∀ i < 2 ^ ht.bits, Ring h (ht.bin i) (inBin ht.bits i done)) →
    ∃ h', addAll ht adds h = some h' ∧ ∀ i < 2 ^ ht.bits, Ring h' (ht.bin i) (inBin ht.bits i (done ++ adds)) := by
  intro adds
  induction adds with
  | nil => intro done h _ _ hr; exact ⟨h, rfl, by simpa using hr⟩
  | cons p rest ih =>
    obtain ⟨k, e⟩ := p
    intro done h hnd hne hr
    have hmem : ∀ b, e ∉ inBin ht.bits b done := by
      intro b hb
      simp only [inBin, List.mem_reverse, List.mem_map, List.mem_filter] at hb
      obtain ⟨q, ⟨hq, _⟩, rfl⟩ := hb
      simp only [List.map_append, List.map_cons] at hnd
      have := (List.nodup_append.mp hnd).2.2 q.2 (List.mem_map.mpr ⟨q, hq, rfl⟩) q.2 (by simp)
      exact this rfl
    have hnb : ∀ i, e ≠ ht.bin i := hne (k, e) (by simp)
    have hnew : e ∉ ht.bin (binOf ht.bits k) :: inBin ht.bits (binOf ht.bits k) done := by
      simp only [List.mem_cons, not_or]
      exact ⟨hnb _, hmem _⟩
    obtain ⟨h1, e1, r1, s1⟩ := listAdd_ring (hr _ (binOf_lt _ _)) hnew
    have hr1 : ∀ i < 2 ^ ht.bits, Ring h1 (ht.bin i) (inBin ht.bits i (done ++ [(k, e)])) := by
      intro i hi
      by_cases hib : i = binOf ht.bits k
      · subst hib
        have : inBin ht.bits (binOf ht.bits k) (done ++ [(k, e)]) = e :: inBin ht.bits (binOf ht.bits k) done := by
          simp [inBin]
        rw [this]; exact r1
      · have : inBin ht.bits i (done ++ [(k, e)]) = inBin ht.bits i done := by
          simp [inBin, Ne.symm hib]
        rw [this]
        refine s1.ring (hr i hi) ?_
        have hel : ∀ a b, a ∈ inBin ht.bits b done → ∃ q ∈ done, binOf ht.bits q.1 = b ∧ q.2 = a := by
          intro a b ha
          simp only [inBin, List.mem_reverse, List.mem_map, List.mem_filter, beq_iff_eq] at ha
          obtain ⟨q, ⟨h1, h2⟩, h3⟩ := ha
          exact ⟨q, h1, h2, h3⟩
        rintro a ha (rfl | ha')
        · simp only [List.mem_cons] at ha
          rcases ha with ha | ha
          · exact hnb _ ha
          · exact hmem _ ha
        · simp only [List.mem_cons] at ha ha'
          rcases ha with rfl | ha
          · rcases ha' with ha' | ha'
            · exact hib (hinj _ _ ha')
            · obtain ⟨q, hq, _, h3⟩ := hel _ _ ha'
              exact hne q (by simp [hq]) _ h3
          · obtain ⟨q, hq, h2, h3⟩ := hel _ _ ha
            rcases ha' with ha' | ha'
            · exact hne q (by simp [hq]) _ (h3.trans ha')
            · obtain ⟨q', hq', h2', h3'⟩ := hel _ _ ha'
              -- equal elements are the same addition
              have : q = q' := by
                have hn : (done.map (·.2)).Nodup := by
                  rw [List.map_append] at hnd
                  exact hnd.of_append_left
                exact List.inj_on_of_nodup_map hn hq hq' (h3.trans h3'.symm)
              subst this
              exact hib (h2.symm.trans h2')
    obtain ⟨h', e2, r2⟩ := ih (done ++ [(k, e)]) h1 (by simpa using hnd) (by simpa using hne) hr1
    refine ⟨h', ?_, by simpa using r2⟩
    simp [addAll, add, e1, e2]

end HashTable

open HashTable in
/-- C44: for every table size and every sequence of additions of different elements:
the bin of a key is inside the table, all operations run without touching NULL, and
a traversal of the bin of a key sees exactly the elements added under keys falling
into that bin, the latest first — among them every element added under this key. -/
theorem C44_lookup (bin : Nat → Nat) (hinj : ∀ i j, bin i = bin j → i = j) (bits : Nat)
    (adds : List (List UInt8 × Nat)) (hnd : (adds.map (·.2)).Nodup) (hne : ∀ p ∈ adds, ∀ i, p.2 ≠ bin i) (h : Heap) :
    ∃ ht h1 h', alloc bin bits h = some (ht, h1) ∧ addAll ht adds h1 = some h' ∧
      ∀ key, (∃ i < 2 ^ bits, getBin ht key = bin i) ∧
        ∃ seen, (∀ n, seen.length < n → forEach h' (getBin ht key) n = some seen) ∧
          (∀ e, (key, e) ∈ adds → e ∈ seen) ∧
          (∀ e ∈ seen, ∃ key', (key', e) ∈ adds ∧ getBin ht key' = getBin ht key) := by
  obtain ⟨h1, e1, r1⟩ := initBins_spec bin hinj (2 ^ bits) h
  obtain ⟨h', e2, r2⟩ := addAll_spec ⟨bin, bits⟩ hinj adds [] h1 (by simpa using hnd) (by simpa using hne)
    (fun i hi => r1 i hi)
  refine ⟨⟨bin, bits⟩, h1, h', ?_, e2, fun key => ⟨⟨binOf bits key, binOf_lt _ _, rfl⟩, inBin bits (binOf bits key) adds,
    fun n hn => forEach_ring (r2 _ (binOf_lt _ _)) hn, ?_, ?_⟩⟩
  · simp [alloc, Nat.shiftLeft_eq, e1]
  · intro e he
    simp only [inBin, List.mem_reverse, List.mem_map, List.mem_filter, beq_iff_eq]
    exact ⟨(key, e), ⟨he, rfl⟩, rfl⟩
  · intro e he
    simp only [inBin, List.mem_reverse, List.mem_map, List.mem_filter, beq_iff_eq] at he
    obtain ⟨q, ⟨hq, hb⟩, rfl⟩ := he
    exact ⟨q.1, hq, by show bin _ = bin _; rw [hb]⟩

/-- three elements under two keys, a table of 8 bins -/
example : ∃ ht h1 h', HashTable.alloc (fun i => i + 100) 3 ⟨fun _ => none, fun _ => none⟩ = some (ht, h1) ∧
    HashTable.addAll ht [([97, 98], 1), ([99], 2), ([97, 98], 3)] h1 = some h' ∧
    ∃ seen, (∀ n, seen.length < n → forEach h' (HashTable.getBin ht [97, 98]) n = some seen) ∧ 1 ∈ seen ∧ 3 ∈ seen := by
  obtain ⟨ht, h1, h', e1, e2, hall⟩ := C44_lookup (fun i => i + 100) (by intro i j h; simpa using h) 3
    [([97, 98], 1), ([99], 2), ([97, 98], 3)] (by decide)
    (by intro p hp i
        simp only [List.mem_cons, List.not_mem_nil, or_false] at hp
        rcases hp with rfl | rfl | rfl <;> simp) ⟨fun _ => none, fun _ => none⟩
  obtain ⟨_, seen, h3, h4, _⟩ := hall [97, 98]
  exact ⟨ht, h1, h', e1, e2, seen, h3, h4 1 (by simp), h4 3 (by simp)⟩

end Bic
