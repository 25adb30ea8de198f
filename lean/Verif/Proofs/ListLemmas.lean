import Verif.Model.ListC
import Mathlib.Data.List.Basic
import Mathlib.Data.List.Nodup
import Mathlib.Tactic.Linarith
/-!
# Doubly linked rings represent sequences
-/

namespace Bic
namespace ListC

/-- consecutive elements are linked both ways -/
def Linked (h : Heap) : List Nat → Prop
  | [] => True
  | [_] => True
  | a :: b :: l => (h.next a = some b ∧ h.prev b = some a) ∧ Linked h (b :: l)

/-- The ring at `head` represents the sequence `l`: following `next` from `head` one
meets the elements of `l` and is back at `head`, following `prev` the other way
round. -/
def Ring (h : Heap) (head : Nat) (l : List Nat) : Prop :=
  (head :: l).Nodup ∧ Linked h (head :: l ++ [head])

theorem linked_append {h : Heap} : ∀ {l₁ l₂ : List Nat} {a : Nat},
    Linked h (l₁ ++ a :: l₂) ↔ Linked h (l₁ ++ [a]) ∧ Linked h (a :: l₂)
  | [], l₂, a => by simp [Linked]
  | [b], l₂, a => by simp [Linked]
  | b :: c :: l, l₂, a => by
    have := linked_append (h := h) (l₁ := c :: l) (l₂ := l₂) (a := a)
    simp only [List.cons_append, Linked] at this ⊢
    rw [this]
    tauto

/-- only cells whose `next`/`prev` is looked at matter -/
theorem Linked.congr {h h' : Heap} : ∀ {l : List Nat}, Linked h l →
    (∀ a ∈ l.dropLast, h'.next a = h.next a) → (∀ b ∈ l.tail, h'.prev b = h.prev b) → Linked h' l
  | [], _, _, _ => trivial
  | [_], _, _, _ => trivial
  | a :: b :: l, ⟨⟨h1, h2⟩, h3⟩, hn, hp => by
    refine ⟨⟨by rw [hn a (by simp [List.dropLast]), h1], by rw [hp b (by simp), h2]⟩, ?_⟩
    refine Linked.congr h3 (fun x hx => hn x (by simp only [List.dropLast_cons_cons, List.mem_cons]; exact .inr hx))
      (fun x hx => hp x (by simp only [List.tail_cons, List.mem_cons]; exact .inr hx))

/-- `h` and `h'` agree outside `P` -/
def SameOff (P : Nat → Prop) (h h' : Heap) : Prop :=
  ∀ a, ¬ P a → h'.next a = h.next a ∧ h'.prev a = h.prev a

theorem SameOff.ring {P : Nat → Prop} {h h' : Heap} {head : Nat} {l : List Nat} (hs : SameOff P h h')
    (hr : Ring h head l) (hd : ∀ a ∈ head :: l, ¬ P a) : Ring h' head l := by
  refine ⟨hr.1, hr.2.congr ?_ ?_⟩
  · intro a ha
    have : a ∈ head :: l := by
      have := List.dropLast_concat (l₁ := head :: l) (b := head)
      rw [this] at ha
      exact ha
    exact (hs a (hd a this)).1
  · intro b hb
    have : b ∈ head :: l := by
      simp only [List.cons_append, List.tail_cons, List.mem_append, List.mem_singleton] at hb
      rcases hb with hb | rfl
      · simp [hb]
      · simp
    exact (hs b (hd b this)).2

theorem SameOff.mono {P Q : Nat → Prop} {h h' : Heap} (hs : SameOff P h h') (hpq : ∀ a, P a → Q a) :
    SameOff Q h h' := fun a ha => hs a fun hp => ha (hpq a hp)

theorem SameOff.trans {P : Nat → Prop} {h h' h'' : Heap} (h1 : SameOff P h h') (h2 : SameOff P h' h'') :
    SameOff P h h'' := fun a ha => ⟨(h2 a ha).1.trans (h1 a ha).1, (h2 a ha).2.trans (h1 a ha).2⟩

theorem SameOff.refl (P : Nat → Prop) (h : Heap) : SameOff P h h := fun _ _ => ⟨rfl, rfl⟩

/-- `INIT_LIST` makes an empty list and touches nothing else -/
theorem initList_ring (a : Nat) (h : Heap) :
    ∃ h', initList (some a) h = some h' ∧ Ring h' a [] ∧ SameOff (· = a) h h' := by
  refine ⟨_, rfl, ⟨by simp, ?_⟩, ?_⟩
  · simp [Linked]
  · intro b hb
    simp [Function.update_of_ne (show b ≠ a from hb)]

/-- inserting `new` between the neighbours `p` and `n` -/
theorem listAdd3_spec (h : Heap) (new p n : Nat) (hp : new ≠ p) (hn : new ≠ n) :
    ∃ h', listAdd3 (some new) (some p) (some n) h = some h' ∧
      h'.next p = some new ∧ h'.next new = some n ∧ h'.prev n = some new ∧ h'.prev new = some p ∧
      (∀ a, a ≠ p → a ≠ new → h'.next a = h.next a) ∧ (∀ a, a ≠ n → a ≠ new → h'.prev a = h.prev a) := by
  refine ⟨_, rfl, ?_, ?_, ?_, ?_, ?_, ?_⟩
  · simp
  · simp [Function.update_of_ne hp]
  · simp [Function.update_of_ne (Ne.symm hn)]
  · simp
  · intro a h1 h2; simp [Function.update_of_ne h1, Function.update_of_ne h2]
  · intro a h1 h2; simp [Function.update_of_ne h1, Function.update_of_ne h2]

/-- inserting anywhere in a ring: `l₁` before, `l₂` after the new element -/
theorem ring_insert {h h' : Heap} {head new p n : Nat} {l₁ l₂ : List Nat} (hr : Ring h head (l₁ ++ l₂))
    (hnew : new ∉ head :: (l₁ ++ l₂)) (hp : (head :: l₁).getLast? = some p) (hn : (l₂ ++ [head]).head? = some n)
    (hx : h'.next p = some new ∧ h'.next new = some n ∧ h'.prev n = some new ∧ h'.prev new = some p ∧
      (∀ a, a ≠ p → a ≠ new → h'.next a = h.next a) ∧ (∀ a, a ≠ n → a ≠ new → h'.prev a = h.prev a)) :
    Ring h' head (l₁ ++ new :: l₂) := by
  obtain ⟨x1, x2, x3, x4, x5, x6⟩ := hx
  obtain ⟨hnd, hl⟩ := hr
  refine ⟨?_, ?_⟩
  · have : (head :: (l₁ ++ new :: l₂)).Perm (new :: head :: (l₁ ++ l₂)) := by
      refine (List.Perm.cons _ List.perm_middle).trans (List.Perm.swap _ _ _)
    exact this.nodup_iff.mpr (List.nodup_cons.mpr ⟨hnew, hnd⟩)
  · obtain ⟨q, hq⟩ := List.getLast?_eq_some_iff.mp hp
    obtain ⟨r, hr⟩ : ∃ r, l₂ ++ [head] = n :: r := by
      cases hc : l₂ ++ [head] with
      | nil => simp at hc
      | cons a r => rw [hc] at hn; simp at hn; exact ⟨r, by rw [hn]⟩
    have e1 : head :: (l₁ ++ l₂) ++ [head] = q ++ p :: n :: r := by
      rw [show head :: (l₁ ++ l₂) ++ [head] = (head :: l₁) ++ (l₂ ++ [head]) by simp, hq, hr]; simp
    have e2 : head :: (l₁ ++ new :: l₂) ++ [head] = q ++ p :: new :: n :: r := by
      rw [show head :: (l₁ ++ new :: l₂) ++ [head] = (head :: l₁) ++ new :: (l₂ ++ [head]) by simp, hq, hr]; simp
    rw [e1] at hl
    rw [e2]
    have hl1 := (linked_append.mp hl)
    refine linked_append.mpr ⟨?_, ⟨x1, x4⟩, ⟨x2, x3⟩, ?_⟩
    · -- the part before the insertion
      refine hl1.1.congr ?_ ?_
      · intro a ha
        rw [List.dropLast_concat] at ha
        have ha2 : a ∈ head :: l₁ := by rw [hq]; simp [ha]
        refine x5 a ?_ ?_
        · rintro rfl
          have : (head :: l₁).Nodup := (show (head :: l₁ ++ l₂).Nodup from hnd).of_append_left
          rw [hq] at this
          have := (List.nodup_append.mp this).2.2 a ha a (by simp)
          exact this rfl
        · rintro rfl
          exact hnew (by simp at ha2 ⊢; tauto)
      · intro b hb
        have hb2 : b ∈ l₁ := by
          have : (q ++ [p]).tail = l₁ := by rw [← hq]; rfl
          rw [this] at hb; exact hb
        refine x6 b ?_ ?_
        · rintro rfl
          have hmem : b ∈ l₂ ++ [head] := by rw [hr]; simp
          rcases List.mem_append.mp hmem with h2 | h2
          · have := (List.nodup_cons.mp hnd).2
            exact (List.nodup_append.mp this).2.2 b hb2 b h2 rfl
          · rw [List.mem_singleton.mp h2] at hb2
            exact (List.nodup_cons.mp hnd).1 (by simp [hb2])
        · rintro rfl
          exact hnew (by simp [hb2])
    · have hl2 : Linked h (n :: r) := hl1.2.2
      refine hl2.congr ?_ ?_
      · intro a ha
        have ha2 : a ∈ l₂ := by
          rw [← hr, List.dropLast_concat] at ha; exact ha
        refine x5 a ?_ ?_
        · rintro rfl
          have : a ∈ head :: l₁ := by rw [hq]; simp
          exact (List.nodup_append.mp (show (head :: l₁ ++ l₂).Nodup from hnd)).2.2 a this a ha2 rfl
        · rintro rfl
          exact hnew (by simp [ha2])
      · intro b hb
        simp only [List.tail_cons] at hb
        have hnd2 : (l₂ ++ [head]).Nodup := by
          have : (l₂ ++ [head]).Perm (head :: l₂) := List.perm_append_singleton _ _
          refine this.nodup_iff.mpr ?_
          have h3 : (head :: l₂).Sublist (head :: (l₁ ++ l₂)) :=
            List.Sublist.cons_cons _ (List.sublist_append_right _ _)
          exact h3.nodup hnd
        rw [hr] at hnd2
        refine x6 b ?_ ?_
        · rintro rfl
          exact (List.nodup_cons.mp hnd2).1 hb
        · rintro rfl
          have : b ∈ l₂ ++ [head] := by rw [hr]; simp [hb]
          exact hnew (by simp at this ⊢; tauto)

theorem Ring.next_head {h : Heap} {head : Nat} {l : List Nat} (hr : Ring h head l) :
    h.next head = (l ++ [head]).head? := by
  obtain ⟨_, hl⟩ := hr
  cases l with
  | nil => exact hl.1.1
  | cons a l => exact hl.1.1

theorem Ring.prev_head {h : Heap} {head : Nat} {l : List Nat} (hr : Ring h head l) :
    h.prev head = (head :: l).getLast? := by
  obtain ⟨_, hl⟩ := hr
  rcases List.eq_nil_or_concat (head :: l) with h0 | ⟨q, p, hq⟩
  · cases h0
  · rw [List.concat_eq_append] at hq
    rw [hq] at hl ⊢
    rw [List.append_assoc] at hl
    have := (linked_append.mp hl).2
    have h2 : h.prev head = some p := this.1.2
    simp [h2]

theorem getLast?_mem {l : List Nat} {a : Nat} (h : l.getLast? = some a) : a ∈ l := List.mem_of_getLast? h

/-- `list_add` puts the new element first -/
theorem listAdd_ring {h : Heap} {head new : Nat} {l : List Nat} (hr : Ring h head l) (hnew : new ∉ head :: l) :
    ∃ h', listAdd (some new) (some head) h = some h' ∧ Ring h' head (new :: l) ∧
      SameOff (fun a => a = new ∨ a ∈ head :: l) h h' := by
  have h1 := hr.next_head
  obtain ⟨n, hn⟩ : ∃ n, (l ++ [head]).head? = some n := by cases l <;> exact ⟨_, rfl⟩
  have hmem : n ∈ head :: l := by
    have := List.mem_of_head? hn
    simp at this ⊢; tauto
  have hne : new ≠ head := fun e => hnew (by simp [e])
  have hne2 : new ≠ n := fun e => hnew (e ▸ hmem)
  obtain ⟨h', e, x1, x2, x3, x4, x5, x6⟩ := listAdd3_spec h new head n hne hne2
  refine ⟨h', ?_, ?_, ?_⟩
  · simp [listAdd, getNext, h1, hn, e]
  · exact ring_insert (l₁ := []) hr hnew rfl hn ⟨x1, x2, x3, x4, x5, x6⟩
  · intro a ha
    simp only [not_or, List.mem_cons] at ha
    have hmem' := hmem
    simp only [List.mem_cons] at hmem'
    refine ⟨x5 a ha.2.1 ha.1, x6 a ?_ ha.1⟩
    rintro rfl; tauto

/-- `list_add_tail` puts the new element last -/
theorem listAddTail_ring {h : Heap} {head new : Nat} {l : List Nat} (hr : Ring h head l) (hnew : new ∉ head :: l) :
    ∃ h', listAddTail (some new) (some head) h = some h' ∧ Ring h' head (l ++ [new]) ∧
      SameOff (fun a => a = new ∨ a ∈ head :: l) h h' := by
  have h1 := hr.prev_head
  obtain ⟨p, hp⟩ : ∃ p, (head :: l).getLast? = some p := by
    cases hc : (head :: l).getLast? with
    | none => simp at hc
    | some p => exact ⟨p, rfl⟩
  have hmem : p ∈ head :: l := List.mem_of_getLast? hp
  have hne : new ≠ head := fun e => hnew (by simp [e])
  have hne2 : new ≠ p := fun e => hnew (e ▸ hmem)
  obtain ⟨h', e, x1, x2, x3, x4, x5, x6⟩ := listAdd3_spec h new p head hne2 hne
  refine ⟨h', ?_, ?_, ?_⟩
  · simp [listAddTail, getPrev, h1, hp, e]
  · exact ring_insert (l₁ := l) (l₂ := []) (by simpa using hr) (by simpa using hnew) hp rfl ⟨x1, x2, x3, x4, x5, x6⟩
  · intro a ha
    simp only [not_or, List.mem_cons] at ha
    simp only [List.mem_cons] at hmem
    refine ⟨x5 a ?_ ha.1, x6 a ha.2.1 ha.1⟩
    rintro rfl; tauto

/-- `list_del` takes an element out, wherever it stands -/
theorem listDel_ring {h : Heap} {head e : Nat} {l₁ l₂ : List Nat} (hr : Ring h head (l₁ ++ e :: l₂)) :
    ∃ h', listDel (some e) h = some h' ∧ Ring h' head (l₁ ++ l₂) ∧ h'.next e = none ∧ h'.prev e = none ∧
      SameOff (fun a => a ∈ head :: (l₁ ++ e :: l₂)) h h' := by
  obtain ⟨hnd, hl⟩ := hr
  obtain ⟨p, hp⟩ : ∃ p, (head :: l₁).getLast? = some p := by
    cases hc : (head :: l₁).getLast? with
    | none => simp at hc
    | some p => exact ⟨p, rfl⟩
  obtain ⟨q, hq⟩ := List.getLast?_eq_some_iff.mp hp
  obtain ⟨n, r, hr⟩ : ∃ n r, l₂ ++ [head] = n :: r := by
    cases hc : l₂ ++ [head] with
    | nil => simp at hc
    | cons a r => exact ⟨a, r, rfl⟩
  have e1 : head :: (l₁ ++ e :: l₂) ++ [head] = q ++ p :: e :: n :: r := by
    rw [show head :: (l₁ ++ e :: l₂) ++ [head] = (head :: l₁) ++ e :: (l₂ ++ [head]) by simp, hq, hr]; simp
  have e2 : head :: (l₁ ++ l₂) ++ [head] = q ++ p :: n :: r := by
    rw [show head :: (l₁ ++ l₂) ++ [head] = (head :: l₁) ++ (l₂ ++ [head]) by simp, hq, hr]; simp
  rw [e1] at hl
  obtain ⟨hl1, ⟨y1, y2⟩, ⟨y3, y4⟩, hl2⟩ := linked_append.mp hl
  -- `e` is not among the others
  have hperm : (head :: (l₁ ++ e :: l₂)).Perm (e :: head :: (l₁ ++ l₂)) :=
    (List.Perm.cons _ List.perm_middle).trans (List.Perm.swap _ _ _)
  have hnd' := hperm.nodup_iff.mp hnd
  have he : e ∉ head :: (l₁ ++ l₂) := (List.nodup_cons.mp hnd').1
  have hnd2 : (head :: (l₁ ++ l₂)).Nodup := (List.nodup_cons.mp hnd').2
  have hpm : p ∈ head :: l₁ := by rw [hq]; simp
  have hnm : n ∈ l₂ ++ [head] := by rw [hr]; simp
  have hep : e ≠ p := by rintro rfl; apply he; simp at hpm ⊢; tauto
  have hen : e ≠ n := by rintro rfl; apply he; simp at hnm ⊢; tauto
  let h1 : Heap := { h with next := Function.update h.next p (some n) }
  let h2 : Heap := { h1 with prev := Function.update h1.prev n (some p) }
  let h3 : Heap := { next := Function.update h2.next e none, prev := Function.update h2.prev e none }
  have hdel : listDel (some e) h = some h3 := by
    simp [listDel, getPrev, getNext, setNext, setPrev, y2, y3, Function.update_of_ne hep, h1, h2, h3]
  have n1 : ∀ a, a ≠ p → a ≠ e → h3.next a = h.next a := by
    intro a g1 g2; simp [h3, h2, h1, Function.update_of_ne g1, Function.update_of_ne g2]
  have n2 : ∀ a, a ≠ n → a ≠ e → h3.prev a = h.prev a := by
    intro a g1 g2; simp [h3, h2, h1, Function.update_of_ne g1, Function.update_of_ne g2]
  have n3 : h3.next p = some n := by simp [h3, h2, h1, Function.update_of_ne (Ne.symm hep)]
  have n4 : h3.prev n = some p := by simp [h3, h2, h1, Function.update_of_ne (Ne.symm hen)]
  refine ⟨h3, hdel, ⟨hnd2, ?_⟩, by simp [h3], by simp [h3], ?_⟩
  · rw [e2]
    refine linked_append.mpr ⟨?_, ⟨n3, n4⟩, ?_⟩
    · refine hl1.congr ?_ ?_
      · intro a ha
        rw [List.dropLast_concat] at ha
        have ha2 : a ∈ head :: l₁ := by rw [hq]; simp [ha]
        refine n1 a ?_ ?_
        · rintro rfl
          have : (head :: l₁).Nodup := (show (head :: l₁ ++ l₂).Nodup from hnd2).of_append_left
          rw [hq] at this
          exact (List.nodup_append.mp this).2.2 a ha a (by simp) rfl
        · rintro rfl
          apply he; simp at ha2 ⊢; tauto
      · intro b hb
        have hb2 : b ∈ l₁ := by
          have : (q ++ [p]).tail = l₁ := by rw [← hq]; rfl
          rw [this] at hb; exact hb
        refine n2 b ?_ ?_
        · rintro rfl
          rcases List.mem_append.mp hnm with h2 | h2
          · have := (List.nodup_cons.mp hnd2).2
            exact (List.nodup_append.mp this).2.2 b hb2 b h2 rfl
          · rw [List.mem_singleton.mp h2] at hb2
            exact (List.nodup_cons.mp hnd2).1 (by simp [hb2])
        · rintro rfl
          apply he; simp [hb2]
    · refine hl2.congr ?_ ?_
      · intro a ha
        have ha2 : a ∈ l₂ := by
          rw [← hr, List.dropLast_concat] at ha; exact ha
        refine n1 a ?_ ?_
        · rintro rfl
          exact (List.nodup_append.mp (show (head :: l₁ ++ l₂).Nodup from hnd2)).2.2 a hpm a ha2 rfl
        · rintro rfl
          apply he; simp [ha2]
      · intro b hb
        simp only [List.tail_cons] at hb
        have hnd3 : (l₂ ++ [head]).Nodup := by
          have : (l₂ ++ [head]).Perm (head :: l₂) := List.perm_append_singleton _ _
          refine this.nodup_iff.mpr ?_
          have h3 : (head :: l₂).Sublist (head :: (l₁ ++ l₂)) :=
            List.Sublist.cons_cons _ (List.sublist_append_right _ _)
          exact h3.nodup hnd2
        rw [hr] at hnd3
        refine n2 b ?_ ?_
        · rintro rfl
          exact (List.nodup_cons.mp hnd3).1 hb
        · rintro rfl
          have : b ∈ l₂ ++ [head] := by rw [hr]; simp [hb]
          apply he; simp at this ⊢; tauto
  · intro a ha
    have hae : a ≠ e := by rintro rfl; apply ha; simp
    refine ⟨n1 a ?_ hae, n2 a ?_ hae⟩
    · rintro rfl; apply ha; simp at hpm ⊢; tauto
    · rintro rfl; apply ha; simp at hnm ⊢; tauto

/-- traversal -/
theorem visit_linked {h : Heap} {head : Nat} : ∀ {l : List Nat} {p : Ptr} {n : Nat}, head ∉ l → l.length < n →
    (l ++ [head]).head? = p → Linked h (l ++ [head]) → visit h head n p = some l
  | [], p, n, _, hn, hp, _ => by
    obtain ⟨n, rfl⟩ : ∃ m, n = m + 1 := ⟨n - 1, by simp at hn; omega⟩
    simp at hp; subst hp
    simp [visit]
  | a :: l, p, n, hd, hn, hp, hl => by
    obtain ⟨n, rfl⟩ : ∃ m, n = m + 1 := ⟨n - 1, by simp at hn; omega⟩
    simp at hp; subst hp
    have ha : a ≠ head := by rintro rfl; simp at hd
    have h2 : Linked h (l ++ [head]) := by
      cases l with
      | nil => trivial
      | cons b l => exact hl.2
    have h3 : (l ++ [head]).head? = h.next a := by
      cases l with
      | nil => exact hl.1.1.symm
      | cons b l => exact hl.1.1.symm
    rw [visit, if_neg ha, visit_linked (by simp at hd; tauto) (by simp at hn; omega) h3 h2]
    rfl

theorem Linked.tail {h : Heap} {a : Nat} {l : List Nat} (hl : Linked h (a :: l)) : Linked h l := by
  cases l with
  | nil => trivial
  | cons b l => exact hl.2

/-- `list_for_each` visits the elements in order and ends -/
theorem forEach_ring {h : Heap} {head n : Nat} {l : List Nat} (hr : Ring h head l) (hn : l.length < n) :
    forEach h head n = some l :=
  visit_linked (List.nodup_cons.mp hr.1).1 hn hr.next_head.symm hr.2.tail

theorem visit_mono {h : Heap} {head : Nat} : ∀ {n : Nat} {p : Ptr} {l : List Nat}, visit h head n p = some l →
    visit h head (n + 1) p = some l
  | 0, p, l, hv => by simp [visit] at hv
  | n + 1, none, l, hv => by simp [visit] at hv
  | n + 1, some a, l, hv => by
    rw [visit] at hv ⊢
    split
    · next e => rw [if_pos e] at hv; exact hv
    · next e =>
      rw [if_neg e] at hv
      cases hl : visit h head n (h.next a) with
      | none => rw [hl] at hv; cases hv
      | some l' => rw [hl] at hv; rw [visit_mono hl]; exact hv

/-- a ring represents one sequence only -/
theorem Ring.unique {h : Heap} {head : Nat} {l l' : List Nat} (hr : Ring h head l) (hr' : Ring h head l') : l = l' := by
  have h1 := forEach_ring hr (n := max l.length l'.length + 1) (by omega)
  have h2 := forEach_ring hr' (n := max l.length l'.length + 1) (by omega)
  rw [h1] at h2
  exact Option.some.inj h2

/-- the position after the current one -/
def second (src : Nat) (n : Ptr) : List Nat → Ptr
  | [] => n
  | _ :: l => (l ++ [src]).head?

theorem spliceLoop_ring (dest src : Nat) : ∀ (l ld : List Nat) (h : Heap) (i n : Ptr) (fuel : Nat),
    Ring h src l → Ring h dest ld → (∀ a ∈ src :: l, a ∉ dest :: ld) → l.length < fuel →
    i = (l ++ [src]).head? → n = second src n l →
    ∃ h', spliceLoop dest src fuel i n h = some h' ∧ Ring h' src [] ∧ Ring h' dest (ld ++ l) ∧
      SameOff (fun a => a ∈ src :: l ∨ a ∈ dest :: ld) h h'
  | [], ld, h, i, n, fuel, hs, hd, _, hf, hi, _ => by
    obtain ⟨f, rfl⟩ : ∃ m, fuel = m + 1 := ⟨fuel - 1, by simp at hf; omega⟩
    simp at hi
    exact ⟨h, by simp [spliceLoop, hi], hs, by simpa using hd, SameOff.refl _ _⟩
  | a :: l, ld, h, i, n, fuel, hs, hd, hdis, hf, hi, hn => by
    obtain ⟨f, rfl⟩ : ∃ m, fuel = m + 1 := ⟨fuel - 1, by simp at hf; omega⟩
    simp only [List.cons_append, List.head?_cons] at hi
    subst hi
    have hane : a ≠ src := by
      rintro rfl
      have := hs.1
      simp at this
    obtain ⟨h1, e1, r1, _, _, s1⟩ := listDel_ring (l₁ := []) hs
    have hd1 : Ring h1 dest ld := s1.ring hd fun b hb hb' => hdis b hb' hb
    have ha : a ∉ dest :: ld := hdis a (by simp)
    obtain ⟨h2, e2, r2, s2⟩ := listAddTail_ring hd1 ha
    have hrs2 : Ring h2 src l := s2.ring r1 fun b hb hb' => by
      rcases hb' with rfl | hb'
      · have := (List.nodup_cons.mp ((List.Perm.swap b src l).nodup_iff.mp hs.1)).1
        exact this hb
      · exact hdis b (by simp at hb ⊢; tauto) hb'
    obtain ⟨m, hm⟩ : ∃ m, (l ++ [src]).head? = some m := by cases l <;> exact ⟨_, rfl⟩
    have hdis2 : ∀ b ∈ src :: l, b ∉ dest :: (ld ++ [a]) := by
      intro b hb hb'
      have h5 := hdis b (by simp at hb ⊢; tauto)
      simp only [List.mem_cons, List.mem_append, List.not_mem_nil, or_false] at hb' h5
      have : b = a := by tauto
      subst this
      have := (List.nodup_cons.mp ((List.Perm.swap b src l).nodup_iff.mp hs.1)).1
      exact this hb
    have hnext : second src (h2.next m) l = h2.next m := by
      clear hdis hn hf r1 s1 hdis2 hs e1
      cases l with
      | nil => rfl
      | cons b l' =>
        simp at hm; subst hm
        have := hrs2.2.tail
        cases l' with
        | nil => exact this.1.1.symm
        | cons c l' => exact this.1.1.symm
    obtain ⟨h', e3, r3, r4, s3⟩ := spliceLoop_ring dest src l (ld ++ [a]) h2 (some m) (h2.next m) f hrs2 r2 hdis2
      (by simp at hf; omega) hm.symm hnext.symm
    refine ⟨h', ?_, r3, by simpa using r4, ?_⟩
    · simp only [second] at hn
      rw [hn, hm]
      have e2' : treeChain a dest h1 = some h2 := e2
      rw [spliceLoop, if_neg (by simpa using hane)]
      simp [e1, e2', getNext, e3]
    · intro b hb
      simp only [not_or] at hb
      have g1 := s1 b (by simpa using hb.1)
      have g2 := s2 b (by simp only [not_or]; exact ⟨fun e => hb.1 (by simp [e]), hb.2⟩)
      have g3 := s3 b (by
        simp only [not_or, List.mem_cons, List.mem_append, List.not_mem_nil, or_false] at hb ⊢
        tauto)
      exact ⟨g3.1.trans (g2.1.trans g1.1), g3.2.trans (g2.2.trans g1.2)⟩

end ListC
end Bic
