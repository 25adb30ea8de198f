import Verif.Model.Repl
import Verif.Proofs.ListLemmas
/-!
# Collecting identifiers for completion
-/

namespace Bic.Repl

open Bic.ListC

/-- following `next` from `p` one meets `l` and arrives at `stop` -/
def Path (h : Heap) (stop : Nat) : List Nat → Ptr → Prop
  | [], p => p = some stop
  | a :: l, p => p = some a ∧ a ≠ stop ∧ Path h stop l (h.next a)

theorem Path.congr {h h' : Heap} {stop : Nat} : ∀ {l : List Nat} {p : Ptr}, Path h stop l p →
    (∀ a ∈ l, h'.next a = h.next a) → Path h' stop l p
  | [], _, hp, _ => hp
  | a :: l, p, ⟨h1, h2, h3⟩, hs => by
    refine ⟨h1, h2, ?_⟩
    rw [hs a (by simp)]
    exact h3.congr fun b hb => hs b (by simp [hb])

theorem path_of_linked {h : Heap} {stop : Nat} : ∀ {l : List Nat} {a : Nat}, stop ∉ l → Linked h (a :: l ++ [stop]) →
    Path h stop l (h.next a)
  | [], a, _, hl => hl.1.1
  | b :: l, a, hs, hl => by
    obtain ⟨⟨h1, -⟩, h2⟩ := hl
    exact ⟨h1, fun e => hs (by simp [e]), path_of_linked (fun hm => hs (by simp [hm])) h2⟩

theorem Ring.path {h : Heap} {m : Nat} {l : List Nat} (hr : Ring h m l) : Path h m l (h.next m) :=
  path_of_linked (List.nodup_cons.mp hr.1).1 hr.2

/-- the identifiers of the entries `l` whose text starts with `pre` -/
def found (ids : Ids) (pre : Str) (l : List Nat) : List Nat :=
  (l.map ids.left).filter fun t => decide (pre <+: ids.str t)

theorem take_prefix {pre s : Str} : s.take pre.length = pre ↔ pre <+: s := by
  rw [List.prefix_iff_eq_take, eq_comm]

theorem found_cons (ids : Ids) (pre : Str) (a : Nat) (l : List Nat) :
    found ids pre (a :: l) = (if pre <+: ids.str (ids.left a) then [ids.left a] else []) ++ found ids pre l := by
  unfold found
  by_cases h : pre <+: ids.str (ids.left a) <;> simp [h]

theorem matchLoop_spec (ids : Ids) (chain : Nat) (pre : Str) (m : Nat) : ∀ (l : List Nat) (acc : List Nat) (p : Ptr) (n : Nat)
    (h : Heap), Path h m l p → l.length < n → Ring h chain acc → (acc ++ found ids pre l).Nodup → chain ∉ found ids pre l →
    (∀ a ∈ l, a ∉ chain :: (acc ++ found ids pre l)) →
    ∃ h', matchLoop ids chain pre m n p h = some h' ∧ Ring h' chain (acc ++ found ids pre l) ∧
      SameOff (fun a => a ∈ chain :: (acc ++ found ids pre l)) h h' := by
  intro l
  induction l with
  | nil =>
    intro acc p n h hp hn hr _ _ _
    obtain ⟨n, rfl⟩ : ∃ m, n = m + 1 := ⟨n - 1, by simp at hn; omega⟩
    refine ⟨h, ?_, by simpa [found] using hr, SameOff.refl _ _⟩
    rw [show p = some m from hp, matchLoop, if_pos rfl]
  | cons a l ih =>
    intro acc p n h hp hn hr hnd hch hsep
    obtain ⟨n, rfl⟩ : ∃ m, n = m + 1 := ⟨n - 1, by simp at hn; omega⟩
    obtain ⟨rfl, ham, hp⟩ := hp
    rw [matchLoop, if_neg ham]
    rw [found_cons] at hnd hch hsep ⊢
    simp only [take_prefix]
    by_cases hpre : pre <+: ids.str (ids.left a)
    · rw [if_pos hpre] at hnd hch hsep ⊢
      rw [if_pos hpre]
      have e : acc ++ ([ids.left a] ++ found ids pre l) = (acc ++ [ids.left a]) ++ found ids pre l := by simp
      rw [e] at hnd hsep ⊢
      obtain ⟨h1, e1, r1, s1⟩ := listAddTail_ring (new := ids.left a) hr (by
        have h1 := (List.nodup_append.mp hnd).1
        have h2 := (List.nodup_append.mp h1).2.2
        simp only [List.mem_cons, not_or]
        exact ⟨fun e => hch (by simp [e]), fun hm => h2 _ hm _ (by simp) rfl⟩)
      have hin : ∀ b, (b = ids.left a ∨ b ∈ chain :: acc) → b ∈ chain :: ((acc ++ [ids.left a]) ++ found ids pre l) := by
        intro b hb
        simp only [List.mem_cons, List.mem_append, List.not_mem_nil, or_false] at hb ⊢
        tauto
      have s2 : SameOff (fun b => b ∈ chain :: ((acc ++ [ids.left a]) ++ found ids pre l)) h h1 := s1.mono hin
      have hpa : Path h1 m l (h1.next a) := by
        rw [(s2 a (hsep a (by simp))).1]
        exact hp.congr fun b hb => (s2 b (hsep b (by simp [hb]))).1
      obtain ⟨h', e2, r2, s3⟩ := ih (acc ++ [ids.left a]) (h1.next a) n h1 hpa (by simpa using hn) r1 hnd
        (fun hm => hch (by simp [hm])) (fun b hb => hsep b (by simp [hb]))
      refine ⟨h', ?_, r2, s2.trans s3⟩
      show (listAddTail (some (ids.left a)) (some chain) h >>= _) = _
      rw [e1]
      exact e2
    · rw [if_neg hpre] at hnd hch hsep ⊢
      rw [if_neg hpre]
      simp only [List.nil_append] at hnd hch hsep ⊢
      exact ih acc (h.next a) n h hp (by simpa using hn) hr hnd hch fun b hb => hsep b (by simp [hb])

/-- an identifier map: the tree that heads it, and its entries -/
abbrev IdMap := Nat × List Nat

/-- all trees of the maps -/
def cells (L : List IdMap) : List Nat := L.flatMap fun p => p.1 :: p.2

/-- all identifiers of the maps whose text starts with `pre`, in order -/
def foundAll (ids : Ids) (pre : Str) (L : List IdMap) : List Nat := L.flatMap fun p => found ids pre p.2

theorem foldMaps_spec (ids : Ids) (chain : Nat) (pre : Str) (n : Nat) : ∀ (L : List IdMap) (acc : List Nat) (h : Heap),
    (∀ p ∈ L, Ring h p.1 p.2 ∧ p.2.length < n) → Ring h chain acc → (acc ++ foundAll ids pre L).Nodup →
    chain ∉ foundAll ids pre L → (∀ a ∈ cells L, a ∉ chain :: (acc ++ foundAll ids pre L)) →
    ∃ h', (L.map (·.1)).foldlM (fun h m => matchIds ids chain m pre n h) h = some h' ∧
      Ring h' chain (acc ++ foundAll ids pre L) ∧ SameOff (fun a => a ∈ chain :: (acc ++ foundAll ids pre L)) h h' := by
  intro L
  induction L with
  | nil => intro acc h _ hr _ _ _; exact ⟨h, rfl, by simpa [foundAll] using hr, SameOff.refl _ _⟩
  | cons p L ih =>
    intro acc h hL hr hnd hch hsep
    have e : acc ++ foundAll ids pre (p :: L) = (acc ++ found ids pre p.2) ++ foundAll ids pre L := by simp [foundAll]
    rw [e] at hnd hsep ⊢
    have hp := hL p (by simp)
    have hch2 : chain ∉ found ids pre p.2 ∧ chain ∉ foundAll ids pre L := by simpa [foundAll] using hch
    obtain ⟨h1, e1, r1, s1⟩ := matchLoop_spec ids chain pre p.1 p.2 acc (h.next p.1) n h (Ring.path hp.1) hp.2 hr
      (List.nodup_append.mp hnd).1 hch2.1 (fun a ha hm => hsep a (by simp [cells, ha]) (by
        simp only [List.mem_cons, List.mem_append] at hm ⊢; tauto))
    have hin : ∀ b, b ∈ chain :: (acc ++ found ids pre p.2) → b ∈ chain :: ((acc ++ found ids pre p.2) ++ foundAll ids pre L) := by
      intro b hb
      simp only [List.mem_cons, List.mem_append] at hb ⊢
      tauto
    have s2 := s1.mono hin
    obtain ⟨h', e2, r2, s3⟩ := ih (acc ++ found ids pre p.2) h1 (fun q hq => ⟨s2.ring (hL q (by simp [hq])).1 fun a ha =>
        hsep a (by
          simp only [cells, List.flatMap_cons, List.mem_append, List.mem_flatMap]
          exact .inr ⟨q, hq, ha⟩), (hL q (by simp [hq])).2⟩) r1 hnd hch2.2
      (fun a ha => hsep a (by simp only [cells, List.flatMap_cons, List.mem_append] at ha ⊢; exact .inr ha))
    refine ⟨h', ?_, r2, s2.trans s3⟩
    rw [List.map_cons, List.foldlM_cons]
    show (matchLoop ids chain pre p.1 n (h.next p.1) h >>= _) = _
    rw [e1]
    exact e2

/-- Completion of `pre` over the maps `L`: what it offers, and what it changes. -/
theorem complete_spec (ids : Ids) (chain : Nat) (pre : Str) (L : List IdMap) (n : Nat) (h : Heap)
    (hL : ∀ p ∈ L, Ring h p.1 p.2 ∧ p.2.length < n) (hn : (foundAll ids pre L).length < n) (hnd : (foundAll ids pre L).Nodup)
    (hch : chain ∉ foundAll ids pre L) (hcell : chain ∉ cells L) (hsep : ∀ a ∈ cells L, a ∉ foundAll ids pre L) :
    ∃ h', complete ids chain (L.map (·.1)) pre n h = some (h', createMatches pre ((foundAll ids pre L).map ids.str)) ∧
      SameOff (fun a => a = chain ∨ a ∈ foundAll ids pre L) h h' := by
  obtain ⟨h0, e0, r0, s0⟩ := initList_ring chain h
  have hne : ∀ a ∈ cells L, a ≠ chain := fun a ha e => hcell (e ▸ ha)
  obtain ⟨h', e1, r1, s1⟩ := foldMaps_spec ids chain pre n L [] h0 (fun p hp => ⟨s0.ring (hL p hp).1 fun a ha =>
      hne a (by simp only [cells, List.mem_flatMap]; exact ⟨p, hp, ha⟩), (hL p hp).2⟩) r0 (by simpa using hnd) hch
    (fun a ha => by
      simp only [List.nil_append, List.mem_cons, not_or]
      exact ⟨hne a ha, hsep a ha⟩)
  rw [List.nil_append] at r1 s1
  refine ⟨h', ?_, ?_⟩
  · have e2 : findGlobal ids chain (L.map (·.1)) pre n h = some h' := by
      show (initList (some chain) h >>= _) = _
      rw [e0]
      exact e1
    simp only [complete, e2, Option.bind_eq_bind, Option.bind_some, forEach_ring r1 hn]
    rfl
  · refine (s0.mono fun a ha => .inl ha).trans (s1.mono fun a ha => ?_)
    simpa using ha

end Bic.Repl
