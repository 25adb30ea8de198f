import Verif.Proofs.GcMark
import Mathlib.Data.List.Count
import Mathlib.Data.List.Perm.Basic
import Mathlib.Tactic.Ring
/-!
# The allocation table
-/

namespace Bic
namespace Gc

/-- descending -/
def Desc (l : List Nat) : Prop := l.Pairwise (fun a b => b ≤ a)

theorem Desc.get {l : List Nat} (h : Desc l) {i j : Nat} (hij : i ≤ j) {a b : Nat} (ha : l[i]? = some a)
    (hb : l[j]? = some b) : b ≤ a := by
  rcases Nat.eq_or_lt_of_le hij with rfl | hlt
  · rw [ha] at hb; cases hb; exact le_refl _
  · obtain ⟨hi, rfl⟩ := List.getElem?_eq_some_iff.mp ha
    obtain ⟨hj, rfl⟩ := List.getElem?_eq_some_iff.mp hb
    exact (List.pairwise_iff_getElem.mp h) i j hi hj hlt

theorem bsearch_iff {t : List Nat} (ht : Desc t) (key : Nat) : ∀ n l u, u - l < n → u ≤ t.length →
    (bsearch t key n l u = true ↔ ∃ i, l ≤ i ∧ i < u ∧ t[i]? = some key)
  | 0, l, u, h, _ => by omega
  | n + 1, l, u, h, hu => by
    rw [bsearch]
    by_cases hlu : l < u
    · rw [if_pos hlu]
      obtain ⟨p, hp⟩ : ∃ p, t[(l + u) / 2]? = some p := ⟨_, List.getElem?_eq_getElem (by omega)⟩
      simp only [hp]
      split
      · next hk =>
        rw [bsearch_iff ht key n _ _ (by omega) hu]
        constructor
        · rintro ⟨i, h1, h2, h3⟩; exact ⟨i, by omega, h2, h3⟩
        · rintro ⟨i, h1, h2, h3⟩
          refine ⟨i, ?_, h2, h3⟩
          by_contra hc
          have := ht.get (i := i) (j := (l + u) / 2) (by omega) h3 hp
          omega
      · next hk =>
        split
        · next hk2 =>
          rw [bsearch_iff ht key n _ _ (by omega) (by omega)]
          constructor
          · rintro ⟨i, h1, h2, h3⟩; exact ⟨i, h1, by omega, h3⟩
          · rintro ⟨i, h1, h2, h3⟩
            refine ⟨i, h1, ?_, h3⟩
            by_contra hc
            have := ht.get (i := (l + u) / 2) (j := i) (by omega) hp h3
            omega
        · next hk2 =>
          have : p = key := by omega
          subst this
          exact ⟨fun _ => ⟨(l + u) / 2, by omega, by omega, hp⟩, fun _ => rfl⟩
    · rw [if_neg hlu]
      constructor
      · intro h; cases h
      · rintro ⟨i, h1, h2, _⟩; omega

theorem isObject_iff {t : List Nat} (ht : Desc t) (w : Nat) : isObject t w = true ↔ w ∈ t := by
  rw [isObject, bsearch_iff ht w _ _ _ (by omega) (le_refl _), List.mem_iff_getElem?]
  constructor
  · rintro ⟨i, _, _, h⟩; exact ⟨i, h⟩
  · rintro ⟨i, h⟩
    exact ⟨i, by omega, (List.getElem?_eq_some_iff.mp h).1, h⟩

theorem words_map (l : List Nat) : words (l.map some) = some l := by
  induction l with
  | nil => rfl
  | cons a l ih => simp [words, ih]

theorem sortDesc_perm (l : List Nat) : (sortDesc l).Perm l := List.mergeSort_perm _ _

theorem sortDesc_desc (l : List Nat) : Desc (sortDesc l) := by
  have := List.pairwise_mergeSort (le := fun a b : Nat => decide (b ≤ a)) (by intro a b c; simp; omega)
    (by intro a b; simp; omega) l
  exact this.imp (by simp)

/-- a descending list ends with its zeros -/
theorem Desc.split {l : List Nat} (h : Desc l) :
    l = l.filter (· ≠ 0) ++ List.replicate (l.length - (l.filter (· ≠ 0)).length) 0 := by
  induction l with
  | nil => rfl
  | cons a l ih =>
    rw [Desc, List.pairwise_cons] at h
    by_cases ha : a = 0
    · subst ha
      have hall : ∀ b ∈ l, b = 0 := fun b hb => Nat.le_zero.mp (h.1 b hb)
      have hf : l.filter (· ≠ 0) = [] := by
        rw [List.filter_eq_nil_iff]
        intro b hb
        simp [hall b hb]
      have h0 : (0 :: l).filter (· ≠ 0) = [] := by rw [List.filter_cons_of_neg (by simp), hf]
      rw [h0]
      simp only [List.nil_append, List.length_nil, Nat.sub_zero]
      exact List.eq_replicate_iff.mpr ⟨rfl, by simpa using hall⟩
    · rw [List.filter_cons_of_pos (by simpa using ha)]
      have := ih h.2
      simp only [List.cons_append, List.length_cons, Nat.add_sub_add_right]
      rw [← this]

theorem runBack_eq (nz : List Nat) (hnz : ∀ a ∈ nz, a ≠ 0) (hk : 1 ≤ nz.length) (m : Nat)
    (rest : List Cell) : ∀ p, nz.length - 1 ≤ p → p < nz.length + m →
      runBack (nz.map some ++ (List.replicate m (some 0) ++ rest)) p = .ok (nz.length - 1)
  | 0, h1, h2 => by
    have : nz.length - 1 = 0 := by omega
    rw [runBack, this]
  | p + 1, h1, h2 => by
    rw [runBack]
    by_cases hp : p + 1 < nz.length
    · have hp' : p + 1 = nz.length - 1 := by omega
      have : (nz.map some ++ (List.replicate m (some 0) ++ rest))[p + 1]? = some (some nz[p + 1]) := by
        rw [List.getElem?_append_left (by simpa using hp)]
        simp [hp]
      rw [this]
      have h0 := hnz nz[p + 1] (List.getElem_mem hp)
      split
      · next h => cases h
      · next h => cases h
      · next h => simp only [Option.some.injEq] at h; exact absurd h h0
      · rw [hp']
    · have : (nz.map some ++ (List.replicate m (some 0) ++ rest))[p + 1]? = some (some 0) := by
        rw [List.getElem?_append_right (by simp; omega), List.getElem?_append_left (by simp; omega)]
        rw [List.getElem?_replicate, if_pos (by simp; omega)]
      rw [this]
      exact runBack_eq nz hnz hk m rest p (by omega) (by omega)

/-- what `fixup_alloc_array` does to a table with the next entry cleared -/
theorem fixup_eq {s : State} {used : List Nat} {m : Nat} {rest : List Cell}
    (ht : s.tab = some (used.map some ++ (List.replicate (m + 1) (some 0) ++ rest)))
    (hp : s.ptr = used.length) (hne : ∃ a ∈ used, a ≠ 0) :
    ∃ nz : List Nat, nz = (sortDesc used).filter (· ≠ 0) ∧ nz.length ≤ used.length ∧
      fixup s = .ok { s with
        tab := some (nz.map some ++ (List.replicate (used.length - nz.length + (m + 1)) (some 0) ++ rest)), ptr := nz.length } := by
  have hsplit := (sortDesc_desc used).split
  have hlen : (sortDesc used).length = used.length := (sortDesc_perm used).length_eq
  set nz := (sortDesc used).filter (· ≠ 0) with hnz
  have hle : nz.length ≤ used.length := by rw [← hlen]; exact List.length_filter_le _ _
  have hk : 1 ≤ nz.length := by
    obtain ⟨a, ha, h0⟩ := hne
    have : a ∈ nz := List.mem_filter.mpr ⟨(sortDesc_perm used).mem_iff.mpr ha, by simpa using h0⟩
    exact List.length_pos_of_mem this
  refine ⟨nz, rfl, hle, ?_⟩
  rw [fixup, ht]
  simp only
  rw [hp, List.take_append_of_le_length (by simp), List.take_of_length_le (by simp), words_map]
  simp only
  rw [List.drop_append_of_le_length (by simp), List.drop_of_length_le (by simp), List.nil_append]
  have e : (sortDesc used).map some ++ (List.replicate (m + 1) (some 0) ++ rest) =
      nz.map some ++ (List.replicate (used.length - nz.length + (m + 1)) (some 0) ++ rest) := by
    rw [hsplit, hlen, List.map_append, List.append_assoc, List.map_replicate, ← List.append_assoc (List.replicate _ _),
      List.replicate_append_replicate]
  rw [e, runBack_eq nz (fun a ha => by simpa using (List.mem_filter.mp ha).2) hk _ _ _ (by omega) (by omega)]
  simp only [Res.bind_ok, Res.pure_ok]
  rw [show nz.length - 1 + 1 = nz.length by omega]

theorem markStack_sound {fuel : Nat} {t : List Nat} (ht : Desc t) (h0 : ∀ a ∈ t, a ≠ 0) : ∀ {l : List Nat} {h h' : Heap},
    markStack fuel t l h = .ok h' → Marks h h' (fun x => ∃ w ∈ l, w ∈ t ∧ Reach h w x)
  | [], h, h', e => by cases e; exact (Marks.refl h).congr (by simp)
  | w :: l, h, h', e => by
    obtain ⟨h1, e1, e2⟩ := Res.bind_eq_ok e
    by_cases hw : w ∈ t
    · rw [if_pos ((isObject_iff ht w).mpr hw)] at e1
      have m1 := markObject_sound fuel _ _ _ (h0 w hw) e1
      have m2 := markStack_sound ht h0 e2
      refine (m1.trans m2).congr fun x _ => ?_
      simp only [m1.reach, List.mem_cons, exists_eq_or_imp, hw, true_and]
    · rw [if_neg (by rw [isObject_iff ht w]; exact hw)] at e1
      cases e1
      have m2 := markStack_sound ht h0 e2
      refine m2.congr fun x _ => ?_
      simp only [List.mem_cons, exists_eq_or_imp, hw, false_and, false_or]

theorem markStatic_sound {fuel : Nat} {t : List Nat} (ht : Desc t) (h0 : ∀ a ∈ t, a ≠ 0) : ∀ {l : List Nat} {h h' : Heap},
    markStatic fuel t l h = .ok h' → Marks h h' (fun x => ∃ w ∈ l, w ∈ t ∧ Reach h w x)
  | [], h, h', e => by cases e; exact (Marks.refl h).congr (by simp)
  | w :: l, h, h', e => by
    obtain ⟨h1, e1, e2⟩ := Res.bind_eq_ok e
    by_cases hw : w ∈ t
    · rw [if_pos ((isObject_iff ht w).mpr hw)] at e1
      have m1 := markTree_sound (markObject_sound fuel) e1
      have m2 := markStatic_sound ht h0 e2
      refine (m1.trans m2).congr fun x _ => ?_
      simp only [m1.reach, List.mem_cons, exists_eq_or_imp, hw, true_and, ne_eq, h0 w hw, not_false_eq_true]
    · rw [if_neg (by rw [isObject_iff ht w]; exact hw)] at e1
      cases e1
      have m2 := markStatic_sound ht h0 e2
      refine m2.congr fun x _ => ?_
      simp only [List.mem_cons, exists_eq_or_imp, hw, false_and, false_or]

theorem markStack_ends {fuel : Nat} {t : List Nat} {h : Heap} (ht : Desc t) (h0 : ∀ a ∈ t, a ≠ 0) :
    ∀ {l : List Nat} {h1 : Heap} {S}, (∀ a ∈ l, a ∈ t → Ends h fuel a) → Marks h h1 S →
      ∃ h2, markStack fuel t l h1 = .ok h2
  | [], h1, _, _, _ => ⟨h1, rfl⟩
  | w :: l, h1, S, he, m => by
    have he' := fun a (ha : a ∈ l) => he a (by simp [ha])
    rw [markStack]
    by_cases hw : w ∈ t
    · rw [if_pos ((isObject_iff ht w).mpr hw)]
      obtain ⟨h2, e2⟩ := he w (by simp) hw h1 S m
      rw [e2]
      exact markStack_ends ht h0 he' (m.trans (markObject_sound fuel _ _ _ (h0 w hw) e2))
    · rw [if_neg (by rw [isObject_iff ht w]; exact hw)]
      exact markStack_ends ht h0 he' m

theorem markStatic_ends {fuel : Nat} {t : List Nat} {h : Heap} (ht : Desc t) (h0 : ∀ a ∈ t, a ≠ 0)
    (hl : ∀ a, a ∈ t ↔ (h a).isSome) : ∀ {l : List Nat} {h1 : Heap} {S}, (∀ a ∈ l, a ∈ t → Ends h fuel a ∧ ∀ b, Edge h a b → Ends h fuel b) →
      Marks h h1 S → ∃ h2, markStatic fuel t l h1 = .ok h2
  | [], h1, _, _, _ => ⟨h1, rfl⟩
  | w :: l, h1, S, he, m => by
    have he' := fun a (ha : a ∈ l) => he a (by simp [ha])
    rw [markStatic]
    by_cases hw : w ∈ t
    · rw [if_pos ((isObject_iff ht w).mpr hw)]
      obtain ⟨h2, e2, T, m2⟩ := markTree_ends (h := h) (n := fuel) (a := w) (by
        rintro b (rfl | hb) _
        · exact (he _ (by simp) hw).1
        · exact (he _ (by simp) hw).2 _ hb) (fun _ => (hl w).mp hw) m
      rw [e2]
      exact markStatic_ends ht h0 hl he' m2
    · rw [if_neg (by rw [isObject_iff ht w]; exact hw)]
      exact markStatic_ends ht h0 hl he' m

/-- the objects after a sweep over `l` -/
def swept (l : List Nat) (h : Heap) : Heap := fun x =>
  if x ∈ l then
    match h x with
    | none => none
    | some o => if o.reach then some { o with reach := false } else none
  else h x

theorem sweep_eq : ∀ {l : List Nat} {h : Heap}, l.Nodup → (∀ a ∈ l, a ≠ 0 ∧ (h a).isSome) →
    sweep l h = .ok (l.map (fun a => if ((h a).any (·.reach)) then a else 0), swept l h)
  | [], h, _, _ => by
    have : swept [] h = h := by funext x; simp [swept]
    rw [this]; rfl
  | a :: l, h, hn, hl => by
    rw [List.nodup_cons] at hn
    obtain ⟨h0, hs⟩ := hl a (by simp)
    obtain ⟨o, ho⟩ := Option.isSome_iff_exists.mp hs
    rw [sweep, if_neg h0]
    simp only [ho]
    have key : ∀ o', (∀ b ∈ l, ((h.set a o') b) = h b) := by
      intro o' b hb
      have : b ≠ a := by rintro rfl; exact hn.1 hb
      simp [Heap.set, this]
    have hmap : ∀ o', l.map (fun b => if (((h.set a o') b).any (·.reach)) then b else 0) =
        l.map (fun b => if ((h b).any (·.reach)) then b else 0) := by
      intro o'
      refine List.map_congr_left fun b hb => ?_
      rw [key o' b hb]
    have ih := fun o' => sweep_eq (l := l) (h := h.set a o') hn.2 fun b hb => by
      rw [key o' b hb]; exact hl b (by simp [hb])
    have hsw : ∀ o', swept l (h.set a o') = fun x => if x = a then o' else swept l h x := by
      intro o'
      funext x
      by_cases hx : x = a
      · subst hx
        simp [swept, hn.1, Heap.set]
      · by_cases hxl : x ∈ l
        · simp only [swept, if_pos hxl, key o' x hxl, if_neg hx]
        · simp [swept, hxl, Heap.set, hx]
    have hfin : ∀ o', o' = (if o.reach then some { o with reach := false } else none) →
        (fun x => if x = a then o' else swept l h x) = swept (a :: l) h := by
      intro o' eo
      funext x
      by_cases hx : x = a
      · subst hx
        simp [swept, ho, eo]
      · by_cases hxl : x ∈ l
        · simp [swept, hxl, hx]
        · simp [swept, hxl, hx]
    by_cases hr : o.reach
    · rw [if_pos hr, ih, hmap, hsw, hfin _ (by rw [if_pos hr])]
      simp [ho, hr]
    · rw [if_neg hr, ih, hmap, hsw, hfin _ (by rw [if_neg hr])]
      simp [ho, hr]

/-- the table and the objects are in step: the entries in use, then cleared entries,
then entries never written -/
structure Good (s : State) : Prop where
  sz : 10000 ≤ s.sz
  shape : (s.tab = none ∧ s.ptr = 0 ∧ s.counter = 0 ∧ ∀ a, s.heap a = none) ∨
    ∃ (used : List Nat) (z u : Nat),
      s.tab = some (used.map some ++ (List.replicate z (some 0) ++ List.replicate u none)) ∧
      s.ptr = used.length ∧ used.length + z + u = s.sz ∧ (used.filter (· ≠ 0)).Nodup ∧
      (∀ a, (s.heap a).isSome ↔ a ≠ 0 ∧ a ∈ used) ∧ (s.counter ≤ (used.filter (· ≠ 0)).length)
  clean : s.sz = 10000 → ∀ t, s.tab = some t → none ∉ t
  flags : ∀ a o, s.heap a = some o → o.reach = false
  closed : Closed s.heap

/-- the entry after the last one in use exists and is cleared -/
def Slack (s : State) : Prop := ∃ t, s.tab = some t ∧ t[s.ptr]? = some (some 0)

/-- a table with slack, taken apart -/
theorem Good.slack {s : State} (hg : Good s) (hs : Slack s) :
    ∃ (used : List Nat) (m u : Nat),
      s.tab = some (used.map some ++ (List.replicate (m + 1) (some 0) ++ List.replicate u none)) ∧
      s.ptr = used.length ∧ used.length + (m + 1) + u = s.sz ∧ (used.filter (· ≠ 0)).Nodup ∧
      (∀ a, (s.heap a).isSome ↔ a ≠ 0 ∧ a ∈ used) ∧ (s.counter ≤ (used.filter (· ≠ 0)).length) := by
  obtain ⟨t, ht, hp⟩ := hs
  rcases hg.shape with ⟨h1, _⟩ | ⟨used, z, u, h1, h2, h3⟩
  · rw [h1] at ht; cases ht
  · rw [h1] at ht
    cases ht
    rw [h2, List.getElem?_append_right (by simp)] at hp
    cases z with
    | zero => 
      cases u with
      | zero => simp at hp
      | succ u => simp at hp
    | succ m => exact ⟨used, m, u, h1, h2, h3⟩

theorem init_good : Good init := by
  refine ⟨le_refl _, .inl ⟨rfl, rfl, rfl, fun _ => rfl⟩, fun _ t h => (nomatch h), ?_, ?_⟩
  · intro a o h; cases h
  · rintro a b ⟨o, h, _⟩; cases h

theorem reach_live {h : Heap} (hc : Closed h) {a b : Nat} (ha : (h a).isSome) (hr : Reach h a b) : (h b).isSome := by
  induction hr with
  | refl => exact ha
  | tail _ h2 _ => exact hc _ _ h2

open Classical in
/-- A collection: with the table in order and not full and no cycles in reach, it ends, keeps
exactly the objects reachable from the roots, with their contents, and leaves the
table in order. -/
theorem collect_spec {s : State} (hg : Good s) (hp : Slack s) (hne : ∃ a, (s.heap a).isSome)
    (stack statics : List Nat) (ha : ∀ x, Rooted s.heap (stack ++ statics) x → ¬ Relation.TransGen (Edge s.heap) x x) :
    ∃ N s', (∀ fuel ≥ N, collect fuel stack statics s = .ok s') ∧
      (∀ x, s'.heap x = if Rooted s.heap (stack ++ statics) x then s.heap x else none) ∧
      s'.ptr ≤ s.ptr ∧ Slack s' ∧ s'.sz = s.sz ∧ s'.inhibited = s.inhibited ∧ Good { s' with counter := 0 } := by
  obtain ⟨used, m, u, ht, hptr, hlen, hnd, hlive, hcnt⟩ := hg.slack hp
  obtain ⟨nz, hnz, hle, hfix⟩ := fixup_eq ht hptr (by
    obtain ⟨a, ha⟩ := hne
    exact ⟨a, ((hlive a).mp ha).2, ((hlive a).mp ha).1⟩)
  have hdesc : Desc nz := by rw [hnz]; exact (sortDesc_desc used).filter _
  have h0 : ∀ a ∈ nz, a ≠ 0 := by intro a ha; rw [hnz] at ha; simpa using (List.mem_filter.mp ha).2
  have hmem : ∀ a, a ∈ nz ↔ (s.heap a).isSome := by
    intro a
    rw [hlive, hnz, List.mem_filter, (sortDesc_perm used).mem_iff]
    simp [and_comm]
  have hnodup : nz.Nodup := by
    rw [hnz]
    exact ((sortDesc_perm used).filter _).nodup_iff.mpr hnd
  obtain ⟨N, hN⟩ := markObject_ends nz (fun a h => (hmem a).mpr h) (P := Rooted s.heap (stack ++ statics))
    (fun a b ⟨w, h1, h2, h3⟩ he => ⟨w, h1, h2, h3.tail he⟩) ha hg.closed
  -- the heap after marking does not depend on the budget
  have hmark : ∀ fuel ≥ N, ∃ h1 h2, markStack fuel nz stack s.heap = .ok h1 ∧ markStatic fuel nz statics h1 = .ok h2 ∧
      Marks s.heap h2 (Rooted s.heap (stack ++ statics)) := by
    intro fuel hf
    have hends : ∀ a ∈ stack ++ statics, a ∈ nz → Ends s.heap fuel a := fun a hr h =>
      hN fuel hf a ⟨a, hr, (hmem a).mp h, .refl⟩ ((hmem a).mp h)
    have hends2 : ∀ a ∈ stack ++ statics, a ∈ nz → ∀ b, Edge s.heap a b → Ends s.heap fuel b := fun a hr h b he =>
      hN fuel hf b ⟨a, hr, (hmem a).mp h, .single he⟩ (hg.closed _ _ he)
    obtain ⟨h1, e1⟩ := markStack_ends hdesc h0 (l := stack) (fun a h => hends a (by simp [h])) (Marks.refl s.heap)
    have m1 := markStack_sound hdesc h0 e1
    obtain ⟨h2, e2⟩ := markStatic_ends hdesc h0 hmem (l := statics)
      (fun a h ht => ⟨hends a (by simp [h]) ht, hends2 a (by simp [h]) ht⟩) m1
    have m2 := markStatic_sound hdesc h0 e2
    refine ⟨h1, h2, e1, e2, (m1.trans m2).congr fun x _ => ?_⟩
    simp only [m1.reach, Rooted, List.mem_append, hmem]
    constructor
    · rintro (⟨w, a, b, c⟩ | ⟨w, a, b, c⟩)
      · exact ⟨w, .inl a, b, c⟩
      · exact ⟨w, .inr a, b, c⟩
    · rintro ⟨w, a | a, b, c⟩
      · exact .inl ⟨w, a, b, c⟩
      · exact .inr ⟨w, a, b, c⟩
  -- the result
  let h' : Heap := fun x => if Rooted s.heap (stack ++ statics) x then s.heap x else none
  let t' : List Nat := nz.map fun a => if Rooted s.heap (stack ++ statics) a then a else 0
  let s' : State := { s with
    tab := some (t'.map some ++ (List.replicate (used.length - nz.length + (m + 1)) (some 0) ++ List.replicate u none)),
    ptr := nz.length, heap := h' }
  have hval : ∀ fuel ≥ N, collect fuel stack statics s = .ok s' := by
    intro fuel hf
    obtain ⟨h1, h2, e1, e2, m2⟩ := hmark fuel hf
    have hany : ∀ a ∈ nz, (h2 a).any (·.reach) = decide (Rooted s.heap (stack ++ statics) a) := by
      intro a ha
      rcases m2 a with ⟨e, _⟩ | ⟨o, r, e3, e4, e5⟩
      · have := (hmem a).mp ha; rw [e] at this; cases this
      · rw [e4]
        have hr := hg.flags a o e3
        have : r = true ↔ Rooted s.heap (stack ++ statics) a := by rw [e5]; simp [hr]
        simp only [Option.any_some]
        rw [Bool.eq_iff_iff, this, decide_eq_true_iff]
    have hsw : swept nz h2 = h' := by
      funext x
      by_cases hx : x ∈ nz
      · rcases m2 x with ⟨e, _⟩ | ⟨o, r, e3, e4, e5⟩
        · have := (hmem x).mp hx; rw [e] at this; cases this
        · have hr := hg.flags x o e3
          have hiff : r = true ↔ Rooted s.heap (stack ++ statics) x := by rw [e5]; simp [hr]
          simp only [swept, if_pos hx, e4, h']
          by_cases hroot : Rooted s.heap (stack ++ statics) x
          · rw [if_pos (hiff.mpr hroot), if_pos hroot, e3, ← hr]
          · rw [if_neg (fun h => hroot (hiff.mp h)), if_neg hroot]
      · have hn : s.heap x = none := by
          cases e : s.heap x with
          | none => rfl
          | some o => exact absurd ((hmem x).mpr (by rw [e]; rfl)) hx
        have hn2 : h2 x = none := by
          have := m2.isSome x
          rw [hn] at this
          simpa using this
        simp [swept, hx, h', hn, hn2]
    rw [collect, hfix]
    simp only [Res.bind_ok]
    rw [List.take_append_of_le_length (by simp), List.take_of_length_le (by simp), words_map]
    simp only [e1, e2, Res.bind_ok]
    rw [sweep_eq hnodup fun a ha => ⟨h0 a ha, by rw [m2.isSome]; exact (hmem a).mp ha⟩]
    simp only [Res.bind_ok, Res.pure_ok]
    rw [List.drop_append_of_le_length (by simp), List.drop_of_length_le (by simp), List.nil_append, hsw]
    have : (nz.map fun a => if (h2 a).any (·.reach) then a else 0) = t' := by
      refine List.map_congr_left fun a ha => ?_
      rw [hany a ha]
      simp
    rw [this]
  refine ⟨N, s', hval, fun x => rfl, by show nz.length ≤ s.ptr; omega, ⟨_, rfl, ?_⟩, rfl, rfl, ?_⟩
  · show (t'.map some ++ _)[nz.length]? = _
    rw [List.getElem?_append_right (by simp [t']), List.getElem?_append_left (by simp [t'])]
    rw [List.getElem?_replicate, if_pos (by simp [t'])]
  have hfilter : t'.filter (· ≠ 0) = nz.filter (fun a => decide (Rooted s.heap (stack ++ statics) a)) := by
    show (nz.map _).filter _ = _
    clear_value h' 
    clear hnodup hmem hdesc hmark hval hN hfix hnz hle
    induction nz with
    | nil => rfl
    | cons a l ih =>
      have := h0 a (by simp)
      by_cases hr : Rooted s.heap (stack ++ statics) a
      · rw [List.map_cons, if_pos hr, List.filter_cons_of_pos (by simpa using this),
          List.filter_cons_of_pos (by simpa using hr), ih fun b hb => h0 b (by simp [hb])]
      · rw [List.map_cons, if_neg hr, List.filter_cons_of_neg (by simp),
          List.filter_cons_of_neg (by simpa using hr), ih fun b hb => h0 b (by simp [hb])]
  refine ⟨hg.sz, .inr ⟨t', used.length - nz.length + (m + 1), u, rfl, by simp [s', t'], ?_, ?_, ?_, by simp⟩, ?_, ?_, ?_⟩
  · show t'.length + _ + u = s.sz
    simp only [t', List.length_map]
    omega
  · rw [hfilter]; exact hnodup.filter _
  · intro a
    show (h' a).isSome ↔ _
    have hroot : Rooted s.heap (stack ++ statics) a → a ∈ nz := by
      rintro ⟨w, _, hw, hr⟩
      exact (hmem a).mpr (reach_live hg.closed hw hr)
    constructor
    · intro hs
      by_cases hr : Rooted s.heap (stack ++ statics) a
      · exact ⟨h0 a (hroot hr), List.mem_map.mpr ⟨a, hroot hr, by rw [if_pos hr]⟩⟩
      · simp [h', hr] at hs
    · rintro ⟨h1, h2⟩
      obtain ⟨b, hb, e⟩ := List.mem_map.mp h2
      by_cases hr : Rooted s.heap (stack ++ statics) b
      · rw [if_pos hr] at e; subst e
        simp only [h', if_pos hr]
        exact (hmem b).mp hb
      · rw [if_neg hr] at e; exact absurd e.symm h1
  · intro hsz t h
    have h2 : some (t'.map some ++ (List.replicate (used.length - nz.length + (m + 1)) (some 0) ++ List.replicate u none)) =
      some t := h
    cases h2
    have hu : u = 0 := by
      by_contra hu
      have : none ∈ used.map some ++ (List.replicate (m + 1) (some 0) ++ List.replicate u none) := by
        simp [hu]
      exact hg.clean hsz _ ht this
    subst hu
    simp
  · intro a o h
    have h2 : h' a = some o := h
    simp only [h'] at h2
    split at h2
    · exact hg.flags a o h2
    · cases h2
  · rintro a b ⟨o, h1, h2, h3⟩
    have h4 : h' a = some o := h1
    simp only [h'] at h4
    split at h4
    · next hr =>
      have hed : Edge s.heap a b := ⟨o, h4, h2, h3⟩
      have hrb : Rooted s.heap (stack ++ statics) b := by
        obtain ⟨w, q1, q2, q3⟩ := hr
        exact ⟨w, q1, q2, q3.tail hed⟩
      show (h' b).isSome = true
      simp only [h', if_pos hrb]
      exact hg.closed _ _ hed
    · cases h4

theorem markStack_acc {fuel : Nat} {t : List Nat} (ht : Desc t) (h0 : ∀ a ∈ t, a ≠ 0) : ∀ {l : List Nat} {h h' : Heap},
    markStack fuel t l h = .ok h' → ∀ w ∈ l, w ∈ t → Acc (fun b a => Edge h a b) w
  | [], h, h', e => by simp
  | w :: l, h, h', e => by
    obtain ⟨h1, e1, e2⟩ := Res.bind_eq_ok e
    intro x hx hxt
    by_cases hw : w ∈ t
    · rw [if_pos ((isObject_iff ht w).mpr hw)] at e1
      rcases List.mem_cons.mp hx with rfl | hx
      · exact markObject_acc _ _ _ _ (h0 x hw) e1
      · exact acc_edge (markObject_sound fuel _ _ _ (h0 w hw) e1) (markStack_acc ht h0 e2 x hx hxt)
    · rw [if_neg (by rw [isObject_iff ht w]; exact hw)] at e1
      cases e1
      rcases List.mem_cons.mp hx with rfl | hx
      · exact absurd hxt hw
      · exact markStack_acc ht h0 e2 x hx hxt

theorem markStatic_acc {fuel : Nat} {t : List Nat} (ht : Desc t) (h0 : ∀ a ∈ t, a ≠ 0) : ∀ {l : List Nat} {h h' : Heap},
    markStatic fuel t l h = .ok h' → ∀ w ∈ l, w ∈ t → Acc (fun b a => Edge h a b) w
  | [], h, h', e => by simp
  | w :: l, h, h', e => by
    obtain ⟨h1, e1, e2⟩ := Res.bind_eq_ok e
    intro x hx hxt
    by_cases hw : w ∈ t
    · rw [if_pos ((isObject_iff ht w).mpr hw)] at e1
      rcases List.mem_cons.mp hx with rfl | hx
      · exact markTrees_acc (markObject_acc fuel) (l := [x]) (h' := h1) (by rw [markTrees, e1]; rfl) x (by simp) (h0 x hw)
      · exact acc_edge (markTree_sound (markObject_sound fuel) e1) (markStatic_acc ht h0 e2 x hx hxt)
    · rw [if_neg (by rw [isObject_iff ht w]; exact hw)] at e1
      cases e1
      rcases List.mem_cons.mp hx with rfl | hx
      · exact absurd hxt hw
      · exact markStatic_acc ht h0 e2 x hx hxt

/-- a collection that ends found no cycle -/
theorem collect_acyclic {s s' : State} (hg : Good s) (hp : Slack s) {fuel : Nat} {stack statics : List Nat}
    (hc : collect fuel stack statics s = .ok s') (x : Nat) (hx : Rooted s.heap (stack ++ statics) x) :
    ¬ Relation.TransGen (Edge s.heap) x x := by
  obtain ⟨w, hw, hlw, hr⟩ := hx
  obtain ⟨used, m, u, ht, hptr, hlen, hnd, hlive, hcnt⟩ := hg.slack hp
  obtain ⟨nz, hnz, hle, hfix⟩ := fixup_eq ht hptr ⟨w, ((hlive w).mp hlw).2, ((hlive w).mp hlw).1⟩
  have hdesc : Desc nz := by rw [hnz]; exact (sortDesc_desc used).filter _
  have h0 : ∀ a ∈ nz, a ≠ 0 := by intro a ha; rw [hnz] at ha; simpa using (List.mem_filter.mp ha).2
  have hmem : ∀ a, a ∈ nz ↔ (s.heap a).isSome := by
    intro a
    rw [hlive, hnz, List.mem_filter, (sortDesc_perm used).mem_iff]
    simp [and_comm]
  rw [collect, hfix] at hc
  simp only [Res.bind_ok] at hc
  rw [List.take_append_of_le_length (by simp), List.take_of_length_le (by simp), words_map] at hc
  obtain ⟨h1, e1, hc⟩ := Res.bind_eq_ok hc
  obtain ⟨h2, e2, hc⟩ := Res.bind_eq_ok hc
  refine acc_no_cycle ?_ x hr
  rcases List.mem_append.mp hw with hw | hw
  · exact markStack_acc hdesc h0 e1 w hw ((hmem w).mpr hlw)
  · exact acc_edge (markStack_sound hdesc h0 e1) (markStatic_acc hdesc h0 e2 w hw ((hmem w).mpr hlw))

end Gc
end Bic
