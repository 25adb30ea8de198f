import Verif.Proofs.GcTable
/-!
# Histories of the collector
-/

namespace Bic
namespace Gc

/-! ## Marking never touches a freed object -/

theorem Marks.closed {h h' : Heap} {S} (m : Marks h h' S) (hc : Closed h) : Closed h' := by
  intro a b he
  rw [m.isSome]
  exact hc _ _ ((m.edge a b).mp he)

theorem markTree_noub {mo} (hs : Sound mo) (hm : ∀ a h, Closed h → (a ≠ 0 → (h a).isSome) → mo a h ≠ .ub) {a : Nat} {h : Heap}
    (hc : Closed h) (ha : a ≠ 0 → (h a).isSome) : markTree mo a h ≠ .ub := by
  unfold markTree
  by_cases h0 : a = 0
  · rw [if_pos h0]; exact fun h => nomatch h
  · rw [if_neg h0]
    obtain ⟨o, ho⟩ := Option.isSome_iff_exists.mp (ha h0)
    simp only [ho]
    by_cases hf : o.file = 0
    · rw [if_pos hf]; exact hm a h hc ha
    · rw [if_neg hf]
      have h1 := hm o.file h hc fun _ => hc a _ ⟨o, ho, hf, .inl rfl⟩
      cases e : mo o.file h with
      | ub => exact absurd e h1
      | fuel => exact fun h => nomatch h
      | ok h' =>
        have m := hs _ _ _ hf e
        exact hm a h' (m.closed hc) fun _ => by rw [m.isSome]; exact ha h0

theorem markTrees_noub {mo} (hs : Sound mo) (hm : ∀ a h, Closed h → (a ≠ 0 → (h a).isSome) → mo a h ≠ .ub) :
    ∀ {l : List Nat} {h : Heap}, Closed h → (∀ a ∈ l, a ≠ 0 → (h a).isSome) → markTrees mo l h ≠ .ub
  | [], h, _, _ => fun h => nomatch h
  | a :: l, h, hc, hl => by
    have h1 := markTree_noub hs hm hc (hl a (by simp))
    rw [markTrees]
    cases e : markTree mo a h with
    | ub => exact absurd e h1
    | fuel => exact fun h => nomatch h
    | ok h' =>
      have m := markTree_sound hs e
      exact markTrees_noub hs hm (m.closed hc) fun b hb h0 => by rw [m.isSome]; exact hl b (by simp [hb]) h0

theorem markObject_noub : ∀ n a h, Closed h → (a ≠ 0 → (h a).isSome) → markObject n a h ≠ .ub
  | 0, _, _, _, _ => fun h => nomatch h
  | n + 1, a, h, hc, ha => by
    rw [markObject]
    by_cases h0 : a = 0
    · rw [if_pos h0]; exact fun h => nomatch h
    · rw [if_neg h0]
      obtain ⟨o, ho⟩ := Option.isSome_iff_exists.mp (ha h0)
      simp only [ho]
      have m0 := Marks.set ho
      have hlive : ∀ b, b ≠ 0 → (b = o.file ∨ b ∈ o.kids) → (h b).isSome := fun b hb he => hc a b ⟨o, ho, hb, he⟩
      have h1 := markTree_noub (markObject_sound n) (markObject_noub n) (m0.closed hc) (a := o.file)
        fun h0 => by rw [m0.isSome]; exact hlive _ h0 (.inl rfl)
      cases e : markTree (markObject n) o.file (h.set a (some { o with reach := true })) with
      | ub => exact absurd e h1
      | fuel => exact fun h => nomatch h
      | ok h' =>
        have m1 := markTree_sound (markObject_sound n) e
        exact markTrees_noub (markObject_sound n) (markObject_noub n) (m1.closed (m0.closed hc))
          fun b hb h0 => by rw [m1.isSome, m0.isSome]; exact hlive _ h0 (.inr hb)

theorem markStack_noub {fuel : Nat} {t : List Nat} (ht : Desc t) (h0 : ∀ a ∈ t, a ≠ 0) : ∀ {l : List Nat} {h : Heap},
    Closed h → (∀ a ∈ t, (h a).isSome) → markStack fuel t l h ≠ .ub
  | [], h, _, _ => fun h => nomatch h
  | w :: l, h, hc, hl => by
    rw [markStack]
    by_cases hw : w ∈ t
    · rw [if_pos ((isObject_iff ht w).mpr hw)]
      have h1 := markObject_noub fuel w h hc fun _ => hl w hw
      cases e : markObject fuel w h with
      | ub => exact absurd e h1
      | fuel => exact fun h => nomatch h
      | ok h' =>
        have m := markObject_sound fuel _ _ _ (h0 w hw) e
        exact markStack_noub ht h0 (m.closed hc) fun a ha => by rw [m.isSome]; exact hl a ha
    · rw [if_neg (by rw [isObject_iff ht w]; exact hw)]
      exact markStack_noub ht h0 hc hl

theorem markStatic_noub {fuel : Nat} {t : List Nat} (ht : Desc t) (h0 : ∀ a ∈ t, a ≠ 0) : ∀ {l : List Nat} {h : Heap},
    Closed h → (∀ a ∈ t, (h a).isSome) → markStatic fuel t l h ≠ .ub
  | [], h, _, _ => fun h => nomatch h
  | w :: l, h, hc, hl => by
    rw [markStatic]
    by_cases hw : w ∈ t
    · rw [if_pos ((isObject_iff ht w).mpr hw)]
      have h1 := markTree_noub (markObject_sound fuel) (markObject_noub fuel) hc fun _ => hl w hw
      cases e : markTree (markObject fuel) w h with
      | ub => exact absurd e h1
      | fuel => exact fun h => nomatch h
      | ok h' =>
        have m := markTree_sound (markObject_sound fuel) e
        exact markStatic_noub ht h0 (m.closed hc) fun a ha => by rw [m.isSome]; exact hl a ha
    · rw [if_neg (by rw [isObject_iff ht w]; exact hw)]
      exact markStatic_noub ht h0 hc hl

/-- with slack in the table, a collection does nothing undefined -/
theorem collect_noub {s : State} (hg : Good s) (hs : Slack s) (hne : ∃ a, (s.heap a).isSome) (fuel : Nat)
    (stack statics : List Nat) : collect fuel stack statics s ≠ .ub := by
  obtain ⟨used, m, u, ht, hptr, hlen, hnd, hlive, hcnt⟩ := hg.slack hs
  obtain ⟨nz, hnz, hle, hfix⟩ := fixup_eq ht hptr (by
    obtain ⟨a, ha⟩ := hne
    exact ⟨a, ((hlive a).mp ha).2, ((hlive a).mp ha).1⟩)
  have hdesc : Desc nz := by rw [hnz]; exact (sortDesc_desc used).filter _
  have h0 : ∀ a ∈ nz, a ≠ 0 := by intro a ha; rw [hnz] at ha; simpa using (List.mem_filter.mp ha).2
  have hmem : ∀ a, a ∈ nz ↔ (s.heap a).isSome := by
    intro a
    rw [hlive, hnz, List.mem_filter, (sortDesc_perm used).mem_iff]
    simp [and_comm]
  have hnodup : nz.Nodup := by
    rw [hnz]
    exact ((sortDesc_perm used).filter _).nodup_iff.mpr hnd
  rw [collect, hfix]
  simp only [Res.bind_ok]
  rw [List.take_append_of_le_length (by simp), List.take_of_length_le (by simp), words_map]
  simp only
  have n1 := markStack_noub (fuel := fuel) hdesc h0 (l := stack) hg.closed fun a ha => (hmem a).mp ha
  cases e1 : markStack fuel nz stack s.heap with
  | ub => exact absurd e1 n1
  | fuel => exact fun h => nomatch h
  | ok h1 =>
    have m1 := markStack_sound hdesc h0 e1
    have l1 : ∀ a ∈ nz, (h1 a).isSome := fun a ha => by rw [m1.isSome]; exact (hmem a).mp ha
    have n2 := markStatic_noub (fuel := fuel) hdesc h0 (l := statics) (m1.closed hg.closed) l1
    simp only [Res.bind_ok]
    cases e2 : markStatic fuel nz statics h1 with
    | ub => exact absurd e2 n2
    | fuel => exact fun h => nomatch h
    | ok h2 =>
      have m2 := markStatic_sound hdesc h0 e2
      simp only [Res.bind_ok]
      rw [sweep_eq hnodup fun a ha => ⟨h0 a ha, by rw [m2.isSome]; exact l1 a ha⟩]
      exact fun h => nomatch h

/-- without slack, it reads outside the table or an entry never written -/
theorem fixup_ub {s : State} (hg : Good s) (hs : ¬ Slack s) (hne : ∃ a, (s.heap a).isSome) : fixup s = .ub := by
  rw [fixup]
  rcases hg.shape with ⟨h1, _⟩ | ⟨used, z, u, h1, h2, h3, _, hlive, _⟩
  · rw [h1]
  · have hu : used ≠ [] := by
      rintro rfl
      obtain ⟨a, ha⟩ := hne
      simpa using ((hlive a).mp ha).2
    have hu := List.length_pos_of_ne_nil hu
    rw [h1]
    simp only
    rw [h2, List.take_append_of_le_length (by simp), List.take_of_length_le (by simp), words_map]
    simp only
    rw [List.drop_append_of_le_length (by simp), List.drop_of_length_le (by simp), List.nil_append]
    have hz : z = 0 := by
      by_contra hz
      refine hs ⟨_, h1, ?_⟩
      rw [h2, List.getElem?_append_right (by simp), List.getElem?_append_left (by simp; omega)]
      rw [List.getElem?_replicate, if_pos (by simp; omega)]
    subst hz
    have hl : (sortDesc used).length = used.length := (sortDesc_perm used).length_eq
    obtain ⟨p, hp⟩ : ∃ p, used.length = p + 1 := ⟨used.length - 1, by omega⟩
    rw [hp, runBack]
    have : ((sortDesc used).map some ++ (List.replicate 0 (some 0) ++ List.replicate u none))[p + 1]? =
        if 0 < u then some none else none := by
      rw [List.getElem?_append_right (by simp; omega)]
      simp only [List.replicate_zero, List.nil_append, List.length_map]
      rw [List.getElem?_replicate, show p + 1 - (sortDesc used).length = 0 by omega]
    rw [this]
    split <;> rename_i hh <;> by_cases hu : 0 < u <;> simp_all

theorem collect_ub {s : State} (hg : Good s) (hs : ¬ Slack s) (hne : ∃ a, (s.heap a).isSome) (fuel : Nat) (stack statics : List Nat) :
    collect fuel stack statics s = .ub := by
  rw [collect, fixup_ub hg hs hne]; rfl

/-! ## One event -/

theorem markTree_mono {n a : Nat} {h h' : Heap} (e : markTree (markObject n) a h = .ok h') :
    markTree (markObject (n + 1)) a h = .ok h' := by
  unfold markTree at e ⊢
  split at e
  · next h0 => rw [if_pos h0]; exact e
  · next h0 =>
    rw [if_neg h0]
    cases ho : h a with
    | none => rw [ho] at e; cases e
    | some o =>
      simp only [ho] at e ⊢
      obtain ⟨h1, e1, e2⟩ := Res.bind_eq_ok e
      split at e1
      · next hf => cases e1; rw [if_pos hf]; exact markObject_mono e2
      · next hf => rw [if_neg hf, markObject_mono e1]; exact markObject_mono e2

theorem markStack_mono {n : Nat} {t : List Nat} : ∀ {l : List Nat} {h h' : Heap},
    markStack n t l h = .ok h' → markStack (n + 1) t l h = .ok h'
  | [], _, _, e => e
  | w :: l, h, h', e => by
    obtain ⟨h1, e1, e2⟩ := Res.bind_eq_ok e
    rw [markStack]
    split at e1
    · next hw => rw [if_pos hw, markObject_mono e1]; exact markStack_mono e2
    · next hw => rw [if_neg hw]; cases e1; exact markStack_mono e2

theorem markStatic_mono {n : Nat} {t : List Nat} : ∀ {l : List Nat} {h h' : Heap},
    markStatic n t l h = .ok h' → markStatic (n + 1) t l h = .ok h'
  | [], _, _, e => e
  | w :: l, h, h', e => by
    obtain ⟨h1, e1, e2⟩ := Res.bind_eq_ok e
    rw [markStatic]
    split at e1
    · next hw => rw [if_pos hw, markTree_mono e1]; exact markStatic_mono e2
    · next hw => rw [if_neg hw]; cases e1; exact markStatic_mono e2

theorem collect_mono {n : Nat} {stack statics : List Nat} {s s' : State} (e : collect n stack statics s = .ok s') :
    collect (n + 1) stack statics s = .ok s' := by
  obtain ⟨s1, e1, e⟩ := Res.bind_eq_ok e
  rw [collect, e1]
  simp only [Res.bind_ok]
  cases ht : s1.tab with
  | none => rw [ht] at e; cases e
  | some tab =>
    simp only [ht] at e ⊢
    cases hw : words (tab.take s1.ptr) with
    | none => rw [hw] at e; cases e
    | some t =>
      simp only [hw] at e ⊢
      obtain ⟨h1, e2, e⟩ := Res.bind_eq_ok e
      obtain ⟨h2, e3, e⟩ := Res.bind_eq_ok e
      rw [markStack_mono e2]
      simp only [Res.bind_ok]
      rw [markStatic_mono e3]
      exact e

theorem collect_le {n m : Nat} (hn : n ≤ m) {stack statics : List Nat} {s s' : State}
    (e : collect n stack statics s = .ok s') : collect m stack statics s = .ok s' := by
  induction hn with
  | refl => exact e
  | step _ ih => exact collect_mono ih

/-- what a collection that ends does -/
theorem collect_ok {s s' : State} (hg : Good s) (hne : ∃ a, (s.heap a).isSome) {fuel : Nat}
    {stack statics : List Nat} (e : collect fuel stack statics s = .ok s') :
    (∀ x, (Rooted s.heap (stack ++ statics) x → s'.heap x = s.heap x) ∧
      (¬ Rooted s.heap (stack ++ statics) x → s'.heap x = none)) ∧
      s'.ptr ≤ s.ptr ∧ Slack s' ∧ s'.sz = s.sz ∧ s'.inhibited = s.inhibited ∧ Good { s' with counter := 0 } := by
  have hs : Slack s := by
    by_contra hs
    rw [collect_ub hg hs hne] at e; cases e
  obtain ⟨N, s2, h1, h2, h3⟩ := collect_spec hg hs hne stack statics fun x hx => collect_acyclic hg hs e x hx
  have e1 := h1 (max N fuel) (by omega)
  rw [collect_le (by omega) e] at e1
  cases e1
  refine ⟨fun x => ⟨fun hr => ?_, fun hr => ?_⟩, h3⟩
  · rw [h2, if_pos hr]
  · rw [h2, if_neg hr]

/-- a counter above the threshold means there are objects -/
theorem Good.nonempty {s : State} (hg : Good s) (hc : 0 < s.counter) : ∃ a, (s.heap a).isSome := by
  rcases hg.shape with ⟨_, _, h, _⟩ | ⟨used, z, u, _, _, _, _, hlive, hcnt⟩
  · omega
  · obtain ⟨a, ha⟩ := List.exists_mem_of_length_pos (l := used.filter (· ≠ 0)) (by omega)
    refine ⟨a, (hlive a).mpr ?_⟩
    rw [List.mem_filter] at ha
    exact ⟨by simpa using ha.2, ha.1⟩

/-- the counter plays no part in a collection -/
theorem collect_counter (fuel : Nat) (stack statics : List Nat) (s : State) (k : Nat) :
    collect fuel stack statics { s with counter := k } =
      (collect fuel stack statics s >>= fun s' => .ok { s' with counter := k }) := by
  have hf : fixup { s with counter := k } = (fixup s >>= fun s' => .ok { s' with counter := k }) := by
    unfold fixup
    cases s.tab with
    | none => rfl
    | some tab =>
      simp only
      cases words (tab.take s.ptr) with
      | none => rfl
      | some used =>
        simp only
        cases runBack ((sortDesc used).map some ++ tab.drop s.ptr) s.ptr <;> rfl
  rw [collect, hf, collect]
  cases fixup s with
  | ub => rfl
  | fuel => rfl
  | ok s1 =>
    simp only [Res.bind_ok]
    cases s1.tab with
    | none => rfl
    | some tab =>
      simp only
      cases words (tab.take s1.ptr) with
      | none => rfl
      | some t =>
        simp only
        cases markStack fuel t stack s1.heap with
        | ub => rfl
        | fuel => rfl
        | ok h1 =>
          simp only [Res.bind_ok]
          cases markStatic fuel t statics h1 with
          | ub => rfl
          | fuel => rfl
          | ok h2 =>
            simp only [Res.bind_ok]
            cases sweep t h2 <;> rfl

/-- an allocation that collects: the collection, then the new object -/
theorem maybeCollect_due {s : State} (hi : s.inhibited = 0) (hc : 2000 < s.counter) (fuel : Nat) (stack statics : List Nat) :
    maybeCollect fuel stack statics s = (collect fuel stack statics s >>= fun s' => .ok { s' with counter := 0 }) := by
  rw [maybeCollect, if_neg (by simpa using hi)]
  simp only
  rw [if_pos hc, collect_counter]
  cases collect fuel stack statics s <;> rfl

theorem trackNewAlloc_heap {a : Nat} {s s' : State} (he : trackNewAlloc a s = .ok s') :
    s'.heap = s.heap ∧ s'.inhibited = s.inhibited := by
  have key : ∀ s1 : State, (match s1.tab with
      | none => Res.ub
      | some tab =>
        if s1.ptr < tab.length then .ok { s1 with tab := some (tab.set s1.ptr (some a)), ptr := s1.ptr + 1 } else .ub) = .ok s' →
      s'.heap = s1.heap ∧ s'.inhibited = s1.inhibited := by
    intro s1 e
    split at e
    · cases e
    · split at e
      · cases e; exact ⟨rfl, rfl⟩
      · cases e
  obtain ⟨h1, h2⟩ := key _ he
  rw [h1, h2]
  constructor
  · split <;> split <;> rfl
  · split <;> split <;> rfl

theorem set_next (used : List Nat) (z u a : Nat) (h : 1 ≤ z + u) : ∃ z' u', z' + u' + 1 = z + u ∧ (u = 0 → u' = 0) ∧
    (used.map some ++ (List.replicate z (some 0) ++ List.replicate u none)).set used.length (some a) =
      (used ++ [a]).map some ++ (List.replicate z' (some 0) ++ List.replicate u' none) := by
  cases z with
  | succ z =>
    refine ⟨z, u, by omega, id, ?_⟩
    rw [List.set_append_right _ _ (by simp)]
    simp [List.replicate_succ]
  | zero =>
    cases u with
    | zero => omega
    | succ u =>
      refine ⟨0, u, by omega, fun h => by omega, ?_⟩
      rw [List.set_append_right _ _ (by simp)]
      simp [List.replicate_succ]

/-- the table after `track_new_alloc` -/
theorem trackNewAlloc_good {s : State} (hg : Good s) {a : Nat} (h0 : a ≠ 0) (hfresh : s.heap a = none) {c : Nat}
    (hc : c ≤ s.counter + 1) :
    ∃ s', trackNewAlloc a { s with heap := s.heap.set a (some Obj.fresh), counter := c } = .ok s' ∧ Good s' ∧
      s'.heap = s.heap.set a (some Obj.fresh) ∧ s'.inhibited = s.inhibited ∧ s'.counter = c ∧ s'.ptr = s.ptr + 1 ∧
      (s.ptr < s.sz → s'.sz = s.sz) := by
  -- the table before the entry is written
  obtain ⟨used, z, u, tab, sz, hext, htab, hptr, hsum, hroom, hsz, hkeep, hclean, hnd, hlive, hcnt⟩ :
      ∃ (used : List Nat) (z u : Nat) (tab : List Cell) (sz : Nat),
        (let s0 := { s with heap := s.heap.set a (some Obj.fresh), counter := c }
         let s1 := if s0.tab.isNone then { s0 with tab := some (List.replicate s0.sz (some 0)) } else s0
         (if s1.ptr ≥ s1.sz then extendAllocs s1 else s1) = { s0 with tab := some tab, sz := sz }) ∧
        tab = used.map some ++ (List.replicate z (some 0) ++ List.replicate u none) ∧
        s.ptr = used.length ∧ used.length + z + u = sz ∧ 1 ≤ z + u ∧ 10000 ≤ sz ∧ (s.ptr < s.sz → sz = s.sz) ∧
        (sz = 10000 → u = 0) ∧ (used.filter (· ≠ 0)).Nodup ∧
        (∀ a, (s.heap a).isSome ↔ a ≠ 0 ∧ a ∈ used) ∧ (s.counter ≤ (used.filter (· ≠ 0)).length) := by
    have h1 := hg.sz
    rcases hg.shape with ⟨ht, hp, hcn, hh⟩ | ⟨used, z, u, ht, hp, hsum, hnd, hlive, hcnt⟩
    · refine ⟨[], s.sz, 0, List.replicate s.sz (some 0), s.sz, ?_, by simp, by simpa using hp, by simp, by omega, h1,
        fun _ => rfl, fun _ => rfl, by simp, ?_, by omega⟩
      · simp only [ht, Option.isNone_none, if_true, hp]
        rw [if_neg (by omega)]
      · intro x; simp [hh x]
    · by_cases hfull : s.ptr ≥ s.sz
      · have hz : z = 0 := by omega
        have hu : u = 0 := by omega
        subst hz hu
        refine ⟨used, s.sz / 8, s.sz - s.sz / 8, _, s.sz * 2, ?_, rfl, hp, by omega, by omega, by omega, by omega,
          by omega, hnd, hlive, hcnt⟩
        simp only [ht, Option.isNone_some, Bool.false_eq_true, if_false]
        rw [if_pos hfull]
        simp [extendAllocs]
      · refine ⟨used, z, u, _, s.sz, ?_, rfl, hp, hsum, by omega, h1, fun _ => rfl, ?_, hnd, hlive, hcnt⟩
        · simp only [ht, Option.isNone_some, Bool.false_eq_true, if_false]
          rw [if_neg hfull]
        · intro hsz
          by_contra hu
          exact hg.clean hsz _ ht (by simp [hu])
  obtain ⟨z', u', hz, hu, hset⟩ := set_next used z u a hroom
  have hlen : s.ptr < tab.length := by rw [htab]; simp; omega
  refine ⟨{ s with heap := s.heap.set a (some Obj.fresh), counter := c, tab := some (tab.set s.ptr (some a)),
                   sz := sz, ptr := s.ptr + 1 }, ?_, ⟨hsz, .inr ⟨used ++ [a], z', u', ?_, ?_, ?_, ?_, ?_, ?_⟩, ?_, ?_, ?_⟩, rfl,
    rfl, rfl, rfl, hkeep⟩
  · rw [trackNewAlloc]
    simp only at hext ⊢
    rw [hext]
    simp only
    rw [if_pos hlen]
  · show some _ = some _
    rw [htab, hptr, hset]
  · simp [hptr]
  · simp; omega
  · rw [List.filter_append, List.filter_cons_of_pos (by simpa using h0)]
    refine List.nodup_append.mpr ⟨hnd, by simp, ?_⟩
    intro x hx y hy
    have : y = a := by simpa using hy
    subst this
    rintro rfl
    have := (hlive x).mpr ⟨h0, (List.mem_filter.mp hx).1⟩
    rw [hfresh] at this; cases this
  · intro x
    show ((s.heap.set a (some Obj.fresh)) x).isSome ↔ _
    by_cases hx : x = a
    · subst hx; simp [Heap.set, h0]
    · simp only [Heap.set, if_neg hx]
      rw [hlive]
      simp [hx]
  · rw [List.filter_append, List.filter_cons_of_pos (by simpa using h0)]
    simp
    simp at hcnt
    omega
  · intro h t e
    have : some (tab.set s.ptr (some a)) = some t := e
    cases this
    rw [htab, hptr, hset, hu (hclean h)]
    simp
  · intro x o hx
    have hx' : (s.heap.set a (some Obj.fresh)) x = some o := hx
    by_cases hxa : x = a
    · simp only [Heap.set, if_pos hxa] at hx'
      cases hx'; rfl
    · simp only [Heap.set, if_neg hxa] at hx'
      exact hg.flags x o hx'
  · rintro x y ⟨o, hx, hy0, hy⟩
    have hx' : (s.heap.set a (some Obj.fresh)) x = some o := hx
    show ((s.heap.set a (some Obj.fresh)) y).isSome
    by_cases hxa : x = a
    · simp only [Heap.set, if_pos hxa] at hx'
      cases hx'
      rcases hy with hy | hy
      · exact absurd hy hy0
      · exact absurd hy (by simp [Obj.fresh])
    · simp only [Heap.set, if_neg hxa] at hx'
      have := hg.closed x y ⟨o, hx', hy0, hy⟩
      by_cases hya : y = a
      · subst hya; simp [Heap.set]
      · simp only [Heap.set, if_neg hya]; exact this

end Gc
end Bic
