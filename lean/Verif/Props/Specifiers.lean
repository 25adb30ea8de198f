import Verif.Proofs.SpecBits
import Verif.Proofs.Decl
import Verif.Proofs.Witness
import Verif.Spec.CSpecifiers
/-!
# C21: declaration specifiers
-/

namespace Bic
open CSpec

/-- the tree for a type -/
def Stands : Node → CSpec.Name → Prop
  | .void, .void => True
  | .ctype t none, .arith t' => t = t'
  | .ctype t none, .bool => t.size = 1
  | _, _ => False

/-- `l` is resolved as C says: to the type it denotes, or not at all -/
def ResolvedRight (l : List Kw) : Prop :=
  ∀ (s : St) (specs : TId) (ts : List TId), s.nodes specs = some (.chain ts) → KwChain s.nodes ts l →
    (∀ T, Gives l T → ∃ nd, Stands nd T ∧ resolveSpecs (some specs) s = .ok (some s.next) (addNode s nd)) ∧
    ((¬ ∃ T, Gives l T) → ∃ msg, resolveSpecs (some specs) s = .stop (.die msg) s)

/-- C21 in full: all lists of type specifiers and storage class specifiers -/
def C21_statement : Prop :=
  ∀ l : List Kw, (∀ k ∈ l, typeSpecifier k = true ∨ storageClass k = true) → ResolvedRight l

theorem resolveKws_filter (bs : Nat) (l : List Kw) :
    resolveKws bs l = resolveBits clangTable clangKeys bs (l.filter fun k => !ignoredSpec k) := by
  induction l generalizing bs with
  | nil => rfl
  | cons k ks ih =>
    rw [resolveKws]
    cases h : ignoredSpec k
    · simp only [Bool.false_eq_true, if_false, ih]
      rw [List.filter_cons_of_pos (by simp [h])]
      rfl
    · simp only [if_true, ih]
      rw [List.filter_cons_of_neg (by simp [h])]

theorem resolveSpecsLoop_die {s : St} {l ks} (h : KwChain s.nodes l ks) (bs : Nat) (hn : resolveKws bs ks = none) :
    ∃ msg, resolveSpecsLoop bs l s = .stop (.die msg) s := by
  induction h generalizing bs with
  | nil =>
    simp only [resolveSpecsLoop, resolveKws] at hn ⊢
    rw [hn]
    exact ⟨_, rfl⟩
  | @cons t ts k ks h1 h2 ih =>
    rw [resolveKws] at hn
    by_cases hi : ignoredSpec k = true
    · rw [if_pos hi] at hn
      obtain ⟨m, hm⟩ := ih bs hn
      exact ⟨m, by simp [resolveSpecsLoop, node_apply h1, hi, hm]⟩
    · rw [if_neg hi] at hn
      cases ha : addSpec clangTable clangKeys bs k with
      | none => exact ⟨"bad specifier", by simp [resolveSpecsLoop, node_apply h1, hi, ha, die, stop]⟩
      | some bs' =>
        rw [ha] at hn
        obtain ⟨m, hm⟩ := ih bs' hn
        exact ⟨m, by simp [resolveSpecsLoop, node_apply h1, hi, ha, hm]⟩

/-- C's name of a result of the resolver -/
def nameOf : SpecTy → CSpec.Name
  | .void => .void
  | .c t => .arith t

theorem rows_sound : ∀ r ∈ clangTable.rows, (r.1, nameOf r.2) ∈ multisets := by decide

theorem rows_complete : ∀ m ∈ multisets, m.2 ≠ .bool → ∃ r ∈ clangTable.rows, r.1 = m.1 ∧ nameOf r.2 = m.2 := by
  decide

/-- no two rows are reorderings of each other -/
theorem multisets_inj : ∀ a ∈ multisets, ∀ b ∈ multisets, a.1.Perm b.1 → a.2 = b.2 := by
  decide +kernel

theorem denotes_unique {l : List Kw} {T T' : CSpec.Name} (h : Gives l T) (h' : Gives l T') : T = T' := by
  obtain ⟨m, h1, h2⟩ := h
  obtain ⟨m', h3, h4⟩ := h'
  exact multisets_inj _ h1 _ h3 (h2.trans h4.symm)

/-- the specifiers the program knows: no `auto`, `register`, `_Bool` -/
def Known (k : Kw) : Prop :=
  (typeSpecifier k = true ∨ storageClass k = true) ∧ k ≠ .auto ∧ k ≠ .register ∧ k ≠ .bool

instance (k : Kw) : Decidable (Known k) := by unfold Known; infer_instance

/-- C21 for all lists, of any length, of type specifiers and storage class specifiers
other than `auto`, `register` and `_Bool`. -/
theorem C21_specifiers_partial (l : List Kw) (h : ∀ k ∈ l, Known k) : ResolvedRight l := by
  intro s specs ts hs hk
  have hfilter : (l.filter fun k => !ignoredSpec k) = l.filter fun k => !storageClass k := by
    refine List.filter_congr fun k hk => ?_
    have := h k hk
    revert this
    cases k <;> decide
  have hkeys : ∀ k ∈ l.filter (fun k => !storageClass k), k ∈ clangKeys := by
    intro k hk
    rw [List.mem_filter] at hk
    have h1 := h k hk.1
    have h2 := hk.2
    revert h1 h2
    cases k <;> decide
  have hr : resolveKws 0 l = (clangTable.rows.find? fun r => decide (r.1.Perm (l.filter fun k => !storageClass k))).map (·.2) := by
    rw [resolveKws_filter, hfilter]
    exact SpecBits.resolveBits_zero (by decide) (by decide) _ hkeys
  have hloop := resolveSpecsLoop_kw hk 0
  constructor
  · intro T hT
    obtain ⟨m, hm, hp⟩ := hT
    have hb : T ≠ .bool := by
      rintro rfl
      have : m = [.bool] := by
        revert hm
        simp [multisets]
      subst this
      have h1 : Kw.bool ∈ l.filter (fun k => !storageClass k) := hp.mem_iff.mp (by simp)
      have h2 := hkeys _ h1
      revert h2
      decide
    obtain ⟨r, hr1, hr2, hr3⟩ := rows_complete _ hm hb
    have hsome : (clangTable.rows.find? fun r => decide (r.1.Perm (l.filter fun k => !storageClass k))) ≠ none := by
      rw [Ne, List.find?_eq_none]
      intro hall
      refine hall r hr1 (decide_eq_true ?_)
      rw [hr2]; exact hp
    obtain ⟨q, hq⟩ := Option.ne_none_iff_exists'.mp hsome
    have hq1 := List.mem_of_find?_eq_some hq
    have hq2 : q.1.Perm (l.filter fun k => !storageClass k) := by simpa using List.find?_some hq
    have : nameOf q.2 = T := multisets_inj _ (rows_sound q hq1) _ hm (hq2.trans hp.symm)
    rw [hq] at hr
    rw [hr] at hloop
    rcases hq' : q.2 with c | _
    · refine ⟨.ctype c none, ?_, ?_⟩
      · rw [← this, hq']; exact (rfl : c = c)
      · simp only [Option.map_some, hq'] at hloop
        simp [resolveSpecs, chainElems_apply hs, hloop]
    · refine ⟨.void, ?_, ?_⟩
      · rw [← this, hq']; trivial
      · simp only [Option.map_some, hq'] at hloop
        simp [resolveSpecs, chainElems_apply hs, hloop]
  · intro hno
    have hn : resolveKws 0 l = none := by
      rw [hr]
      cases hf : clangTable.rows.find? fun r => decide (r.1.Perm (l.filter fun k => !storageClass k)) with
      | none => rfl
      | some q =>
        exact absurd ⟨nameOf q.2, q.1, rows_sound q (List.mem_of_find?_eq_some hf),
          by simpa using List.find?_some hf⟩ hno
    obtain ⟨msg, hm⟩ := resolveSpecsLoop_die hk 0 hn
    exact ⟨msg, by simp [resolveSpecs, chainElems_apply hs, hm]⟩

/-- the order does not matter -/
theorem C21_order_partial (l l' : List Kw) (hl : ∀ k ∈ l, Known k) (hp : l.Perm l') (s s' : St) (c c' : TId)
    (ts ts' : List TId) (hc : s.nodes c = some (.chain ts)) (hk : KwChain s.nodes ts l)
    (hc' : s'.nodes c' = some (.chain ts')) (hk' : KwChain s'.nodes ts' l') :
    (∃ nd, resolveSpecs (some c) s = .ok (some s.next) (addNode s nd) ∧
       resolveSpecs (some c') s' = .ok (some s'.next) (addNode s' nd)) ∨
    ((∃ m, resolveSpecs (some c) s = .stop (.die m) s) ∧ ∃ m, resolveSpecs (some c') s' = .stop (.die m) s') := by
  have hl' : ∀ k ∈ l', Known k := fun k h => hl k (hp.mem_iff.mpr h)
  obtain ⟨h1, h2⟩ := C21_specifiers_partial l hl s c ts hc hk
  obtain ⟨h3, h4⟩ := C21_specifiers_partial l' hl' s' c' ts' hc' hk'
  have hden : ∀ T, Gives l T ↔ Gives l' T := by
    intro T
    unfold Gives
    have := hp.filter fun k => !storageClass k
    exact ⟨fun ⟨m, a, b⟩ => ⟨m, a, b.trans this⟩, fun ⟨m, a, b⟩ => ⟨m, a, b.trans this.symm⟩⟩
  by_cases hT : ∃ T, Gives l T
  · obtain ⟨T, hT⟩ := hT
    have hT' := (hden T).mp hT
    obtain ⟨nd, a1, a2⟩ := h1 T hT
    obtain ⟨nd', b1, b2⟩ := h3 T hT'
    have hb : T ≠ .bool := by
      rintro rfl
      obtain ⟨m, hm, hmp⟩ := hT
      have : m = [.bool] := by
        revert hm
        simp [multisets]
      subst this
      have h5 : Kw.bool ∈ l := (List.mem_filter.mp (hmp.mem_iff.mp (List.mem_singleton.mpr rfl))).1
      exact (hl _ h5).2.2.2 rfl
    have : nd = nd' := by
      cases T with
      | bool => exact absurd rfl hb
      | void =>
        cases nd <;> simp [Stands] at a1
        · cases nd' <;> simp [Stands] at b1
          rfl
      | arith t =>
        cases nd <;> simp [Stands] at a1
        next c e =>
        cases e <;> simp at a1
        cases nd' <;> simp [Stands] at b1
        next c' e' =>
        cases e' <;> simp at b1
        rw [a1, b1]
    subst this
    exact .inl ⟨nd, a2, b2⟩
  · exact .inr ⟨h2 hT, h4 fun ⟨T, h⟩ => hT ⟨T, (hden T).mpr h⟩⟩

/-- `long unsigned static int long` -/
def stSpec : St :=
  stOf [.kw .long, .kw .unsigned, .kw .static, .kw .int, .kw .long, .chain [0, 1, 2, 3, 4]] [] []

theorem stSpec_kws : KwChain stSpec.nodes [0, 1, 2, 3, 4] [.long, .unsigned, .static, .int, .long] :=
  .cons rfl (.cons rfl (.cons rfl (.cons rfl (.cons rfl .nil))))

example : ∃ nd, Stands nd (.arith .ulonglong) ∧
    resolveSpecs (some 5) stSpec = .ok (some 6) (addNode stSpec nd) :=
  (C21_specifiers_partial [.long, .unsigned, .static, .int, .long] (by decide) stSpec 5 _ rfl stSpec_kws).1 _
    ⟨[.unsigned, .long, .long, .int], by simp [multisets], by decide⟩

/-- `static register int` -/
def stRegister : St := stOf [.kw .register, .kw .int, .chain [0, 1]] [] []

/-- C21 in full is false: `register int` and `_Bool` are rejected. -/
theorem C21_refuted : ¬ C21_statement := by
  intro h
  obtain ⟨nd, _, h2⟩ := (h [.register, .int] (by decide) stRegister 2 [0, 1] rfl
    (.cons rfl (.cons rfl .nil))).1 (.arith .int) ⟨[.int], by simp [multisets], by decide⟩
  have : isOk (resolveSpecs (some 2) stRegister) = false := by decide +kernel
  rw [h2] at this
  cases this

/-- `_Bool` denotes a type in C and none here -/
theorem C21_bool_rejected : ¬ ResolvedRight [.bool] := by
  intro h
  obtain ⟨nd, _, h2⟩ := (h (stOf [.kw .bool, .chain [0]] [] []) 1 [0] rfl (.cons rfl .nil)).1 .bool
    ⟨[.bool], by simp [multisets], by decide⟩
  have : isOk (resolveSpecs (some 1) (stOf [.kw .bool, .chain [0]] [] [])) = false := by decide +kernel
  rw [h2] at this
  cases this

end Bic
