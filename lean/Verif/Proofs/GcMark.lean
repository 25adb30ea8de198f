import Verif.Spec.Reach
import Mathlib.Data.List.Nodup
import Mathlib.Data.Finite.Defs
import Mathlib.Order.WellFounded
import Mathlib.Data.Fintype.WithTopBot
import Mathlib.Order.Fin.Basic
/-!
# Marking
-/

namespace Bic
namespace Gc

@[simp] theorem Res.bind_ok {α β} (a : α) (f : α → Res β) : ((Res.ok a) >>= f) = f a := rfl
@[simp] theorem Res.bind_ub {α β} (f : α → Res β) : ((Res.ub : Res α) >>= f) = .ub := rfl
@[simp] theorem Res.bind_fuel {α β} (f : α → Res β) : ((Res.fuel : Res α) >>= f) = .fuel := rfl
@[simp] theorem Res.pure_ok {α} (a : α) : (pure a : Res α) = .ok a := rfl

theorem Res.bind_eq_ok {α β} {m : Res α} {f : α → Res β} {b : β} (h : (m >>= f) = .ok b) :
    ∃ a, m = .ok a ∧ f a = .ok b := by
  cases m with
  | ok a => exact ⟨a, rfl, h⟩
  | ub => cases h
  | fuel => cases h

/-- `h'` is `h` with the objects of `S` marked -/
def Marks (h h' : Heap) (S : Nat → Prop) : Prop :=
  ∀ x, (h x = none ∧ h' x = none) ∨
    ∃ o r, h x = some o ∧ h' x = some { o with reach := r } ∧ (r = true ↔ o.reach = true ∨ S x)

theorem Marks.refl (h : Heap) : Marks h h fun _ => False := by
  intro x
  cases e : h x with
  | none => exact .inl ⟨rfl, rfl⟩
  | some o => exact .inr ⟨o, o.reach, rfl, rfl, by simp⟩

theorem Marks.trans {h h1 h2 : Heap} {S T : Nat → Prop} (a : Marks h h1 S) (b : Marks h1 h2 T) :
    Marks h h2 fun x => S x ∨ T x := by
  intro x
  rcases a x with ⟨e1, e2⟩ | ⟨o, r, e1, e2, e3⟩
  · rcases b x with ⟨e4, e5⟩ | ⟨o', r', e4, _⟩
    · exact .inl ⟨e1, e5⟩
    · rw [e2] at e4; cases e4
  · rcases b x with ⟨e4, e5⟩ | ⟨o', r', e4, e5, e6⟩
    · rw [e2] at e4; cases e4
    · rw [e2] at e4
      cases e4
      refine .inr ⟨o, r', e1, e5, ?_⟩
      rw [e6]
      simp only [e3]
      tauto

theorem Marks.congr {h h' : Heap} {S T : Nat → Prop} (a : Marks h h' S) (hst : ∀ x, (h x).isSome → (S x ↔ T x)) :
    Marks h h' T := by
  intro x
  rcases a x with h1 | ⟨o, r, e1, e2, e3⟩
  · exact .inl h1
  · refine .inr ⟨o, r, e1, e2, ?_⟩
    rw [e3, hst x (by rw [e1]; rfl)]

theorem Marks.edge {h h' : Heap} {S : Nat → Prop} (a : Marks h h' S) (x y : Nat) : Edge h' x y ↔ Edge h x y := by
  unfold Edge
  rcases a x with ⟨e1, e2⟩ | ⟨o, r, e1, e2, _⟩
  · simp [e1, e2]
  · constructor
    · rintro ⟨o', h1, h2⟩
      rw [e2] at h1; cases h1
      exact ⟨o, e1, h2⟩
    · rintro ⟨o', h1, h2⟩
      rw [e1] at h1; cases h1
      exact ⟨_, e2, h2⟩

theorem Marks.reach {h h' : Heap} {S : Nat → Prop} (a : Marks h h' S) (x y : Nat) : Reach h' x y ↔ Reach h x y := by
  have : Edge h' = Edge h := by funext x y; exact propext (a.edge x y)
  unfold Reach
  rw [this]

theorem Marks.isSome {h h' : Heap} {S : Nat → Prop} (a : Marks h h' S) (x : Nat) : (h' x).isSome = (h x).isSome := by
  rcases a x with ⟨e1, e2⟩ | ⟨o, r, e1, e2, _⟩ <;> simp [e1, e2]

theorem Marks.set {h : Heap} {a : Nat} {o : Obj} (e : h a = some o) :
    Marks h (h.set a (some { o with reach := true })) (fun x => x = a) := by
  intro x
  by_cases hx : x = a
  · subst hx
    exact .inr ⟨o, true, e, by simp [Heap.set], by simp⟩
  · cases e' : h x with
    | none => exact .inl ⟨rfl, by simp [Heap.set, hx, e']⟩
    | some o' => exact .inr ⟨o', o'.reach, rfl, by simp [Heap.set, hx, e'], by simp [hx]⟩

/-- `mo` marks what is reachable -/
def Sound (mo : Nat → Heap → Res Heap) : Prop :=
  ∀ a h h', a ≠ 0 → mo a h = .ok h' → Marks h h' (Reach h a)

theorem markTree_sound {mo} (hm : Sound mo) {a : Nat} {h h' : Heap} (e : markTree mo a h = .ok h') :
    Marks h h' (fun x => a ≠ 0 ∧ Reach h a x) := by
  unfold markTree at e
  split at e
  · next h0 => cases e; exact (Marks.refl h).congr (by simp [h0])
  · next h0 =>
    cases ho : h a with
    | none => rw [ho] at e; cases e
    | some o =>
      rw [ho] at e
      obtain ⟨h1, e1, e2⟩ := Res.bind_eq_ok e
      split at e1
      · cases e1
        exact (hm a h h' h0 e2).congr (by simp [h0])
      · next hf =>
        have m1 := hm _ _ _ hf e1
        have m2 := hm _ _ _ h0 e2
        refine (m1.trans m2).congr fun x _ => ?_
        rw [m1.reach]
        have hedge : Edge h a o.file := ⟨o, ho, hf, .inl rfl⟩
        constructor
        · rintro (h3 | h3)
          · exact ⟨h0, Relation.ReflTransGen.head hedge h3⟩
          · exact ⟨h0, h3⟩
        · rintro ⟨_, h3⟩
          exact .inr h3

theorem markTrees_sound {mo} (hm : Sound mo) : ∀ {l : List Nat} {h h' : Heap}, markTrees mo l h = .ok h' →
    Marks h h' (fun x => ∃ a ∈ l, a ≠ 0 ∧ Reach h a x)
  | [], h, h', e => by
    cases e
    exact (Marks.refl h).congr (by simp)
  | a :: l, h, h', e => by
    obtain ⟨h1, e1, e2⟩ := Res.bind_eq_ok e
    have m1 := markTree_sound hm e1
    have m2 := markTrees_sound hm e2
    refine (m1.trans m2).congr fun x _ => ?_
    simp only [m1.reach, List.mem_cons, exists_eq_or_imp]

theorem markObject_sound : ∀ n, Sound (markObject n)
  | 0 => by intro a h h' _ e; cases e
  | n + 1 => by
    intro a h h' h0 e
    rw [markObject, if_neg h0] at e
    cases ho : h a with
    | none => rw [ho] at e; cases e
    | some o =>
      rw [ho] at e
      obtain ⟨h1, e1, e2⟩ := Res.bind_eq_ok e
      have m0 := Marks.set ho
      have m1 := markTree_sound (markObject_sound n) e1
      have m2 := markTrees_sound (markObject_sound n) e2
      refine ((m0.trans m1).trans m2).congr fun x _ => ?_
      simp only [(m0.trans m1).reach, m0.reach]
      constructor
      · rintro ((rfl | ⟨h3, h4⟩) | ⟨b, hb, h3, h4⟩)
        · exact .refl
        · exact Relation.ReflTransGen.head ⟨o, ho, h3, .inl rfl⟩ h4
        · exact Relation.ReflTransGen.head ⟨o, ho, h3, .inr hb⟩ h4
      · intro h3
        rcases Relation.ReflTransGen.cases_head h3 with rfl | ⟨b, ⟨o', ho', hb0, hb⟩, h4⟩
        · exact .inl (.inl rfl)
        · rw [ho] at ho'; cases ho'
          rcases hb with rfl | hb
          · exact .inl (.inr ⟨hb0, h4⟩)
          · exact .inr ⟨b, hb, hb0, h4⟩

/-- marking ends normally from `a`, in every heap with the same graph -/
def Ends (h : Heap) (n a : Nat) : Prop := ∀ h1 S, Marks h h1 S → ∃ h2, markObject n a h1 = .ok h2

theorem markTree_ends {h : Heap} {n a : Nat} (he : ∀ b, (b = a ∨ Edge h a b) → b ≠ 0 → Ends h n b)
    (hl : a ≠ 0 → (h a).isSome) {h1 : Heap} {S} (m : Marks h h1 S) :
    ∃ h2, markTree (markObject n) a h1 = .ok h2 ∧ ∃ T, Marks h h2 T := by
  unfold markTree
  by_cases h0 : a = 0
  · rw [if_pos h0]; exact ⟨h1, rfl, _, m⟩
  · rw [if_neg h0]
    obtain ⟨o, ho⟩ := Option.isSome_iff_exists.mp ((m.isSome a).trans (hl h0))
    have ho1 : ∃ o', h a = some o' ∧ o'.file = o.file := by
      rcases m a with ⟨_, e⟩ | ⟨o', r, e1, e2, _⟩
      · rw [ho] at e; cases e
      · rw [ho] at e2; cases e2; exact ⟨o', e1, rfl⟩
    obtain ⟨o', ho', hfile⟩ := ho1
    simp only [ho]
    by_cases hf : o.file = 0
    · rw [if_pos hf]
      obtain ⟨h2, e2⟩ := he a (.inl rfl) h0 h1 _ m
      exact ⟨h2, e2, _, m.trans (markObject_sound n _ _ _ h0 e2)⟩
    · rw [if_neg hf]
      obtain ⟨h2, e2⟩ := he o.file (.inr ⟨o', ho', hf, .inl hfile.symm⟩) hf h1 _ m
      have m2 := m.trans (markObject_sound n _ _ _ hf e2)
      obtain ⟨h3, e3⟩ := he a (.inl rfl) h0 h2 _ m2
      exact ⟨h3, by rw [e2]; exact e3, _, m2.trans (markObject_sound n _ _ _ h0 e3)⟩

theorem markTrees_ends {h : Heap} {n : Nat} : ∀ {l : List Nat},
    (∀ a ∈ l, a ≠ 0 → (h a).isSome ∧ ∀ b, (b = a ∨ Edge h a b) → b ≠ 0 → Ends h n b) →
    ∀ {h1 S}, Marks h h1 S → ∃ h2, markTrees (markObject n) l h1 = .ok h2
  | [], _, h1, _, _ => ⟨h1, rfl⟩
  | a :: l, he, h1, S, m => by
    obtain ⟨h2, e2, T, m2⟩ : ∃ h2, markTree (markObject n) a h1 = .ok h2 ∧ ∃ T, Marks h h2 T := by
      by_cases h0 : a = 0
      · subst h0; exact ⟨h1, rfl, _, m⟩
      · exact markTree_ends (he a (by simp) h0).2 (fun h0 => (he a (by simp) h0).1) m
    obtain ⟨h3, e3⟩ := markTrees_ends (l := l) (fun b hb => he b (by simp [hb])) m2
    exact ⟨h3, by rw [markTrees, e2]; exact e3⟩

theorem markObject_ends_step {h : Heap} (hc : Closed h) {n a : Nat} (ha : (h a).isSome)
    (he : ∀ b, Edge h a b → Ends h n b ∧ ∀ c, Edge h b c → Ends h n c) : Ends h (n + 1) a := by
  intro h1 S m
  rw [markObject]
  by_cases h0 : a = 0
  · rw [if_pos h0]; exact ⟨_, rfl⟩
  rw [if_neg h0]
  obtain ⟨o, ho⟩ := Option.isSome_iff_exists.mp ((m.isSome a).trans ha)
  obtain ⟨o', ho', hfile, hkids⟩ : ∃ o', h a = some o' ∧ o'.file = o.file ∧ o'.kids = o.kids := by
    rcases m a with ⟨_, e⟩ | ⟨o', r, e1, e2, _⟩
    · rw [ho] at e; cases e
    · rw [ho] at e2; cases e2; exact ⟨o', e1, rfl, rfl⟩
  simp only [ho]
  have m1 := m.trans (Marks.set ho)
  have hb : ∀ b, b ≠ 0 → (b = o.file ∨ b ∈ o.kids) → Edge h a b := fun b h1 h2 =>
    ⟨o', ho', h1, by rw [hfile, hkids]; exact h2⟩
  obtain ⟨h2, e2, T, m2⟩ : ∃ h2, markTree (markObject n) o.file (h1.set a (some { o with reach := true })) = .ok h2 ∧
      ∃ T, Marks h h2 T := by
    by_cases hf : o.file = 0
    · exact ⟨_, by rw [markTree, if_pos hf], _, m1⟩
    · have hed := hb _ hf (.inl rfl)
      refine markTree_ends ?_ (fun _ => hc _ _ hed) m1
      rintro b (rfl | hbe) _
      · exact (he _ hed).1
      · exact (he _ hed).2 b hbe
  obtain ⟨h3, e3⟩ := markTrees_ends (h := h) (n := n) (l := o.kids) (fun k hk hk0 => by
    have hed := hb k hk0 (.inr hk)
    refine ⟨hc _ _ hed, ?_⟩
    rintro b (rfl | hbe) _
    · exact (he _ hed).1
    · exact (he _ hed).2 b hbe) m2
  exact ⟨h3, by rw [e2]; exact e3⟩

/-- a part of a finite graph closed under following references and without cycles is
well founded -/
theorem acc_of_acyclic {h : Heap} (L : List Nat) (hL : ∀ a, (h a).isSome → a ∈ L) {P : Nat → Prop}
    (hP : ∀ a b, P a → Edge h a b → P b) (ha : ∀ a, P a → ¬ Relation.TransGen (Edge h) a a) (a : Nat) (hPa : P a) :
    Acc (fun b a => Edge h a b) a := by
  let r : {a // a ∈ L ∧ P a} → {a // a ∈ L ∧ P a} → Prop := fun b a => Relation.TransGen (Edge h) a.1 b.1
  have : IsTrans _ r := ⟨fun _ _ _ h1 h2 => h2.trans h1⟩
  have : Std.Irrefl r := ⟨fun a h => ha _ a.2.2 h⟩
  have : Finite {a // a ∈ L ∧ P a} :=
    Finite.of_injective (fun x : {a // a ∈ L ∧ P a} => (⟨x.1, x.2.1⟩ : {a // a ∈ L}))
      (fun x y e => Subtype.ext (by simpa using e))
  have wf : WellFounded r := Finite.wellFounded_of_trans_of_irrefl r
  have live : ∀ x : {a // a ∈ L ∧ P a}, Acc (fun b a => Edge h a b) x.1 := by
    intro x
    induction x using wf.induction with
    | _ x ih =>
      refine ⟨_, fun y hy => ?_⟩
      by_cases hyL : y ∈ L
      · exact ih ⟨y, hyL, hP _ _ x.2.2 hy⟩ (.single hy)
      · refine ⟨_, fun z hz => ?_⟩
        obtain ⟨o, ho, _⟩ := hz
        exact absurd (hL y (by rw [ho]; rfl)) hyL
  by_cases hL' : a ∈ L
  · exact live ⟨a, hL', hPa⟩
  · refine ⟨_, fun z hz => ?_⟩
    obtain ⟨o, ho, _⟩ := hz
    exact absurd (hL a (by rw [ho]; rfl)) hL'

theorem markObject_mono : ∀ {n a : Nat} {h h' : Heap}, markObject n a h = .ok h' → markObject (n + 1) a h = .ok h' := by
  intro n
  induction n with
  | zero => intro a h h' e; cases e
  | succ n ih =>
    have tree : ∀ {a : Nat} {h h' : Heap}, markTree (markObject n) a h = .ok h' → markTree (markObject (n + 1)) a h = .ok h' := by
      intro a h h' e
      unfold markTree at e ⊢
      split at e
      · next h0 => rw [if_pos h0]; exact e
      · next h0 =>
        rw [if_neg h0]
        cases ho : h a with
        | none => rw [ho] at e; cases e
        | some o =>
          simp only [ho] at e ⊢
          obtain ⟨h1, e1, e2⟩ := Res.bind_eq_ok e
          split at e1
          · next hf => cases e1; rw [if_pos hf]; exact ih e2
          · next hf => rw [if_neg hf, ih e1]; exact ih e2
    have trees : ∀ {l : List Nat} {h h' : Heap}, markTrees (markObject n) l h = .ok h' → markTrees (markObject (n + 1)) l h = .ok h' := by
      intro l
      induction l with
      | nil => intro h h' e; exact e
      | cons a l ihl =>
        intro h h' e
        obtain ⟨h1, e1, e2⟩ := Res.bind_eq_ok e
        rw [markTrees, tree e1]
        exact ihl e2
    intro a h h' e
    rw [markObject] at e ⊢
    split at e
    · next h0 => rw [if_pos h0]; exact e
    · next h0 =>
      rw [if_neg h0]
      cases ho : h a with
      | none => rw [ho] at e; cases e
      | some o =>
        simp only [ho] at e ⊢
        obtain ⟨h1, e1, e2⟩ := Res.bind_eq_ok e
        rw [tree e1]
        exact trees e2

theorem Ends.mono {h : Heap} {n m a : Nat} (hn : n ≤ m) (he : Ends h n a) : Ends h m a := by
  induction hn with
  | refl => exact he
  | step _ ih =>
    intro h1 S m
    obtain ⟨h2, e⟩ := ih h1 S m
    exact ⟨h2, markObject_mono e⟩

/-- in a closed heap with finitely many objects marking ends in a part without cycles -/
theorem markObject_ends {h : Heap} (L : List Nat) (hL : ∀ a, (h a).isSome → a ∈ L) {P : Nat → Prop}
    (hP : ∀ a b, P a → Edge h a b → P b) (ha : ∀ a, P a → ¬ Relation.TransGen (Edge h) a a) (hc : Closed h) :
    ∃ N, ∀ n ≥ N, ∀ a, P a → (h a).isSome → Ends h n a := by
  have each : ∀ a, P a → (h a).isSome → ∃ N, Ends h N a ∧ ∀ b, Edge h a b → Ends h N b := by
    intro a hPa
    induction acc_of_acyclic L hL hP ha a hPa with
    | intro a _ ih =>
      intro hs
      replace ih := fun b hb => ih b hb (hP _ _ hPa hb)
      -- a bound for all successors
      have hb : ∀ l : List Nat, ∃ N, ∀ b ∈ l, Edge h a b → Ends h N b ∧ ∀ c, Edge h b c → Ends h N c := by
        intro l
        induction l with
        | nil => exact ⟨0, by simp⟩
        | cons b l ihl =>
          obtain ⟨N, hN⟩ := ihl
          by_cases hed : Edge h a b
          · obtain ⟨M, h1, h2⟩ := ih b hed (hc _ _ hed)
            refine ⟨max N M, ?_⟩
            intro c hcl hce
            rcases List.mem_cons.mp hcl with rfl | hcl
            · exact ⟨h1.mono (by omega), fun d hd => (h2 d hd).mono (by omega)⟩
            · have := hN c hcl hce
              exact ⟨this.1.mono (by omega), fun d hd => (this.2 d hd).mono (by omega)⟩
          · refine ⟨N, ?_⟩
            intro c hcl hce
            rcases List.mem_cons.mp hcl with rfl | hcl
            · exact absurd hce hed
            · exact hN c hcl hce
      obtain ⟨N, hN⟩ := hb L
      have hN' : ∀ b, Edge h a b → Ends h N b ∧ ∀ c, Edge h b c → Ends h N c :=
        fun b hed => hN b (hL b (hc _ _ hed)) hed
      exact ⟨N + 1, markObject_ends_step hc hs hN', fun b hed => (hN' b hed).1.mono (by omega)⟩
  have all : ∀ l : List Nat, ∃ N, ∀ a ∈ l, P a → (h a).isSome → Ends h N a := by
    intro l
    induction l with
    | nil => exact ⟨0, by simp⟩
    | cons b l ihl =>
      obtain ⟨N, hN⟩ := ihl
      by_cases hs : P b ∧ (h b).isSome
      · obtain ⟨M, h1, _⟩ := each b hs.1 hs.2
        refine ⟨max N M, ?_⟩
        intro c hcl hcP hcs
        rcases List.mem_cons.mp hcl with rfl | hcl
        · exact h1.mono (by omega)
        · exact (hN c hcl hcP hcs).mono (by omega)
      · refine ⟨N, ?_⟩
        intro c hcl hcP hcs
        rcases List.mem_cons.mp hcl with rfl | hcl
        · exact absurd ⟨hcP, hcs⟩ hs
        · exact hN c hcl hcP hcs
  obtain ⟨N, hN⟩ := all L
  exact ⟨N, fun n hn a hPa hs => (hN a (hL a hs) hPa hs).mono hn⟩

theorem acc_edge {h h1 : Heap} {S} (m : Marks h h1 S) {a : Nat} (ha : Acc (fun b a => Edge h1 a b) a) :
    Acc (fun b a => Edge h a b) a := by
  induction ha with
  | intro a _ ih => exact ⟨_, fun b hb => ih b ((m.edge a b).mpr hb)⟩

theorem markTrees_acc {n : Nat} (ihn : ∀ a h h', a ≠ 0 → markObject n a h = .ok h' → Acc (fun b a => Edge h a b) a) :
    ∀ {l : List Nat} {h h' : Heap}, markTrees (markObject n) l h = .ok h' → ∀ b ∈ l, b ≠ 0 → Acc (fun b a => Edge h a b) b
  | [], _, _, _ => by simp
  | a :: l, h, h', e => by
    obtain ⟨h1, e1, e2⟩ := Res.bind_eq_ok e
    have m1 := markTree_sound (markObject_sound n) e1
    intro b hb hb0
    rcases List.mem_cons.mp hb with rfl | hb
    · rw [markTree, if_neg hb0] at e1
      cases ho : h b with
      | none => rw [ho] at e1; cases e1
      | some o =>
        simp only [ho] at e1
        obtain ⟨h2, e3, e4⟩ := Res.bind_eq_ok e1
        by_cases hf : o.file = 0
        · rw [if_pos hf] at e3; cases e3
          exact ihn _ _ _ hb0 e4
        · rw [if_neg hf] at e3
          exact acc_edge (markObject_sound n _ _ _ hf e3) (ihn _ _ _ hb0 e4)
    · exact acc_edge m1 (markTrees_acc ihn e2 b hb hb0)

/-- if marking from an object ends, no infinite path starts there -/
theorem markObject_acc : ∀ n a h h', a ≠ 0 → markObject n a h = .ok h' → Acc (fun b a => Edge h a b) a
  | 0, _, _, _, _, e => by cases e
  | n + 1, a, h, h', h0, e => by
    rw [markObject, if_neg h0] at e
    cases ho : h a with
    | none => rw [ho] at e; cases e
    | some o =>
      simp only [ho] at e
      obtain ⟨h1, e1, e2⟩ := Res.bind_eq_ok e
      have m0 := Marks.set ho
      have m1 := markTree_sound (markObject_sound n) e1
      refine ⟨_, fun b hb => ?_⟩
      obtain ⟨o', ho', hb0, hb⟩ := hb
      rw [ho] at ho'; cases ho'
      rcases hb with rfl | hb
      · have : markTrees (markObject n) [o.file] (h.set a (some { o with reach := true })) = .ok h1 := by
          rw [markTrees, e1]; rfl
        exact acc_edge m0 (markTrees_acc (markObject_acc n) this _ (by simp) hb0)
      · exact acc_edge m0 (acc_edge m1 (markTrees_acc (markObject_acc n) e2 b hb hb0))

theorem acc_irrefl {α : Type} {r : α → α → Prop} {a : α} (ha : Acc r a) : ¬ r a a := by
  induction ha with
  | intro a _ ih => exact fun h => ih a h h

theorem acc_no_cycle {h : Heap} {a : Nat} (ha : Acc (fun b a => Edge h a b) a) :
    ∀ b, Reach h a b → ¬ Relation.TransGen (Edge h) b b := by
  intro b hr
  have hb : Acc (fun b a => Edge h a b) b := by
    induction hr with
    | refl => exact ha
    | tail _ e ih => exact ih.inv e
  intro hc
  exact acc_irrefl hb.transGen ((Relation.transGen_swap (r := Edge h) (a := b) (b := b)).mpr hc)

end Gc
end Bic
