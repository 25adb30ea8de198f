import Verif.Proofs.Frames
/-!
# Procedures that see the global variables only

C's rule, where the names of parameters and local variables are not used for global
variables and functions, against bic's rule, where a procedure sees the variables of
its callers.
-/

namespace Bic
open Spec

/-- the rules of `okRules`, where a procedure sees the outermost scope only -/
def staticRules (Φ : String → Option Proc) : Rules := { okRules.with Φ with sees := fun _ v => v.length = 1 }

/-- the procedures use their parameters, their variables and the names in `G`, which
none of the parameters and variables has -/
structure Separate (Φ : String → Option Proc) (G : String → Prop) : Prop where
  free : ∀ f q, Φ f = some q → ∀ x ∈ q.body.free, x ∈ q.params.map (·.2) ∨ G x
  params : ∀ f q, Φ f = some q → ∀ x ∈ q.params.map (·.2), ¬ G x
  locals : ∀ f q, Φ f = some q → ∀ x ∈ q.body.binds ++ q.body.inners, ¬ G x

/-- no scope declares a name of `G` -/
def Clear (G : String → Prop) (t : Store) : Prop := ∀ fr ∈ t, ∀ x ∈ fr.names, ¬ G x

theorem Clear.of_names {G : String → Prop} {t t' : Store} (h : Clear G t) (e : t'.map Frame.names = t.map Frame.names) : Clear G t' := by
  intro fr hfr x hx
  have : fr.names ∈ t.map Frame.names := by rw [← e]; exact List.mem_map_of_mem hfr
  obtain ⟨fr', h1, h2⟩ := List.mem_map.mp this
  exact h fr' h1 x (by rw [h2]; exact hx)

theorem Clear.left {G : String → Prop} {t u : Store} (h : Clear G (t ++ u)) : Clear G t := fun fr hfr => h fr (by simp [hfr])
theorem Clear.right {G : String → Prop} {t u : Store} (h : Clear G (t ++ u)) : Clear G u := fun fr hfr => h fr (by simp [hfr])

theorem Clear.append {G : String → Prop} {t u : Store} (h : Clear G t) (h' : Clear G u) : Clear G (t ++ u) := by
  intro fr hfr
  rcases List.mem_append.mp hfr with h1 | h1
  · exact h fr h1
  · exact h' fr h1

theorem Clear.up {G : String → Prop} {t : Store} (h : Clear G t) : Clear G ([] :: t) := by
  intro fr hfr
  rcases List.mem_cons.mp hfr with rfl | h1
  · simp [Frame.names]
  · exact h fr h1

theorem Store_write_names (x : String) (w : Int) (σ : Store) : (Store.write x w σ).map Frame.names = σ.map Frame.names := by
  induction σ with
  | nil => rfl
  | cons fr σ ih =>
    simp only [Store.write]
    split <;> simp [Frame_write_names, ih]

theorem acts_names {L : Rules} {σ σ' : Store} {a} (h : Acts L σ a σ') : σ'.map Frame.names = σ.map Frame.names := by
  cases h <;> exact Store_write_names _ _ _

theorem declares_names {L : Rules} {c : CT} {σ σ' : Store} {ds} (h : Declares L c σ ds σ') :
    ∀ {ns l}, σ.map Frame.names = ns :: l → σ'.map Frame.names = (ns ++ ds.map (·.1)) :: l := by
  induction h with
  | nil => intro ns l h; simpa using h
  | @plain _ _ x _ _ _ _ ih =>
    intro ns l h
    simp only [List.map_cons, List.cons.injEq] at h
    rw [ih (ns := ns ++ [x]) (l := l) (by simp [Frame.names, h.2, ← h.1])]
    simp
  | @init _ _ x _ _ _ _ _ ha _ ih =>
    intro ns l h
    simp only [List.map_cons, List.cons.injEq] at h
    rw [ih (ns := ns ++ [x]) (l := l) (by rw [acts_names ha]; simp [Frame.names, h.2, ← h.1])]
    simp

theorem Wider.length {a b : Store} (h : Wider a b) : b.length = a.length := by
  induction h with
  | nil => rfl
  | cons _ _ ih => simp [ih]

theorem Wider.nil_left {a b : Store} (h : Wider a b) (hb : b = []) : a = [] := by
  subst hb; cases h; rfl

theorem last_one {t : Store} (h : t.length = 1) : ∃ g, t = [g] := List.length_eq_one_iff.mp h

theorem names_left {top top' : Store} {g g' : Frame} (h : (top' ++ [g']).map Frame.names = (top ++ [g]).map Frame.names) :
    top'.map Frame.names = top.map Frame.names := by
  simp only [List.map_append, List.map_cons, List.map_nil] at h
  exact (List.append_inj' h (by simp)).1

theorem params_insert {top loc τ : Store} {ps es fr} (h : Params okRules (top ++ τ) ps es fr)
    (hc : Shelter top (es.map Expr.uses).flatten loc) : Params okRules (top ++ (loc ++ τ)) ps es fr := by
  induction h with
  | nil => exact .nil
  | @cons c x e v w ps es fr h1 h2 h3 h4 _ ih =>
    have he : Shelter top e.uses loc := hc.sub fun y hy => by simp [hy]
    exact .cons h1 (value_insert h2 he) (asg_insert h3 he) h4 (ih (hc.sub fun y hy => by
      simp only [List.map_cons, List.flatten_cons, List.mem_append]; exact .inr hy))

theorem static_sub (Φ : String → Option Proc) : (staticRules Φ).Sub okRules := ⟨fun _ _ _ h => h, fun _ _ _ _ h => h⟩

/-- one assignment -/
theorem acts_step {Φ : String → Option Proc} {G : String → Prop} {top loc : Store} {g : Frame} {σ' a}
    (h : Acts (staticRules Φ) (top ++ [g]) a σ') (hG : Clear G (top ++ loc)) (hc : Shelter top a.uses loc) :
    ∃ top' g', σ' = top' ++ [g'] ∧ Wider top top' ∧ Clear G top' ∧
      Acts (okRules.with Φ) (top ++ (loc ++ [g])) a (top' ++ (loc ++ [g'])) := by
  have hn := acts_names h
  have hl := acts_length h
  obtain ⟨t', τ', rfl, e2, e3⟩ := acts_insert (h.sub (static_sub Φ)) hc
  obtain ⟨g', rfl⟩ := last_one (t := τ') (by simp [e2.length] at hl; exact hl)
  exact ⟨t', g', rfl, e2, hG.left.of_names (names_left hn), e3.sub (sub_with _ _)⟩

/-- closing the scope of a statement -/
theorem close_scope {G : String → Prop} {fr : Frame} {σ top top' : Store} {g' : Frame} (h : fr :: σ = top' ++ [g'])
    (hw : Wider ([] :: top) top') (hG : Clear G top') : ∃ t, top' = fr :: t ∧ σ = t ++ [g'] ∧ Wider top t ∧ Clear G t := by
  obtain ⟨t, h1, h2, h3⟩ := Wider.close2 h hw
  subst h1
  exact ⟨t, rfl, h2, h3, fun k hk => hG k (by simp [hk])⟩

/-- A program whose procedures use their own names and those of `G` only, does the same
if they see the variables of their callers, which are not in `G`. -/
theorem run_dynamic {Φ : String → Option Proc} {G : String → Prop} (hΦ : Separate Φ G) {σ σ' : Store} {p f n}
    (h : Run (staticRules Φ) σ p f σ' n) :
    ∀ {top loc g}, σ = top ++ [g] → (top = [] → loc = []) → Clear G (top ++ loc) → (top ≠ [] → ∀ x ∈ p.binds, ¬ G x) →
      (∀ x ∈ p.inners, ¬ G x) → Shelter top p.free loc →
      ∃ top' g', σ' = top' ++ [g'] ∧ Wider top top' ∧ Clear G top' ∧ (f = .next → top ≠ [] → ∀ x ∈ p.binds, Inside x top') ∧
        Run (okRules.with Φ) (top ++ (loc ++ [g])) p f (top' ++ (loc ++ [g'])) n := by
  induction h with
  | act h =>
    rintro top loc g rfl h2 hG _ _ hc
    obtain ⟨t', g', e1, e2, e3, e4⟩ := acts_step h hG hc
    exact ⟨t', g', e1, e2, e3, by simp [Stmt.binds], .act e4⟩
  | @decl σ c ds σ' hi h =>
    rintro top loc g rfl h2 hG hb _ hc
    have hl := declares_length h
    by_cases ht : top = []
    · obtain rfl := h2 ht
      subst ht
      obtain ⟨g', rfl⟩ := last_one (t := σ') (by simpa using hl)
      exact ⟨[], g', rfl, .nil, fun _ h => by simp at h, fun _ h => absurd rfl h, .decl hi ((h.sub (static_sub Φ)).sub (sub_with _ _))⟩
    · have hn := fun ns l => declares_names h (ns := ns) (l := l)
      obtain ⟨t', τ', rfl, e2, e4, e3⟩ := declares_insert (h.sub (static_sub Φ)) rfl ht hc
      obtain ⟨g', rfl⟩ := last_one (t := τ') (by simp [e2.length] at hl; exact hl)
      refine ⟨t', g', rfl, e2, ?_, fun _ _ => e4, .decl hi (e3.sub (sub_with _ _))⟩
      cases top with
      | nil => exact absurd rfl ht
      | cons fr top =>
        have := hn fr.names ((top ++ [g]).map Frame.names) (by simp)
        have h5 : t'.map Frame.names = (fr.names ++ ds.map (·.1)) :: top.map Frame.names := by
          have e : (fr.names ++ ds.map (·.1)) :: (top ++ [g]).map Frame.names =
              ((fr.names ++ ds.map (·.1)) :: top.map Frame.names) ++ [g.names] := by simp
          rw [e, List.map_append] at this
          exact (List.append_inj' this (by simp)).1
        intro k hk x hx
        have h6 : k.names ∈ t'.map Frame.names := List.mem_map_of_mem hk
        rw [h5] at h6
        rcases List.mem_cons.mp h6 with h6 | h6
        · rw [h6] at hx
          rcases List.mem_append.mp hx with hx | hx
          · exact hG fr (by simp) x hx
          · exact hb (by simp) x hx
        · obtain ⟨k', h7, h8⟩ := List.mem_map.mp h6
          exact hG k' (by simp [h7]) x (by rw [h8]; exact hx)
  | skip => rintro top loc g rfl _ hG _ _ _; exact ⟨top, g, rfl, .refl _, hG.left, by simp [Stmt.binds], .skip⟩
  | @seq σ a b f σ1 σ' n m _ _ ih1 ih2 =>
    rintro top loc g h1 h2 hG hb hi hc
    obtain ⟨t1, g1, e1, e2, e5, e4, e3⟩ := ih1 h1 h2 hG (fun ht x hx => hb ht x (by simp [Stmt.binds, hx]))
      (fun x hx => hi x (by simp [Stmt.inners, hx])) (hc.sub fun y hy => by simp only [Stmt.free, List.mem_append]; exact .inl hy)
    have hc2 : Shelter top (b.free.filter (· ∉ a.binds)) loc := hc.sub fun y hy => by simp only [Stmt.free, List.mem_append]; exact .inr hy
    have ht1 : t1 ≠ [] → top ≠ [] := fun h h' => h (by
      have := e2.length; rw [h'] at this; exact List.length_eq_zero_iff.mp this)
    have hc3 : Shelter t1 b.free loc := by
      by_cases ht : top = []
      · rw [h2 ht]; exact fun x _ => .inr fun fr hfr => by simp at hfr
      · exact Shelter.bound hc2 e2 (e4 rfl ht)
    obtain ⟨t2, g2, f1, f2, f5, f4, f3⟩ := ih2 e1 (fun h => h2 (e2.nil_left h)) (e5.append hG.right) (fun ht x hx => hb (ht1 ht) x (by simp [Stmt.binds, hx]))
      (fun x hx => hi x (by simp [Stmt.inners, hx])) hc3
    refine ⟨t2, g2, f1, e2.trans f2, f5, ?_, .seq e3 f3⟩
    intro hf ht x hx
    rcases List.mem_append.mp hx with hx | hx
    · exact f2.inside (e4 rfl ht x hx)
    · exact f4 hf (e2.ne ht) x hx
  | stop _ hne ih =>
    rintro top loc g h1 h2 hG hb hi hc
    obtain ⟨t1, g1, e1, e2, e5, e4, e3⟩ := ih h1 h2 hG (fun ht x hx => hb ht x (by simp [Stmt.binds, hx]))
      (fun x hx => hi x (by simp [Stmt.inners, hx])) (hc.sub fun y hy => by simp only [Stmt.free, List.mem_append]; exact .inl hy)
    exact ⟨t1, g1, e1, e2, e5, fun h => absurd h hne, .stop e3 hne⟩
  | @cond σ e x y v b f fr σ' n hv ht _ ih =>
    rintro top loc g rfl h2 hG hb hi hc
    have hc' : Shelter top (if b then x else y).free loc := hc.sub fun z hz => by
      simp only [Stmt.free, List.mem_append]
      cases b
      · exact .inr hz
      · exact .inl (.inr hz)
    obtain ⟨t1, g1, e1, e2, e5, _, e3⟩ := ih (top := [] :: top) (loc := loc) (g := g) rfl (by simp) hG.up
      (fun _ z hz => hi z (by cases b <;> simp [Stmt.inners] at hz ⊢ <;> simp [hz]))
      (fun z hz => hi z (by cases b <;> simp [Stmt.inners] at hz ⊢ <;> simp [hz])) hc'.up
    obtain ⟨t, rfl, rfl, hl, hG'⟩ := close_scope e1 e2 e5
    exact ⟨t, g1, rfl, hl, hG', by simp [Stmt.binds],
      .cond (L := okRules.with Φ) (value_insert hv (hc.sub fun z hz => by simp [Stmt.free, hz])) ht e3⟩
  | whileS _ ih =>
    rintro top loc g h1 h2 hG hb hi hc
    obtain ⟨t1, g1, e1, e2, e5, _, e3⟩ := ih h1 h2 hG (by simp [Stmt.binds]) (by simpa [Stmt.inners] using hi)
      (by simpa [Stmt.free] using hc)
    exact ⟨t1, g1, e1, e2, e5, by simp [Stmt.binds], .whileS e3⟩
  | forS ha _ ih =>
    rintro top loc g rfl h2 hG hb hi hc
    obtain ⟨t1, g1, rfl, e2, e5, e3⟩ := acts_step ha hG (hc.sub fun y hy => by simp [Stmt.free, hy])
    obtain ⟨t2, g2, f1, f2, f5, _, f3⟩ := ih (top := t1) (loc := loc) (g := g1) rfl (fun h => h2 (e2.nil_left h)) (e5.append hG.right) (by simp [Stmt.binds]) (by simpa [Stmt.inners] using hi)
      ((hc.sub fun y hy => by
        simp only [Stmt.free, Option.map_some, Option.getD_some, List.mem_append] at hy ⊢
        rcases hy with (hy | hy) | hy
        · exact .inl (.inl (.inr hy))
        · exact .inl (.inr hy)
        · exact .inr hy).wider e2)
    exact ⟨t2, g2, f1, e2.trans f2, f5, by simp [Stmt.binds], .forS e3 f3⟩
  | last hv ht =>
    rintro top loc g rfl h2 hG hb hi hc
    exact ⟨top, g, rfl, .refl _, hG.left, by simp [Stmt.binds],
      .last (L := okRules.with Φ) (value_insert hv (hc.sub fun z hz => by simp [Stmt.free, hz])) ht⟩
  | round hv ht _ _ ih1 ih2 =>
    rintro top loc g rfl h2 hG hb hi hc
    obtain ⟨t1, g1, e1, e2, e5, _, e3⟩ := ih1 (top := [] :: top) (loc := loc) (g := g) rfl (by simp) hG.up
      (fun _ z hz => hi z (by simp [Stmt.inners, hz])) (fun z hz => hi z (by simp [Stmt.inners, hz]))
      (hc.sub fun z hz => by simp [Stmt.free, hz]).up
    obtain ⟨t, rfl, rfl, hl, hG'⟩ := close_scope e1 e2 e5
    obtain ⟨t2, g2, f1, f2, f5, _, f3⟩ := ih2 (top := t) (loc := loc) (g := g1) rfl (fun h => h2 (hl.nil_left h)) (hG'.append hG.right) (by simp [Stmt.binds]) hi (hc.wider hl)
    exact ⟨t2, g2, f1, hl.trans f2, f5, by simp [Stmt.binds],
      .round (L := okRules.with Φ) (value_insert hv (hc.sub fun z hz => by simp [Stmt.free, hz])) ht e3 f3⟩
  | roundFor hv ht _ ha _ ih1 ih2 =>
    rintro top loc g rfl h2 hG hb hi hc
    obtain ⟨t1, g1, e1, e2, e5, _, e3⟩ := ih1 (top := [] :: top) (loc := loc) (g := g) rfl (by simp) hG.up
      (fun _ z hz => hi z (by simp [Stmt.inners, hz])) (fun z hz => hi z (by simp [Stmt.inners, hz]))
      (hc.sub fun z hz => by simp [Stmt.free, hz]).up
    obtain ⟨t, rfl, rfl, hl, hG'⟩ := close_scope e1 e2 e5
    obtain ⟨t3, g3, rfl, k2, k5, k3⟩ := acts_step ha (hG'.append hG.right)
      ((hc.sub fun z hz => by simp [Stmt.free, hz]).wider hl)
    have hw := hl.trans k2
    obtain ⟨t2, g2, f1, f2, f5, _, f3⟩ := ih2 (top := t3) (loc := loc) (g := g3) rfl (fun h => h2 (hw.nil_left h)) (k5.append hG.right) (by simp [Stmt.binds]) hi (hc.wider hw)
    exact ⟨t2, g2, f1, hw.trans f2, f5, by simp [Stmt.binds],
      .roundFor (L := okRules.with Φ) (value_insert hv (hc.sub fun z hz => by simp [Stmt.free, hz])) ht e3 k3 f3⟩
  | returned hv ht _ hne ih =>
    rintro top loc g rfl h2 hG hb hi hc
    obtain ⟨t1, g1, e1, e2, e5, _, e3⟩ := ih (top := [] :: top) (loc := loc) (g := g) rfl (by simp) hG.up
      (fun _ z hz => hi z (by simp [Stmt.inners, hz])) (fun z hz => hi z (by simp [Stmt.inners, hz]))
      (hc.sub fun z hz => by simp [Stmt.free, hz]).up
    obtain ⟨t, rfl, rfl, hl, hG'⟩ := close_scope e1 e2 e5
    exact ⟨t, g1, rfl, hl, hG', by simp [Stmt.binds],
      .returned (L := okRules.with Φ) (value_insert hv (hc.sub fun z hz => by simp [Stmt.free, hz])) ht e3 hne⟩
  | ret hv =>
    rintro top loc g rfl h2 hG hb hi hc
    exact ⟨top, g, rfl, .refl _, hG.left, by simp [Stmt.binds], .ret (L := okRules.with Φ) (value_insert hv hc)⟩
  | leave => rintro top loc g rfl h2 hG hb hi hc; exact ⟨top, g, rfl, .refl _, hG.left, by simp [Stmt.binds], .leave⟩
  | block h => exact h.elim
  | @call hid vis f es q g' fr fr' vis' n hq hf hsee hok hP hnd _ ih =>
    rintro top loc g h1 h2 hG hb hi hc
    obtain ⟨rfl, rfl⟩ := List.append_inj' h1 (by have : vis.length = 1 := hsee; simpa using this)
    have hq : Φ f = some q := hq
    have hfr : fr.names = q.params.map (·.2) := params_names hP
    have hGb : Clear G ([fr] ++ (hid ++ loc)) := by
      refine Clear.append ?_ hG
      intro k hk x hx
      rw [List.mem_singleton.mp hk, hfr] at hx
      exact hΦ.params f q hq x hx
    obtain ⟨t1, g1, e1, e2, _, _, e3⟩ := ih (top := [fr]) (loc := hid ++ loc) (g := g) rfl (by simp) hGb
      (fun _ x hx => hΦ.locals f q hq x (by simp [hx])) (fun x hx => hΦ.locals f q hq x (by simp [hx])) (by
        intro x hx
        rcases hΦ.free f q hq x hx with hx | hx
        · exact .inl ⟨fr, by simp, by rw [hfr]; exact hx⟩
        · exact .inr fun k hk hxk => hG k hk x hxk hx)
    cases e2 with
    | cons _ e2 => cases e2 with | nil =>
    cases e1
    refine ⟨hid, g1, rfl, .refl _, hG.left, by simp [Stmt.binds], ?_⟩
    have hf' : ∀ k ∈ ([] ++ (hid ++ (loc ++ [g]))).dropLast, f ∉ k.names := by
      intro k hk
      have e : [] ++ (hid ++ (loc ++ [g])) = (hid ++ loc) ++ [g] := by simp
      rw [e, List.dropLast_concat] at hk
      rw [List.dropLast_concat] at hf
      rcases List.mem_append.mp hk with hk | hk
      · exact hf k hk
      · rcases hc f (by simp [Stmt.free]) with ⟨k', a1, a2⟩ | h
        · exact absurd a2 (hf k' a1)
        · exact h k hk
    have hP' := (params_insert (loc := loc) (hP.sub (static_sub Φ)) (hc.sub fun y hy => by
      simp only [Stmt.free, List.mem_cons]; exact .inr hy)).sub (sub_with _ Φ)
    have e3' : Run (okRules.with Φ) (fr :: (hid ++ (loc ++ [g]))) q.body g' (fr' :: (hid ++ (loc ++ [g1]))) n := by
      simpa using e3
    exact Run.call (L := okRules.with Φ) (hid := []) hq hf' rfl hok hP' hnd e3'

end Bic
