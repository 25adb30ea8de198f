import Verif.Proofs.Params
/-!
# Programs and the scopes they do not mention
-/

namespace Bic
open Spec

/-! ## Scopes that get wider -/

/-- declared in one of the scopes -/
def Inside (x : String) (top : Store) : Prop := ∃ fr ∈ top, x ∈ fr.names

theorem Frame_write_names (x : String) (w : Int) (fr : Frame) : (Frame.write x w fr).names = fr.names := by
  induction fr with
  | nil => rfl
  | cons p fr ih =>
    obtain ⟨y, v⟩ := p
    simp only [Frame.names] at ih
    by_cases h : y = x
    · simp [Frame.write, h, Frame.names]
    · simp [Frame.write, h, Frame.names, ih]

/-- the scopes `top'` declare what `top` declares, and possibly more -/
inductive Wider : Store → Store → Prop
  | nil : Wider [] []
  | cons {fr fr' t t'} : (∀ x ∈ fr.names, x ∈ fr'.names) → Wider t t' → Wider (fr :: t) (fr' :: t')

theorem Wider.refl : ∀ t : Store, Wider t t
  | [] => .nil
  | _ :: t => .cons (fun _ h => h) (.refl t)

theorem Wider.trans {a b c : Store} (h : Wider a b) (h' : Wider b c) : Wider a c := by
  induction h generalizing c with
  | nil => exact h'
  | cons h1 _ ih => cases h' with | cons h2 h3 => exact .cons (fun x hx => h2 x (h1 x hx)) (ih h3)

theorem Wider.inside {a b : Store} (h : Wider a b) {x} (hx : Inside x a) : Inside x b := by
  induction h with
  | nil => exact hx
  | @cons fr fr' t t' h1 _ ih =>
    obtain ⟨k, h2, h3⟩ := hx
    rcases List.mem_cons.mp h2 with rfl | h2
    · exact ⟨fr', List.mem_cons_self, h1 x h3⟩
    · obtain ⟨k', h4, h5⟩ := ih ⟨k, h2, h3⟩
      exact ⟨k', List.mem_cons_of_mem _ h4, h5⟩

theorem Wider.ne {a b : Store} (h : Wider a b) (ha : a ≠ []) : b ≠ [] := by
  cases h with
  | nil => exact ha
  | cons => simp

theorem write_inside {x : String} {w : Int} {top τ : Store} (h : Inside x top) :
    ∃ top', Store.write x w (top ++ τ) = top' ++ τ ∧ top'.map Frame.names = top.map Frame.names := by
  induction top with
  | nil => obtain ⟨_, h, _⟩ := h; simp at h
  | cons fr top ih =>
    cases hf : Frame.find x fr with
    | some v => exact ⟨Frame.write x w fr :: top, by simp [Store.write, hf], by simp [Frame_write_names]⟩
    | none =>
      have : Inside x top := by
        obtain ⟨fr', h1, h2⟩ := h
        rcases List.mem_cons.mp h1 with rfl | h1
        · exact absurd h2 (Frame_find_none.mp hf)
        · exact ⟨fr', h1, h2⟩
      obtain ⟨top', e1, e2⟩ := ih this
      exact ⟨fr :: top', by simp [Store.write, hf, e1], by simp [e2]⟩

theorem wider_of_names {top top' : Store} (h : top'.map Frame.names = top.map Frame.names) : Wider top top' := by
  induction top generalizing top' with
  | nil => rw [List.map_eq_nil_iff.mp h]; exact .nil
  | cons fr top ih =>
    cases top' with
    | nil => simp at h
    | cons fr' top' =>
      simp only [List.map_cons, List.cons.injEq] at h
      exact .cons (by rw [h.1]; exact fun _ h => h) (ih h.2)

theorem wider_append (fr : Frame) (p) (top : Store) : Wider (fr :: top) ((fr ++ [p]) :: top) :=
  .cons (fun x hx => by simp only [Frame.names, List.map_append, List.mem_append]; exact .inl hx) (.refl _)

/-- closing the innermost scope -/
theorem Wider.close {fr : Frame} {σ top top' τ : Store} (h1 : fr :: σ = top' ++ τ) (h2 : Wider ([] :: top) top') :
    ∃ t, σ = t ++ τ ∧ Wider top t := by
  cases h2 with
  | cons _ h => cases h1; exact ⟨_, rfl, h⟩

theorem Inside.up {top : Store} {x} (h : Inside x top) : Inside x ([] :: top) := by
  obtain ⟨fr, h1, h2⟩ := h; exact ⟨fr, List.mem_cons_of_mem _ h1, h2⟩


theorem Wider.binds {fr fr' : Frame} {t t' : Store} (h : Wider (fr :: t) (fr' :: t')) : ∀ x ∈ fr.names, x ∈ fr'.names := by
  cases h with | cons h _ => exact h

theorem params_names {L : Rules} {σ : Store} {ps es fr} (h : Params L σ ps es fr) : fr.names = ps.map (·.2) := by
  induction h with
  | nil => rfl
  | cons _ _ _ _ _ ih => simpa [Frame.names] using ih

/-! ## Scopes put in between -/

/-- each of the names is declared in `top` or not declared in `loc` -/
def Shelter (top : Store) (l : List String) (loc : Store) : Prop := ∀ x ∈ l, Inside x top ∨ ∀ fr ∈ loc, x ∉ fr.names

theorem Shelter.sub {top loc : Store} {l l' : List String} (h : Shelter top l loc) (hl : ∀ x ∈ l', x ∈ l) : Shelter top l' loc :=
  fun x hx => h x (hl x hx)

theorem Shelter.wider {top top' loc : Store} {l : List String} (h : Shelter top l loc) (hw : Wider top top') : Shelter top' l loc :=
  fun x hx => (h x hx).imp hw.inside id

theorem Shelter.up {top loc : Store} {l : List String} (h : Shelter top l loc) : Shelter ([] :: top) l loc :=
  fun x hx => (h x hx).imp Inside.up id

theorem Shelter.bound {top top' loc : Store} {l bs : List String} (h : Shelter top (l.filter (· ∉ bs)) loc) (hw : Wider top top')
    (hb : ∀ x ∈ bs, Inside x top') : Shelter top' l loc := by
  intro x hx
  by_cases hm : x ∈ bs
  · exact .inl (hb x hm)
  · exact (h x (List.mem_filter.mpr ⟨hx, by simpa using hm⟩)).imp hw.inside id

theorem find_clear {x : String} {loc τ : Store} (h : ∀ fr ∈ loc, x ∉ fr.names) : Store.find x (loc ++ τ) = Store.find x τ := by
  induction loc with
  | nil => rfl
  | cons fr loc ih =>
    simp only [List.cons_append, Store.find, Frame_find_none.mpr (h fr (by simp))]
    exact ih fun fr hfr => h fr (by simp [hfr])

theorem find_insert {x : String} {top loc τ : Store} (h : Inside x top ∨ ∀ fr ∈ loc, x ∉ fr.names) :
    Store.find x (top ++ (loc ++ τ)) = Store.find x (top ++ τ) := by
  induction top with
  | nil =>
    rcases h with ⟨_, h, _⟩ | h
    · simp at h
    · exact find_clear h
  | cons fr top ih =>
    simp only [List.cons_append, Store.find]
    cases hf : Frame.find x fr with
    | some v => rfl
    | none =>
      refine ih (h.imp ?_ id)
      rintro ⟨fr', h1, h2⟩
      rcases List.mem_cons.mp h1 with rfl | h1
      · exact absurd h2 (Frame_find_none.mp hf)
      · exact ⟨fr', h1, h2⟩

theorem write_clear {x : String} {w : Int} {loc τ : Store} (h : ∀ fr ∈ loc, x ∉ fr.names) :
    Store.write x w (loc ++ τ) = loc ++ Store.write x w τ := by
  induction loc with
  | nil => rfl
  | cons fr loc ih =>
    simp only [List.cons_append, Store.write, Frame_find_none.mpr (h fr (by simp))]
    rw [ih fun fr hfr => h fr (by simp [hfr])]

/-- writing with and without the scopes in between -/
theorem write_insert {x : String} {w : Int} {top loc τ : Store} (h : Inside x top ∨ ∀ fr ∈ loc, x ∉ fr.names) :
    ∃ top' τ', Store.write x w (top ++ τ) = top' ++ τ' ∧ Store.write x w (top ++ (loc ++ τ)) = top' ++ (loc ++ τ') ∧
      Wider top top' := by
  induction top with
  | nil =>
    rcases h with ⟨_, h, _⟩ | h
    · simp at h
    · exact ⟨[], Store.write x w τ, rfl, write_clear h, .nil⟩
  | cons fr top ih =>
    cases hf : Frame.find x fr with
    | some v => exact ⟨Frame.write x w fr :: top, τ, by simp [Store.write, hf], by simp [Store.write, hf],
        .cons (by rw [Frame_write_names]; exact fun _ h => h) (.refl _)⟩
    | none =>
      obtain ⟨top', τ', h1, h2, h3⟩ := ih (h.imp (by
        rintro ⟨fr', h1, h2⟩
        rcases List.mem_cons.mp h1 with rfl | h1
        · exact absurd h2 (Frame_find_none.mp hf)
        · exact ⟨fr', h1, h2⟩) id)
      exact ⟨fr :: top', τ', by simp [Store.write, hf, h1], by simp [Store.write, hf, h2], .cons (fun _ h => h) h3⟩

theorem value_insert {top loc τ : Store} {e v} (h : okRules.Value (top ++ τ) e v) (hc : Shelter top e.uses loc) :
    okRules.Value (top ++ (loc ++ τ)) e v := by
  refine Val.congr h fun x hx v ⟨c, h1, h2⟩ => ⟨c, ?_, h2⟩
  simp only [Store.Has] at h1 ⊢
  rw [find_insert (hc x hx)]
  exact h1

theorem asg_insert {top loc τ : Store} {c e v} (h : okAsg (top ++ τ) c e v) (hc : Shelter top e.uses loc) :
    okAsg (top ++ (loc ++ τ)) c e v := by
  rcases h with h | ⟨y, d, rfl, h1, h2⟩
  · exact .inl h
  · refine .inr ⟨y, d, rfl, ?_, h2⟩
    simp only [Store.Has] at h1 ⊢
    rw [find_insert (hc y (by simp [Expr.uses]))]
    exact h1

theorem acts_insert {top loc τ σ' : Store} {a} (h : Acts okRules (top ++ τ) a σ') (hc : Shelter top a.uses loc) :
    ∃ top' τ', σ' = top' ++ τ' ∧ Wider top top' ∧ Acts okRules (top ++ (loc ++ τ)) a (top' ++ (loc ++ τ')) := by
  cases h with
  | @set x e c u v w h1 h2 h3 h4 =>
    have hx := hc x (by simp [Act.uses])
    have he : Shelter top e.uses loc := fun y hy => hc y (by simp [Act.uses, hy])
    obtain ⟨top', τ', e1, e2, e3⟩ := write_insert (w := w) (top := top) (τ := τ) hx
    refine ⟨top', τ', e1, e3, ?_⟩
    rw [← e2]
    refine .set (c := c) (u := u) ?_ (value_insert h2 he) (asg_insert h3 he) h4
    simp only [Store.Has] at h1 ⊢
    rw [find_insert hx]; exact h1
  | @step x d c v w h1 h2 =>
    have hx := hc x (by simp [Act.uses])
    obtain ⟨top', τ', e1, e2, e3⟩ := write_insert (w := w) (top := top) (τ := τ) hx
    refine ⟨top', τ', e1, e3, ?_⟩
    rw [← e2]
    refine .step (c := c) (v := v) ?_ h2
    simp only [Store.Has] at h1 ⊢
    rw [find_insert hx]; exact h1

theorem inside_last (x : String) (v) (fr : Frame) (top : Store) : Inside x ((fr ++ [(x, v)]) :: top) :=
  ⟨_, List.mem_cons_self, by simp [Frame.names]⟩

theorem declares_insert {c : CT} {loc σ σ' : Store} {ds} (h : Declares okRules c σ ds σ') :
    ∀ {top τ}, σ = top ++ τ → top ≠ [] → Shelter top (declFree ds) loc →
    ∃ top' τ', σ' = top' ++ τ' ∧ Wider top top' ∧ (∀ x ∈ ds.map (·.1), Inside x top') ∧
      Declares okRules c (top ++ (loc ++ τ)) ds (top' ++ (loc ++ τ')) := by
  induction h with
  | nil => intro top τ h1 h2 _; exact ⟨top, τ, h1, .refl _, by simp, .nil⟩
  | @plain fr σ x ds σ' hx _ ih =>
    intro top τ h1 h2 hc
    cases top with
    | nil => exact absurd rfl h2
    | cons fr' top =>
      cases h1
      have hw := wider_append fr (x, some ⟨c, none⟩) top
      obtain ⟨top', τ', e1, e2, e4, e3⟩ := ih (top := (fr ++ [(x, some ⟨c, none⟩)]) :: top) (τ := τ) rfl (by simp)
        (Shelter.bound (bs := [x]) (hc.sub fun y hy => by simpa [declFree] using hy) hw (by
          intro y hy; rw [List.mem_singleton.mp hy]; exact inside_last _ _ _ _))
      refine ⟨top', τ', e1, hw.trans e2, ?_, .plain hx e3⟩
      intro y hy
      rcases List.mem_cons.mp hy with rfl | hy
      · exact e2.inside (inside_last _ _ _ _)
      · exact e4 y hy
  | @init fr σ x e ds σ1 σ' hx ha _ ih =>
    intro top τ h1 h2 hc
    cases top with
    | nil => exact absurd rfl h2
    | cons fr' top =>
      cases h1
      have ha' : Acts okRules (((fr ++ [(x, some ⟨c, none⟩)]) :: top) ++ τ) (.set x e) σ1 := ha
      have hw := wider_append fr (x, some ⟨c, none⟩) top
      have hb : Shelter ((fr ++ [(x, some ⟨c, none⟩)]) :: top) (e.uses ++ declFree ds) loc :=
        Shelter.bound (bs := [x]) (hc.sub fun y hy => by simpa [declFree] using hy) hw (by
          intro y hy; rw [List.mem_singleton.mp hy]; exact inside_last _ _ _ _)
      obtain ⟨t1, τ1, rfl, a2, a3⟩ := acts_insert (loc := loc) ha' (by
        intro y hy
        rcases List.mem_cons.mp hy with rfl | hy
        · exact .inl (inside_last _ _ _ _)
        · exact hb y (by simp [hy]))
      obtain ⟨top', τ', e1, e2, e4, e3⟩ := ih (top := t1) (τ := τ1) rfl (a2.ne (by simp))
        ((hb.sub fun y hy => by simp [hy]).wider a2)
      refine ⟨top', τ', e1, (hw.trans a2).trans e2, ?_, .init hx a3 e3⟩
      intro y hy
      rcases List.mem_cons.mp hy with rfl | hy
      · exact (a2.trans e2).inside (inside_last _ _ _ _)
      · exact e4 y hy

/-- what is left after closing the innermost scope -/
theorem Wider.close2 {fr : Frame} {σ top top' τ' : Store} (h : fr :: σ = top' ++ τ') (hw : Wider ([] :: top) top') :
    ∃ t, top' = fr :: t ∧ σ = t ++ τ' ∧ Wider top t := by
  cases hw with
  | cons _ hw => cases h; exact ⟨_, rfl, rfl, hw⟩

/-- A program whose free names are not declared in `loc` (unless they are declared
further inside) does the same whether these scopes are open or not. -/
theorem run_insert {loc σ σ' : Store} {p f n} (h : Run okRules σ p f σ' n) :
    ∀ {top τ}, σ = top ++ τ → top ≠ [] → Shelter top p.free loc →
    ∃ top' τ', σ' = top' ++ τ' ∧ Wider top top' ∧ (f = .next → ∀ x ∈ p.binds, Inside x top') ∧
      Run okRules (top ++ (loc ++ τ)) p f (top' ++ (loc ++ τ')) n := by
  induction h with
  | act h =>
    rintro top τ rfl h2 hc
    obtain ⟨t', τ', e1, e2, e3⟩ := acts_insert h hc
    exact ⟨t', τ', e1, e2, by simp [Stmt.binds], .act e3⟩
  | decl hi h =>
    intro top τ h1 h2 hc
    obtain ⟨t', τ', e1, e2, e4, e3⟩ := declares_insert h h1 h2 hc
    exact ⟨t', τ', e1, e2, fun _ => e4, .decl hi e3⟩
  | skip => intro top τ h1 _ _; exact ⟨top, τ, h1, .refl _, by simp [Stmt.binds], .skip⟩
  | seq _ _ ih1 ih2 =>
    intro top τ h1 h2 hc
    obtain ⟨t1, τ1, e1, e2, e4, e3⟩ := ih1 h1 h2 (hc.sub fun y hy => by simp only [Stmt.free, List.mem_append]; exact .inl hy)
    obtain ⟨t2, τ2, f1, f2, f4, f3⟩ := ih2 e1 (e2.ne h2)
      (Shelter.bound (hc.sub fun y hy => by simp only [Stmt.free, List.mem_append]; exact .inr hy) e2 (e4 rfl))
    refine ⟨t2, τ2, f1, e2.trans f2, ?_, .seq e3 f3⟩
    intro hf x hx
    rcases List.mem_append.mp hx with hx | hx
    · exact f2.inside (e4 rfl x hx)
    · exact f4 hf x hx
  | stop _ hne ih =>
    intro top τ h1 h2 hc
    obtain ⟨t1, τ1, e1, e2, e4, e3⟩ := ih h1 h2 (hc.sub fun y hy => by simp only [Stmt.free, List.mem_append]; exact .inl hy)
    exact ⟨t1, τ1, e1, e2, fun h => absurd h hne, .stop e3 hne⟩
  | @cond σ e x y v b f fr σ' n hv ht _ ih =>
    rintro top τ rfl h2 hc
    have hc' : Shelter top (if b then x else y).free loc := hc.sub fun z hz => by
      simp only [Stmt.free, List.mem_append]
      cases b
      · exact .inr hz
      · exact .inl (.inr hz)
    obtain ⟨t1, τ1, e1, e2, _, e3⟩ := ih (top := [] :: top) (τ := τ) rfl (by simp) hc'.up
    obtain ⟨t, rfl, rfl, hl⟩ := Wider.close2 e1 e2
    exact ⟨t, τ1, rfl, hl, by simp [Stmt.binds], .cond (value_insert hv (hc.sub fun z hz => by simp [Stmt.free, hz])) ht e3⟩
  | whileS _ ih =>
    intro top τ h1 h2 hc
    obtain ⟨t1, τ1, e1, e2, _, e3⟩ := ih h1 h2 (by simpa [Stmt.free] using hc)
    exact ⟨t1, τ1, e1, e2, by simp [Stmt.binds], .whileS e3⟩
  | forS ha _ ih =>
    rintro top τ rfl h2 hc
    obtain ⟨t1, τ1, rfl, e2, e3⟩ := acts_insert ha (hc.sub fun y hy => by simp [Stmt.free, hy])
    obtain ⟨t2, τ2, f1, f2, _, f3⟩ := ih (top := t1) (τ := τ1) rfl (e2.ne h2) ((hc.sub fun y hy => by
      simp only [Stmt.free, Option.map_some, Option.getD_some, List.mem_append] at hy ⊢
      rcases hy with (hy | hy) | hy
      · exact .inl (.inl (.inr hy))
      · exact .inl (.inr hy)
      · exact .inr hy).wider e2)
    exact ⟨t2, τ2, f1, e2.trans f2, by simp [Stmt.binds], .forS e3 f3⟩
  | last hv ht =>
    rintro top τ rfl h2 hc
    exact ⟨top, τ, rfl, .refl _, by simp [Stmt.binds], .last (value_insert hv (hc.sub fun z hz => by simp [Stmt.free, hz])) ht⟩
  | round hv ht _ _ ih1 ih2 =>
    rintro top τ rfl h2 hc
    obtain ⟨t1, τ1, e1, e2, _, e3⟩ := ih1 (top := [] :: top) (τ := τ) rfl (by simp)
      (hc.sub fun z hz => by simp [Stmt.free, hz]).up
    obtain ⟨t, rfl, rfl, hl⟩ := Wider.close2 e1 e2
    obtain ⟨t2, τ2, f1, f2, _, f3⟩ := ih2 (top := t) (τ := τ1) rfl (hl.ne h2) (hc.wider hl)
    exact ⟨t2, τ2, f1, hl.trans f2, by simp [Stmt.binds],
      .round (value_insert hv (hc.sub fun z hz => by simp [Stmt.free, hz])) ht e3 f3⟩
  | roundFor hv ht _ ha _ ih1 ih2 =>
    rintro top τ rfl h2 hc
    obtain ⟨t1, τ1, e1, e2, _, e3⟩ := ih1 (top := [] :: top) (τ := τ) rfl (by simp)
      (hc.sub fun z hz => by simp [Stmt.free, hz]).up
    obtain ⟨t, rfl, rfl, hl⟩ := Wider.close2 e1 e2
    obtain ⟨t3, τ3, rfl, g2, g3⟩ := acts_insert ha ((hc.sub fun z hz => by simp [Stmt.free, hz]).wider hl)
    obtain ⟨t2, τ2, f1, f2, _, f3⟩ := ih2 (top := t3) (τ := τ3) rfl ((hl.trans g2).ne h2) (hc.wider (hl.trans g2))
    exact ⟨t2, τ2, f1, (hl.trans g2).trans f2, by simp [Stmt.binds],
      .roundFor (value_insert hv (hc.sub fun z hz => by simp [Stmt.free, hz])) ht e3 g3 f3⟩
  | returned hv ht _ hne ih =>
    rintro top τ rfl h2 hc
    obtain ⟨t1, τ1, e1, e2, _, e3⟩ := ih (top := [] :: top) (τ := τ) rfl (by simp)
      (hc.sub fun z hz => by simp [Stmt.free, hz]).up
    obtain ⟨t, rfl, rfl, hl⟩ := Wider.close2 e1 e2
    exact ⟨t, τ1, rfl, hl, by simp [Stmt.binds], .returned (value_insert hv (hc.sub fun z hz => by simp [Stmt.free, hz])) ht e3 hne⟩
  | ret hv =>
    rintro top τ rfl h2 hc
    exact ⟨top, τ, rfl, .refl _, by simp [Stmt.binds], .ret (value_insert hv hc)⟩
  | leave => rintro top τ rfl h2 hc; exact ⟨top, τ, rfl, .refl _, by simp [Stmt.binds], .leave⟩
  | block h => exact h.elim
  | call h => cases h

/-! ## Programs that write inner variables only -/

theorem acts_inside {L : Rules} {top τ σ' : Store} {a} (h : Acts L (top ++ τ) a σ') (hi : Inside (a.target) top) :
    ∃ top', σ' = top' ++ τ ∧ Wider top top' := by
  cases h with
  | set => obtain ⟨t, e1, e2⟩ := write_inside hi; exact ⟨t, e1, wider_of_names e2⟩
  | step => obtain ⟨t, e1, e2⟩ := write_inside hi; exact ⟨t, e1, wider_of_names e2⟩

theorem declares_inside {L : Rules} {c : CT} {σ σ' : Store} {ds} (h : Declares L c σ ds σ') :
    ∀ {top τ}, σ = top ++ τ → top ≠ [] → ∃ top', σ' = top' ++ τ ∧ Wider top top' ∧ ∀ x ∈ ds.map (·.1), Inside x top' := by
  induction h with
  | nil => intro top τ h1 _; exact ⟨top, h1, .refl _, by simp⟩
  | @plain fr σ x ds σ' hx _ ih =>
    intro top τ h1 h2
    cases top with
    | nil => exact absurd rfl h2
    | cons fr' top =>
      cases h1
      obtain ⟨t, e1, e2, e3⟩ := ih (top := (fr ++ [(x, some ⟨c, none⟩)]) :: top) (τ := τ) rfl (by simp)
      refine ⟨t, e1, (wider_append _ _ _).trans e2, fun y hy => ?_⟩
      rcases List.mem_cons.mp hy with rfl | hy
      · exact e2.inside (inside_last _ _ _ _)
      · exact e3 y hy
  | @init fr σ x e ds σ1 σ' hx ha _ ih =>
    intro top τ h1 h2
    cases top with
    | nil => exact absurd rfl h2
    | cons fr' top =>
      cases h1
      obtain ⟨t1, rfl, a2⟩ := acts_inside (top := (fr ++ [(x, some ⟨c, none⟩)]) :: top) (τ := τ) (a := .set x e) (σ' := σ1) ha
        ⟨_, List.mem_cons_self, by simp [Frame.names, Act.target]⟩
      obtain ⟨t, e1, e2, e3⟩ := ih (top := t1) (τ := τ) rfl (a2.ne (by simp))
      refine ⟨t, e1, ((wider_append _ _ _).trans a2).trans e2, fun y hy => ?_⟩
      rcases List.mem_cons.mp hy with rfl | hy
      · exact (a2.trans e2).inside (inside_last _ _ _ _)
      · exact e3 y hy

/-- A program that assigns only to variables of the inner scopes `top` and to its own
leaves the others as they are. -/
theorem run_inside {L : Rules} (hL : ∀ f, L.proc f = none) {σ σ' : Store} {p f n} (h : Run L σ p f σ' n) :
    ∀ {top τ}, σ = top ++ τ → top ≠ [] → (∀ x ∈ p.writes, Inside x top) →
      ∃ top', σ' = top' ++ τ ∧ Wider top top' ∧ (f = .next → ∀ x ∈ p.binds, Inside x top') := by
  induction h with
  | act h =>
    rintro top τ rfl h2 hw
    obtain ⟨t, e1, e2⟩ := acts_inside h (hw _ (by simp [Stmt.writes]))
    exact ⟨t, e1, e2, by simp [Stmt.binds]⟩
  | decl _ h =>
    intro top τ h1 h2 _
    obtain ⟨t, e1, e2, e3⟩ := declares_inside h h1 h2
    exact ⟨t, e1, e2, fun _ => e3⟩
  | skip => intro top τ h1 _ _; exact ⟨top, h1, .refl _, by simp [Stmt.binds]⟩
  | @seq σ a b f σ1 σ' n m _ _ ih1 ih2 =>
    intro top τ h1 h2 hw
    obtain ⟨t1, e1, e2, e3⟩ := ih1 h1 h2 fun x hx => hw x (by simp [Stmt.writes, hx])
    obtain ⟨t2, f1, f2, f3⟩ := ih2 e1 (e2.ne h2) fun x hx => by
      by_cases hm : x ∈ a.binds
      · exact e3 rfl x hm
      · exact e2.inside (hw x (by
          simp only [Stmt.writes, List.mem_append, List.mem_filter]
          exact .inr ⟨hx, by simpa using hm⟩))
    refine ⟨t2, f1, e2.trans f2, fun hf x hx => ?_⟩
    rcases List.mem_append.mp hx with hx | hx
    · exact f2.inside (e3 rfl x hx)
    · exact f3 hf x hx
  | stop _ hne ih =>
    intro top τ h1 h2 hw
    obtain ⟨t1, e1, e2, _⟩ := ih h1 h2 fun x hx => hw x (by simp [Stmt.writes, hx])
    exact ⟨t1, e1, e2, fun h => absurd h hne⟩
  | @cond σ e x y v b f fr σ' n _ _ _ ih =>
    rintro top τ rfl h2 hw
    obtain ⟨t1, e1, e2, _⟩ := ih (top := [] :: top) (τ := τ) rfl (by simp)
      (fun z hz => (hw z (by cases b <;> simp [Stmt.writes] at hz ⊢ <;> simp [hz])).up)
    obtain ⟨t, f1, f2⟩ := Wider.close e1 e2
    exact ⟨t, f1, f2, by simp [Stmt.binds]⟩
  | whileS _ ih =>
    intro top τ h1 h2 hw
    obtain ⟨t1, e1, e2, _⟩ := ih h1 h2 fun x hx => hw x (by simpa [Stmt.writes] using hx)
    exact ⟨t1, e1, e2, by simp [Stmt.binds]⟩
  | forS ha _ ih =>
    rintro top τ rfl h2 hw
    obtain ⟨t1, rfl, e2⟩ := acts_inside ha (hw _ (by simp [Stmt.writes]))
    obtain ⟨t2, f1, f2, _⟩ := ih (top := t1) (τ := τ) rfl (e2.ne h2) fun x hx => e2.inside (hw x (by
      simp [Stmt.writes] at hx ⊢
      exact .inr hx))
    exact ⟨t2, f1, e2.trans f2, by simp [Stmt.binds]⟩
  | last => rintro top τ rfl h2 hw; exact ⟨top, rfl, .refl _, by simp [Stmt.binds]⟩
  | round _ _ _ _ ih1 ih2 =>
    rintro top τ rfl h2 hw
    obtain ⟨t1, e1, e2, _⟩ := ih1 (top := [] :: top) (τ := τ) rfl (by simp) fun x hx => (hw x (by simpa [Stmt.writes] using hx)).up
    obtain ⟨t, rfl, e4⟩ := Wider.close e1 e2
    obtain ⟨t2, f1, f2, _⟩ := ih2 (top := t) (τ := τ) rfl (e4.ne h2) fun x hx => e4.inside (hw x hx)
    exact ⟨t2, f1, e4.trans f2, by simp [Stmt.binds]⟩
  | roundFor _ _ _ ha _ ih1 ih2 =>
    rintro top τ rfl h2 hw
    obtain ⟨t1, e1, e2, _⟩ := ih1 (top := [] :: top) (τ := τ) rfl (by simp) fun x hx => (hw x (by simp [Stmt.writes, hx])).up
    obtain ⟨t, rfl, e4⟩ := Wider.close e1 e2
    obtain ⟨t3, rfl, g2⟩ := acts_inside ha (e4.inside (hw _ (by simp [Stmt.writes])))
    have g3 := e4.trans g2
    obtain ⟨t2, f1, f2, _⟩ := ih2 (top := t3) (τ := τ) rfl (g3.ne h2) fun x hx => g3.inside (hw x hx)
    exact ⟨t2, f1, g3.trans f2, by simp [Stmt.binds]⟩
  | returned _ _ _ _ ih =>
    rintro top τ rfl h2 hw
    obtain ⟨t1, e1, e2, _⟩ := ih (top := [] :: top) (τ := τ) rfl (by simp) fun x hx => (hw x (by simp [Stmt.writes, hx])).up
    obtain ⟨t, f1, f2⟩ := Wider.close e1 e2
    exact ⟨t, f1, f2, by simp [Stmt.binds]⟩
  | ret => rintro top τ rfl h2 hw; exact ⟨top, rfl, .refl _, by simp [Stmt.binds]⟩
  | leave => rintro top τ rfl h2 hw; exact ⟨top, rfl, .refl _, by simp [Stmt.binds]⟩
  | block _ _ ih =>
    rintro top τ rfl h2 hw
    obtain ⟨t1, e1, e2, _⟩ := ih (top := [] :: top) (τ := τ) rfl (by simp) fun x hx => (hw x (by simp [Stmt.writes, hx])).up
    obtain ⟨t, f1, f2⟩ := Wider.close e1 e2
    exact ⟨t, f1, f2, by simp [Stmt.binds]⟩
  | call h => rw [hL] at h; cases h

end Bic
