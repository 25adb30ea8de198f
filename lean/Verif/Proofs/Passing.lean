import Verif.Proofs.Store
/-!
# Passing arguments to functions on integers
-/

namespace Bic
open Spec

theorem Ext.uids {s s' : St} (x : Ext s s') : uids s' = uids s := by unfold Bic.uids; rw [x.ctxs]

/-! ## Passing arguments -/

/-- the parameter declarations of a function -/
inductive ParamsRep (nd : TId → Option Node) : List TId → List (CT × String) → Prop
  | nil : ParamsRep nd [] []
  | cons {d specs i off c x ds ps} : nd d = some (.decl (some specs) (some i) off) → TypeSpecs nd specs c →
      nd i = some (.ident x) → ParamsRep nd ds ps → ParamsRep nd (d :: ds) ((c, x) :: ps)

/-- the arguments of a call -/
inductive ArgsRep (nd : TId → Option Node) : List TId → List Expr → Prop
  | nil : ArgsRep nd [] []
  | cons {a e as es} : ERep nd a e → ArgsRep nd as es → ArgsRep nd (a :: as) (e :: es)

theorem ParamsRep.mono {nd nd' : TId → Option Node} (h : ∀ t n, nd t = some n → nd' t = some n) {l ps} (r : ParamsRep nd l ps) :
    ParamsRep nd' l ps := by
  induction r with
  | nil => exact .nil
  | cons h1 h2 h3 _ ih => exact .cons (h _ _ h1) (h2.mono h) (h _ _ h3) ih

theorem ArgsRep.mono {nd nd' : TId → Option Node} (h : ∀ t n, nd t = some n → nd' t = some n) {l es} (r : ArgsRep nd l es) :
    ArgsRep nd' l es := by
  induction r with
  | nil => exact .nil
  | cons h1 _ ih => exact .cons (h1.mono h) ih

theorem Frame_find_none {x : String} {fr : Frame} : Frame.find x fr = none ↔ x ∉ fr.names := by
  induction fr with
  | nil => simp [Frame.find, Frame.names]
  | cons p fr ih =>
    obtain ⟨y, v⟩ := p
    simp only [Frame.names] at ih
    by_cases h : y = x
    · simp [Frame.find, Frame.names, h]
    · simp [Frame.find, Frame.names, h, ih, Ne.symm h]

theorem Frame_find_last {x : String} {fr : Frame} (h : Frame.find x fr = none) (v) : Frame.find x (fr ++ [(x, v)]) = some v := by
  induction fr with
  | nil => simp [Frame.find]
  | cons p fr ih =>
    obtain ⟨y, u⟩ := p
    by_cases hy : y = x
    · simp [Frame.find, hy] at h
    · simp [Frame.find, hy] at h ⊢
      exact ih h

theorem Frame_write_last {x : String} {fr : Frame} (h : Frame.find x fr = none) (c u w) :
    Frame.write x w (fr ++ [(x, some ⟨c, u⟩)]) = fr ++ [(x, some ⟨c, some w⟩)] := by
  induction fr with
  | nil => simp [Frame.write]
  | cons p fr ih =>
    obtain ⟨y, u⟩ := p
    by_cases hy : y = x
    · simp [Frame.find, hy] at h
    · simp [Frame.find, hy] at h
      simp [Frame.write, hy, ih h]

/-- expressions that do not use the names of the innermost scope -/
theorem value_under {L : Rules} {fr : Frame} {σ : Store} {e v} (h : L.Value σ e v) (hu : ∀ y ∈ e.uses, y ∉ fr.names) :
    L.Value (fr :: σ) e v := by
  refine Val.congr h fun x hx v ⟨c, h1, h2⟩ => ⟨c, ?_, h2⟩
  simp only [Store.Has, Store.find, Frame_find_none.mpr (hu x hx)]
  exact h1

/-- evaluating the declaration of a parameter -/
theorem param_conv {E : Env} {s : St} {fr : Frame} {σ : Store} {n off : Nat} {d specs i : TId} {c : CT} {x : String}
    (hc : integral c) (g : Good s (fr :: σ) (n + 1))
    (h1 : s.nodes d = some (.decl (some specs) (some i) off)) (h2 : TypeSpecs s.nodes specs c) (h3 : s.nodes i = some (.ident x))
    (hx : Frame.find x fr = none) :
    ∃ s', Evt E s (some d) (some i) s' ∧ Good s' ((fr ++ [(x, some ⟨c, none⟩)]) :: σ) n ∧ Kept s s' ∧ uids s' = uids s ∧
      ∀ t c v a, VarAt s t c v a → VarAt s' t c v a := by
  have y := addNode_ext g.wf (.ctype c none)
  have g1 := g.ext y
  obtain ⟨g2, hr⟩ := declSt_good (d := i) g1 (addNode_self _ _) hc hx
  have hd := handleDecl_ident_conv (E := E) g1.wf (y.nodes _ _ h3) (addNode_self s (.ctype c none)) (g1.room.mono (by omega)) hr
  have hu : uids (declSt (addNode s (.ctype c none)) s.next i x) = uids s := declSt_uids _ _ _ _
  have gr := newVar_grow g1.wf (some s.next)
  refine ⟨_, evt_uids (evalDecl_conv g.wf h1 h2 ?_) hu g2.flags, g2, Kept.trans y.nodes (declSt_kept g1.wf _ _ _), hu, ?_⟩
  · refine hd.of_eq fun R => ?_
    simp [eachDecl, peek_apply (y.nodes _ _ h3)]
  · intro t c v a h
    have := (h.grow y.grow).grow gr
    obtain ⟨τ, ⟨a1, a2, a3, a4⟩⟩ := this.at_
    exact ⟨⟨τ, ⟨a1, a2, a3, a4⟩⟩, this.int, this.wide, this.val⟩

theorem pass_conv {E : Env} {σ : Store} {ps es fr} (hP : Params okRules σ ps es fr) :
    ∀ {s : St} {fr0 : Frame} {ds as m}, ParamsRep s.nodes ds ps → ArgsRep s.nodes as es → Good s (fr0 :: σ) (ps.length + m) →
      Avoid fr0.names ps es → (fr0 ++ fr).names.Nodup →
      ∃ s', Passed E s ds as s' ∧ Good s' ((fr0 ++ fr) :: σ) m ∧ Kept s s' ∧ uids s' = uids s := by
  induction hP with
  | nil =>
    intro s fr0 ds as m h1 h2 g _ _
    cases h1; cases h2
    exact ⟨s, .nil, by simpa using g, Kept.refl _, rfl⟩
  | @cons c x e v w ps es fr hc hv ha hw _ ih =>
    intro s fr0 ds as m h1 h2 g hav hnd
    cases h1 with
    | @cons d specs i off _ _ ds _ d1 d2 d3 hds =>
    cases h2 with
    | @cons a _ as _ ha1 has =>
    have hx : Frame.find x fr0 = none := by
      refine Frame_find_none.mpr fun hmem => ?_
      simp only [Frame.names, List.map_append, List.map_cons] at hnd hmem
      rw [List.nodup_append] at hnd
      exact hnd.2.2 x hmem x (by simp) rfl
    have g0 : Good s (fr0 :: σ) ((ps.length + m) + 1) := g.mono (by simp; omega)
    have hv' := value_under hv hav.1
    -- the argument and the declaration
    suffices hstep : ∃ q s1 s2 r s3, Evt E s (some a) (some q) s1 ∧ Evt E s1 (some d) (some i) s2 ∧
        Evt E (addNode s2 (.assign (some i) (some q))) (some s2.next) (some r) s3 ∧
        Good s3 ((fr0 ++ [(x, some ⟨c, some w⟩)]) :: σ) (ps.length + m) ∧ Kept s s3 ∧ uids s3 = uids s by
      obtain ⟨q, s1, s2, r, s3, e1, e2, e3, g3, k3, u3⟩ := hstep
      obtain ⟨s', p1, p2, p3, p4⟩ := ih (fr0 := fr0 ++ [(x, some ⟨c, some w⟩)]) (hds.mono k3) (has.mono k3) g3
        (by simpa [Frame.names] using hav.2) (by simpa using hnd)
      exact ⟨s', .cons e1 e2 e3 p1, by simpa using p2, k3.trans p3, p4.trans u3⟩
    have hwrite : Store.write x w ((fr0 ++ [(x, some ⟨c, none⟩)]) :: σ) = (fr0 ++ [(x, some ⟨c, some w⟩)]) :: σ := by
      simp [Store.write, Frame_find_last hx, Frame_write_last hx]
    have hhas : Store.Has ((fr0 ++ [(x, some ⟨c, none⟩)]) :: σ) x c none := by
      simp [Store.Has, Store.find, Frame_find_last hx]
    rcases ha with ⟨hcomp, hfit⟩ | ⟨y, k, rfl, hy, hwd⟩
    · obtain ⟨q, s1, h1, h2, h3, h4⟩ := eval_full (E := E) g.wf (fun _ _ ⟨_, h1, h2⟩ => g.rel.varIs h1 h2) hv' ha1
      obtain ⟨s2, e2, g2, k2, u2, _⟩ := param_conv (E := E) hc (g0.ext h2) (h2.nodes _ _ d1) (d2.mono h2.nodes) (h2.nodes _ _ d3) hx
      have z := addNode_ext g2.wf (.assign (some i) (some q))
      have hq := z.nodes _ _ (k2 _ _ (h4.1 hcomp))
      obtain ⟨r, s3, e3, g3, k3, _, c3, _⟩ := set_conv (E := E) (e := .lit v) (v := v) (g2.ext z) (addNode_self _ _) (z.nodes _ _ (k2 _ _ (h2.nodes _ _ d3)))
        (.lit hq) hhas (.lit v) (.inl ⟨rfl, hfit⟩) hw
      rw [hwrite] at g3
      refine ⟨q, s1, s2, r, s3, ⟨h1, by rw [h2.ctxs], by rw [h2.ctxs]; exact g.flags⟩, e2, e3, g3,
        ((Kept.trans h2.nodes k2).trans z.nodes).trans k3, ?_⟩
      have : uids s3 = uids s2 := by unfold uids; rw [c3]; rfl
      rw [this, u2, h2.uids]
    · have hy' : Store.Has (fr0 :: σ) y k (some v) := by
        simp only [Store.Has, Store.find, Frame_find_none.mpr (hav.1 y (by simp [Expr.uses]))]
        exact hy
      obtain ⟨q, b, j1, j2, _⟩ := g.rel.find hy'
      have hcv := var_conv (E := E) j1 ha1 rfl
      obtain ⟨s2, e2, g2, k2, u2, v2⟩ := param_conv (E := E) hc g0 d1 d2 d3 hx
      have z := addNode_ext g2.wf (.assign (some i) (some q))
      have hvq := (v2 _ _ _ _ j2).grow z.grow
      obtain ⟨τ', hl'⟩ := hvq.at_
      obtain ⟨arr, sz, hlv⟩ := hl'.lv
      obtain ⟨s3, e3, g3, k3, c3, _⟩ := copy_conv (E := E) (g2.ext z) (addNode_self _ _) (z.nodes _ _ (k2 _ _ d3))
        (Conv.evNode hlv (Conv.pure _)) hvq hhas hwd hw
      rw [hwrite] at g3
      refine ⟨q, s, s2, _, s3, ⟨hcv, rfl, g.flags⟩, e2, e3, g3, (k2.trans z.nodes).trans k3, ?_⟩
      have : uids s3 = uids s2 := by unfold uids; rw [c3]; rfl
      rw [this, u2]

/-! ## The call -/

theorem Good.enterFn {s : St} {σ n} (h : Good s σ n) (nm : String) : Good (enterFn s nm) ([] :: σ) n where
  wf := h.wf
  flags c hc := by
    rcases List.mem_cons.mp hc with rfl | hc
    · rfl
    · exact h.flags c hc
  room := ⟨h.room.brk, by simp [Bic.enterFn], h.room.livelt⟩
  rel := by
    obtain ⟨as, h1, h2⟩ := h.rel
    exact ⟨[] ++ as, .cons .nil (h1.map (cs' := lookups s) rfl fun t c v a _ h => ⟨by
      obtain ⟨τ, ⟨a1, a2, a3, a4⟩⟩ := h.at_; exact ⟨τ, ⟨a1, a2, a3, a4⟩⟩, h.int, h.wide, h.val⟩), h2⟩

theorem bound_conv {E : Env} {s : St} {σ : Store} {ps es fr m} {args callArgs : Ref} {name : String}
    (g : Good s σ (ps.length + m)) (hP : Params okRules σ ps es fr) (hav : Avoid [] ps es) (hnd : fr.names.Nodup)
    (hb : (args = none ∧ callArgs = none ∧ ps = [] ∧ es = []) ∨
     ∃ ad ca ds as, args = some ad ∧ callArgs = some ca ∧ s.nodes ad = some (.chain ds) ∧ s.nodes ca = some (.chain as) ∧
       ParamsRep s.nodes ds ps ∧ ArgsRep s.nodes as es) :
    ∃ s1, Bound E (enterFn s name) args callArgs s1 ∧ Good s1 (fr :: σ) m ∧ Kept s s1 ∧ uids s1 = s.nextUid :: uids s := by
  have g1 := g.enterFn name
  rcases hb with ⟨rfl, rfl, rfl, rfl⟩ | ⟨ad, ca, ds, as, rfl, rfl, h1, h2, h3, h4⟩
  · cases hP
    exact ⟨_, .inl ⟨rfl, rfl⟩, by simpa using g1, Kept.refl _, rfl⟩
  · obtain ⟨s1, p1, p2, p3, p4⟩ := pass_conv (E := E) hP (s := enterFn s name) (fr0 := []) h3 h4 g1 hav hnd
    exact ⟨s1, .inr ⟨ad, ds, as, rfl, h1, chainElems_apply h2, p1⟩, p2, p3, p4⟩

theorem evl_sane {E : Env} {s s' : St} {t r : Ref} (h : Evl E s t r s') (hs : Sane s) (hf : ∀ c ∈ s'.ctxs, c.shouldBreak = false)
    (hne : s'.ctxs ≠ []) : Sane s' := ⟨(Conv.evol h hs.inv).inv, hf, hne⟩

end Bic
