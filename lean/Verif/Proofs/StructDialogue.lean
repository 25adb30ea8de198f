import Verif.Spec.StructDialogue
import Verif.Props.StructText
import Verif.Props.EnumText
/-!
# Lines that use the members of a structure
-/

namespace Bic
open Spec

theorem tagged_resolve (s : St) (isS : Bool) (c : TId) (tag : Option (TId × String)) (x : String) :
    resolveGlobal x .normal (tagged s isS c tag) = resolveGlobal x .normal s := by
  cases tag with
  | none => rfl
  | some p =>
    unfold Bic.resolveGlobal tagged tagSt
    cases hs : s.ctxs with
    | nil => rfl
    | cons c0 cs => cases isS <;> rfl

theorem tagged_includes (s : St) (isS : Bool) (c : TId) (tag : Option (TId × String)) : (tagged s isS c tag).includes = s.includes := by
  cases tag <;> rfl

end Bic

namespace Bic.Repl
open Spec CSyn
open Lexer (Reads Follows)
open _root_.Bic.Parser (PT T K Der Rep nameStr rep_single we_der)
open Printer (Floats)
open CText (Text ascii)

/-- everything of `s0` is still there in `s`, but `x` may mean something else -/
structure KeptBut (s0 s : St) (x : String) : Prop where
  nodes : ∀ (t : TId) (n : Node), Bic.Plain n → s0.nodes t = some n → s.nodes t = some n
  live : ∀ b, s0.mem.live b = true → s.mem.live b = true
  byte : ∀ b, s0.mem.live b = true → s.mem.byte b = s0.mem.byte b
  names : ∀ y, y ≠ x → resolveGlobal y .normal s = resolveGlobal y .normal s0
  includes : s.includes = s0.includes

theorem KeptBut.intIs {s0 s : St} {x y : String} {v : Int} (k : KeptBut s0 s x) (hy : y ≠ x) (h : IntIs s0 y v) : IntIs s y v := by
  obtain ⟨t, h1, h2⟩ := h
  refine ⟨t, (k.names y hy).trans h1, ?_⟩
  rcases h2 with h2 | ⟨c, hc, ⟨τ, a, ⟨⟨b, m, k1⟩, ⟨e, k2⟩, k3, k4⟩, g3⟩, g4⟩
  · exact .inl (k.nodes _ _ trivial h2)
  · rw [Mem.ok_iff] at k4
    refine .inr ⟨c, hc, ⟨τ, a, ⟨⟨b, m, k.nodes _ _ trivial k1⟩, ⟨e, k.nodes _ _ trivial k2⟩, k3, ?_⟩, ?_⟩, g4⟩
    · rw [Mem.ok_iff]
      exact fun b h1 h2 => k.live b (k4 b h1 h2)
    · rw [g3]
      congr 1
      exact (Mem.load_congr fun b h1 h2 => k.byte b (k4 b h1 h2)).symm

theorem KeptBut.ext {s0 s s' : St} {x : String} (k : KeptBut s0 s x) (e : Ext s s') : KeptBut s0 s' x :=
  ⟨fun t n hp h => e.nodes _ _ (k.nodes t n hp h), by rw [e.mem]; exact k.live, by rw [e.mem]; exact k.byte,
    fun y hy => (e.resolveGlobal y _).trans (k.names y hy), e.includes.trans k.includes⟩

theorem KeptBut.wr {s0 s : St} {x : String} (k : KeptBut s0 s x) {n a v : Nat} (h : ∀ b, a ≤ b → s0.mem.live b = false) : KeptBut s0 (Bic.wr s n a v) x := by
  refine ⟨k.nodes, ?_, ?_, fun y hy => k.names y hy, k.includes⟩
  · intro b hb
    rw [wr_mem, Mem.store_live]
    exact k.live b hb
  · intro b hb
    rw [wr_mem, Mem.store_byte_other, k.byte b hb]
    refine .inl (Nat.lt_of_not_le fun hab => ?_)
    rw [h b hab] at hb
    cases hb

/-- the integer members of the variable `x`, which was declared in the state `s0`, hold these values -/
structure Members (s0 s : St) (x : String) (ms : List (String × MTy)) (σ : MVals) : Prop where
  wf : WF s
  kept : KeptBut s0 s x
  cells : ∃ v c bs base, ∃ obj : String → TId, ∃ addr : String → Nat, resolveGlobal x .normal s = some v ∧ s.nodes v = some (.lcomp (some c) bs base) ∧
    (∀ m k, (m, .val k) ∈ ms → integral k → findId m bs = some (obj m) ∧ (∃ τ, LvAt s (obj m) τ k (addr m)) ∧ ∀ b, addr m ≤ b → s0.mem.live b = false) ∧
    (∀ m k m' k', (m, .val k) ∈ ms → (m', .val k') ∈ ms → m ≠ m' → addr m + k.size ≤ addr m' ∨ addr m' + k'.size ≤ addr m) ∧
    ∀ m v, σ m = some v → ∃ k, (m, .val k) ∈ ms ∧ integral k ∧ Holds s (obj m) k v

theorem Members.ext {s0 s s' : St} {x : String} {ms σ} (h : Members s0 s x ms σ) (e : Ext s s') : Members s0 s' x ms σ := by
  obtain ⟨v, c, bs, base, obj, addr, h1, h2, h3, h4, h5⟩ := h.cells
  refine ⟨e.wf h.wf, h.kept.ext e, v, c, bs, base, obj, addr, (e.resolveGlobal x _).trans h1, e.nodes _ _ h2, ?_, h4, ?_⟩
  · intro m k hm hk
    obtain ⟨j1, ⟨τ, j2⟩, j3⟩ := h3 m k hm hk
    exact ⟨j1, ⟨τ, j2.ext e⟩, j3⟩
  · intro m v hv
    obtain ⟨k, j1, j2, j3⟩ := h5 m v hv
    exact ⟨k, j1, j2, j3.ext e⟩

/-- storing into a member -/
theorem Members.set {s0 s : St} {x : String} {ms σ} (h : Members s0 s x ms σ) {m : String} {k : CT} (hm : (m, .val k) ∈ ms) (hk : integral k)
    (hnd : (ms.map Prod.fst).Nodup) : ∃ v c bs base w τ a, resolveGlobal x .normal s = some v ∧ s.nodes v = some (.lcomp (some c) bs base) ∧
      findId m bs = some w ∧ LvAt s w τ k a ∧
      ∀ z : Int, Members s0 (Bic.wr s k.size a (k.encode z)) x ms fun y => if y = m then some (k.decode (k.encode z)) else σ y := by
  obtain ⟨v, c, bs, base, obj, addr, h1, h2, h3, h4, h5⟩ := h.cells
  obtain ⟨j1, ⟨τ, j2⟩, j3⟩ := h3 m k hm hk
  have uniq : ∀ {k'}, (m, MTy.val k') ∈ ms → k' = k := by
    intro k' h'
    have : ∀ {l : List (String × MTy)}, (l.map Prod.fst).Nodup → (m, MTy.val k') ∈ l → (m, MTy.val k) ∈ l → k' = k := by
      intro l
      induction l with
      | nil => intro _ h; cases h
      | cons p l ih =>
        intro hn ha hb
        simp only [List.map_cons, List.nodup_cons] at hn
        rcases List.mem_cons.mp ha with ha | ha <;> rcases List.mem_cons.mp hb with hb | hb
        · rw [← ha] at hb
          cases hb
          rfl
        · rw [← ha] at hn
          exact absurd (List.mem_map_of_mem hb) hn.1
        · rw [← hb] at hn
          exact absurd (List.mem_map_of_mem ha) hn.1
        · exact ih hn.2 ha hb
    exact this hnd h' hm
  refine ⟨v, c, bs, base, obj m, τ, addr m, h1, h2, j1, j2, fun z => ?_⟩
  refine ⟨wr_WF h.wf _ _ _, h.kept.wr j3, v, c, bs, base, obj, addr, h1, h2, ?_, h4, ?_⟩
  · intro m' k' hm' hk'
    obtain ⟨i1, ⟨τ', i2⟩, i3⟩ := h3 m' k' hm' hk'
    exact ⟨i1, ⟨τ', i2.wr _ _ _⟩, i3⟩
  · intro m' u hu
    by_cases e : m' = m
    · subst e
      rw [if_pos rfl] at hu
      cases hu
      exact ⟨k, hm, hk, j2.holds_wr z⟩
    · rw [if_neg e] at hu
      obtain ⟨k', i1, i2, τ', a', i3, i4⟩ := h5 m' u hu
      refine ⟨k', i1, i2, τ', a', i3.wr _ _ _, ?_⟩
      obtain ⟨-, ⟨τ2, l1⟩, -⟩ := h3 m' k' i1 i2
      have : a' = addr m' := by
        obtain ⟨b1, n1, q1⟩ := i3.lv
        obtain ⟨b2, n2, q2⟩ := l1.lv
        rw [q1] at q2
        cases q2
        rfl
      subst this
      rw [i4, wr_mem, Mem.load_store_disj]
      exact h4 m' k' m k i1 hm e

/-- right after the declaration -/
theorem members_of {s0 s : St} {x : String} {ms : List (String × MTy)} {os : List Nat} {sz : Nat} (w : WF s) (hk : KeptBut s0 s x)
    (h : LaidOut s0 s x ms os sz) (hp : Placed 0 (ms.map Prod.snd) os sz) (hnd : (ms.map Prod.fst).Nodup) : Members s0 s x ms fun _ => none := by
  obtain ⟨v, c, bs, base, id, ds, b, h1, h2, h3, h4, h5, h6, h7, h8⟩ := h
  have names : bs.map Binding.name = ms.map Prod.fst := by
    refine List.ext_getElem? fun i => ?_
    simp only [List.getElem?_map]
    cases hi : ms[i]? with
    | none => rw [List.getElem?_eq_none (by rw [h6]; exact List.getElem?_eq_none_iff.mp hi)]; rfl
    | some m =>
      have hl := (List.getElem?_eq_some_iff.mp hi).1
      obtain ⟨mb, w, j1, j2, -⟩ := h8 i m _ hi (List.getElem?_eq_getElem (by rw [h7]; exact hl))
      rw [j1]
      exact congrArg some j2
  have key : ∀ m k, (m, .val k) ∈ ms → ∃ (i o : Nat) (w τ : TId) (e : _), ms[i]? = some (m, .val k) ∧ os[i]? = some o ∧ findId m bs = some w ∧
      s.nodes w = some (.lv (some τ) (base + o) false 0) ∧ s.nodes τ = some (.ctype k e) := by
    intro m k hm
    obtain ⟨i, hi⟩ := List.getElem?_of_mem hm
    have hl := (List.getElem?_eq_some_iff.mp hi).1
    have ho : os[i]? = some (os[i]'(by rw [h7]; exact hl)) := List.getElem?_eq_getElem (by rw [h7]; exact hl)
    obtain ⟨mb, w, j1, j2, j3, τ, e, j4, j5⟩ := h8 i _ _ hi ho
    have := findId_at (by rw [names]; exact hnd) j1 j3
    rw [j2] at this
    exact ⟨i, _, w, τ, e, hi, ho, this, j4, j5⟩
  let obj : String → TId := fun m => (findId m bs).getD 0
  let addr : String → Nat := fun m => match s.nodes (obj m) with
    | some (.lv _ a _ _) => a
    | _ => 0
  have at_ : ∀ m k, (m, .val k) ∈ ms → ∃ (i o : Nat) (τ : TId) (e : _), ms[i]? = some (m, .val k) ∧ os[i]? = some o ∧ findId m bs = some (obj m) ∧
      s.nodes (obj m) = some (.lv (some τ) (base + o) false 0) ∧ s.nodes τ = some (.ctype k e) ∧ addr m = base + o := by
    intro m k hm
    obtain ⟨i, o, w, τ, e, j1, j2, j3, j4, j5⟩ := key m k hm
    have e1 : obj m = w := by simp [obj, j3]
    rw [← e1] at j3 j4
    exact ⟨i, o, τ, e, j1, j2, j3, j4, j5, by simp only [addr, j4]⟩
  refine ⟨w, hk, v, c, bs, base, obj, addr, h1, h2, ?_, ?_, nofun⟩
  · intro m k hm hki
    obtain ⟨i, o, τ, e, j1, j2, j3, j4, j5, j6⟩ := at_ m k hm
    refine ⟨j3, ⟨τ, ⟨_, _, by rw [j6]; exact j4⟩, ⟨e, j5⟩, .inl hki, ?_⟩, fun b hb => h5 b (by omega)⟩
    have := hp.inOrder.within (i := i) (m := .val k) (o := o) (by simp [j1]) j2
    rw [Mem.ok_iff] at h4 ⊢
    intro b hb1 hb2
    have hsz : MTy.size (.val k) = k.size := abiSize_eq k
    exact h4 b (by omega) (by omega)
  · intro m k m' k' hm hm' hne
    obtain ⟨i, o, τ, e, j1, j2, j3, j4, j5, j6⟩ := at_ m k hm
    obtain ⟨i', o', τ', e', j1', j2', j3', j4', j5', j6'⟩ := at_ m' k' hm'
    have hii : i ≠ i' := by
      rintro rfl
      rw [j1] at j1'
      cases j1'
      exact hne rfl
    have hsz : ∀ k, MTy.size (.val k) = k.size := fun k => abiSize_eq k
    rcases Nat.lt_or_gt_of_ne hii with hlt | hlt
    · have := hp.inOrder.disjoint hlt (m := .val k) (o := o) (o' := o') (by simp [j1]) (m' := .val k') (by simp [j1']) j2 j2'
      rw [hsz] at this
      omega
    · have := hp.inOrder.disjoint hlt (m := .val k') (o := o') (o' := o) (by simp [j1']) (m' := .val k) (by simp [j1]) j2' j2
      rw [hsz] at this
      omega

/-- what the declaration leaves alone -/
theorem kept_of {E : Env} {s0 s s1 : St} {t d c : TId} {x : String} {isS : Bool} {L : List Item} {o : Ref} (he : Ext s0 s) (h : CompDecl s t d c x isS L)
    (hc : Conv E (fun R => R.ev (some t)) s (.ok o s1)) : WF s1 ∧ KeptBut s0 s1 x := by
  obtain ⟨L', v, bs, base, s', s'', hm, hx, hc', rfl, hr, ⟨tag, hg⟩, hcomp, hbase⟩ := compDecl_conv (E := E) h
  cases Conv.unique hc' hc
  have hw : WF s' := hg.wf (tagged_WF h.wf _ _ _)
  refine ⟨hw, ?_, ?_, ?_, ?_, ?_⟩
  · intro u n hp hu
    refine hg.nodes _ _ ?_ (by rw [tagged_nodes]; exact he.nodes _ _ hu)
    intro hd
    obtain ⟨specs, ch0, ts, off, sz, ds, tag, h1, h2, h3, h4, h5, h6, h7⟩ := h.trees
    have := he.nodes _ _ hu
    rw [List.mem_singleton.mp hd, h3] at this
    cases this
    exact hp
  · intro b hb
    refine hg.live b ?_
    rw [tagged_mem, he.mem]
    exact hb
  · intro b hb
    have := hg.byte b (by rw [tagged_mem, he.mem]; exact hb)
    rw [tagged_mem, he.mem] at this
    exact this
  · intro y hy
    rw [resolveGlobal_other hy, hg.resolveGlobal, tagged_resolve]
    exact he.resolveGlobal y _
  · show s'.includes = _
    rw [hg.includes, tagged_includes, he.includes]

/-! ### The lines -/

/-- the tree of the line -/
inductive MInputRep (nd : TId → Option Node) (x : String) : TId → MInput → Prop
  | set {t u l r o d m e} : Wrap nd t u → nd u = some (.assign (some l) (some r)) → nd l = some (.compAccess (some o) (some d)) →
      nd o = some (.ident x) → nd d = some (.ident m) → ERep nd r e → MInputRep nd x t (.set m e)
  | get {t u o d m} : Wrap nd t u → nd u = some (.compAccess (some o) (some d)) → nd o = some (.ident x) → nd d = some (.ident m) →
      MInputRep nd x t (.get m)

theorem minput_der {TN x p i} (h : WMInput cTable TN x p i) :
    ∃ t, Der .replUnit i (.chain [t]) [] ∧ typedefNames t = [] ∧ (∀ s, t ≠ .cppInclude s) ∧
      ∀ {nd : TId → Option Node} {u}, Rep nd (.t t (some u)) → MInputRep nd (nameStr x) u p := by
  have key : ∀ {i t}, Der .assignment i t [.p .semi] →
      (∀ {nd : TId → Option Node} {u v}, Rep nd (.t t (some v)) → Wrap nd u v → MInputRep nd (nameStr x) u p) →
      ∃ t, Der .replUnit i (.chain [t]) [] ∧ typedefNames t = [] ∧ (∀ s, t ≠ .cppInclude s) ∧
        ∀ {nd : TId → Option Node} {u}, Rep nd (.t t (some u)) → MInputRep nd (nameStr x) u p := by
    intro i t h1 h2
    refine ⟨_, .ruOne (.rsExpr (.esExpr (.exOne h1))), rfl, nofun, ?_⟩
    intro nd u hu
    obtain ⟨x, _, v, e, _, h3, h4⟩ := rep_single hu
    cases e
    exact h2 h3 h4
  cases h with
  | @set m e i h =>
    obtain ⟨t, h1, h2⟩ := we_der h
    refine key (.asOp (k := .assign) (f := fun l r => .assign l r) (.uPostfix (.poDot (.poPrimary .pIdent))) rfl h1) ?_
    intro nd u v hr hx
    cases hr with
    | assign h3 h4 h5 =>
      obtain ⟨v, rfl, h6⟩ := h2 h5
      cases h4 with
      | compAccess h7 h8 h9 =>
        cases h8 with
        | ident h8 =>
          cases h9 with
          | ident h9 => exact .set hx h3 h7 h8 h9 h6
  | get =>
    refine key (Parser.nt_down (p := 2) (q := 16) (.poDot (.poPrimary .pIdent)) (by omega) (by omega)) ?_
    intro nd u v hr hx
    cases hr with
    | compAccess h7 h8 h9 =>
      cases h8 with
      | ident h8 =>
        cases h9 with
        | ident h9 => exact .get hx h7 h8 h9

/-- the values bic gets right, and whose conversion it gets right -/
def bicVal (s : St) (x : String) (k : CT) (e : Expr) (v : Int) : Prop :=
  Val okOp okTruth (fun y u => IntIs s y u ∧ y ≠ x) e v ∧ computed e = true ∧ (width k ≤ 32 ∨ (-2 ^ 63 ≤ v ∧ v < 2 ^ 63))

theorem minput_conv {E : Env} (fl : Floats) {s0 s : St} {x : String} {ms : List (String × MTy)} {σ σ' : MVals} {t : TId} {p : MInput} {out : Str}
    (g : Members s0 s x ms σ) (hnd : (ms.map Prod.fst).Nodup) (ht : MInputRep s.nodes x t p)
    (h : MReply (bicVal s0 x) (fun v _ z => z = v) ms σ p out σ') : ∃ s', Shown E fl s t out s' ∧ Members s0 s' x ms σ' := by
  cases h with
  | @set m k e v w z out h1 h2 h3 h4 h5 h6 =>
    subst h5
    cases ht with
    | set w e1 e2 e3 e4 e5 =>
      obtain ⟨hv, hcomp, hfit⟩ := h3
      obtain ⟨q, s2, k1, k2, k3, k4⟩ := eval_full (E := E) g.wf (fun _ _ h => (g.kept.intIs h.2 h.1).varIs) hv e5
      obtain ⟨v, c, bs, base, w', τ, a, j1, j2, j3, j4, j5⟩ := (g.ext k2).set h1 h2 hnd
      have j1' : resolveGlobal x .normal s = some v := by rw [← k2.resolveGlobal]; exact j1
      obtain ⟨v', c', bs', base', obj, addr, i1, i2, -⟩ := g.cells
      rw [j1'] at i1
      cases i1
      have i3 := k2.nodes _ _ i2
      rw [j2] at i3
      cases i3
      have hq := k4.1 hcomp
      have := assign_conv e1 (compAccess_conv e2 e4 (ident_conv e3 j1') i2 j3) k1 j4 h2 (.int hq)
      refine ⟨_, .inl ⟨q, _, w.conv this, rfl, fun o => ?_⟩, ?_⟩
      · rw [decimal_unique h6]
        exact prints_int (s := wr s2 _ _ _) (.inl hq) o
      · have := j5 (mpzGetSi z)
        rw [Converts.unique (.inl h2) (getSi_converts h2 hfit) h4] at this
        exact this
  | get h1 h2 =>
    cases ht with
    | get w e1 e2 e3 =>
      obtain ⟨v, c, bs, base, obj, addr, i1, i2, i3, i4, i5⟩ := g.cells
      obtain ⟨k, j1, j2, j3⟩ := i5 _ _ h1
      refine ⟨s, .inl ⟨_, _, w.conv (compAccess_conv e1 e3 (ident_conv e2 i1) i2 (i3 _ k j1 j2).1), rfl, fun o => ?_⟩, g⟩
      rw [decimal_unique h2]
      exact prints_int (.inr ⟨k, j2, j3⟩) o

end Bic.Repl
