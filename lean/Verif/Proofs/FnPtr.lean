import Verif.Proofs.Params
import Verif.Proofs.ExtCall
/-!
# Calls through pointers to interpreted functions
-/

namespace Bic
open Spec

theorem UidsOk.core : ∀ {l l' : List Ctx} {n : Nat}, UidsOk n l → l'.map (·.uid) = l.map (·.uid) → UidsOk n l'
  | [], [], _, _, _ => trivial
  | [], _ :: _, _, _, e => by simp at e
  | _ :: _, [], _, _, e => by simp at e
  | c :: cs, c' :: cs', _, h, e => by
    simp only [List.map_cons, List.cons.injEq] at e
    refine ⟨by rw [e.1]; exact h.1, ?_⟩
    rw [e.1]
    exact UidsOk.core h.2 e.2

theorem Sane.grow {s s' : St} (h : Sane s) (g : Grow s s') : Sane s' where
  inv := ⟨g.wf h.inv.wf, by rw [g.nextUid]; exact h.inv.uids.core (core_uids g.ctxs), by
    intro c hc
    have h1 : c.core ∈ s.ctxs.map Ctx.core := by rw [← g.ctxs]; exact List.mem_map.mpr ⟨c, hc, rfl⟩
    obtain ⟨d, hd, e⟩ := List.mem_map.mp h1
    have e1 : d.structs = c.structs := (congrArg (fun c : Ctx => c.structs) e : _)
    have e2 : d.unions = c.unions := (congrArg (fun c : Ctx => c.unions) e : _)
    have := h.inv.tags d hd
    rw [e1, e2] at this
    exact ⟨fun b hb v hv => (this.1 b hb v hv).imp fun n hn => ⟨g.nodes _ _ hn.1, hn.2⟩,
      fun b hb v hv => (this.2 b hb v hv).imp fun n hn => ⟨g.nodes _ _ hn.1, hn.2⟩⟩⟩
  flags := flags_of (core_flags g.ctxs) h.flags
  ne := g.ctxs_ne h.ne

theorem Good.grown {s s' : St} {σ n m} (h : Good s σ n) (g : Grow s s') (hr : Room s' m) : Good s' σ m where
  wf := g.wf h.wf
  flags := flags_of (core_flags g.ctxs) h.flags
  room := hr
  rel := h.rel.grow g

theorem Grow.uids {s s' : St} (g : Grow s s') : uids s' = uids s := core_uids g.ctxs

/-! ## Passing objects that have the types of the parameters -/

/-- the objects `as` have the types of the parameters `ps`; `fr` are their values -/
inductive ValuesAt (s : St) : List TId → List (CT × String) → Frame → Prop
  | nil : ValuesAt s [] [] []
  | cons {a c x w b as ps fr} : VarAt s a c (some w) b → ValuesAt s as ps fr →
      ValuesAt s (a :: as) ((c, x) :: ps) ((x, some ⟨c, some w⟩) :: fr)

theorem ValuesAt.map {s s' : St} (h : ∀ t c v a, VarAt s t c v a → VarAt s' t c v a) {as ps fr} (hv : ValuesAt s as ps fr) :
    ValuesAt s' as ps fr := by
  induction hv with
  | nil => exact .nil
  | cons h1 _ ih => exact .cons (h _ _ _ _ h1) ih

/-- the parameter is a new variable at the end of the memory in use -/
theorem param_new {E : Env} {s : St} {fr : Frame} {σ : Store} {n off : Nat} {d specs i : TId} {c : CT} {x : String}
    (hc : integral c) (g : Good s (fr :: σ) (n + 1))
    (h1 : s.nodes d = some (.decl (some specs) (some i) off)) (h2 : TypeSpecs s.nodes specs c) (h3 : s.nodes i = some (.ident x))
    (hx : Frame.find x fr = none) :
    ∃ s' t, Evt E s (some d) (some i) s' ∧ Good s' ((fr ++ [(x, some ⟨c, none⟩)]) :: σ) n ∧ Kept s s' ∧ uids s' = uids s ∧
      (∀ t c v a, VarAt s t c v a → VarAt s' t c v a) ∧ resolveGlobal x .normal s' = some t ∧ VarAt s' t c none s.mem.brk := by
  have y := addNode_ext g.wf (.ctype c none)
  have g1 := g.ext y
  obtain ⟨g2, hr⟩ := declSt_good (d := i) g1 (addNode_self _ _) hc hx
  have hd := handleDecl_ident_conv (E := E) g1.wf (y.nodes _ _ h3) (addNode_self s (.ctype c none)) (g1.room.mono (by omega)) hr
  have hu : uids (declSt (addNode s (.ctype c none)) s.next i x) = uids s := declSt_uids _ _ _ _
  have gr := newVar_grow g1.wf (some s.next)
  have hold : ∀ t c' v a, VarAt (addNode s (.ctype c none)) t c' v a → VarAt (declSt (addNode s (.ctype c none)) s.next i x) t c' v a := by
    intro t c' v a h
    have := h.grow gr
    obtain ⟨τ, ⟨a1, a2, a3, a4⟩⟩ := this.at_
    exact ⟨⟨τ, ⟨a1, a2, a3, a4⟩⟩, this.int, this.wide, this.val⟩
  have hfr : Fresh (addNode s (.ctype c none)) x := by
    intro k ks hcx
    obtain ⟨as, z1, _⟩ := g1.rel
    rw [lookups_cons hcx] at z1
    cases z1 with
    | cons z3 _ => exact z3.fresh hx
  refine ⟨_, (addNode s (.ctype c none)).next, evt_uids (evalDecl_conv g.wf h1 h2 ?_) hu g2.flags, g2, Kept.trans y.nodes (declSt_kept g1.wf _ _ _), hu,
    fun t c' v a h => hold _ _ _ _ (h.grow y.grow), ?_, ?_⟩
  · refine hd.of_eq fun R => ?_
    simp [eachDecl, peek_apply (y.nodes _ _ h3)]
  · exact resolveGlobal_bind (s := newVar (addNode s (.ctype c none)) (some s.next)) (hfr.grow gr) (gr.ctxs_ne g1.room.ctxs)
  · refine ⟨⟨s.next, ⟨false, 0, newVar_self _ _⟩, ⟨none, gr.nodes _ _ (addNode_self _ _)⟩, .inl hc, ?_⟩, hc, ?_, fun w hw => by cases hw⟩
    · exact newVar_ok (ty := some s.next) (Nat.le_trans (integral_size hc) (by omega))
    · exact newVar_ok (ty := some s.next) (by omega)

/-- assigning the object `q` to the variable at `a` -/
theorem copy_at {E : Env} {s : St} {σ : Store} {n : Nat} {u i r q t : TId} {x : String} {c : CT} {a b : Nat} {v0 : Option Int} {v : Int}
    (g : Good s σ n) (hu : s.nodes u = some (.assign (some i) (some r))) (hi : s.nodes i = some (.ident x))
    (hc : Conv E (fun R => R.ev (some r)) s (.ok (some q) s)) (j2 : VarAt s q c (some v) b) (hx : σ.Has x c v0)
    (k1 : resolveGlobal x .normal s = some t) (k2 : VarAt s t c v0 a) :
    ∃ z, Evt E s (some u) (some q) (wr s c.size a z) ∧ Good (wr s c.size a z) (σ.write x v) n := by
  obtain ⟨t', a', k1', k2', k3⟩ := g.rel.find hx
  rw [k1] at k1'
  cases k1'
  have ha : a' = a := by
    obtain ⟨_, hl⟩ := k2.at_
    obtain ⟨_, hl'⟩ := k2'.at_
    obtain ⟨_, _, e1⟩ := hl.lv
    obtain ⟨_, _, e2⟩ := hl'.lv
    rw [e1] at e2
    cases e2
    rfl
  subst ha
  obtain ⟨τ, hl⟩ := k2.at_
  obtain ⟨τ', hl'⟩ := j2.at_
  obtain ⟨arr, sz, hlv⟩ := hl'.lv
  have hw : Converts c v v := ⟨by
      rw [j2.val v rfl]
      exact CT.decode_inRange (.inl k2.int) (Mem.load_lt _ _ _), 0, by omega⟩
  have h1 := assign_conv hu (ident_conv hi k1) hc hl k2.int (.lv hlv j2.wide)
  obtain ⟨z, s', w', e1, e2, e3⟩ := C08_assign_partial E c c k2.int j2.int (Nat.le_refl _) s s s u t q τ τ' (some i) (some r) a' b v hu
    (ident_conv hi k1) hc hl hl' ((hl'.holds_iff v).mp ⟨_, _, hl', j2.val v rfl⟩) j2.wide
  have := Conv.unique h1 e1
  cases this
  have hz : v = c.decode (c.encode (CT.long.decode (s.mem.load 8 b))) := by
    rw [Converts.unique (.inl k2.int) hw e2]
    have h4 := ((hl.wr c.size a' _).holds_iff w').mpr e3
    exact (h4.unique (hl.holds_wr _)).2
  refine ⟨_, ⟨h1, rfl, g.flags⟩, g.wr _ _ _ ?_⟩
  have := k3 (CT.long.decode (s.mem.load 8 b))
  rw [← hz] at this
  exact this

theorem pass_vars {E : Env} {σ : Store} : ∀ {ps : List (CT × String)} {s : St} {fr0 fr : Frame} {ds as m}, ParamsRep s.nodes ds ps → ValuesAt s as ps fr →
      Good s (fr0 :: σ) (ps.length + m) → (fr0 ++ fr).names.Nodup →
      ∃ s', Passed E s ds as s' ∧ Good s' ((fr0 ++ fr) :: σ) m ∧ Kept s s' ∧ uids s' = uids s := by
  intro ps
  induction ps with
  | nil =>
    intro s fr0 fr ds as m h1 h2 g _
    cases h1; cases h2
    exact ⟨s, .nil, by simpa using g, Kept.refl _, rfl⟩
  | cons p ps ih =>
    intro s fr0 fr ds as m h1 h2 g hnd
    cases h1 with
    | @cons d specs i off c x ds _ d1 d2 d3 hds =>
    cases h2 with
    | @cons a _ _ w b as _ fr hv hvs =>
    have hx : Frame.find x fr0 = none := by
      refine Frame_find_none.mpr fun hmem => ?_
      simp only [Frame.names, List.map_append, List.map_cons] at hnd hmem
      rw [List.nodup_append] at hnd
      exact hnd.2.2 x hmem x (by simp) rfl
    have g0 : Good s (fr0 :: σ) ((ps.length + m) + 1) := g.mono (by simp; omega)
    obtain ⟨s2, t, e2, g2, k2, u2, v2, r2, n2⟩ := param_new (E := E) hv.int g0 d1 d2 d3 hx
    have z := addNode_ext g2.wf (.assign (some i) (some a))
    have hwrite : Store.write x w ((fr0 ++ [(x, some ⟨c, none⟩)]) :: σ) = (fr0 ++ [(x, some ⟨c, some w⟩)]) :: σ := by
      simp [Store.write, Frame_find_last hx, Frame_write_last hx]
    have hhas : Store.Has ((fr0 ++ [(x, some ⟨c, none⟩)]) :: σ) x c none := by
      simp [Store.Has, Store.find, Frame_find_last hx]
    have hvq := (v2 _ _ _ _ hv).grow z.grow
    obtain ⟨τ', hl'⟩ := hvq.at_
    obtain ⟨arr, sz, hlv⟩ := hl'.lv
    obtain ⟨τ0, hl0⟩ := hv.at_
    obtain ⟨arr0, sz0, hlv0⟩ := hl0.lv
    obtain ⟨zz, e3, g3⟩ := copy_at (E := E) (g2.ext z) (addNode_self _ _) (z.nodes _ _ (k2 _ _ d3))
      (Conv.evNode hlv (Conv.pure _)) hvq hhas ((z.resolveGlobal _ _).trans r2) (n2.grow z.grow)
    rw [hwrite] at g3
    have k3 : Kept s (wr (addNode s2 (.assign (some i) (some a))) c.size s.mem.brk zz) := k2.trans z.nodes
    have hall : ∀ t c' v a', VarAt s t c' v a' → VarAt (wr (addNode s2 (.assign (some i) (some a))) c.size s.mem.brk zz) t c' v a' := by
      intro t c' v a' h
      exact ((v2 _ _ _ _ h).grow z.grow).wr (integral_size hv.int) (.inl (below g.room.livelt h.wide))
    obtain ⟨s', p1, p2, p3, p4⟩ := ih (fr0 := fr0 ++ [(x, some ⟨c, some w⟩)]) (hds.mono k3) (hvs.map hall) g3 (by simpa using hnd)
    refine ⟨s', .cons ⟨Conv.evNode hlv0 (Conv.pure _), rfl, g.flags⟩ e2 e3 p1, by simpa using p2, k3.trans p3, p4.trans ?_⟩
    exact u2

/-! ## The arguments of a closure -/

/-- the value the parameter of type `c` gets from the argument; constants outside of `int` are cut off on
the way (C59) -/
def Gets (c : CT) : Arg → Int → Prop
  | .int _ v, w => Converts c v w
  | .const z, w => InRange .int z ∧ Converts c z w
  | _, _ => False

/-- the variables of a call: the parameters `ps` have the values of the arguments `as` -/
inductive PtrParams : List (CT × String) → List Arg → Frame → Prop
  | nil : PtrParams [] [] []
  | cons {c x a w ps as fr} : integral c → Gets c a w → PtrParams ps as fr → PtrParams ((c, x) :: ps) (a :: as) ((x, some ⟨c, some w⟩) :: fr)

/-- the types of the parameters -/
inductive TypesAt (nd : TId → Option Node) : List TId → List (CT × String) → Prop
  | nil : TypesAt nd [] []
  | cons {t c e x ts ps} : nd t = some (.ctype c e) → TypesAt nd ts ps → TypesAt nd (t :: ts) ((c, x) :: ps)

theorem TypesAt.mono {nd nd' : TId → Option Node} (h : ∀ t n, nd t = some n → nd' t = some n) {ts ps} (r : TypesAt nd ts ps) : TypesAt nd' ts ps := by
  induction r with
  | nil => exact .nil
  | cons h1 _ ih => exact .cons (h _ _ h1) ih

theorem encode_mod {c : CT} (hc : integral c) (v : Int) : CT.ulong.encode v % c.modulus = c.encode v := by
  have h1 := CT.encode_int c v
  have h2 := CT.encode_int .ulong v
  have : ((CT.ulong.encode v % c.modulus : Nat) : Int) = ((c.encode v : Nat) : Int) := by
    rw [Int.natCast_emod, h2, h1]
    cases c <;> simp [integral] at hc <;> simp only [CT.modulus, CT.size] <;> omega
  omega

/-- what is stored in the object of an argument -/
theorem gets_stored {E : Env} {c : CT} {a : Arg} {w : Int} (hc : integral c) (h : Gets c a w) :
    ∃ d reg, pass E false a = .int d reg ∧ w = c.decode (reg % c.modulus) := by
  cases a with
  | int d v =>
    refine ⟨d, CT.ulong.encode v, by cases d <;> rfl, ?_⟩
    rw [encode_mod hc]
    exact Converts.unique (.inl hc) h (CT.decode_encode_converts (.inl hc) v)
  | const z =>
    refine ⟨.int, _, rfl, ?_⟩
    rw [encode_mod hc]
    obtain ⟨hz, hw⟩ := h
    have e1 : mpzGetSi z = z := by
      have h1 : -2147483648 ≤ z := hz.1
      have h2 : z < 2147483648 := hz.2
      unfold mpzGetSi
      split <;> omega
    have e2 : CT.int.decode (CT.int.encode z) = z :=
      Converts.unique (c := .int) (.inl trivial) (CT.decode_encode_converts (c := .int) (.inl trivial) z) ⟨hz, 0, by omega⟩
    rw [e1, e2]
    exact Converts.unique (.inl hc) hw (CT.decode_encode_converts (.inl hc) z)
  | fp c b => exact absurd h id
  | str bs => exact absurd h id

theorem closureArgs_apply {E : Env} : ∀ {ps : List (CT × String)} {as : List Arg} {fr : Frame} {ts : List TId} {s : St} {k m : Nat},
    TypesAt s.nodes ts ps → PtrParams ps as fr → WF s → Room s (ps.length + m) →
    ∃ vs s', closureArgs ts (passAll E none k as) s = .ok vs s' ∧ ValuesAt s' vs ps fr ∧ Grow s s' ∧ Room s' m := by
  intro ps
  induction ps with
  | nil =>
    intro as fr ts s k m h1 h2 w hr
    cases h1; cases h2
    exact ⟨[], s, rfl, .nil, Grow.refl s, hr.mono (by omega)⟩
  | cons p ps ih =>
    intro as fr ts s k m h1 h2 w hr
    cases h1 with
    | @cons t c e x ts _ ht hts =>
    cases h2 with
    | @cons _ _ a v _ as fr hc ha has =>
    obtain ⟨d, reg, e1, e2⟩ := gets_stored (E := E) hc ha
    have hr1 : Room s ((ps.length + m) + 1) := hr.mono (by simp; omega)
    have g1 := newVal_grow w (some t) c.size (reg % c.modulus) hr1
    have r1 := newVal_room w (some t) c.size (reg % c.modulus) hr1
    obtain ⟨vs, s', h3, h4, h5, h6⟩ := ih (k := k + 1) (hts.mono g1.nodes) has (g1.wf w) r1
    have hfp : c.isFp = false := by cases c <;> simp [integral] at hc <;> rfl
    have hv : VarAt (newVal s (some t) c.size (reg % c.modulus)) s.next c (some v) s.mem.brk := by
      refine ⟨⟨t, ⟨false, 0, newVal_self _ _ _ _⟩, ⟨e, g1.nodes _ _ ht⟩, .inl hc, ?_⟩, hc, newVal_ok (by omega), fun w hw => ?_⟩
      · exact newVal_ok (Nat.le_trans (integral_size hc) (by omega))
      · cases hw
        rw [newVal_load, show (256 : Nat) ^ c.size = c.modulus from rfl, Nat.mod_mod]
        exact e2
    refine ⟨s.next :: vs, s', ?_, .cons (hv.grow h5) h4, g1.trans h5, h6⟩
    have hp : passAll E none k (a :: as) = .int d reg :: passAll E none (k + 1) as := by
      show pass E (isVar none k) a :: _ = _
      rw [show isVar none k = false from rfl, e1]
    rw [hp]
    unfold closureArgs
    rw [bind_apply, node_apply ht]
    simp only [hfp]
    have := makeLiveVar_store (some t) (n := c.size) (v := reg % c.modulus) (Nat.le_trans (integral_size hc) (by omega)) (hr1.mono (by omega))
      (fun v => do let rest ← closureArgs ts (passAll E none (k + 1) as); pure (v :: rest))
    refine Eq.trans this ?_
    simp only [bind_apply, h3, pure_apply]

/-! ## The call -/

/-- `f` is an interpreted function with the integer parameters `ps` and the body `b` -/
def FnIs (nd : TId → Option Node) (f : TId) (ps : List (CT × String)) (b : Ref) : Prop :=
  ∃ fd name args ret, nd f = some (.fn (some fd) args ret b) ∧ nd fd = some (.ident name) ∧ b ≠ none ∧
    ((args = none ∧ ps = []) ∨ ∃ ad ds, args = some ad ∧ nd ad = some (.chain ds) ∧ ParamsRep nd ds ps)

theorem FnIs.mono {nd nd' : TId → Option Node} (h : ∀ t n, nd t = some n → nd' t = some n) {f ps b} (r : FnIs nd f ps b) : FnIs nd' f ps b := by
  obtain ⟨fd, name, args, ret, h1, h2, h3, h4⟩ := r
  refine ⟨fd, name, args, ret, h _ _ h1, h _ _ h2, h3, ?_⟩
  rcases h4 with h4 | ⟨ad, ds, e, h5, h6⟩
  · exact .inl h4
  · exact .inr ⟨ad, ds, e, h _ _ h5, h6.mono h⟩

/-- the code at the address `fa` calls the function `f` with the parameters `ps` -/
def EntryOf (s : St) (fa : Nat) (f : TId) (ps : List (CT × String)) : Prop :=
  ∃ k ch ts r, findClosure fa s.closures = some k ∧ s.nodes k = some (.closure (some ch) r (some f)) ∧ s.nodes ch = some (.chain ts) ∧
    TypesAt s.nodes ts ps

/-- `x` is a pointer to a function with the result type `ret` (`none`: void) and without `...`; it holds `fa` -/
def FnPtrAt (s : St) (x : TId) (ret : Option CT) (fa : Nat) : Prop :=
  ∃ τ a arr sz ft fd params ρ stmts ds, s.nodes x = some (.lv (some τ) a arr sz) ∧ s.nodes τ = some (.ctype .ptr (some ft)) ∧
    s.nodes ft = some (.fn fd params ρ stmts) ∧ ListOf s.nodes params ds ∧ VarPos s.nodes ds none ∧ RetAt s ρ ret ∧
    s.mem.ok 8 a = true ∧ s.mem.load 8 a = fa

/-- the object for the result: none, or a new variable of the type -/
def ResultAt (s s' : St) : Option CT → Ref → Prop
  | none, r => r = none
  | some c, r => ∃ v τ a arr sz e, r = some v ∧ s.nodes v = none ∧ s'.nodes v = some (.lv (some τ) a arr sz) ∧ s'.nodes τ = some (.ctype c e)

/-- how a run of a body may end -/
inductive Comes : End → Prop
  | ret {v} : Comes (.ret v)
  | next : Comes .next
  | left : Comes .left

/-- `closure_entry`: the call of the function with the new objects -/
theorem entered {E : Env} {s : St} {σ σ' : Store} {f : TId} {ps : List (CT × String)} {vs : List TId} {b : Ref} {fr fr' : Frame} {p : Spec.Stmt}
    {fin : End} {n m : Nat} (hs : Sane s) (g : Good s σ (ps.length + (n + m))) (hf : FnIs s.nodes f ps b) (hv : ValuesAt s vs ps fr)
    (hnd : fr.names.Nodup) (hr : SRep s.nodes (.body b) p) (hrun : Run okRules (fr :: σ) p fin (fr' :: σ') n) (hfin : Comes fin) :
    ∃ r s', Evl E (addNode (addNode s (.chain vs)) (.fnCall (some f) (some s.next))) (some (s.next + 1)) r s' ∧ Good s' σ' m ∧ Sane s' ∧
      uids s' = uids s ∧ KeptX s s' := by
  have x1 := addNode_ext g.wf (.chain vs)
  have x2 := addNode_ext (x1.wf g.wf) (.fnCall (some f) (some s.next))
  have x := x1.trans x2
  have hch : (addNode (addNode s (.chain vs)) (.fnCall (some f) (some s.next))).nodes s.next = some (.chain vs) := x2.nodes _ _ (addNode_self _ _)
  have hcall : (addNode (addNode s (.chain vs)) (.fnCall (some f) (some s.next))).nodes (s.next + 1) = some (.fnCall (some f) (some s.next)) :=
    addNode_self _ _
  generalize addNode (addNode s (.chain vs)) (.fnCall (some f) (some s.next)) = s2 at x hch hcall
  obtain ⟨fd, name, args, ret, f1, f2, f3, f4⟩ := hf.mono x.nodes
  have g2 := (g.ext x).enterFn name
  have hev : Evl E s2 (some f) (some f) s2 := Conv.evNode f1 (Conv.pure _)
  have hb : ∃ s3, Bound E (enterFn s2 name) args (some s.next) s3 ∧ Good s3 (fr :: σ) (n + m) ∧ Kept s2 s3 ∧ uids s3 = s2.nextUid :: uids s2 := by
    rcases f4 with ⟨rfl, rfl⟩ | ⟨ad, ds, rfl, h5, h6⟩
    · cases hv
      exact ⟨_, .inl ⟨rfl, rfl⟩, g2.mono (by simp), Kept.refl _, rfl⟩
    · obtain ⟨s3, p1, p2, p3, p4⟩ := pass_vars (E := E) (s := enterFn s2 name) (fr0 := []) h6
        (hv.map fun t c v a h => by
          have h := h.grow x.grow
          obtain ⟨τ, ⟨a1, a2, a3, a4⟩⟩ := h.at_
          exact ⟨⟨τ, ⟨a1, a2, a3, a4⟩⟩, h.int, h.wide, h.val⟩) g2 hnd
      exact ⟨s3, .inr ⟨ad, ds, vs, rfl, h5, chainElems_apply hch, p1⟩, p2, p3, p4⟩
  obtain ⟨s3, b1, b2, b3, b4⟩ := hb
  have hs2 := hs.grow x.grow
  have hu : uids s2 = uids s := x.grow.uids
  cases hfin with
  | ret =>
    obtain ⟨r, s', z1, _, z3, z4, z5, z6⟩ := bound_return hs2 hs2.ne hcall hev f1 f2 f3 b1 b2 b3 b4 (hr.mono x.nodes) hrun
    exact ⟨some r, s', z1, z3, z4, z5.trans hu, fun t k h1 h2 => z6 _ _ (x.nodes _ _ h1) h2⟩
  | next =>
    obtain ⟨s', z1, z3, z4, z5, z6⟩ := bound_end hs2 hs2.ne hcall hev f1 f2 f3 b1 b2 b3 b4 (hr.mono x.nodes) hrun
    exact ⟨none, s', z1, z3, z4, z5.trans hu, fun t k h1 _ => z6 _ _ (x.nodes _ _ h1)⟩
  | left =>
    obtain ⟨s', z1, z3, z4, z5, z6⟩ := bound_left hs2 hs2.ne hcall hev f1 f2 f3 b1 b2 b3 b4 (hr.mono x.nodes) hrun
    exact ⟨none, s', z1, z3, z4, z5.trans hu, fun t k h1 _ => z6 _ _ (x.nodes _ _ h1)⟩

/-- the object for the result exists or is not needed -/
def RetObj (s : St) (r : Ref) : Prop := r = none ∨ ∃ v τ a arr sz c e, r = some v ∧ s.nodes v = some (.lv (some τ) a arr sz) ∧ s.nodes τ = some (.ctype c e)

/-- `do_ext_call` of the address of a closure -/
theorem doExtCall_entry {E : Env} {s s' s'' : St} {fa : Nat} {rs vs : List TId} {as : List Arg} {k ch f : TId} {ts : List TId} {r' r q : Ref}
    (ha : List.Forall₂ (ArgAt s) rs as) (hn : rs.length ≤ 32) (hr : RetObj s r) (hf : findClosure fa s.closures = some k)
    (hk : s.nodes k = some (.closure (some ch) r' (some f))) (hch : s.nodes ch = some (.chain ts))
    (hca : closureArgs ts (passAll E none 0 as) s = .ok vs s')
    (h : Evl E (addNode (addNode s' (.chain vs)) (.fnCall (some f) (some s'.next))) (some (s'.next + 1)) q s'') :
    Conv E (fun R => doExtCall E R fa (rs.map some) r none) s (.ok () s'') := by
  have h1 : Conv E (fun R => (do let _ ← R.ev (some (s'.next + 1)); pure () : M Unit))
      (addNode (addNode s' (.chain vs)) (.fnCall (some f) (some s'.next))) (.ok () s'') := Conv.bind h (Conv.pure ())
  refine h1.of_eq fun R => ?_
  have tail : ((do
      match findClosure fa (← get).closures with
      | some c => do
        match ← node c with
        | .closure ats _ f => do
          let vs ← closureArgs (← chainElems ats) (passAll E none 0 as)
          let ch ← mk (.chain vs)
          let call ← mk (.fnCall f (some ch))
          let _ ← R.ev (some call)
          pure ()
        | _ => ub "unreachable"
      | none => do
        let s ← get
        let (m, bytes) := E.extCall fa (passAll E none 0 as) s.mem
        modify fun s => { s with mem := m, events := s.events ++ [{ addr := fa, args := (passAll E none 0 as), variadic := none }] }
        match r with
        | some r => do
          let (_, a) ← lvFields r
          modify fun s => { s with mem := s.mem.storeBytes a bytes }
        | none => pure () : M Unit)) s = (do let _ ← R.ev (some (s'.next + 1)); pure () : M Unit)
        (addNode (addNode s' (.chain vs)) (.fnCall (some f) (some s'.next))) := by
    simp only [bind_apply, get, hf, node_apply hk, chainElems_apply hch, hca, mk_apply]
    rfl
  unfold doExtCall
  rw [bind_apply, marshalArgs_apply (vp := none) 0 ha (by omega)]
  rcases hr with rfl | ⟨v, τ, a, arr, sz, c, e, rfl, hv, hτ⟩
  · exact tail
  · simp only [bind_apply, lvFields, node_apply hv, typeOf, nodeR, node_apply hτ, pure_apply]
    simp only [bind_apply, lvFields] at tail
    exact tail

/-- A call through a pointer to an interpreted function. -/
theorem ptrCall {E : Env} {s : St} {σ σ' : Store} {t i x f : TId} {ca : Ref} {es : List TId} {as : List Arg} {k fa : Nat} {ret : Option CT}
    {ps : List (CT × String)} {b : Ref} {fr fr' : Frame} {p : Spec.Stmt} {fin : End} {n m : Nat} (hs : Sane s)
    (g : Good s σ (1 + k + ps.length + (ps.length + (n + m)))) (ht : s.nodes t = some (.fnCall (some i) ca)) (hi : Evl E s (some i) (some x) s)
    (hx : FnPtrAt s x ret fa) (he : EntryOf s fa f ps) (hf : FnIs s.nodes f ps b) (hc : ListOf s.nodes ca es) (ha : HasArgs E s es as k)
    (hP : PtrParams ps as fr) (hn : as.length ≤ 32) (hnd : fr.names.Nodup) (hr : SRep s.nodes (.body b) p)
    (hrun : Run okRules (fr :: σ) p fin (fr' :: σ') n) (hfin : Comes fin) :
    ∃ r s', Evl E s (some t) r s' ∧ Good s' σ' m ∧ Sane s' ∧ uids s' = uids s ∧ KeptX s s' ∧ ResultAt s s' ret r := by
  obtain ⟨τ, a, arr, sz, ft, fd, params, ρ, stmts, ds, x1, x2, x3, x4, x5, x6, x7, x8⟩ := hx
  obtain ⟨c, ch, ts, r', c1, c2, c3, c4⟩ := he
  -- the object for the result
  have hret : ∃ r s0, mkRet ρ s = .ok r s0 ∧ Grow s s0 ∧ Room s0 (k + (ps.length + (ps.length + (n + m)))) ∧ RetObj s0 r ∧ ResultAt s s0 ret r := by
    cases x6 with
    | void h => exact ⟨none, s, mkRet_void h, Grow.refl s, g.room.mono (by omega), .inl rfl, rfl⟩
    | @type ρ c e h =>
      have g1 := newVar_grow g.wf (some ρ)
      refine ⟨_, _, mkRet_type h (g.room.mono (by omega)), g1, Room.newVar g.wf (g.room.mono (by omega)) _,
        .inr ⟨_, _, _, _, _, _, _, rfl, newVar_self _ _, g1.nodes _ _ h⟩, ?_⟩
      exact ⟨_, _, _, _, _, _, rfl, g.wf _ (Nat.le_refl _), newVar_self _ _, g1.nodes _ _ h⟩
  obtain ⟨r, s0, hr0, g0, room0, hobj, hres⟩ := hret
  obtain ⟨rs, s1, e1, g1, hb1, hargs⟩ := ha s0 g0 (g0.wf g.wf) (room0.mono (by omega))
  have room1 : Room s1 (ps.length + (ps.length + (n + m))) := Room.afterN (m := k) room0 g1 hb1
  have g01 := g0.trans g1
  have hobj1 : RetObj s1 r := by
    rcases hobj with h | ⟨v, τ, a, arr, sz, c, e, h1, h2, h3⟩
    · exact .inl h
    · exact .inr ⟨v, τ, a, arr, sz, c, e, h1, g1.nodes _ _ h2, g1.nodes _ _ h3⟩
  obtain ⟨vs, s2, a1, a2, a3, a4⟩ := closureArgs_apply (E := E) (k := 0) (c4.mono g01.nodes) hP (g01.wf g.wf) room1
  have g2 := g01.trans a3
  obtain ⟨q, s3, z1, z2, z3, z4, z5⟩ := entered (E := E) (hs.grow g2) (g.grown g2 a4) (hf.mono g2.nodes) a2 hnd (hr.mono g2.nodes) hrun hfin
  have hd := doExtCall_entry hargs (by have := Forall2.len hargs; omega) hobj1 (by rw [g01.closures]; exact c1) (g01.nodes _ _ c2) (g01.nodes _ _ c3) a1 z1
  refine ⟨r, s3, ?_, z2, z3, z4.trans g2.uids, fun t n h1 h2 => z5 _ _ (g2.nodes _ _ h1) h2, ?_⟩
  · refine Conv.evNode ht ?_
    unfold evalNode evalFnCall
    refine Conv.bind hi ?_
    have h2 : Conv E (fun R => evalFnArgs R es >>= tailB E R a r none) s0 (.ok r s3) := by
      refine Conv.bind e1.conv ?_
      have h3 : Conv E (fun R => (do doExtCall E R fa (rs.map some) r none; pure r : M Ref)) s1 (.ok r s3) := Conv.bind hd (Conv.pure r)
      refine h3.of_eq fun R => ?_
      unfold tailB
      rw [bind_apply, loadRaw_apply (g01.ok x7), g01.load x7, x8]
    have h3 : ∀ R, callLive E R x ca s = (evalFnArgs R es >>= tailB E R a r none) s0 := by
      intro R
      unfold callLive
      rw [bind_apply]
      simp only [lvFields, bind_apply, node_apply x1, pure_apply]
      rw [peek_apply x2]
      simp only [bind_apply]
      rw [peek_apply x3]
      simp only [bind_apply, x4.elems, x5.apply]
      show (mkRet ρ >>= fun r => chainElems ca >>= fun l => evalFnArgs R l >>= fun as => loadRaw 8 a >>= fun fa =>
        doExtCall E R fa as r none >>= fun _ => pure r) s = _
      rw [bind_apply, hr0]
      simp only
      rw [bind_apply, (hc.grow g0).elems]
      rfl
    refine h2.of_eq fun R => ?_
    simp [node_apply x1, peek_apply x1, h3]
  · have hk : ∀ t n, s0.nodes t = some n → (∀ e, n ≠ .ret e) → s3.nodes t = some n := fun t n h1 h2 => z5 _ _ ((g1.trans a3).nodes _ _ h1) h2
    cases ret with
    | none => exact hres
    | some c =>
      obtain ⟨v, τ, a, arr, sz, e, h1, h2, h3, h4⟩ := hres
      exact ⟨v, τ, a, arr, sz, e, h1, h2, hk _ _ h3 (by simp), hk _ _ h4 (by simp)⟩

/-! ## The address of a function -/

theorem closureArgTypes_apply : ∀ {ps : List (CT × String)} {ds : List TId} {s : St} {n : Nat},
    ParamsRep s.nodes ds ps → WF s → n + ps.length < 32 →
    ∃ ts s', (∀ R, closureArgTypes R n ds s = .ok ts s') ∧ TypesAt s'.nodes ts ps ∧ Ext s s' := by
  intro ps
  induction ps with
  | nil =>
    intro ds s n h w hn
    cases h
    exact ⟨[], s, fun _ => rfl, .nil, Ext.refl s⟩
  | cons p ps ih =>
    intro ds s n h w hn
    cases h with
    | @cons d specs i off c x ds _ h1 h2 h3 h4 =>
    have x1 := addNode_ext w (.ctype c none)
    obtain ⟨ts, s', e1, e2, e3⟩ := ih (n := n + 1) (h4.mono x1.nodes) (x1.wf w) (by simp at hn; omega)
    refine ⟨s.next :: ts, s', ?_, .cons (e3.nodes _ _ (addNode_self _ _)) e2, x1.trans e3⟩
    have h5 := x1.nodes _ _ h3
    have hne : ¬ n + 1 ≥ 32 := by simp at hn; omega
    intro R
    unfold closureArgTypes
    simp only [bind_apply, node_apply h1, resolveSpecs_apply h2, peek_apply h5, pure_apply, node_apply (addNode_self s (.ctype c none)), if_neg hne, e1]

/-- the state with other closures -/
def withClosures (s : St) (l : List (Nat × TId)) : St := { s with closures := l }

theorem Good.withClosures {s : St} {σ n} (h : Good s σ n) (l) : Good (withClosures s l) σ n where
  wf := h.wf
  flags := h.flags
  room := ⟨h.room.brk, h.room.ctxs, h.room.livelt⟩
  rel := by
    obtain ⟨as, h1, h2⟩ := h.rel
    refine ⟨as, h1.map (s' := Bic.withClosures s l) rfl fun t c v a _ h => ?_, h2⟩
    obtain ⟨τ, ⟨a1, a2, a3, a4⟩⟩ := h.at_
    exact ⟨⟨τ, ⟨a1, a2, a3, a4⟩⟩, h.int, h.wide, h.val⟩

theorem Sane.withClosures {s : St} (h : Sane s) (l) : Sane (withClosures s l) where
  inv := ⟨h.inv.wf, h.inv.uids, h.inv.tags⟩
  flags := h.flags
  ne := h.ne

theorem ParamsRep.noVariadic {nd : TId → Option Node} {ds ps} (h : ParamsRep nd ds ps) : VarPos nd ds none := by
  induction h with
  | nil => exact ⟨nofun, rfl⟩
  | cons h1 _ _ _ ih =>
    refine ⟨fun d hd => ?_, ?_⟩
    · rcases List.mem_cons.mp hd with rfl | hd
      · rw [h1]; rfl
      · exact ih.1 d hd
    · rw [List.findIdx?_cons, h1, ← ih.2]
      simp

/-- `f` is an interpreted function that returns a `ret` (`none`: nothing) -/
def FnRet (s : St) (f : TId) (ret : Option CT) : Prop :=
  ∃ fd args ρ stmts, s.nodes f = some (.fn fd args ρ stmts) ∧ RetAt s ρ ret

/-- `&e` once `e` has been evaluated to an interpreted function: a pointer to new code that calls it -/
theorem addr_fn {E : Env} {s : St} {σ : Store} {t f : TId} {e b : Ref} {ps : List (CT × String)} {ret : Option CT} {m : Nat} (hs : Sane s)
    (g : Good s σ (2 + m)) (ht : s.nodes t = some (.addr e)) (he : Evl E s e (some f) s) (hf : FnIs s.nodes f ps b) (hr : FnRet s f ret)
    (hn : ps.length < 32) :
    ∃ v s' fa, Evl E s (some t) (some v) s' ∧ FnPtrAt s' v ret fa ∧ EntryOf s' fa f ps ∧ Good s' σ m ∧ Sane s' ∧ Kept s s' ∧
      uids s' = uids s ∧ s.mem.brk ≤ fa ∧ ∀ fa' f' ps', fa' < s.mem.brk → EntryOf s fa' f' ps' → EntryOf s' fa' f' ps' := by
  obtain ⟨fd, name, args, ρ, f1, f2, f3, f4⟩ := hf
  obtain ⟨fd', args', ρ', stmts', q1, q2⟩ := hr
  rw [f1] at q1
  cases q1
  obtain ⟨ds, l1, l2⟩ : ∃ ds, ListOf s.nodes args ds ∧ ParamsRep s.nodes ds ps := by
    rcases f4 with ⟨rfl, rfl⟩ | ⟨ad, ds, rfl, h5, h6⟩
    · exact ⟨[], .inl ⟨rfl, rfl⟩, .nil⟩
    · exact ⟨ds, .inr ⟨ad, rfl, h5⟩, h6⟩
  have x1 := addNode_ext g.wf (.ctype .ptr (some f))
  have w1 := x1.wf g.wf
  have r1 : Room (addNode s (.ctype .ptr (some f))) (m + 1 + 1) := (g.room.ext x1).mono (by omega)
  have hk1 := addNode_self s (.ctype .ptr (some f))
  have hb1 : (addNode s (.ctype .ptr (some f))).mem.brk = s.mem.brk := by rw [x1.mem]
  have hm1 := mk_apply (.ctype .ptr (some f)) s
  generalize addNode s (.ctype .ptr (some f)) = s1 at *
  have g2 := newVar_grow w1 (some s.next)
  have r2 := Room.newVar w1 r1 (some s.next)
  have hm2 := makeLiveVar_apply (some s.next) (r1.mono (by omega))
  have hv2 := newVar_self s1 (some s.next)
  have hok2 : (newVar s1 (some s.next)).mem.ok 8 s1.mem.brk = true := newVar_ok (by decide)
  generalize newVar s1 (some s.next) = s2 at *
  have gs2 := x1.grow.trans g2
  have w2 := g2.wf w1
  obtain ⟨ts, s3, t1, t2, x3⟩ := closureArgTypes_apply (n := 0) (l2.mono gs2.nodes) w2 (by omega)
  have w3 := x3.wf w2
  have x4 := addNode_ext w3 (.chain ts)
  have hc4 := addNode_self s3 (.chain ts)
  have hm4 := mk_apply (.chain ts) s3
  generalize addNode s3 (.chain ts) = s4 at *
  have w4 := x4.wf w3
  have x5 := addNode_ext w4 (.closure (some s3.next) ρ (some f))
  have hc5 := addNode_self s4 (.closure (some s3.next) ρ (some f))
  have hm5 := mk_apply (.closure (some s3.next) ρ (some f)) s4
  generalize addNode s4 (.closure (some s3.next) ρ (some f)) = s5 at *
  have x35 := (x3.trans x4).trans x5
  have r5 := r2.ext x35
  have hlim : s5.mem.brk + (1 / 16 + 1) * 16 + 16 < Mem.limit := by have := r5.brk; omega
  have hm6 := mallocM_apply (s := s5) (n := 1) hlim
  have g6 := mallocSt_grow s5 1
  have hb6 : (mallocSt s5 1).mem.brk = s5.mem.brk + 32 := by simp [mallocSt]
  generalize mallocSt s5 1 = s6 at *
  have gs6 : Grow s s6 := (gs2.trans x35.grow).trans g6
  have g26 : Grow s2 s6 := x35.grow.trans g6
  have gs7 : Grow s (wr s6 8 s1.mem.brk s5.mem.brk) := gs6.wr _ _ _ (by rw [hb1]; exact g.room.fresh)
  have r6 : Room s6 m := ⟨by have := r5.brk; omega, g6.ctxs_ne r5.ctxs, g6.livelt r5.livelt⟩
  have hcl : s6.closures = s.closures := gs6.closures
  refine ⟨s1.next, Bic.withClosures (wr s6 8 s1.mem.brk s5.mem.brk) ((s5.mem.brk, s4.next) :: s6.closures), s5.mem.brk, ?_, ?_, ?_,
    (g.grown gs7 (r6.wr _ _ _)).withClosures _, (hs.grow gs7).withClosures _, gs7.nodes, gs7.uids, ?_, ?_⟩
  · refine Conv.evNode ht (Conv.bind he (Conv.fixed fun R => ?_))
    have hret : ∃ n, s3.nodes = s3.nodes ∧ nodeR ρ s3 = .ok n s3 ∧ (n = .void ∨ ∃ c e, n = .ctype c e) := by
      cases q2 with
      | void h => exact ⟨_, rfl, node_apply ((gs2.trans x3.grow).nodes _ _ h), .inl rfl⟩
      | type h => exact ⟨_, rfl, node_apply ((gs2.trans x3.grow).nodes _ _ h), .inr ⟨_, _, rfl⟩⟩
    obtain ⟨n, _, n1, n2⟩ := hret
    have hent : entryPointForFn R f s2 = .ok s5.mem.brk (Bic.withClosures s6 ((s5.mem.brk, s4.next) :: s6.closures)) := by
      unfold entryPointForFn
      simp only [bind_apply, node_apply (gs2.nodes _ _ f1), (l1.grow gs2).elems, t1, n1]
      rcases n2 with rfl | ⟨c, e, rfl⟩ <;> simp only [bind_apply, pure_apply, hm4, hm5, hm6] <;> rfl
    simp only [bind_apply, peek_apply f1, hm1, hm2, hent, lvFields, pure_apply]
    rw [node_apply (s := Bic.withClosures s6 ((s5.mem.brk, s4.next) :: s6.closures)) (g26.nodes _ _ hv2)]
    simp only [pure_apply]
    rw [storeRaw_apply (s := Bic.withClosures s6 ((s5.mem.brk, s4.next) :: s6.closures)) (g26.ok hok2)]
    rfl
  · exact ⟨s.next, s1.mem.brk, false, 0, f, some fd, args, ρ, b, ds, g26.nodes _ _ hv2, g26.nodes _ _ (g2.nodes _ _ hk1), gs6.nodes _ _ f1,
      (l1.grow gs6 : ListOf s6.nodes args ds), (l2.noVariadic.grow gs6 : VarPos s6.nodes ds none), (by
        cases q2 with
        | void h => exact .void (gs6.nodes _ _ h)
        | type h => exact .type (gs6.nodes _ _ h)), (Mem.ok_congr (by simp [Bic.withClosures]) _ _).trans (g26.ok hok2), by
        have := r5.brk
        have hl : s5.mem.brk < 256 ^ 8 := by simp only [Mem.limit] at this; omega
        show (s6.mem.store 8 s1.mem.brk s5.mem.brk).load 8 s1.mem.brk = _
        rw [Mem.load_store, Nat.mod_eq_of_lt hl]⟩
  · refine ⟨s4.next, s3.next, ts, ρ, ?_, g6.nodes _ _ hc5, g6.nodes _ _ (x5.nodes _ _ hc4), t2.mono (((x4.trans x5).grow.trans g6).nodes)⟩
    simp [Bic.withClosures, findClosure]
  · have := (gs2.trans x35.grow).brk
    exact this
  · rintro fa' f' ps' hlt ⟨k, ch, ts', r', h1, h2, h3, h4⟩
    have := (gs2.trans x35.grow).brk
    refine ⟨k, ch, ts', r', ?_, gs6.nodes _ _ h2, gs6.nodes _ _ h3, h4.mono gs6.nodes⟩
    show findClosure fa' ((s5.mem.brk, s4.next) :: s6.closures) = _
    rw [findClosure, if_neg (by omega), hcl]
    exact h1

end Bic
