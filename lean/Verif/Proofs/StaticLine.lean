import Verif.Spec.StaticLine
import Verif.Proofs.Include
import Verif.Proofs.Static
/-!
# Evaluating and parsing declarations with `static`
-/

namespace Bic
open Spec

/-- the declarations of `static` variables without those before, in a scope of their own -/
theorem statics_declares {c : CT} {F F' : Frame} {ds} (h : Statics okRules none c F ds F') :
    ∀ {fr hf : Frame} (τ : Store), F = fr ++ hf → ∃ hf', F' = fr ++ hf' ∧ Declares okRules c (hf :: τ) ds (hf' :: τ) ∧
      ∀ x, Frame.find x fr ≠ none → Frame.find x hf = none → Frame.find x hf' = none := by
  have app : ∀ {x : String} {fr hf : Frame}, Frame.find x (fr ++ hf) = none → Frame.find x fr = none ∧ Frame.find x hf = none := by
    intro x fr hf h
    induction fr with
    | nil => exact ⟨rfl, h⟩
    | cons p fr ih =>
      obtain ⟨y, u⟩ := p
      simp only [Frame.find, List.cons_append] at h ⊢
      split at h
      · cases h
      · rename_i hne
        rw [if_neg hne]
        exact ih h
  have snoc : ∀ {x y : String} {u} {hf : Frame}, Frame.find y hf = none → x ≠ y → Frame.find y (hf ++ [(x, u)]) = none := by
    intro x y u hf h hne
    induction hf with
    | nil => simp [Frame.find, hne]
    | cons p fr ih =>
      obtain ⟨z, u⟩ := p
      simp only [Frame.find, List.cons_append] at h ⊢
      split at h
      · cases h
      · rename_i hne
        rw [if_neg hne]
        exact ih h
  induction h with
  | nil => rintro fr hf τ rfl; exact ⟨hf, rfl, .nil, fun _ _ h => h⟩
  | @plain F x ds F' hx _ ih =>
    rintro fr hf τ rfl
    obtain ⟨h1, h2⟩ := app hx
    obtain ⟨hf', e, k1, k2⟩ := ih (fr := fr) (hf := hf ++ [(x, some ⟨c, none⟩)]) τ (by simp)
    exact ⟨hf', e, .plain h2 k1, fun y hy hn => k2 y hy (snoc hn fun e => hy (e ▸ h1))⟩
  | @init F x e v w ds F' hx hv ha hw _ ih =>
    rintro fr hf τ rfl
    obtain ⟨h1, h2⟩ := app hx
    obtain ⟨hf', e', k1, k2⟩ := ih (fr := fr) (hf := hf ++ [(x, some ⟨c, some w⟩)]) τ (by simp)
    refine ⟨hf', e', .init h2 ?_ k1, fun y hy hn => k2 y hy (snoc hn fun e => hy (e ▸ h1))⟩
    have g1 : Store.Has ((hf ++ [(x, some ⟨c, none⟩)]) :: τ) x c none := by simp [Store.Has, Store.find, find_last h2]
    have g2 : Store.write x w ((hf ++ [(x, some ⟨c, none⟩)]) :: τ) = (hf ++ [(x, some ⟨c, some w⟩)]) :: τ := by
      simp [Store.write, find_last h2, write_last h2]
    rw [← g2]
    refine .set g1 (Val.mono (fun _ _ _ _ h => h) (fun _ _ h => h) ?_ hv) ?_ hw
    · rintro _ _ ⟨_, h, _⟩
      cases h
    · rcases ha with ha | ⟨_, _, _, h, _⟩
      · exact .inl ha
      · cases h

theorem declares_nodup {L : Rules} {c : CT} {ds} {σ σ' : Store} (h : Declares L c σ ds σ') :
    ∀ {hf hf' : Frame} {τ τ' : Store}, σ = hf :: τ → σ' = hf' :: τ' → hf.names.Nodup → hf'.names.Nodup := by
  have absent : ∀ {x : String} {fr : Frame}, Frame.find x fr = none → x ∉ fr.names := by
    intro x fr h hm
    induction fr with
    | nil => cases hm
    | cons p fr ih =>
      obtain ⟨y, u⟩ := p
      simp only [Frame.find] at h
      split at h
      · cases h
      · rename_i hne
        rcases List.mem_cons.mp hm with e | hm
        · exact hne e.symm
        · exact ih h hm
  have snoc : ∀ {x : String} {u} {fr : Frame}, Frame.find x fr = none → fr.names.Nodup → (Frame.names (fr ++ [(x, u)])).Nodup := by
    intro x u fr h hn
    simp only [Frame.names, List.map_append, List.map_cons, List.map_nil]
    rw [List.nodup_append]
    refine ⟨hn, by simp, ?_⟩
    rintro a ha b hb rfl
    cases List.mem_singleton.mp hb
    exact absent h ha
  have names : ∀ (x : String) (w : Int) (fr : Frame), (Frame.write x w fr).names = fr.names := by
    intro x w fr
    induction fr with
    | nil => rfl
    | cons p fr ih =>
      obtain ⟨y, u⟩ := p
      simp only [Frame.write]
      split
      · rfl
      · simp only [Frame.names, List.map_cons] at ih ⊢; rw [ih]
  induction h with
  | nil => rintro hf hf' τ τ' rfl ⟨⟩ hn; exact hn
  | plain hx _ ih => rintro hf hf' τ τ' ⟨⟩ rfl hn; exact ih rfl rfl (snoc hx hn)
  | init hx ha _ ih =>
    rintro hf hf' τ τ' ⟨⟩ rfl hn
    cases ha with
    | set =>
      simp only [Store.write, find_last hx] at ih
      exact ih rfl rfl (by rw [names]; exact snoc hx hn)

theorem FrameRel.join {s : St} {fr bs as fr' bs' as'} (h : FrameRel s fr bs as) (h' : FrameRel s fr' bs' as') :
    FrameRel s (fr ++ fr') (bs ++ bs') (as ++ as') := by
  induction h with
  | nil => exact h'
  | var h1 _ ih => exact .var h1 ih
  | other _ ih => exact .other ih

theorem FrameRel.names {s : St} {fr bs as} (h : FrameRel s fr bs as) : bs.map (·.name) = fr.names := by
  induction h with
  | nil => rfl
  | var _ _ ih | other _ ih => simp [Frame.names] at ih ⊢; exact ih

theorem distinct_of : ∀ {bs pre : List Binding}, (bs.map (·.name)).Nodup → (∀ b ∈ bs, ∀ p ∈ pre, p.name ≠ b.name) → Distinct pre bs
  | [], _, _, _ => trivial
  | b :: bs, pre, h, hp => by
    rw [List.map_cons, List.nodup_cons] at h
    refine ⟨findId_absent (hp b List.mem_cons_self), distinct_of h.2 ?_⟩
    intro d hd p hm
    rcases List.mem_append.mp hm with hm | hm
    · exact hp d (List.mem_cons_of_mem _ hd) p hm
    · cases List.mem_singleton.mp hm
      exact fun e => h.1 (List.mem_map.mpr ⟨d, hd, e.symm⟩)

theorem named_self {nd : TId → Option Node} : ∀ {bs : List Binding}, (∀ b ∈ bs, nd b.id = some (.ident b.name)) → Named nd bs bs
  | [], _ => .nil
  | b :: _, h => .cons (h b List.mem_cons_self) (named_self fun b hb => h b (List.mem_cons_of_mem _ hb))

/-- the specifiers of a `static` declaration -/
def StaticSpecs (nd : TId → Option Node) (specs : TId) (c : CT) : Prop :=
  ∃ l ks, nd specs = some (.chain l) ∧ KwChain nd l ks ∧ .static ∈ ks ∧ .typedef ∉ ks ∧ .extern ∉ ks ∧ resolveKws 0 ks = some (.c c)

theorem chainHasKw_mem {s : St} {l ks} (h : KwChain s.nodes l ks) (k : Kw) (hk : k ∈ ks) : chainHasKw k l s = .ok true s := by
  induction h with
  | nil => cases hk
  | @cons t ts k' ks h1 _ ih =>
    by_cases e : k' = k
    · simp [chainHasKw, node_apply h1, e]
    · rcases List.mem_cons.mp hk with rfl | hk
      · exact absurd rfl e
      · simp [chainHasKw, node_apply h1, e, ih hk]

theorem firstFnDef_vars {s : St} {l ds} (h : DsRep s.nodes l ds) : firstFnDef l s = .ok none s := by
  induction h with
  | nil => rfl
  | plain h1 _ ih => simp [firstFnDef, node_apply h1, ih]
  | init h1 _ _ _ ih => simp [firstFnDef, node_apply h1, ih]

/-- a declaration with `static` declares its variables in the current scope -/
theorem static_conv {E : Env} {s : St} {fr fr' : Frame} {σ : Store} {m off : Nat} {t specs decls : TId} {l : List TId} {c : CT} {ds} (hc : integral c)
    (ht : s.nodes t = some (.decl (some specs) (some decls) off)) (hs : StaticSpecs s.nodes specs c) (hl : s.nodes decls = some (.chain l))
    (hd : DsRep s.nodes l ds) (h : Statics okRules none c fr ds fr') (g : Good s (fr :: σ) (ds.length + m)) :
    ∃ r s', Evl E s (some t) r s' ∧ Good s' (fr' :: σ) m ∧ cfg s' = cfg s ∧ s'.ctxs.length = s.ctxs.length ∧
      (∀ x, ds.getLast?.map (·.1) = some x → ∃ t, r = some t ∧ s'.nodes t = some (.ident x)) ∧
      ((∀ d ∈ ds, d.2 = none) → s'.mem.byte = s.mem.byte) := by
  obtain ⟨sl, ks, q1, q2, q3, q4, q5, q6⟩ := hs
  have x1 := addNode_ext g.wf (.ctype c none)
  have g1 := (g.ext x1).enter "Static declaration"
  obtain ⟨hf, rfl, hdec, hfre⟩ := statics_declares h (fr := fr) (hf := []) (fr :: σ) (by simp)
  obtain ⟨r, s3, e1, e2, e3, e4, e5, e6, e7, e8, e9, e10⟩ := declares_full (E := E) hc hdec (s := enter (addNode s (.ctype c none)) "Static declaration")
    (hd.mono x1.nodes) (addNode_self _ _) g1 (acc := none) (by simp [NoJump])
  have hn : IdsNamed s3 := e9 (by rintro _ _ ⟨⟩ b hb; cases hb)
  have hnd : hf.names.Nodup := declares_nodup hdec rfl rfl (by simp [Frame.names])
  obtain ⟨as, r1, r2⟩ := e2.rel
  obtain ⟨c1, cs1, hc1⟩ := List.exists_cons_of_ne_nil e2.room.ctxs
  have hlen : cs1.length = s.ctxs.length := by
    have := congrArg List.length e4
    simp only [uids, List.length_map, hc1] at this
    have e : (enter (addNode s (.ctype c none)) "Static declaration").ctxs.length = s.ctxs.length + 1 := rfl
    rw [e] at this
    simpa using this
  obtain ⟨c2, cs, rfl⟩ : ∃ c2 cs, cs1 = c2 :: cs := by
    cases cs1 with
    | nil => exact absurd (List.length_eq_zero_iff.mp hlen.symm) g.room.ctxs
    | cons a b => exact ⟨a, b, rfl⟩
  rw [lookups_cons hc1] at r1
  cases r1 with
  | @cons _ _ _ _ a1 b1 r3 r4 =>
  cases r4 with
  | @cons _ _ _ _ a2 b2 r4 r5 =>
  have ht3 : s3.nodes t = some (.decl (some specs) (some decls) off) := e3 _ _ (x1.nodes _ _ ht)
  let nd : TId → Option Node := fun x => if x = t then some (.staticCtx c1.ids) else s3.nodes x
  have hnd' : ∀ u n, s3.nodes u = some n → (∀ a b o, n ≠ .decl a b o) → nd u = some n := by
    intro u n hu hne
    by_cases e : u = t
    · subst e; rw [ht3] at hu; cases hu; exact absurd rfl (hne _ _ _)
    · simp only [nd, if_neg e]; exact hu
  let s5 : St := { s3 with nodes := nd, ctxs := c2 :: cs }
  have hfr2 : ∀ b ∈ c1.ids, ¬ ∃ d ∈ c2.ids, d.name = b.name := by
    rintro b hb ⟨d, hd, e⟩
    have hm : b.name ∈ hf.names := by rw [← r3.names]; exact List.mem_map_of_mem hb
    have hz : Frame.find b.name fr ≠ none := fun hz => r4.fresh hz d hd e
    have : Frame.find b.name hf = none := hfre _ hz rfl
    exact (r3.fresh this b hb) rfl
  obtain ⟨q, hq⟩ := evalStaticCtx_apply (acc := none) (s := s5) (c := c2) (cs := cs) (ids0 := c2.ids) (pre := [])
    (named_self (nd := nd) fun b hb => hnd' _ _ (hn c1 _ hc1 b hb) (by intros; simp)) rfl rfl (by simp)
    (distinct_of (by rw [r3.names]; exact hnd) (by simp)) hfr2
  refine ⟨r, { s5 with ctxs := { c2 with ids := c2.ids ++ c1.ids } :: cs }, ?_, ⟨?_, ?_, ⟨e2.room.brk, by simp, e2.room.livelt⟩, ?_⟩, e6, hlen, ?_, fun hn => e10 hn⟩
  · have w3 : nd t = some (.staticCtx c1.ids) := by simp [nd]
    refine Conv.evNode ht ?_
    have hev : Conv E (fun R => R.ev (some t)) s5 (.ok q { s5 with ctxs := { c2 with ids := c2.ids ++ c1.ids } :: cs }) :=
      Conv.evNode w3 (Conv.fixed fun R => hq)
    have hrest : Conv E (fun R => do
        let c ← curCtx
        setNode t (.staticCtx c.ids)
        popCtx
        let _ ← R.ev (some t)
        pure r) s3 (.ok r { s5 with ctxs := { c2 with ids := c2.ids ++ c1.ids } :: cs }) := by
      refine (Conv.bind (g := fun _ _ => pure r) hev (Conv.pure r)).of_eq fun R => ?_
      simp [bind_apply, curCtx, hc1, setNode, modify, popCtx, s5, nd]
    refine (Conv.bind (g := fun R r => do
        let c ← curCtx
        setNode t (.staticCtx c.ids)
        popCtx
        let _ ← R.ev (some t)
        pure r) e1 hrest).of_eq fun R => ?_
    show evalDecl E R t (some specs) (some decls) s = _
    have hk : ∀ kw, kw ∉ ks → chainHasKw kw sl (addNode s (.ctype c none)) = .ok false (addNode s (.ctype c none)) :=
      fun kw hkw => chainHasKw_apply (q2.mono x1.nodes) kw hkw
    have hr := resolveSpecs_kws q1 q2 q6
    have hpush : pushCtx "Static declaration" (addNode s (.ctype c none)) = .ok () (enter (addNode s (.ctype c none)) "Static declaration") := rfl
    simp only [tyNode] at hr
    simp [evalDecl, hr, peek_apply (addNode_self s _), chainElems_apply (x1.nodes _ _ q1), hk _ q4, hk _ q5, chainHasKw_mem (q2.mono x1.nodes) _ q3,
      handleStaticDecl, peek_apply (x1.nodes _ _ hl), firstFnDef_vars (hd.mono x1.nodes), eachDecl, hpush,
      peek_apply (s := enter (addNode s (.ctype c none)) "Static declaration") (x1.nodes _ _ hl)]
  · intro u hu
    have hlt := e2.wf.lt ht3
    have hu : s3.next ≤ u := hu
    show (if u = t then _ else s3.nodes u) = none
    rw [if_neg (by rintro rfl; exact Nat.lt_irrefl _ (Nat.lt_of_lt_of_le hlt hu))]
    exact e2.wf u hu
  · intro d hd
    rcases List.mem_cons.mp hd with rfl | hd
    · exact e2.flags c2 (by rw [hc1]; simp)
    · exact e2.flags d (by rw [hc1]; simp [hd])
  · have vs : ∀ u k v a, VarAt s3 u k v a → VarAt { s5 with ctxs := { c2 with ids := c2.ids ++ c1.ids } :: cs } u k v a := by
      intro u k v a hv
      obtain ⟨τ, ⟨⟨x, y, b1⟩, ⟨z, b2⟩, b3, b4⟩⟩ := hv.at_
      exact ⟨⟨τ, ⟨⟨x, y, hnd' _ _ b1 (by intros; simp)⟩, ⟨z, hnd' _ _ b2 (by intros; simp)⟩, b3, b4⟩⟩, hv.int, hv.wide, hv.val⟩
    refine ⟨(a2 ++ a1) ++ b2, ?_, ?_⟩
    · rw [lookups_cons (c := { c2 with ids := c2.ids ++ c1.ids }) (cs := cs) rfl]
      exact .cons ((r4.map fun u k v a _ => vs u k v a).join (r3.map fun u k v a _ => vs u k v a)) (r5.map rfl fun u k v a _ => vs u k v a)
    · rw [← List.append_assoc] at r2
      have h3 := List.pairwise_append.mp r2
      refine List.pairwise_append.mpr ⟨Apart.swap h3.1, h3.2.1, fun a ha b hb => h3.2.2 a ?_ b hb⟩
      rcases List.mem_append.mp ha with ha | ha
      · exact List.mem_append_right _ ha
      · exact List.mem_append_left _ ha
  · intro x hx
    obtain ⟨u, rfl, hu⟩ := e8 x hx
    exact ⟨u, rfl, hnd' _ _ hu (by intros; simp)⟩

end Bic

namespace Bic.Repl
open Spec CSyn
open Lexer (Reads Follows)
open _root_.Bic.Parser (PT T K Der Rep nameStr specs_der' rep_kws decls_der specs_kw resolveKws_gives)
open Printer (Floats)
open CText (Str)

theorem static_der {ws i r} (h : WStatic ws i r) : ∃ ks : List Kw, (Der .declSpecs i (.chain (ks.map .kw)) r ∧
      ∀ {i0 ts0}, Der .declSpecs i0 (.chain ts0) i → Der .declSpecs i0 (.chain (ts0 ++ ks.map .kw)) r) ∧
      .static ∈ ks ∧ .typedef ∉ ks ∧ .extern ∉ ks ∧ (∀ w ∈ ws, (kwTok w).isSome) ∧ ks.filter (fun k => !ignoredSpec k) = ws.filter (fun k => !ignoredSpec k) := by
  have one : ∀ {w k r}, kwTok w = some k → Der .declSpec (.p k :: r) (.kw w) r := by
    intro w k r hk
    refine .dsType (.typeKw ?_)
    revert hk
    cases w <;> simp only [kwTok, Option.some.injEq, reduceCtorEq] <;> intro hk <;> first | exact hk.elim | (subst hk; rfl)
  have st : ∀ {r}, Der .declSpec (.p .static :: r) (.kw .static) r := fun {r} => .dsStorage (.storage rfl)
  have no : ∀ {ws : List Kw}, (∀ w ∈ ws, (kwTok w).isSome) → .typedef ∉ ws ∧ .extern ∉ ws :=
    fun h => ⟨fun hm => absurd (h _ hm) (by decide), fun hm => absurd (h _ hm) (by decide)⟩
  induction h with
  | @first ws i r h =>
    have hk := specs_kw h
    refine ⟨.static :: ws, ⟨(specs_der' h).2 (.dsOne st), fun {i0 ts0} h0 => ?_⟩, by simp, by simp [no hk], by simp [no hk], hk, by simp [ignoredSpec]⟩
    have := (specs_der' h).2 (.dsMore h0 st)
    rwa [List.append_assoc] at this
  | @last w k r hk =>
    have hw : ∀ x ∈ [w], (kwTok x).isSome := by simp [hk]
    have n := no hw
    simp only [List.mem_singleton] at n
    refine ⟨[w, .static], ⟨.dsMore (.dsOne (one hk)) st, fun {i0 ts0} h0 => ?_⟩, by simp, by simp [n], by simp [n], hw, by simp [List.filter_cons, ignoredSpec]⟩
    have := Der.dsMore (.dsMore h0 (one hk)) (st (r := r))
    rwa [List.append_assoc] at this
  | @later w k ws i r hk _ ih =>
    obtain ⟨ks, ⟨h1, h2⟩, h3, h4, h5, h6, h7⟩ := ih
    have hw : ∀ x ∈ [w], (kwTok x).isSome := by simp [hk]
    have n := no hw
    simp only [List.mem_singleton] at n
    refine ⟨w :: ks, ⟨h2 (.dsOne (one hk)), fun {i0 ts0} h0 => ?_⟩, by simp [h3], by simp [n, h4], by simp [n, h5], ?_, ?_⟩
    · have := h2 (.dsMore h0 (one hk))
      rwa [List.append_assoc] at this
    · intro x hx
      rcases List.mem_cons.mp hx with rfl | hx
      · rw [hk]; rfl
      · exact h6 x hx
    · simp only [List.filter_cons, h7]

inductive VInputRep (nd : TId → Option Node) : TId → VInput → Prop
  | plain {t p} : InputRep nd t p → VInputRep nd t (.plain p)
  | static {t specs decls off l c ds} : nd t = some (.decl (some specs) (some decls) off) → StaticSpecs nd specs c →
      nd decls = some (.chain l) → DsRep nd l ds → VInputRep nd t (.static c ds)

theorem vinput_der {TN p i} (h : WVInput cTable TN p i) :
    ∃ t, Der .replUnit i (.chain [t]) [] ∧ typedefNames t = [] ∧ (∀ s, t ≠ .cppInclude s) ∧
      ∀ {nd : TId → Option Node} {u}, Rep nd (.t t (some u)) → VInputRep nd u p := by
  cases h with
  | plain h =>
    obtain ⟨t, h1, h2, h3, h4⟩ := input_der h
    exact ⟨t, h1, h2, h3, fun hu => .plain (h4 hu)⟩
  | @static ws c ds i j hs hg hd =>
    obtain ⟨ks, ⟨h1, -⟩, a1, a2, a3, a4, a5⟩ := static_der hs
    obtain ⟨us, -, h3, -, h4⟩ := decls_der hd
    refine ⟨_, .ruOne (.rsDecl (.dcDecl h1 h3)), ?_, nofun, ?_⟩
    · have : hasTypedef (.chain (ks.map .kw)) = false := by
        simp only [hasTypedef, List.any_eq_false, List.mem_map]
        rintro _ ⟨w, hw, rfl⟩
        cases w <;> first | exact absurd hw a2 | simp
      simp [typedefNames, this]
    · intro nd u hx
      obtain ⟨_, g2⟩ := resolveKws_gives a4 hg
      rw [resolveKws_filter, ← a5, ← resolveKws_filter] at g2
      cases hx with
      | decl h5 h6 h7 =>
        cases h6 with
        | chain h8 h9 =>
          cases h7 with
          | chain h10 h11 => exact .static h5 ⟨_, _, h8, rep_kws h9, a1, a2, a3, g2⟩ h10 (h4 h11)

theorem vinput_conv {E : Env} (fl : Floats) {s : St} {σ σ' : Store} {n m : Nat} {t : TId} {p : VInput} {out : Str} (g : Good s σ (n + m))
    (ht : VInputRep s.nodes t p) (h : VReply okRules bicShows none σ p out σ' n) :
    ∃ s', Shown E fl s t out s' ∧ Good s' σ' m ∧ s'.includes = s.includes := by
  cases h with
  | plain h =>
    cases ht with
    | plain ht =>
      obtain ⟨s', h1, h2, h3, _⟩ := input_conv (E := E) fl g ht h
      exact ⟨s', h1, h2, h3⟩
  | static hc h1 h2 =>
    cases ht with
    | static e1 e2 e3 e4 =>
      obtain ⟨r, s', a1, a2, a3, _, a5, _⟩ := static_conv (E := E) hc e1 e2 e3 e4 h1 g
      obtain ⟨q, rfl, hq⟩ := a5 _ (by rw [h2]; rfl)
      exact ⟨s', .inl ⟨q, _, a1, rfl, fun o => prints_ident hq o⟩, a2, congrArg Prod.fst a3⟩

end Bic.Repl
