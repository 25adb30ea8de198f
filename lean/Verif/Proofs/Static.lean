import Verif.Proofs.Control
import Verif.Proofs.Prog
/-!
# `static` declarations

What the first execution of a `static` declaration leaves behind, and what a later
one does with it (handle_static_decl, evaluate.c:1067-1106; eval_evaluator_ctx,
evaluate.c:2598-2628).
-/

namespace Bic
open Spec

/-- the declarations of the innermost scope -/
def localIds (s : St) : List Binding :=
  match s.ctxs with
  | c :: _ => c.ids
  | [] => []

/-- `x` is declared in the innermost scope -/
def DeclaredHere (s : St) (x : String) : Prop := ∃ b ∈ localIds s, b.name = x

theorem findId_undeclared {x : String} {l : List Binding} (h : ¬ ∃ b ∈ l, b.name = x) (l' : List Binding) :
    findId x (l ++ l') = findId x l' := by
  induction l with
  | nil => rfl
  | cons b l ih =>
    have hb : b.name ≠ x := fun hb => h ⟨b, by simp, hb⟩
    simp only [List.cons_append, findId, if_neg hb]
    exact ih fun ⟨b, hb, hx⟩ => h ⟨b, by simp [hb], hx⟩

theorem findId_none_fresh {x : String} {l : List Binding} (hv : ∀ b ∈ l, b.val ≠ none) (h : findId x l = none) :
    ¬ ∃ b ∈ l, b.name = x := by
  induction l with
  | nil => simp
  | cons b l ih =>
    simp only [findId] at h
    split at h
    · exact absurd h (hv b (by simp))
    · rename_i hb
      rintro ⟨d, hd, hx⟩
      rcases List.mem_cons.mp hd with rfl | hd
      · exact hb hx
      · exact ih (fun b hb => hv b (by simp [hb])) h ⟨d, hd, hx⟩

/-- the stored declarations with the names their identifiers have -/
inductive Named (nd : TId → Option Node) : List Binding → List Binding → Prop
  | nil : Named nd [] []
  | cons {b x bs bs'} : nd b.id = some (.ident x) → Named nd bs bs' → Named nd (b :: bs) (⟨x, b.id, b.val⟩ :: bs')

theorem Named.mono {nd nd' : TId → Option Node} {bs bs'} (h : Named nd bs bs')
    (hn : ∀ t x, nd t = some (.ident x) → nd' t = some (.ident x)) : Named nd' bs bs' := by
  induction h with
  | nil => exact .nil
  | cons h _ ih => exact .cons (hn _ _ h) ih

/-- no name is declared again (after `pre`) -/
def Distinct : List Binding → List Binding → Prop
  | _, [] => True
  | pre, b :: bs => findId b.name pre = none ∧ Distinct (pre ++ [b]) bs

theorem mapIdentifier_ok {i : TId} {v : Ref} {s s' : St} {u : Unit} (h : mapIdentifier (some i) v s = .ok u s') :
    ∃ x c cs, s.nodes i = some (.ident x) ∧ s.ctxs = c :: cs ∧ findId x c.ids = none ∧
      s' = { s with ctxs := { c with ids := c.ids ++ [⟨x, i, v⟩] } :: cs } := by
  cases hn : s.nodes i with
  | none => simp [mapIdentifier, resolveIdC, idStr, nodeR, bind_apply, node, hn, ub] at h
  | some n =>
    cases n
    case ident x =>
      cases hc : s.ctxs with
      | nil =>
        simp [mapIdentifier, resolveIdC, idStr, nodeR, bind_apply, node, hn, get, resolveCurrent, hc, mapIn, modCur, ub] at h
      | cons c cs =>
        cases hf : findId x c.ids with
        | some o =>
          simp [mapIdentifier, resolveIdC, idStr, nodeR, bind_apply, node, hn, get, resolveCurrent, hc, Ctx.map, hf, die, stop] at h
        | none =>
          simp [mapIdentifier, resolveIdC, idStr, nodeR, bind_apply, node, hn, get, resolveCurrent, hc, Ctx.map, hf, mapIn, modCur] at h
          exact ⟨x, c, cs, rfl, rfl, hf, h.symm⟩
    all_goals simp [mapIdentifier, resolveIdC, idStr, nodeR, bind_apply, node, hn, ub, stop] at h

theorem mapIdentifier_new {i : TId} {v : Ref} {s : St} {x c cs} (hn : s.nodes i = some (.ident x)) (hc : s.ctxs = c :: cs)
    (hf : findId x c.ids = none) :
    mapIdentifier (some i) v s = .ok () { s with ctxs := { c with ids := c.ids ++ [⟨x, i, v⟩] } :: cs } := by
  unfold mapIdentifier resolveIdC idStr nodeR
  simp [bind_apply, node, hn, get, resolveCurrent, hc, Ctx.map, hf, mapIn, modCur]

/-- what binding the names of a `static` declaration does -/
theorem evalStaticCtx_ok {ids0 : List Binding} (hv : ∀ b ∈ ids0, b.val ≠ none) {bs : List Binding} :
    ∀ {acc r : Ref} {s s' : St} {c : Ctx} {cs : List Ctx} {pre : List Binding},
    evalStaticCtx acc bs s = .ok r s' → s.ctxs = c :: cs → c.ids = ids0 ++ pre →
    ∃ bs', Named s.nodes bs bs' ∧ s' = { s with ctxs := { c with ids := c.ids ++ bs' } :: cs } ∧ Distinct pre bs' ∧
      ∀ b ∈ bs', ¬ ∃ d ∈ ids0, d.name = b.name := by
  induction bs with
  | nil =>
    intro acc r s s' c cs pre h hc hp
    cases h
    refine ⟨[], .nil, ?_, trivial, by simp⟩
    cases s; simp at hc ⊢; exact hc
  | cons b bs ih =>
    intro acc r s s' c cs pre h hc hp
    unfold evalStaticCtx at h
    rw [bind_apply] at h
    cases hm : mapIdentifier (some b.id) b.val s with
    | ok u s1 =>
      rw [hm] at h
      obtain ⟨x, c1, cs1, h1, h2, h3, rfl⟩ := mapIdentifier_ok hm
      rw [hc] at h2; cases h2
      obtain ⟨bs', g1, g2, g3, g4⟩ := ih (pre := pre ++ [⟨x, b.id, b.val⟩]) h rfl (by simp [hp])
      have h0 : ¬ ∃ d ∈ ids0, d.name = x := by
        refine findId_none_fresh hv ?_
        rw [hp] at h3
        cases hf : findId x ids0 with
        | none => rfl
        | some o => rw [findId_append pre hf] at h3; cases h3
      refine ⟨⟨x, b.id, b.val⟩ :: bs', .cons h1 g1, ?_, ⟨?_, g3⟩, ?_⟩
      · rw [g2]; simp
      · rw [hp, findId_undeclared h0] at h3; exact h3
      · intro d hd
        rcases List.mem_cons.mp hd with rfl | hd
        · exact h0
        · exact g4 d hd
    | stop w s1 => rw [hm] at h; cases h
    | fuel => rw [hm] at h; cases h

theorem evalStaticCtx_apply {ids0 : List Binding} {nd : TId → Option Node} {bs bs' : List Binding} (hn : Named nd bs bs') :
    ∀ {acc : Ref} {s : St} {c : Ctx} {cs : List Ctx} {pre}, s.nodes = nd → s.ctxs = c :: cs → c.ids = ids0 ++ pre →
    Distinct pre bs' → (∀ b ∈ bs', ¬ ∃ d ∈ ids0, d.name = b.name) →
    ∃ r, evalStaticCtx acc bs s = .ok r { s with ctxs := { c with ids := c.ids ++ bs' } :: cs } := by
  induction hn with
  | nil =>
    intro acc s c cs pre _ hc _ _ _
    refine ⟨acc, ?_⟩
    unfold evalStaticCtx
    cases s; simp at hc ⊢; rw [hc]
  | @cons b x bs bs' hx _ ih =>
    intro acc s c cs pre hs hc hp hd hf
    have h0 : ¬ ∃ d ∈ ids0, d.name = x := hf ⟨x, b.id, b.val⟩ (by simp)
    have h1 : findId x c.ids = none := by rw [hp, findId_undeclared h0]; exact hd.1
    obtain ⟨r, hr⟩ := ih (acc := some b.id) (pre := pre ++ [⟨x, b.id, b.val⟩])
      (s := { s with ctxs := { c with ids := c.ids ++ [⟨x, b.id, b.val⟩] } :: cs }) hs rfl (by simp [hp]) hd.2
      fun d hd => hf d (by simp [hd])
    refine ⟨r, ?_⟩
    unfold evalStaticCtx
    rw [bind_apply, mapIdentifier_new (hs ▸ hx) hc h1]
    simpa using hr

/-- type specifiers that declare nothing: keywords, `typedef` names, `struct S` -/
def PlainSpec : Node → Prop
  | .kw k => k ≠ .typedef ∧ k ≠ .extern
  | .ident _ => True
  | .compound _ none _ _ _ => True
  | _ => False

/-- the same declarations, and all tree objects as they were -/
structure Same (s s' : St) : Prop where
  nodes : Kept s s'
  ids : s'.ctxs.map (·.ids) = s.ctxs.map (·.ids)
  inv : Inv s'

theorem Same.len {s s'} (h : Same s s') : s'.ctxs.length = s.ctxs.length := by
  have := congrArg List.length h.ids
  simpa using this

theorem addNode_same {s : St} (h : Inv s) {n : Node} (hb : n ≠ .brk) : Same s (addNode s n) :=
  ⟨(addNode_ext h.wf n).nodes, rfl, (Evol.addNode (E := E0) h hb).inv⟩

theorem resolveSpecsLoop_ok {l : List TId} : ∀ {bs : Nat} {s s' : St} {r : Ref}, Inv s →
    (∀ k ∈ l, ∃ n, s.nodes k = some n ∧ PlainSpec n) → resolveSpecsLoop bs l s = .ok r s' →
    Same s s' ∧ ∃ t n, r = some t ∧ s'.nodes t = some n ∧
      (n = .void ∨ (∃ c, n = .ctype c none) ∨ (∃ x, n = .ident x) ∨ ∃ i z e b, n = .compound i none z e b) := by
  induction l with
  | nil =>
    intro bs s s' r hi _ h
    unfold resolveSpecsLoop at h
    cases hs : switchBits clangTable clangKeys bs with
    | none => rw [hs] at h; cases h
    | some c =>
      rw [hs] at h
      cases c with
      | c c =>
        cases h
        exact ⟨addNode_same hi (by simp), _, _, rfl, addNode_self _ _, .inr (.inl ⟨_, rfl⟩)⟩
      | void =>
        cases h
        exact ⟨addNode_same hi (by simp), _, _, rfl, addNode_self _ _, .inl rfl⟩
  | cons k l ih =>
    intro bs s s' r hi hl h
    have hl' : ∀ k ∈ l, ∃ n, s.nodes k = some n ∧ PlainSpec n := fun k hk => hl k (by simp [hk])
    obtain ⟨n, hn, hp⟩ := hl k (by simp)
    unfold resolveSpecsLoop at h
    rw [bind_apply, node_apply hn] at h
    have hs : Same s s := ⟨Kept.refl s, rfl, hi⟩
    cases n
    case kw k =>
      simp only at h
      split at h
      · exact ih hi hl' h
      · cases ha : addSpec clangTable clangKeys bs k with
        | none => rw [ha] at h; cases h
        | some b => rw [ha] at h; exact ih hi hl' h
    case ident x => cases h; exact ⟨hs, _, _, rfl, hn, .inr (.inr (.inl ⟨_, rfl⟩))⟩
    case compound i d z e b =>
      cases d with
      | some _ => exact hp.elim
      | none => cases h; exact ⟨hs, _, _, rfl, hn, .inr (.inr (.inr ⟨_, _, _, _, rfl⟩))⟩
    all_goals exact hp.elim

theorem chainHasKw_ok {l : List TId} {k : Kw} {s : St} (hl : ∀ t ∈ l, ∃ n, s.nodes t = some n) :
    chainHasKw k l s = .ok (decide (∃ t ∈ l, s.nodes t = some (.kw k))) s := by
  induction l with
  | nil => simp [chainHasKw]
  | cons t l ih =>
    have ih := ih fun t ht => hl t (by simp [ht])
    obtain ⟨n, hn⟩ := hl t (by simp)
    unfold chainHasKw
    rw [bind_apply, node_apply hn]
    cases n
    case kw k' =>
      simp only
      by_cases hk : k' = k
      · subst hk; rw [if_pos rfl]; simp [hn]
      · rw [if_neg hk, ih]; simp [hn, hk]
    all_goals simp only [ih]; simp [hn]

theorem evalIdentifier_ok {t : TId} {s s' : St} {r : Ref} (h : evalIdentifier t s = .ok r s') : s' = s := by
  unfold evalIdentifier resolveIdG idStr nodeR node at h
  simp only [bind_apply] at h
  cases hn : s.nodes t with
  | none => rw [hn] at h; cases h
  | some n =>
    rw [hn] at h
    cases n
    case ident x =>
      simp only [get, pure_apply] at h
      cases hr : resolveGlobal x .normal s with
      | none => rw [hr] at h; cases h
      | some o => rw [hr] at h; cases h; rfl
    all_goals cases h

theorem mapIn_tag_ok {i : TId} {v : Ref} {s s' : St} {u : Unit} {b : Bool} (h : mapIn (compNS b) (some i) v s = .ok u s') :
    s'.nodes = s.nodes ∧ s'.ctxs.map (·.ids) = s.ctxs.map (·.ids) := by
  cases hn : s.nodes i with
  | none => simp [mapIn, bind_apply, node, hn] at h
  | some n =>
    cases n
    case ident x =>
      cases hc : s.ctxs with
      | nil => simp [mapIn, bind_apply, node, hn, modCur, hc] at h
      | cons c cs =>
        simp only [mapIn, bind_apply, node, hn, modCur, hc] at h
        cases h
        cases b <;> simp [compNS]
    all_goals simp [mapIn, bind_apply, node, hn, die, stop] at h

theorem evalCompoundRef_ok {E : Env} {R : Rec} {t : TId} {id : Ref} {z : Nat} {e b : Bool} {s s' : St} {r : Ref} (hR : RPres E R)
    (hi : Inv s) (ht : s.nodes t = some (.compound id none z e b)) (h : evalDeclCompound R t id none b s = .ok r s') :
    Same s s' := by
  have hinv : Inv s' := by
    have := pres_evalDeclCompound (E := E) hR t id none b hi ⟨_, ht, rfl⟩
    rw [h] at this
    exact this.inv
  cases id with
  | none => cases h
  | some i =>
    unfold evalDeclCompound idStr nodeR node at h
    simp only [bind_apply] at h
    cases hn : s.nodes i with
    | none => rw [hn] at h; cases h
    | some n =>
      rw [hn] at h
      cases n
      case ident x =>
        simp only [get, pure_apply] at h
        cases hr : resolveGlobal x (compNS b) s with
        | some o => rw [hr] at h; cases h; exact ⟨Kept.refl _, rfl, hi⟩
        | none =>
          rw [hr] at h
          simp only [handleForwardDecl, nodeR, bind_apply, node, ht, idStr, hn, get, pure_apply, hr, mk] at h
          split at h
          · rename_i hm'
            cases h
            obtain ⟨k1, k2⟩ := mapIn_tag_ok hm'
            have hs := addNode_same hi (n := .incomp) (by simp)
            exact ⟨fun t n hn => by rw [k1]; exact hs.nodes t n hn, k2.trans hs.ids, hinv⟩
          · cases h
          · cases h
      all_goals cases h

/-- up to the declarators -/
theorem evalDecl_static_ok {E : Env} {n : Nat} {t specs ds : TId} {l : List TId} {s s1 : St} {r : Ref} (hi : Inv s)
    (hsp : s.nodes specs = some (.chain l)) (hl : ∀ k ∈ l, ∃ m, s.nodes k = some m ∧ PlainSpec m)
    (hst : ∃ k ∈ l, s.nodes k = some (.kw .static))
    (h : evalDecl E (run E n) t (some specs) (some ds) s = .ok r s1) :
    ∃ ty s', Same s s' ∧ handleStaticDecl (run E n) ty t (some ds) s' = .ok r s1 := by
  unfold evalDecl resolveSpecs at h
  simp only [bind_apply, chainElems_apply hsp] at h
  cases hr : resolveSpecsLoop 0 l s with
  | stop w s2 => rw [hr] at h; cases h
  | fuel => rw [hr] at h; cases h
  | ok ty s2 =>
    rw [hr] at h
    obtain ⟨k2, τ, nτ, rfl, hτ, hk⟩ := resolveSpecsLoop_ok hi hl hr
    simp only [peek_apply hτ] at h
    have fin : ∀ (s3 : St) (ty' : Ref), Same s s3 → (do
        let ks ← chainElems (some specs)
        if ← chainHasKw .typedef ks then eachDecl (fun d => (run E n).mapTypedef d ty') (some ds)
        else if ← chainHasKw .extern ks then eachDecl (handleExternDecl E (run E n) ty') (some ds)
        else if ← chainHasKw .static ks then handleStaticDecl (run E n) ty' t (some ds)
        else match some ds with
          | none => pure none
          | some _ => eachDecl (fun d => (run E n).handleDecl d ty') (some ds) : M Ref) s3 = .ok r s1 →
        ∃ ty s', Same s s' ∧ handleStaticDecl (run E n) ty t (some ds) s' = .ok r s1 := by
      intro s3 ty' k3 h
      have hl' : ∀ t ∈ l, ∃ m, s3.nodes t = some m := fun t ht => by
        obtain ⟨m, hm, _⟩ := hl t ht; exact ⟨m, k3.nodes _ _ hm⟩
      have no : ∀ k, (k = .typedef ∨ k = .extern) → ¬ ∃ t ∈ l, s3.nodes t = some (.kw k) := by
        rintro k hk ⟨t, ht, hn⟩
        obtain ⟨m, hm, hp⟩ := hl t ht
        rw [k3.nodes _ _ hm] at hn
        cases hn
        rcases hk with rfl | rfl
        · exact hp.1 rfl
        · exact hp.2 rfl
      have yes : ∃ t ∈ l, s3.nodes t = some (.kw .static) := by
        obtain ⟨k, hk, hn⟩ := hst; exact ⟨k, hk, k3.nodes _ _ hn⟩
      simp only [bind_apply, chainElems_apply (k3.nodes _ _ hsp), chainHasKw_ok hl', decide_eq_false (no _ (.inl rfl)),
        decide_eq_false (no _ (.inr rfl)), decide_eq_true yes, Bool.false_eq_true, if_false, if_true] at h
      exact ⟨ty', s3, k3, h⟩
    have hR := run_pres E n
    rcases hk with rfl | ⟨c, rfl⟩ | ⟨x, rfl⟩ | ⟨i, z, e, b, rfl⟩
    · exact fin s2 _ k2 h
    · exact fin s2 _ k2 h
    · simp only at h
      cases he : (run E n).ev (some τ) s2 with
      | stop w s3 => rw [he] at h; cases h
      | fuel => rw [he] at h; cases h
      | ok ty' s3 =>
        rw [he] at h
        cases n with
        | zero => cases he
        | succ n =>
          have he' : evStep E (run E n) (some τ) s2 = .ok ty' s3 := he
          simp only [evStep, bind_apply, node_apply hτ, evalNode] at he'
          cases evalIdentifier_ok he'
          exact fin s2 _ k2 h
    · simp only at h
      cases he : (run E n).ev (some τ) s2 with
      | stop w s3 => rw [he] at h; cases h
      | fuel => rw [he] at h; cases h
      | ok ty' s3 =>
        rw [he] at h
        cases n with
        | zero => cases he
        | succ n =>
          have he' : evStep E (run E n) (some τ) s2 = .ok ty' s3 := he
          simp only [evStep, bind_apply, node_apply hτ, evalNode] at he'
          have k3 := evalCompoundRef_ok (run_pres E n) k2.inv hτ he'
          exact fin s3 _ ⟨k2.nodes.trans k3.nodes, k3.ids.trans k2.ids, k3.inv⟩ h

/-- the declarations of scope number `i`, counted from the outermost -/
theorem Outer.head {c c' : Ctx} {l l' : List Ctx} (h : Outer (c :: l) (c' :: l')) (hl : l.length = l'.length) :
    l'.map (·.ids) = l.map (·.ids) := by
  rw [← List.reverse_inj, ← List.map_reverse, ← List.map_reverse]
  apply List.ext_getElem?
  intro i
  rw [List.getElem?_map, List.getElem?_map]
  by_cases hi : i < l.length
  · have hlt : i < l.reverse.length := by simpa using hi
    obtain ⟨y, hy, e, _⟩ := h i l.reverse[i] (by simpa using hi) (by
      rw [List.reverse_cons, List.getElem?_append_left hlt]; exact List.getElem?_eq_getElem hlt)
    rw [List.reverse_cons, List.getElem?_append_left (by simp; omega)] at hy
    rw [hy, List.getElem?_eq_getElem hlt]
    simp [e]
  · rw [List.getElem?_eq_none (by simp; omega), List.getElem?_eq_none (by simp; omega)]

/-- no function is defined by the declarators -/
def NoFnDef (nd : TId → Option Node) (ds : TId) : Prop :=
  ∀ es, nd ds = some (.chain es) → ∀ e ∈ es, ∃ n, nd e = some n ∧ ∀ d a r b, n ≠ .fn d a r (some b)

theorem firstFnDef_none {es : List TId} {s : St} (h : ∀ e ∈ es, ∃ n, s.nodes e = some n ∧ ∀ d a r b, n ≠ .fn d a r (some b)) :
    firstFnDef es s = .ok none s := by
  induction es with
  | nil => rfl
  | cons e es ih =>
    obtain ⟨n, hn, hp⟩ := h e (by simp)
    have ih := ih fun e he => h e (by simp [he])
    unfold firstFnDef
    rw [bind_apply, node_apply hn]
    cases n
    case fn d a r b =>
      cases b with
      | none => exact ih
      | some b => exact absurd rfl (hp d a r b)
    all_goals exact ih

/-- the first execution: the declarators are executed in a scope of their own; what
they declare is stored in the declaration and bound in the current scope -/
theorem handleStaticDecl_ok {E : Env} {n : Nat} {ty : Ref} {t ds : TId} {s s1 : St} {r : Ref} (hi : Inv s)
    (hf : NoFnDef s.nodes ds) (hd : ∃ m, s.nodes ds = some m) (ht : HasKey s t .declLike)
    (hlen : s1.ctxs.length = s.ctxs.length)
    (h : handleStaticDecl (run E n) ty t (some ds) s = .ok r s1) :
    ∃ (ms : List Binding) (s4 : St) (q : Ref), s4.nodes t = some (.staticCtx ms) ∧ Inv s4 ∧
      s4.ctxs.map (·.ids) = s.ctxs.map (·.ids) ∧ evalStaticCtx none ms s4 = .ok q s1 := by
  have hR := run_pres E n
  unfold handleStaticDecl at h
  obtain ⟨m, hm⟩ := hd
  have hfd : ∀ {β} (f : Ref → M β), ((do
      match ← peek (some ds) with
      | some (.chain es) => firstFnDef es
      | _ => pure none : M Ref) >>= f) s = f none s := by
    intro β f
    simp only [bind_apply, peek_apply hm]
    cases m
    case chain es => simp only [firstFnDef_none (hf es hm)]
    all_goals rfl
  have h := (hfd _).symm.trans h
  simp only at h
  obtain ⟨c, sp, h1, h2, h3, h4, h5, -⟩ := Pres.pushEvol (E := E) hi "Static declaration"
  rw [bind_apply, h1] at h
  simp only at h
  rw [bind_apply] at h
  have hb := pres_eachDecl (E := E) (fun d => hR.handleDecl d ty) (some ds) sp h4
  cases he : eachDecl (fun d => (run E n).handleDecl d ty) (some ds) sp with
  | stop w s3 => rw [he] at h; cases h
  | fuel => rw [he] at h; cases h
  | ok r0 s3 =>
    rw [he] at h hb
    simp only [bind_apply, curCtx] at h
    cases hc3 : s3.ctxs with
    | nil => rw [hc3] at h; cases h
    | cons c3 cs3 =>
      rw [hc3] at h
      simp only [setNode, modify] at h
      have hk3 : HasKey s3 t .declLike := (ht.evol h3).evol hb
      have e5 := hk3.setDecl (E := E) (n' := .staticCtx c3.ids) rfl hb.inv
      have hlen3 := hb.len
      rw [h2, hc3] at hlen3
      simp only [List.length_cons] at hlen3
      cases cs3 with
      | nil => simp [popCtx, hc3] at h
      | cons d cs =>
        simp only [popCtx, hc3] at h
        generalize hs4 : ({ s3 with nodes := fun x => if x = t then some (.staticCtx c3.ids) else s3.nodes x, ctxs := d :: cs } : St) = s4 at h
        have hn4 : s4.nodes t = some (.staticCtx c3.ids) := by rw [← hs4]; simp
        cases n with
        | zero => cases h
        | succ n =>
          have hev : (run E (n + 1)).ev (some t) s4 = evalStaticCtx none c3.ids s4 := by
            show evStep E (run E n) (some t) s4 = _
            simp only [evStep, bind_apply, node_apply hn4, evalNode]
          rw [hev] at h
          have i4 : Inv s4 := by
            have i5 : Inv { s3 with nodes := fun x => if x = t then some (.staticCtx c3.ids) else s3.nodes x } := e5.inv
            rw [← hs4]
            refine ⟨i5.wf, ?_, fun x hx => i5.tags x (by rw [hc3]; exact List.mem_cons_of_mem _ hx)⟩
            have := i5.uids
            simp only [hc3] at this
            exact UidsOk.mono this.2 (Nat.le_of_lt this.1)
          cases hq : evalStaticCtx none c3.ids s4 with
          | stop w s5 => rw [hq] at h; cases h
          | fuel => rw [hq] at h; cases h
          | ok q s5 =>
            rw [hq] at h
            cases h
            have hl5 : s4.ctxs.length ≤ s1.ctxs.length := by
              have := (run_pres E (n + 1)).ev (some t) s4 i4
              rw [hev, hq] at this
              exact this.len
            have hl4 : s4.ctxs = d :: cs := by rw [← hs4]
            refine ⟨c3.ids, s4, q, hn4, i4, ?_, hq⟩
            have ho := hb.outer
            rw [h2, hc3] at ho
            rw [hl4]
            refine ho.head ?_
            rw [hl4] at hl5
            simp only [List.length_cons] at hl5 hlen3 ⊢
            omega

end Bic
