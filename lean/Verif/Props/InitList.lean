import Verif.Props.ForDecl
import Verif.Proofs.ArrayDialogue
/-!
# C136: initializers in braces
-/

namespace Bic

/-- the nodes of `es` are the constants `cs` -/
inductive Consts (nd : TId → Option Node) : List TId → List Int → Prop
  | nil : Consts nd [] []
  | cons {t v es cs} : nd t = some (.integer v) → Consts nd es cs → Consts nd (t :: es) (v :: cs)

/-- `t` is the declaration `T x[n] = { e1, … };`, with the type `T` given by keywords and a constant `n` -/
inductive ArrayInit (nd : TId → Option Node) (k : CT) (x : String) (n : Nat) (es : List TId) (t : TId) : Prop
  | mk {specs decls d arr id sz r : TId} {off : Nat} : nd t = some (.decl (some specs) (some decls) off) → TypeSpecs nd specs k →
      nd decls = some (.chain [d]) → nd d = some (.assign (some arr) (some r)) → nd arr = some (.array (some id) (some sz)) →
      nd id = some (.ident x) → nd sz = some (.integer n) → nd r = some (.chain es) → ArrayInit nd k x n es t

/-- C136: `T x[n] = { c1, …, ck };` with an integer type `T`, at most `n` constants, a name that is not declared in the scope and enough memory
declares the array, with these values in its first elements. -/
def C136_statement : Prop :=
  ∀ (E : Env) (s : St) (t : TId) (k : CT) (x : String) (n : Nat) (es : List TId) (cs : List Int), Inv s → k.isInt = true →
    ArrayInit s.nodes k x n es t → Consts s.nodes es cs → cs.length ≤ n → NewHere s x → Cap s (176 + k.size * n) →
    ∃ r s', Conv E (fun R => R.ev (some t)) s (.ok r s') ∧ ∃ o bt m, resolveCurrent x .normal s' = some o ∧ ArrayAt s' o bt (k.size * n) m ∧
      ∀ i c, cs[i]? = some c → s'.mem.load k.size (m + i * k.size) = k.encode c

/-- C136, what happens in general: no assignment whose right side is a list in braces ever ends normally, whatever its left side is. -/
theorem C136_never (E : Env) (s s' : St) (t r : TId) (l v : Ref) (es : List TId) (hi : Inv s) (ht : s.nodes t = some (.assign l (some r)))
    (hr : s.nodes r = some (.chain es)) : ¬ Conv E (fun R => R.ev (some t)) s (.ok v s') := by
  intro h
  obtain ⟨n, h⟩ := h
  have h : (run E (n + 2)).ev (some t) s = .ok v s' := h (n + 2) (by omega)
  have e1 : (run E (n + 2)).ev (some t) s = evalAssign E (run E (n + 1)) l (some r) s := by
    show evStep E (run E (n + 1)) (some t) s = _
    simp only [evStep, bind_apply, node_apply ht]
    rfl
  rw [e1] at h
  unfold evalAssign at h
  rw [bind_apply] at h
  cases h1 : (run E (n + 1)).ev l s with
  | fuel => rw [h1] at h; cases h
  | stop w s1 => rw [h1] at h; cases h
  | ok left s1 =>
    rw [h1] at h
    have e := (run_pres E (n + 1)).ev l s hi
    rw [h1] at e
    obtain ⟨q, hq, hn⟩ := e.nodes _ _ hr
    have hc : ∃ es', q = .chain es' := by
      rcases hn with rfl | ⟨h2, _⟩
      · exact ⟨_, rfl⟩
      · cases q <;> simp [mutKey] at h2
        exact ⟨_, rfl⟩
    obtain ⟨es', rfl⟩ := hc
    have h2 : (run E (n + 1)).ev (some r) s1 = .ok none s1 := by
      show evStep E (run E n) (some r) s1 = _
      simp only [evStep, bind_apply, node_apply hq]
      rfl
    simp only [bind_apply, h2] at h
    cases left with
    | none => cases h
    | some lt =>
      simp only [bind_apply] at h
      cases h3 : node lt s1 with
      | fuel => rw [h3] at h; cases h
      | stop w s2 => rw [h3] at h; cases h
      | ok q2 s2 =>
        rw [h3] at h
        simp only at h
        split at h
        · simp only [bind_apply] at h
          split at h
          · split at h
            · split at h
              · cases h
              · split at h
                · cases h
                · split at h
                  · cases h
                  · cases h
            · cases h
          · cases h
          · cases h
        · cases h

/-- a declarator with a list in braces: when its variable is declared, a null pointer is read -/
theorem init_stops {E : Env} {s s2 : St} {d a r τ id o τ' : TId} {k c : CT} {e e' : Ref} {es : List TId} {x : String} {ad n : Nat} {arr : Bool}
    (hd : s.nodes d = some (.assign (some a) (some r))) (hτ : s.nodes τ = some (.ctype k e))
    (h : Conv E (fun R => R.handleDecl (some a) (some τ)) s (.ok (some id) s2)) (hd2 : s2.nodes d = some (.assign (some a) (some r)))
    (hr : s2.nodes r = some (.chain es)) (hid : s2.nodes id = some (.ident x)) (ho : resolveGlobal x .normal s2 = some o)
    (hlv : s2.nodes o = some (.lv (some τ') ad arr n)) (hτ' : s2.nodes τ' = some (.ctype c e')) (hc : c.isInt = true ∨ c = .ptr) :
    ∃ s', Conv E (fun R => R.handleDecl (some d) (some τ)) s (.stop (.ub "NULL tree dereferenced") s') := by
  let s3 : St := { s2 with nodes := fun y => if y = d then some (.assign (some id) (some r)) else s2.nodes y }
  have keep : ∀ y q, s2.nodes y = some q → (∀ l r, q ≠ .assign l r) → s3.nodes y = some q := by
    intro y q hy hq
    show (if y = d then _ else _) = _
    rw [if_neg fun hyd => ?_]
    · exact hy
    · rw [hyd, hd2] at hy
      injection hy with hy
      exact hq _ _ hy.symm
  have hd3 : s3.nodes d = some (.assign (some id) (some r)) := by show (if d = d then _ else _) = _; rw [if_pos rfl]
  have hid3 := keep _ _ hid nofun
  have hev : Conv E (fun R => R.ev (some d)) s3 (.stop (.ub "NULL tree dereferenced") s3) := by
    refine Conv.evNode hd3 ?_
    show Conv E (fun R => evalAssign E R (some id) (some r)) s3 _
    unfold evalAssign
    refine Conv.bind (ident_conv (r := o) hid3 ho) ?_
    refine Conv.bind (a := none) (s' := s3) (Conv.evNode (keep _ _ hr nofun) (Conv.pure _)) ?_
    refine Conv.const ?_
    have hty : typeOf (some τ') s3 = .ok (some c) s3 := by simp [typeOf, nodeR, node_apply (keep _ _ hτ' nofun)]
    simp only [bind_apply, node_apply (keep _ _ hlv nofun), hty]
    rcases hc with hc | rfl
    · simp [hc, assignInteger, nodeR, ub, stop]
    · simp [CT.isInt, CT.isFloat, assignPtr, nodeR, ub, stop]
  refine ⟨s3, Conv.handleDecl ?_⟩
  unfold handleDeclStep
  refine Conv.bind (a := (some d, some τ)) (s' := s) (Conv.resolvePtr (Conv.fixed fun R => by simp [resolvePtrStep, peek_apply hd])) ?_
  have h2 := Conv.bind (g := fun R l' => (do
    match ← node d with
        | .assign _ r' => setNode d (.assign l' r')
        | _ => setNode d (.assign l' (some r))
        let _ ← R.ev (some d)
        pure l' : M Ref)) h (o := .stop (.ub "NULL tree dereferenced") s3) (by
      obtain ⟨n, hn⟩ := hev
      refine ⟨n, fun m hm => ?_⟩
      have hn : (run E m).ev (some d) { s2 with nodes := fun y => if y = d then some (.assign (some id) (some r)) else s2.nodes y } = _ := hn m hm
      simp only [bind_apply, node_apply hd2, setNode_apply, hn])
  refine h2.congr fun R => ?_
  simp only [bind_apply, node_apply hτ, handleDeclSwitch, nodeR, node_apply hd]
  rfl

/-- C136 for arrays: every such declaration reads a null pointer, in every state. -/
theorem C136_array (E : Env) (s : St) (t : TId) (k : CT) (x : String) (n : Nat) (es : List TId) (w : WF s) (ht : ArrayInit s.nodes k x n es t)
    (hx : NewHere s x) (hcap : Cap s (176 + k.size * n)) :
    ∃ s', Conv E (fun R => R.ev (some t)) s (.stop (.ub "NULL tree dereferenced") s') := by
  obtain ⟨ht, hs, hds, hd, ha, hid, hsz, hr⟩ := ht
  rename_i specs decls d arr id sz r off
  have x1 := addNode_ext w (.ctype k none)
  have hτ := addNode_self s (.ctype k none)
  have hf : Fresh (addNode s (.ctype k none)) x := by
    intro c cs hc
    obtain ⟨c', cs', hc', hb⟩ := hx
    rw [x1.ctxs, hc'] at hc
    injection hc with hc _
    rw [← hc]
    exact hb
  obtain ⟨o, s1, s2, h1, g, rfl, m, h4, _⟩ := handleDecl_array_conv (E := E) (v := (n : Int)) (sz := some sz) (x1.wf w) (x1.nodes _ _ ha)
    (x1.nodes _ _ hid) hτ hf.resolve
    (fun s2 g r0 => ⟨sz, s2, Conv.evNode (g.nodes _ _ (x1.nodes _ _ hsz)) (Conv.pure _), .refl _, .inl (g.nodes _ _ (x1.nodes _ _ hsz))⟩)
    (by omega) ((hcap.room (by omega)).ext x1) (by have := hcap.brk; simp only [x1.mem, Int.toNat_natCast]; omega)
  obtain ⟨τ', a, p1, p2, _⟩ := h4.lv
  have hne : s1.ctxs ≠ [] := g.ctxs_ne (by rw [x1.ctxs]; exact hcap.ctxs)
  have nd : ∀ y q, s.nodes y = some q → (bindSt s1 ⟨x, id, some o⟩).nodes y = some q := fun y q hy => g.nodes _ _ (x1.nodes _ _ hy)
  obtain ⟨s', h'⟩ := init_stops (x1.nodes _ _ hd) hτ h1 (nd _ _ hd) (nd _ _ hr) (nd _ _ hid) (resolveGlobal_bind (hf.grow g) hne)
    (show (bindSt s1 _).nodes o = _ from p1) (show (bindSt s1 _).nodes τ' = _ from p2) (.inr rfl)
  refine ⟨s', evalDecl_conv w ht hs ?_⟩
  have h2 := Conv.bind_stop (g := fun R r => forEachLast (fun t => R.handleDecl (some t) (some s.next)) r []) h'
  refine h2.congr fun R => ?_
  simp [eachDecl, peek_apply (x1.nodes _ _ hds), forEachLast]

/-- C136 for a variable of an integer type: `T x = { … };` reads a null pointer, in every state. -/
theorem C136_scalar (E : Env) (s : St) (t specs decls d id r : TId) (rest es : List TId) (off : Nat) (k : CT) (x : String) (w : WF s)
    (ht : s.nodes t = some (.decl (some specs) (some decls) off)) (hs : TypeSpecs s.nodes specs k) (hk : k.isInt = true)
    (hds : s.nodes decls = some (.chain (d :: rest))) (hd : s.nodes d = some (.assign (some id) (some r))) (hid : s.nodes id = some (.ident x))
    (hr : s.nodes r = some (.chain es)) (hx : NewHere s x) (hroom : Room s 1) :
    ∃ s', Conv E (fun R => R.ev (some t)) s (.stop (.ub "NULL tree dereferenced") s') := by
  have x1 := addNode_ext w (.ctype k none)
  have hτ := addNode_self s (.ctype k none)
  have hf : Fresh (addNode s (.ctype k none)) x := by
    intro c cs hc
    obtain ⟨c', cs', hc', hb⟩ := hx
    rw [x1.ctxs, hc'] at hc
    injection hc with hc _
    rw [← hc]
    exact hb
  have h1 := handleDecl_ident_conv (E := E) (x1.wf w) (x1.nodes _ _ hid) hτ (hroom.ext x1) hf.resolve
  have g := newVar_grow (x1.wf w) (some s.next)
  have nd : ∀ y q, s.nodes y = some q → (declSt (addNode s (.ctype k none)) s.next id x).nodes y = some q :=
    fun y q hy => g.nodes _ _ (x1.nodes _ _ hy)
  have hne : (newVar (addNode s (.ctype k none)) (some s.next)).ctxs ≠ [] := g.ctxs_ne (by rw [x1.ctxs]; exact hroom.ctxs)
  obtain ⟨s', h'⟩ := init_stops (x1.nodes _ _ hd) hτ h1 (nd _ _ hd) (nd _ _ hr) (nd _ _ hid)
    (resolveGlobal_bind (s := newVar (addNode s (.ctype k none)) (some s.next)) (hf.grow g) hne)
    (show (newVar _ _).nodes _ = _ from newVar_self _ _) (g.nodes _ _ hτ) (.inl hk)
  refine ⟨s', evalDecl_conv w ht hs ?_⟩
  have h2 := Conv.bind_stop (g := fun R r => forEachLast (fun t => R.handleDecl (some t) (some s.next)) r rest) h'
  refine h2.congr fun R => ?_
  simp [eachDecl, peek_apply (x1.nodes _ _ hds), forEachLast]

/-- `int a[3] = { 4, 5 };` and `int x = { 4 };` -/
def stInit : St :=
  stOf [.kw .int, .chain [0], .ident "a", .integer 3, .array (some 2) (some 3), .integer 4, .integer 5, .chain [5, 6], .assign (some 4) (some 7),
        .chain [8], .decl (some 1) (some 9) 0, .ident "x", .chain [5], .assign (some 11) (some 12), .chain [13], .decl (some 1) (some 14) 0] [] []

theorem stInit_array : ArrayInit stInit.nodes .int "a" 3 [5, 6] 10 :=
  .mk rfl ⟨[0], [.int], rfl, .cons rfl .nil, by decide, by decide⟩ rfl rfl rfl rfl rfl rfl

/-- C136 is false: `int a[3] = { 4, 5 };` reads a null pointer. -/
theorem C136_refuted : ¬ C136_statement := by
  intro h
  have hn : NewHere stInit "a" := ⟨_, [], rfl, by decide⟩
  have hc : Cap stInit (176 + CT.int.size * 3) := ⟨by decide +kernel, by simp [stInit, stOf], memOf_livelt _⟩
  obtain ⟨r, s', h1, _⟩ := h E0 stInit 10 .int "a" 3 [5, 6] [4, 5] (stOf_Inv _ _ _) rfl stInit_array (.cons rfl (.cons rfl .nil)) (by decide) hn hc
  obtain ⟨s2, h2⟩ := C136_array E0 stInit 10 .int "a" 3 [5, 6] (stOf_WF _ _ _) stInit_array hn hc
  cases h1.unique h2

example : ∃ s', Conv E0 (fun R => R.ev (some 15)) stInit (.stop (.ub "NULL tree dereferenced") s') :=
  C136_scalar E0 stInit 15 1 14 13 11 12 [] [5] 0 .int "x" (stOf_WF _ _ _) rfl ⟨[0], [.int], rfl, .cons rfl .nil, by decide, by decide⟩ rfl rfl rfl rfl
    rfl ⟨_, [], rfl, by decide⟩ ⟨by decide +kernel, by simp [stInit, stOf], memOf_livelt _⟩

example (v : Ref) (s' : St) : ¬ Conv E0 (fun R => R.ev (some 8)) stInit (.ok v s') :=
  C136_never E0 stInit s' 8 7 _ v [5, 6] (stOf_Inv _ _ _) rfl rfl

end Bic
