import Verif.Props.Links
import Verif.Props.Incomplete
import Verif.Props.Arrow
import Verif.Props.Enum
/-!
# C120: structures as values
-/

namespace Bic
open Spec

/-- C120 in full: wherever a program gets, assigning one structure or union variable to another of the same type copies
its bytes. -/
def C120_statement : Prop :=
  ∀ (E : Env) (l : List Node) (s s1 s2 : St) (t x y c : TId) (a b : Ref) (bs bs' : List Binding) (base base' n : Nat),
    (∀ n ∈ l, Parsed n) → Reach E (stOf l [] []) s → s.nodes t = some (.assign a b) →
    Conv E (fun R => R.ev a) s (.ok (some x) s1) → Conv E (fun R => R.ev b) s1 (.ok (some y) s2) →
    s2.nodes x = some (.lcomp (some c) bs base) → s2.nodes y = some (.lcomp (some c) bs' base') → Occupies s2 y base' n →
    ∃ r s', Conv E (fun R => R.ev (some t)) s (.ok r s') ∧ ∀ k, k < n → s'.mem.byte (base + k) = s2.mem.byte (base' + k)

/-- C120: no structure or union can be assigned to, whatever the right side is. -/
theorem C120_never (E : Env) (s s1 s2 : St) (t x : TId) (a b d q : Ref) (bs : List Binding) (base : Nat) (hi : Inv s)
    (ht : s.nodes t = some (.assign a b)) (ha : Conv E (fun R => R.ev a) s (.ok (some x) s1))
    (hb : Conv E (fun R => R.ev b) s1 (.ok q s2)) (hx : s1.nodes x = some (.lcomp d bs base)) :
    Conv E (fun R => R.ev (some t)) s (.stop (.die "Not a valid lvalue.") s2) := by
  have hx2 : ∃ d bs base, s2.nodes x = some (.lcomp d bs base) := by
    obtain ⟨n', h1, h2⟩ := (hb.evol (ha.evol hi).inv).nodes _ _ hx
    rcases h2 with rfl | ⟨_, h2⟩
    · exact ⟨_, _, _, h1⟩
    · exact absurd rfl h2
  obtain ⟨_, _, _, hx2⟩ := hx2
  refine Conv.evNode ht ?_
  refine Conv.bind ha (Conv.bind hb (Conv.fixed fun R => ?_))
  simp [node_apply hx2, die, stop]

/-- the assignment of one name to another, when the left one is a structure -/
theorem assignComp_conv {E : Env} {s : St} {t i r v : TId} {x : String} {q : Ref} {d : Ref} {bs : List Binding} {base : Nat}
    (ht : s.nodes t = some (.assign (some i) (some r))) (hi : s.nodes i = some (.ident x)) (hr : resolveGlobal x .normal s = some v)
    (hv : s.nodes v = some (.lcomp d bs base)) (he : Conv E (fun R => R.ev (some r)) s (.ok q s)) :
    Conv E (fun R => R.ev (some t)) s (.stop (.die "Not a valid lvalue.") s) := by
  refine Conv.evNode ht (Conv.bind (ident_conv hi hr) (Conv.bind he (Conv.fixed fun R => ?_)))
  simp [node_apply hv, die, stop]

theorem initComp_conv {E : Env} {s s1 : St} {t d r c v w : TId} {x y : String} {q : Ref} {bs : List Binding} {base : Nat}
    (ht : s.nodes t = some (.assign (some d) (some r))) (hc : ∃ i ds sz x b, s.nodes c = some (.compound i ds sz x b))
    (hdecl : Conv E (fun R => R.handleDecl (some d) (some c)) s (.ok (some d) s1))
    (hk : ∀ y n, s.nodes y = some n → s1.nodes y = some n) (hd : s.nodes d = some (.ident x)) (hr : s.nodes r = some (.ident y))
    (hx : resolveGlobal x .normal s1 = some v) (hv : s1.nodes v = some (.lcomp q bs base)) (hy : resolveGlobal y .normal s1 = some w) :
    Conv E (fun R => R.handleDecl (some t) (some c)) s (.stop (.die "Not a valid lvalue.") s1) := by
  obtain ⟨i, ds, sz, x, b, hc⟩ := hc
  have ht1 := hk _ _ ht
  have hstop := assignComp_conv (E := E) ht1 (hk _ _ hd) hx hv (ident_conv (hk _ _ hr) hy)
  refine Conv.handleDecl ?_
  unfold handleDeclStep
  refine Conv.bind (a := (some t, some c)) (s' := s) (Conv.resolvePtr ?_) ?_
  · exact Conv.fixed fun R => by simp [resolvePtrStep, peek_apply ht]
  · have h2 : Conv E (fun R => do
        let l' ← R.handleDecl (some d) (some c)
        (do match ← node t with
            | .assign _ r' => setNode t (.assign l' r')
            | _ => setNode t (.assign l' (some r))
            let _ ← R.ev (some t)
            pure l' : M Ref)) s (.stop (.die "Not a valid lvalue.") s1) := by
      refine Conv.bind hdecl ?_
      have h3 : Conv E (fun R => (do let _ ← R.ev (some t); pure (some d) : M Ref)) s1 (.stop (.die "Not a valid lvalue.") s1) :=
        Conv.bind_stop hstop
      refine h3.congr fun R => ?_
      simp [node_apply ht1, setNode_same ht1]
    refine h2.congr fun R => ?_
    simp only [bind_apply, node_apply hc, node_apply ht, handleDeclSwitch, nodeR]
    rfl

/-- the name `y` stands for a structure or union -/
def CompVar (s : St) (y : String) : Prop :=
  ∃ w d bs base, resolveGlobal y .normal s = some w ∧ s.nodes w = some (.lcomp d bs base)

/-- the type `c` of items `L` is what the tag `nm` stands for, and there is room for one more object `x` of it -/
structure Usable (s : St) (c : TId) (isS : Bool) (nm x : String) (L : List Item) : Prop where
  wf : WF s
  tag : resolveGlobal nm (compNS isS) s = some c
  laid : Laid s c L isS
  fresh : Fresh s x
  small : ∀ o ∈ (layoutPure isS 0 0 (L.map Item.m)).1, o < 2 ^ 63
  cap : Cap s ((L.map fun i => mcost i.m).sum + Laid.bytes L isS + 48)

/-- C120: `struct S x = y;`, where `y` is a structure or union, ends with the same error. -/
theorem C120_initialised (E : Env) (s : St) (t specs u i ds a d r c : TId) (isS : Bool) (nm x y : String) (L : List Item) (off sz : Nat)
    (ex : Bool) (h : Usable s c isS nm x L)
    (h1 : s.nodes t = some (.decl (some specs) (some ds) off)) (h2 : s.nodes specs = some (.chain [u]))
    (h3 : s.nodes u = some (.compound (some i) none sz ex isS)) (h4 : s.nodes i = some (.ident nm)) (h5 : s.nodes ds = some (.chain [a]))
    (h6 : s.nodes a = some (.assign (some d) (some r))) (h7 : s.nodes d = some (.ident x)) (h8 : s.nodes r = some (.ident y))
    (hy : CompVar s y) (hxy : y ≠ x) :
    ∃ s', Conv E (fun R => R.ev (some t)) s (.stop (.die "Not a valid lvalue.") s') := by
  obtain ⟨w, dy, bsy, basey, hy, _⟩ := hy
  obtain ⟨v, bs, s', hc, g, m⟩ := declComp_conv (E := E) h.wf h.laid h7 h.fresh.resolve h.small h.cap
  obtain ⟨_, _, hct, _⟩ := h.laid.tree
  refine ⟨bindSt s' ⟨x, d, some v⟩, tagVar_conv h1 h2 h3 h5 (fun _ _ h => h) (τ := c) ?_ ?_⟩
  · refine Conv.evNode h3 (Conv.fixed fun R => ?_)
    show evalDeclCompound R u (some i) none isS s = _
    simp [evalDeclCompound, idStr, nodeR, node_apply h4, get, h.tag]
  · exact initComp_conv h6 ⟨_, _, _, _, _, hct⟩ hc (fun _ _ hn => g.nodes _ _ hn) h7 h8
      (resolveGlobal_bind (h.fresh.grow g) (g.ctxs_ne h.cap.ctxs)) m.obj (by rw [resolveGlobal_other hxy, g.resolveGlobal]; exact hy)

/-- C120: a function whose first parameter is `struct S x` cannot be called with a structure: once the parameter is declared, it is
assigned to. -/
theorem C120_parameter (E : Env) (s : St) (t specs u i d r c : TId) (isS : Bool) (nm x y : String) (L : List Item) (off sz : Nat)
    (ex : Bool) (ds as : List TId) (h : Usable s c isS nm x L)
    (h1 : s.nodes t = some (.decl (some specs) (some d) off)) (h2 : s.nodes specs = some (.chain [u]))
    (h3 : s.nodes u = some (.compound (some i) none sz ex isS)) (h4 : s.nodes i = some (.ident nm))
    (h7 : s.nodes d = some (.ident x)) (h8 : s.nodes r = some (.ident y)) (hy : CompVar s y) :
    ∃ s', Conv E (fun R => bindParams R (t :: ds) (r :: as)) s (.stop (.die "Not a valid lvalue.") s') := by
  obtain ⟨w, dy, bsy, basey, hy, hw⟩ := hy
  obtain ⟨v, bs, s', hc, g, m⟩ := useTag_conv (E := E) h.wf h1 h2 h3 h4 h.tag h.laid h7 h.fresh.resolve h.small h.cap
  have hr := resolveGlobal_bind (d := d) (t := v) (h.fresh.grow g) (g.ctxs_ne h.cap.ctxs)
  have e := addNode_ext (s := bindSt s' ⟨x, d, some v⟩) (g.wf h.wf) (.assign (some d) (some w))
  refine ⟨addNode (bindSt s' ⟨x, d, some v⟩) (.assign (some d) (some w)), ?_⟩
  unfold bindParams
  refine Conv.bind (ident_conv h8 hy) (Conv.bind hc (Conv.bind_const (mk_apply _ _) (Conv.bind_stop ?_)))
  exact assignComp_conv (addNode_self _ _) (e.nodes _ _ (g.nodes _ _ h7)) hr (e.nodes _ _ m.obj)
    (Conv.evNode (e.nodes _ _ (g.nodes _ _ hw)) (Conv.const rfl))

/-! ## Examples -/

/-- `struct S { char a; } x, y;`, `x = y;`, `struct S z = x;` -/
def nodes120 : List Node :=
  [.ident "S", .kw .char, .chain [1], .ident "a", .chain [3], .decl (some 2) (some 4) 0, .chain [5],
   .compound (some 0) (some 6) 0 false true, .chain [7], .ident "x", .ident "y", .chain [9, 10], .decl (some 8) (some 11) 0,
   .assign (some 9) (some 10), .ident "z", .assign (some 14) (some 9)]

def st120 : St := evTo 40 12 (stOf nodes120 [] [])

def ref120 (i : TId) (s : St) : TId := match s.nodes i with | some (.ident x) => (resolveGlobal x .normal s).getD 0 | _ => 0
def mems120 (v : TId) (s : St) : List Binding := match s.nodes v with | some (.lcomp _ bs _) => bs | _ => []
def base120 (v : TId) (s : St) : Nat := match s.nodes v with | some (.lcomp _ _ b) => b | _ => 0

theorem st120_reach : Reach E0 (stOf nodes120 [] []) st120 := Reach.computed .start 40 12 (by decide +kernel)

theorem st120_Inv : Inv st120 :=
  ((evTo_conv 40 12 (stOf nodes120 [] []) _ (by decide +kernel) rfl).evol (stOf_Inv _ _ _)).inv

theorem ev120 (i : TId) (hi : i = 9 ∨ i = 10) : Conv E0 (fun R => R.ev (some i)) st120 (.ok (some (ref120 i st120)) st120) := by
  rcases hi with rfl | rfl
  · refine Conv.evNode (nd := .ident "x") (by decide +kernel) (Conv.fixed fun R => ?_)
    show evalIdentifier 9 st120 = _
    have h : resolveGlobal "x" .normal st120 = some (ref120 9 st120) := by decide +kernel
    have h9 : st120.nodes 9 = some (.ident "x") := by decide +kernel
    simp [evalIdentifier, resolveIdG, idStr, nodeR, node_apply h9, get, h]
  · refine Conv.evNode (nd := .ident "y") (by decide +kernel) (Conv.fixed fun R => ?_)
    show evalIdentifier 10 st120 = _
    have h : resolveGlobal "y" .normal st120 = some (ref120 10 st120) := by decide +kernel
    have h9 : st120.nodes 10 = some (.ident "y") := by decide +kernel
    simp [evalIdentifier, resolveIdG, idStr, nodeR, node_apply h9, get, h]

theorem st120_x : st120.nodes (ref120 9 st120) = some (.lcomp (some 7) (mems120 (ref120 9 st120) st120) (base120 (ref120 9 st120) st120)) := by
  decide +kernel

theorem st120_y : st120.nodes (ref120 10 st120) = some (.lcomp (some 7) (mems120 (ref120 10 st120) st120) (base120 (ref120 10 st120) st120)) := by
  decide +kernel

/-- C120 in full is false: `struct S { char a; } x, y;`, then `x = y;` ends with "Not a valid lvalue.". -/
theorem C120_refuted : ¬ C120_statement := by
  intro h
  obtain ⟨r, s', hc, _⟩ := h E0 nodes120 st120 st120 st120 13 (ref120 9 st120) (ref120 10 st120) 7 (some 9) (some 10) _ _ _ _ 1
    (by decide +kernel) st120_reach (by decide +kernel) (ev120 9 (.inl rfl)) (ev120 10 (.inr rfl)) st120_x st120_y
    (.comp (id := some 0) (ds := match st120.nodes 7 with | some (.compound _ c _ _ _) => c | _ => none) (b := true) st120_y (by decide +kernel))
  exact absurd (hc.unique (C120_never E0 st120 st120 st120 13 _ (some 9) (some 10) _ _ _ _ st120_Inv (by decide +kernel)
    (ev120 9 (.inl rfl)) (ev120 10 (.inr rfl)) st120_x)) (by simp)

example := C120_never E0 st120 st120 st120 13 _ (some 9) (some 10) _ _ _ _ st120_Inv (by decide +kernel)
    (ev120 9 (.inl rfl)) (ev120 10 (.inr rfl)) st120_x

/-- `struct S { char a; int b; } s;` laid out, with `s.a = 1`, `s.b = 7`; then `struct S z = s;` and `struct S z` as a parameter -/
def nodes120b : List Node :=
  [.kw .char, .chain [0], .ident "a", .decl (some 1) (some 2) 0,
   .kw .int, .chain [4], .ident "b", .decl (some 5) (some 6) 4, .chain [3, 7], .compound none (some 8) 8 true true,
   .ctype .char none, .lv (some 10) 4096 false 0, .ctype .int none, .lv (some 12) 4100 false 0,
   .lcomp (some 9) [⟨"a", 2, some 11⟩, ⟨"b", 6, some 13⟩] 4096,
   .ident "s", .ident "S", .compound (some 16) none 0 false true, .chain [17], .ident "z", .assign (some 19) (some 15), .chain [20],
   .decl (some 18) (some 21) 0, .decl (some 18) (some 19) 0]

def st120b : St :=
  { stOf nodes120b [] [1, 0, 0, 0, 7, 0, 0, 0] with ctxs := [{ ctx1 [⟨"s", 15, some 14⟩] with structs := [⟨"S", 0, some 9⟩] }] }

theorem st120b_WF : WF st120b := stOf_WF nodes120b [] [1, 0, 0, 0, 7, 0, 0, 0]

theorem st120b_usable : Usable st120b 9 true "S" "z" items116 where
  wf := st120b_WF
  tag := by decide +kernel
  laid :=
    { tree := ⟨none, 8, by decide +kernel, by decide +kernel⟩
      items := by
        intro i hi
        simp only [items116, List.mem_cons, List.not_mem_nil, or_false] at hi
        rcases hi with rfl | rfl
        · exact .inl ⟨⟨[0], [.char], rfl, .cons rfl .nil, by decide, by decide⟩, .ident rfl⟩
        · exact .inl ⟨⟨[4], [.int], rfl, .cons rfl .nil, by decide, by decide⟩, .ident rfl⟩
      offs := .cons rfl (.cons rfl .nil) }
  fresh := by
    intro c cs hc b hb
    simp only [st120b, List.cons.injEq] at hc
    obtain ⟨rfl, _⟩ := hc
    simp [ctx1] at hb
    subst hb; decide
  small := by decide +kernel
  cap := ⟨by decide +kernel, by simp [st120b], memOf_livelt _⟩

theorem st120b_s : CompVar st120b "s" := ⟨14, some 9, _, 4096, by decide +kernel, rfl⟩

example := C120_initialised E0 st120b 22 18 17 16 21 20 19 15 9 true "S" "z" "s" items116 0 0 false st120b_usable
  rfl rfl rfl rfl rfl rfl rfl rfl st120b_s (by decide)

example := C120_parameter E0 st120b 23 18 17 16 19 15 9 true "S" "z" "s" items116 0 0 false [] [] st120b_usable
  rfl rfl rfl rfl rfl rfl st120b_s

end Bic
