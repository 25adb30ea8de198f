import Verif.Props.Forward
/-!
# C119: a structure type is defined once
-/

namespace Bic
open Spec

/-- this scope has a complete structure or union `nm`, the type `f`, and `t` does not mean this very definition -/
structure Defined (s : St) (t f : TId) (isS : Bool) (nm : String) : Prop where
  tag : resolveCurrent nm (compNS isS) s = some f
  complete : ∃ id ch sz, s.nodes f = some (.compound id (some ch) sz true isS)
  other : ∀ specs off c, s.nodes t = some (.decl (some specs) none off) → s.nodes specs = some (.chain [c]) → c ≠ f

/-- C119 in full: wherever a program gets, the definition of a structure or union whose name this scope has defined already
is rejected. -/
def C119_statement : Prop :=
  ∀ (E : Env) (l : List Node) (s s' : St) (t f : TId) (isS : Bool) (nm : String) (L : List Item) (r : Ref),
    (∀ n ∈ l, Parsed n) → Reach E (stOf l [] []) s → Defined s t f isS nm → TagDef s t isS nm L →
    ¬ Conv E (fun R => R.ev (some t)) s (.ok r s')

/-- C119: what happens instead: the second definition replaces the first, for everything that has been declared with it.  The type
has the new members; a variable of this type keeps its place and its members, but is now
taken to be as large as the new type; the trees of everything else stay. -/
theorem C119_replaces (E : Env) (s : St) (t f : TId) (isS : Bool) (nm : String) (L : List Item) (w : WF s)
    (h : Defined s t f isS nm) (ht : TagDef s t isS nm L) (hcap : Cap s ((L.map fun i => mcost i.m).sum)) :
    ∃ L' s', Conv E (fun R => R.ev (some t)) s (.ok none s') ∧ L'.map Item.m = L.map Item.m ∧ L'.map Item.x = L.map Item.x ∧
      Laid s' f L' isS ∧ (∀ v bs base, s.nodes v = some (.lcomp (some f) bs base) →
        s'.nodes v = some (.lcomp (some f) bs base) ∧ Occupies s' v base (Laid.bytes L isS)) ∧
      ∀ y n, y ≠ f → s.nodes y = some n → s'.nodes y = some n := by
  obtain ⟨id, ch, sz, hc⟩ := h.complete
  obtain ⟨s', h1, h2, h3, h4, h5⟩ := completeTag_conv (E := E) w ht h.tag (.inr ⟨⟨_, _, _, _, _, hc⟩, h.other⟩) hcap
  have nc : ∀ y n, y ≠ f → s.nodes y = some n → s'.nodes y = some n := fun y n hy hn => h4.nodes _ _ (by simpa using hy) hn
  refine ⟨_, s', h1, withDecls_m _ _, withDecls_x _ _, h2, ?_, nc⟩
  intro v bs base hv
  have hv' := nc v _ (by rintro rfl; rw [hc] at hv; cases hv) hv
  obtain ⟨id', ch', h6, _⟩ := h2.tree
  refine ⟨hv', ?_⟩
  have := Occupies.comp hv' h6
  rw [withDecls_m] at this
  exact this

/-- C119: so no definition of a name that this scope has defined is rejected for that. -/
theorem C119_never (E : Env) (s : St) (t f : TId) (isS : Bool) (nm : String) (L : List Item) (w : WF s)
    (h : Defined s t f isS nm) (ht : TagDef s t isS nm L) (hcap : Cap s ((L.map fun i => mcost i.m).sum)) :
    ∃ s', Conv E (fun R => R.ev (some t)) s (.ok none s') := by
  obtain ⟨_, s', h1, _⟩ := C119_replaces E s t f isS nm L w h ht hcap
  exact ⟨s', h1⟩

/-- C119, the part that holds: a definition in a scope that has not declared the name makes a type of its own; a type of the same name of an
outer scope, and all other trees that existed, stay as they are, and the name stands for the new type. -/
theorem C119_inner_partial (E : Env) (s : St) (t c specs ch0 i : TId) (isS : Bool) (nm : String) (L : List Item) (ts : List TId)
    (off sz : Nat) (w : WF s)
    (h1 : s.nodes t = some (.decl (some specs) none off)) (h2 : s.nodes specs = some (.chain [c]))
    (h3 : s.nodes c = some (.compound (some i) (some ch0) sz false isS)) (h4 : s.nodes i = some (.ident nm))
    (h5 : s.nodes ch0 = some (.chain ts)) (h6 : Decls s.nodes ts L) (hm : ∀ j ∈ L, j.Ok s.nodes ∨ j.Link s.nodes isS nm)
    (hx : FreshTag s isS nm) (hcap : Cap s ((L.map fun i => mcost i.m).sum)) :
    ∃ L' s', Conv E (fun R => R.ev (some t)) s (.ok none s') ∧ L'.map Item.m = L.map Item.m ∧ L'.map Item.x = L.map Item.x ∧
      Laid s' c L' isS ∧ resolveGlobal nm (compNS isS) s' = some c ∧
      ∀ y n, y ≠ c → s.nodes y = some n → s'.nodes y = some n := by
  have hres := tagSt_resolve (i := i) (c := c) hx hcap.ctxs
  have hfine : ∀ j ∈ L, j.Fine (tagSt s isS ⟨nm, i, some c⟩) := by
    intro j hj
    rcases hm j hj with hm | hm
    · exact .inl hm
    · exact .inr ⟨c, isS, nm, hm, hres⟩
  obtain ⟨s', hc, hl, hr, hg, _⟩ := defTag_conv (E := E) w h1 h2 h3 h4 h5 h6 hfine hx hcap
  exact ⟨_, s', hc, withDecls_m _ _, withDecls_x _ _, hl, hr, fun y n hy hn => hg.nodes _ _ (by simpa using hy) hn⟩

/-! ## Examples -/

/-- `struct S { char a; } x;` and `struct S { long a, b; };` -/
def nodes119 : List Node :=
  [.ident "S", .kw .char, .chain [1], .ident "a", .chain [3], .decl (some 2) (some 4) 0, .chain [5],
   .compound (some 0) (some 6) 0 false true, .chain [7], .ident "x", .chain [9], .decl (some 8) (some 10) 0,
   .kw .long, .chain [12], .ident "b", .chain [3, 14], .decl (some 13) (some 15) 0, .chain [16],
   .compound (some 0) (some 17) 0 false true, .chain [18], .decl (some 19) none 0]

def st119 : St := evTo 40 11 (stOf nodes119 [] [])

def items119 : List Item := [⟨0, 13, 3, .long, "a", .val .long⟩, ⟨0, 13, 14, .long, "b", .val .long⟩]

theorem st119_def : TagDef st119 20 true "S" items119 where
  trees := ⟨19, 18, 17, 0, [16], 0, 0, by decide +kernel, by decide +kernel, by decide +kernel, by decide +kernel, by decide +kernel,
      @Decls.cons _ 16 13 15 0 [3, 14] [] items119 [] (by decide +kernel) (by decide +kernel) rfl
        (by
          intro i hi
          simp only [items119, List.mem_cons, List.not_mem_nil, or_false] at hi
          rcases hi with rfl | rfl
          · exact ⟨rfl, .ident "a", by decide +kernel, by simp⟩
          · exact ⟨rfl, .ident "b", by decide +kernel, by simp⟩) .nil⟩
  fine := by
    intro i hi
    have ht : TypeSpecs st119.nodes 13 .long :=
      ⟨[12], [.long], by decide +kernel, .cons (by decide +kernel) .nil, by decide, by decide⟩
    simp only [items119, List.mem_cons, List.not_mem_nil, or_false] at hi
    rcases hi with rfl | rfl
    · exact .inl ⟨ht, .ident (by decide +kernel)⟩
    · exact .inl ⟨ht, .ident (by decide +kernel)⟩

theorem st119_defined : Defined st119 20 7 true "S" where
  tag := by decide +kernel
  complete := ⟨some 0, match st119.nodes 7 with | some (.compound _ (some c) _ _ _) => c | _ => 0, 1, by decide +kernel⟩
  other := by
    intro specs off c h1 h2
    have h3 : st119.nodes 20 = some (.decl (some 19) none 0) := by decide +kernel
    rw [h3] at h1; cases h1
    have h4 : st119.nodes 19 = some (.chain [18]) := by decide +kernel
    rw [h4] at h2; cases h2
    decide

/-- C119 in full is false: `struct S { char a; } x;`, then `struct S { long a, b; };` is accepted, and `x`, for which one byte was
allocated, is taken to be 16 bytes large. -/
theorem C119_refuted : ¬ C119_statement := by
  intro h
  exact h E0 nodes119 st119 (evTo 40 20 st119) 20 7 true "S" items119 none (by decide +kernel)
    (Reach.computed .start 40 11 (by decide +kernel)) st119_defined st119_def
    (evTo_conv _ _ _ _ (by decide +kernel) (by decide +kernel))

/-- the same with the first type laid out by hand and a variable of it -/
def nodes119b : List Node :=
  nodes119.set 7 (.compound (some 0) (some 6) 1 true true) ++
    [.decl (some 2) (some 3) 0, .ctype .char none, .lv (some 22) 4096 false 0, .lcomp (some 7) [⟨"a", 3, some 23⟩] 4096]

def st119b : St :=
  { stOf nodes119b [] [65] with ctxs := [{ ctx1 [⟨"x", 9, some 24⟩] with structs := [⟨"S", 0, some 7⟩] }] }

theorem st119b_WF : WF st119b := stOf_WF nodes119b [] [65]

theorem st119b_def : TagDef st119b 20 true "S" items119 where
  trees := ⟨19, 18, 17, 0, [16], 0, 0, rfl, rfl, rfl, rfl, rfl,
      @Decls.cons _ 16 13 15 0 [3, 14] [] items119 [] rfl rfl rfl
        (by
          intro i hi
          simp only [items119, List.mem_cons, List.not_mem_nil, or_false] at hi
          rcases hi with rfl | rfl
          · exact ⟨rfl, .ident "a", rfl, by simp⟩
          · exact ⟨rfl, .ident "b", rfl, by simp⟩) .nil⟩
  fine := by
    intro i hi
    have ht : TypeSpecs st119b.nodes 13 .long := ⟨[12], [.long], rfl, .cons rfl .nil, by decide, by decide⟩
    simp only [items119, List.mem_cons, List.not_mem_nil, or_false] at hi
    rcases hi with rfl | rfl
    · exact .inl ⟨ht, .ident rfl⟩
    · exact .inl ⟨ht, .ident rfl⟩

theorem st119b_defined : Defined st119b 20 7 true "S" where
  tag := by decide +kernel
  complete := ⟨some 0, 6, 1, rfl⟩
  other := by
    intro specs off c h1 h2
    cases h1
    cases h2
    decide

theorem st119b_cap : Cap st119b ((items119.map fun i => mcost i.m).sum) :=
  ⟨by decide +kernel, by simp [st119b, stOf], memOf_livelt _⟩

example := C119_replaces E0 st119b 20 7 true "S" items119 st119b_WF st119b_defined st119b_def st119b_cap
example := C119_never E0 st119b 20 7 true "S" items119 st119b_WF st119b_defined st119b_def st119b_cap

/-- the second definition in a block -/
def st119c : St := pushSt st119b "Block"

example := C119_inner_partial E0 st119c 20 18 19 17 0 true "S" items119 [16] 0 0 st119b_WF rfl rfl rfl rfl rfl
  (by obtain ⟨_, _, _, _, _, _, _, h1, h2, h3, _, h5, h⟩ := st119b_def.trees
      cases h1; cases h2; cases h3; cases h5; exact h)
  (by
    intro i hi
    have ht : TypeSpecs st119c.nodes 13 .long := ⟨[12], [.long], rfl, .cons rfl .nil, by decide, by decide⟩
    simp only [items119, List.mem_cons, List.not_mem_nil, or_false] at hi
    rcases hi with rfl | rfl
    · exact .inl ⟨ht, .ident rfl⟩
    · exact .inl ⟨ht, .ident rfl⟩)
  (by
    intro c cs hc b hb
    simp only [st119c, pushSt, List.cons.injEq] at hc
    obtain ⟨rfl, _⟩ := hc
    simp [compNS, Ctx.map] at hb)
  ⟨by decide +kernel, by simp [st119c, pushSt], memOf_livelt _⟩

end Bic
