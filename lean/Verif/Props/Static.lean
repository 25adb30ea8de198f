import Verif.Proofs.Static
import Verif.Props.Control
/-!
# C35: `static` variables
-/

namespace Bic
open Spec

/-- what may happen to a program between two executions of a declaration: any
statements are evaluated, they end normally or not (`return`), scopes are entered and
left (in any way that leaves a well-formed stack of scopes) -/
inductive Later (E : Env) (s0 : St) : St → Prop
  | start : Later E s0 s0
  | eval {s s' : St} {t r : Ref} : Later E s0 s → Conv E (fun R => R.ev t) s (.ok r s') → Later E s0 s'
  | stop {s s' : St} {t : Ref} {w : Stop} : Later E s0 s → Conv E (fun R => R.ev t) s (.stop w s') → Later E s0 s'
  | scopes {s : St} (cs : List Ctx) (k : Nat) : Later E s0 s → Inv { s with ctxs := cs, nextUid := k } →
      Later E s0 { s with ctxs := cs, nextUid := k }

/-- what all later states have in common with a state -/
structure Lasts (E : Env) (s s' : St) : Prop where
  inv : Inv s'
  nodes : ∀ t n, s.nodes t = some n → ∃ n', s'.nodes t = some n' ∧ NodeEvol n n'
  statics : ∀ t ms, s.nodes t = some (.staticCtx ms) → s'.nodes t = some (.staticCtx ms)
  live : SaneEnv E → ∀ a, s.mem.live a = true → s'.mem.live a = true

theorem Lasts.evol {E : Env} {s s' s'' : St} {ok : Bool} (h : Lasts E s s') (e : Evol E ok s' s'') : Lasts E s s'' where
  inv := e.inv
  nodes t n hn := by
    obtain ⟨n1, h1, e1⟩ := h.nodes t n hn
    obtain ⟨n2, h2, e2⟩ := e.nodes t n1 h1
    exact ⟨n2, h2, e1.trans e2⟩
  statics t ms ht := e.statics t ms id (h.statics t ms ht)
  live hE a ha := (e.mem hE).1 a (h.live hE a ha)

theorem Later.lasts {E : Env} {s0 s : St} (h : Later E s0 s) (hi : Inv s0) : Lasts E s0 s := by
  induction h with
  | start => exact ⟨hi, fun _ n hn => ⟨n, hn, .refl n⟩, fun _ _ h => h, fun _ _ h => h⟩
  | eval _ hc ih => exact ih.evol (Conv.evol hc ih.inv)
  | stop _ hc ih => exact ih.evol (Conv.evolStop (fun _ hR => hR.ev _) hc ih.inv)
  | scopes cs k _ hi ih => exact ⟨hi, ih.nodes, ih.statics, ih.live⟩

/-- the object a name declared in the innermost scope denotes -/
def objectHere (s : St) (x : String) : Ref := findId x (localIds s)

/-- **C35.** A declaration with `static`, whose type is given by keywords, a `typedef`
name or `struct S`, and which defines no function.  Let its first execution end
normally.  After any further history, in a scope that does not declare these names
yet, executing it again (for the second or any later time) ends normally and does
nothing but declare the names again for the same objects: memory, tree objects and the
outside world are left alone, so the variables are not initialised again and have
the values they had.  The objects are still the same and their memory still belongs
to them. -/
theorem C35_static_partial {E : Env} {s s1 s2 : St} {t specs ds : TId} {l : List TId} {off : Nat} {r : Ref} (hs : Sane s)
    (hv : ∀ b ∈ localIds s, b.val ≠ none)
    (ht : s.nodes t = some (.decl (some specs) (some ds) off)) (hsp : s.nodes specs = some (.chain l))
    (hl : ∀ k ∈ l, ∃ m, s.nodes k = some m ∧ PlainSpec m) (hst : ∃ k ∈ l, s.nodes k = some (.kw .static))
    (hd : ∃ m, s.nodes ds = some m) (hf : NoFnDef s.nodes ds)
    (h1 : Evl E s (some t) r s1) (hlen : s1.ctxs.length = s.ctxs.length)
    (hla : Later E s1 s2) (hne : s2.ctxs ≠ [])
    (hfr : ∀ x, DeclaredHere s1 x → ¬ DeclaredHere s x → ¬ DeclaredHere s2 x) :
    ∃ q s3, Evl E s2 (some t) q s3 ∧ s3.mem = s2.mem ∧ s3.nodes = s2.nodes ∧ s3.events = s2.events ∧
      (∀ x, DeclaredHere s1 x → ¬ DeclaredHere s x → DeclaredHere s3 x ∧ objectHere s3 x = objectHere s1 x) ∧
      (∀ o ty a arr z, s1.nodes o = some (.lv ty a arr z) → s3.nodes o = some (.lv ty a arr z)) ∧
      (SaneEnv E → ∀ a, s1.mem.live a = true → s3.mem.live a = true) := by
  have i1 := (Conv.evol h1 hs.inv).inv
  obtain ⟨ms, s4, q4, hn4, i4, hids4, hq4⟩ : ∃ ms s4 q, s4.nodes t = some (.staticCtx ms) ∧ Inv s4 ∧
      s4.ctxs.map (·.ids) = s.ctxs.map (·.ids) ∧ evalStaticCtx none ms s4 = .ok q s1 := by
    obtain ⟨N, hN⟩ := h1
    have h := hN (N + 1) (Nat.le_succ _)
    have h : evStep E (run E N) (some t) s = .ok r s1 := h
    simp only [evStep, bind_apply, node_apply ht, evalNode] at h
    obtain ⟨ty, s', hsame, h⟩ := evalDecl_static_ok hs.inv hsp hl hst h
    obtain ⟨m, hm⟩ := hd
    obtain ⟨ms, s4, q, a1, a2, a3, a4⟩ := handleStaticDecl_ok hsame.inv (by
        intro es he e hee
        rw [hsame.nodes _ _ hm] at he
        cases he
        obtain ⟨n, hn, hp⟩ := hf es hm e hee
        exact ⟨n, hsame.nodes _ _ hn, hp⟩) ⟨m, hsame.nodes _ _ hm⟩ ⟨_, hsame.nodes _ _ ht, rfl⟩
      (hlen.trans hsame.len.symm) h
    exact ⟨ms, s4, q, a1, a2, a3.trans hsame.ids, a4⟩
  cases hc : s.ctxs with
  | nil => exact absurd hc hs.ne
  | cons c cs =>
  cases hc4 : s4.ctxs with
  | nil => rw [hc4, hc] at hids4; cases hids4
  | cons c4 cs4 =>
  rw [hc4, hc] at hids4
  simp only [List.map_cons, List.cons.injEq] at hids4
  have hv' : ∀ b ∈ c.ids, b.val ≠ none := by simpa [localIds, hc] using hv
  obtain ⟨bs', n1, n2, n3, n4⟩ := evalStaticCtx_ok (ids0 := c.ids) (pre := []) hv' hq4 hc4 (by simpa using hids4.1)
  subst n2
  have hl1 : localIds { s4 with ctxs := { c4 with ids := c4.ids ++ bs' } :: cs4 } = c.ids ++ bs' := by
    simp [localIds, hids4.1]
  have hl0 : localIds s = c.ids := by simp [localIds, hc]
  have la := hla.lasts i1
  -- the names are those of the list
  have names : ∀ x, (DeclaredHere { s4 with ctxs := { c4 with ids := c4.ids ++ bs' } :: cs4 } x ∧ ¬ DeclaredHere s x) ↔
      ∃ b ∈ bs', b.name = x := by
    intro x
    unfold DeclaredHere
    rw [hl1, hl0]
    constructor
    · rintro ⟨⟨b, hb, hx⟩, hno⟩
      rcases List.mem_append.mp hb with hb | hb
      · exact absurd ⟨b, hb, hx⟩ hno
      · exact ⟨b, hb, hx⟩
    · rintro ⟨b, hb, hx⟩
      exact ⟨⟨b, List.mem_append_right _ hb, hx⟩, by rw [← hx]; exact n4 b hb⟩
  have hn2 := la.statics t ms hn4
  have hN2 : Named s2.nodes ms bs' := n1.mono fun t x hx => by
    obtain ⟨n', hn', he⟩ := la.nodes t _ hx
    rcases he with rfl | ⟨_, h2⟩
    · exact hn'
    · exact absurd rfl h2
  cases hc2 : s2.ctxs with
  | nil => exact absurd hc2 hne
  | cons c2 cs2 =>
  have hl2 : localIds s2 = c2.ids := by simp [localIds, hc2]
  have hfr2 : ∀ b ∈ bs', ¬ ∃ d ∈ c2.ids, d.name = b.name := by
    intro b hb
    obtain ⟨g1, g2⟩ := (names b.name).mpr ⟨b, hb, rfl⟩
    have := hfr b.name g1 g2
    unfold DeclaredHere at this
    rwa [hl2] at this
  obtain ⟨q, hq⟩ := evalStaticCtx_apply (acc := none) (ids0 := c2.ids) (pre := []) hN2 rfl hc2 (by simp) n3 hfr2
  refine ⟨q, _, Conv.evNode hn2 (Conv.fixed fun R => hq), rfl, rfl, rfl, ?_, ?_, ?_⟩
  · intro x hx hno
    obtain ⟨b, hb, rfl⟩ := (names x).mp ⟨hx, hno⟩
    refine ⟨⟨b, by simp [localIds, hb], rfl⟩, ?_⟩
    unfold objectHere
    rw [hl1, findId_undeclared (n4 b hb)]
    show findId b.name (c2.ids ++ bs') = _
    rw [findId_undeclared (hfr2 b hb)]
  · intro o ty a arr z ho
    obtain ⟨n', hn', he⟩ := la.nodes o _ ho
    rcases he with rfl | ⟨_, h2⟩
    · exact hn'
    · exact absurd rfl h2
  · exact la.live

/-- `static int x = 5;` and `x = 7` -/
def stStatic : St :=
  stOf [.kw .static, .kw .int, .chain [0, 1], .ident "x", .integer 5, .assign (some 3) (some 4), .chain [5],
    .decl (some 2) (some 6) 0, .integer 7, .assign (some 3) (some 8)] [] []

/-- executed in a function, … -/
def stStatic1 : St := evTo 20 7 stStatic
/-- … `x = 7` executed, … -/
def stStatic2 : St := evTo 20 9 stStatic1
/-- … the function left and called again -/
def stStatic3 : St := { stStatic2 with ctxs := [ctx1 []], nextUid := 2 }

theorem stStatic_first : Evl E0 stStatic (some 7) (some 3) stStatic1 := evTo_conv 20 7 stStatic _ (by decide +kernel) (by decide +kernel)
theorem stStatic_second : Evl E0 stStatic1 (some 9) (some 8) stStatic2 := evTo_conv 20 9 stStatic1 _ (by decide +kernel) (by decide +kernel)

theorem Inv.fresh {s : St} (h : Inv s) (ids : List Binding) : Inv { s with ctxs := [ctx1 ids], nextUid := 2 } := by
  refine ⟨h.wf, ⟨Nat.lt_succ_self 1, trivial⟩, fun c hc => ?_⟩
  obtain rfl : c = ctx1 ids := List.mem_singleton.mp hc
  exact ⟨fun b hb => (List.not_mem_nil hb).elim, fun b hb => (List.not_mem_nil hb).elim⟩

theorem stStatic_later : Later E0 stStatic1 stStatic3 :=
  .scopes _ _ (.eval .start stStatic_second)
    ((Conv.evol stStatic_second (Conv.evol stStatic_first (stOf_Inv _ _ _)).inv).inv.fresh [])

/-- the variable still is 7 -/
example : ∃ q s3, Evl E0 stStatic3 (some 7) q s3 ∧ objectHere s3 "x" = some 11 ∧ objectHere stStatic1 "x" = some 11 ∧
    s3.nodes 11 = some (.lv (some 10) 4128 false 0) ∧ stStatic1.mem.load 4 4128 = 5 ∧ s3.mem.load 4 4128 = 7 := by
  obtain ⟨q, s3, g1, g2, -, -, g5, g6, -⟩ := C35_static_partial (specs := 2) (ds := 6) (off := 0) (l := [0, 1]) (stOf_Sane _ _ _)
    (by intro b hb; exact (List.not_mem_nil hb).elim) (show stStatic.nodes 7 = _ from rfl) rfl
    (by
      intro k hk
      simp only [List.mem_cons, List.not_mem_nil, or_false] at hk
      rcases hk with rfl | rfl
      · exact ⟨.kw .static, rfl, by simp [PlainSpec]⟩
      · exact ⟨.kw .int, rfl, by simp [PlainSpec]⟩)
    ⟨0, by simp, rfl⟩ ⟨_, rfl⟩
    (by
      intro es he e hee
      cases (show some (Node.chain [5]) = _ from he)
      simp only [List.mem_cons, List.not_mem_nil, or_false] at hee
      subst hee
      exact ⟨.assign (some 3) (some 4), rfl, fun _ _ _ _ h => by cases h⟩)
    stStatic_first (by decide +kernel) stStatic_later (List.cons_ne_nil _ _) (fun x _ _ ⟨b, hb, _⟩ => (List.not_mem_nil hb).elim)
  have hx := g5 "x" ⟨⟨"x", 3, some 11⟩, by decide +kernel, rfl⟩ (by rintro ⟨b, hb, _⟩; exact (List.not_mem_nil hb).elim)
  have ho : objectHere stStatic1 "x" = some 11 := by decide +kernel
  refine ⟨q, s3, g1, hx.2.trans ho, ho, g6 11 (some 10) 4128 false 0 (by decide +kernel), ?_, ?_⟩
  · decide +kernel
  · rw [g2]; decide +kernel

end Bic
