import Verif.Props.Scope
/-!
# C134: variables declared in the head of a `for`
-/

namespace Bic

/-- the names the `i`-th scope from the bottom declares -/
def namesAt (s : St) (i : Nat) : Option (List String) := (fromBottom s.ctxs i).map fun c => c.ids.map Binding.name

/-- C134: a loop `for (T x …; …; …) …` declares nothing in the scopes around it: when it has ended they have the names they had. -/
def C134_statement : Prop :=
  ∀ (E : Env) (s s' : St) (t i : TId) (specs decls cond a b r : Ref) (off : Nat), Inv s → s.nodes t = some (.forS (some i) cond a b) →
    s.nodes i = some (.decl specs decls off) → Conv E (fun R => R.ev (some t)) s (.ok r s') →
    ∀ j < s.ctxs.length, namesAt s' j = namesAt s j

/-- the `i`-th scope from the bottom declares `x` -/
def BoundAt (s : St) (i : Nat) (x : String) : Prop := ∃ c o, fromBottom s.ctxs i = some c ∧ findId x c.ids = some o

theorem BoundAt.evol {E : Env} {ok : Bool} {s s' : St} {i : Nat} {x : String} (h : BoundAt s i x) (e : Evol E ok s s') : BoundAt s' i x := by
  obtain ⟨c, o, hc, hx⟩ := h
  obtain ⟨top, rest, e, hr, _⟩ := e.ctxs
  obtain ⟨c', hc', he⟩ := hr.reverse_get hc
  have hlt : i < rest.reverse.length := by
    rw [List.getElem?_eq_some_iff] at hc'; exact hc'.1
  obtain ⟨add, ha, _⟩ := he.ids
  refine ⟨c', o, ?_, by rw [ha]; exact findId_append add hx⟩
  unfold fromBottom
  rw [e, List.reverse_append, List.getElem?_append_left hlt]
  exact hc'

theorem findId_name {x : String} {l : List Binding} {o : TId} (h : findId x l = some o) : x ∈ l.map Binding.name := by
  induction l with
  | nil => cases h
  | cons b l ih =>
    simp only [List.map_cons, List.mem_cons]
    unfold findId at h
    split at h
    · rename_i hb
      exact .inl hb.symm
    · exact .inr (ih h)

theorem findId_last {l : List Binding} {x : String} {d t : TId} (h : ∀ b ∈ l, b.name ≠ x) : findId x (l ++ [⟨x, d, some t⟩]) = some t := by
  induction l with
  | nil => simp [findId]
  | cons b l ih =>
    simp only [List.cons_append, findId]
    rw [if_neg (h b (by simp))]
    exact ih fun b hb => h b (by simp [hb])

theorem findId_absent' {l : List Binding} {x : String} (h : ∀ b ∈ l, b.name ≠ x) : findId x l = none := by
  induction l with
  | nil => rfl
  | cons b l ih =>
    simp only [findId]
    rw [if_neg (h b (by simp))]
    exact ih fun b hb => h b (by simp [hb])

theorem BoundAt.names {s : St} {i : Nat} {x : String} (h : BoundAt s i x) : ∃ l, namesAt s i = some l ∧ x ∈ l := by
  obtain ⟨c, o, hc, hx⟩ := h
  exact ⟨_, by unfold namesAt; rw [hc]; rfl, findId_name hx⟩

theorem boundAt_top {s : St} {c : Ctx} {cs : List Ctx} {x : String} {o : TId} (hc : s.ctxs = c :: cs) (hx : findId x c.ids = some o) :
    BoundAt s (s.ctxs.length - 1) x := by
  refine ⟨c, o, ?_, hx⟩
  unfold fromBottom
  rw [hc]
  simp

/-- the current scope does not declare `x` -/
def NewHere (s : St) (x : String) : Prop := ∃ c cs, s.ctxs = c :: cs ∧ ∀ b ∈ c.ids, b.name ≠ x

theorem ident_binds {E : Env} {m : Nat} {s s' : St} {d τ : TId} {x : String} {k : CT} {e r : Ref} (w : WF s) (hd : s.nodes d = some (.ident x))
    (hτ : s.nodes τ = some (.ctype k e)) (hroom : Room s 1) (hx : NewHere s x) (h : (run E m).handleDecl (some d) (some τ) s = .ok r s') :
    BoundAt s' (s.ctxs.length - 1) x := by
  obtain ⟨c, cs, hc, hf⟩ := hx
  have hC : Conv E (fun R => R.handleDecl (some d) (some τ)) s (.ok r s') := Conv.of_run (mono_handleDecl _ _) h nofun
  have hr : resolveCurrent x .normal s = none := by
    unfold resolveCurrent
    rw [hc]
    exact findId_absent' hf
  have h2 := hC.unique (handleDecl_ident_conv (E := E) w hd hτ hroom hr)
  injection h2 with _ h2
  have hc0 : ∃ c' : Ctx, s'.ctxs = c' :: cs ∧ c'.ids = c.ids ++ [⟨x, d, some s.next⟩] := by
    rw [h2]
    simp only [declSt, newVar, hc, bindCur, bump]
    exact ⟨_, rfl, rfl⟩
  obtain ⟨c', hc0, hc1⟩ := hc0
  have hl : s'.ctxs.length - 1 = s.ctxs.length - 1 := by rw [hc0, hc]; simp
  rw [← hl]
  exact boundAt_top hc0 (by rw [hc1]; exact findId_last hf)

theorem declarator_binds {E : Env} {m : Nat} {s s' : St} {d τ : TId} {x : String} {k : CT} {e r : Ref} (hi : Inv s) (hd : DeclaresVar s.nodes x d)
    (hτ : s.nodes τ = some (.ctype k e)) (hroom : Room s 1) (hx : NewHere s x) (h : (run E m).handleDecl (some d) (some τ) s = .ok r s') :
    BoundAt s' (s.ctxs.length - 1) x := by
  cases hd with
  | plain hd => exact ident_binds hi.wf hd hτ hroom hx h
  | @init l rr h1 hl =>
    cases m with
    | zero => cases h
    | succ m =>
      let G : Ref → M Ref := fun l' => do
        match ← node d with
        | .assign _ r' => setNode d (.assign l' r')
        | _ => setNode d (.assign l' rr)
        let _ ← (run E m).ev (some d)
        pure l'
      have hG : ∀ l' s2, HasKey s2 d .assign → Inv s2 → EvolOut E s2 (G l' s2) := by
        intro l' s2 hk2 hi2
        refine EvolOut.bind (Pres.node _ _ hi2) fun n2 s3 hn2 _ => ?_
        obtain ⟨rfl, hn2⟩ := node_ok hn2
        split
        all_goals
          refine EvolOut.bind (hk2.setNode rfl hi2) fun _ s4 _ e4 => ?_
          exact (Pres.bind ((run_pres E m).ev _) fun _ => Pres.pure _) _ e4.inv
      have key : (do let l' ← (run E m).handleDecl (some l) (some τ); G l' : M Ref) s = .ok r s' := by
        have h' : handleDeclStep (run E m) (some d) (some τ) s = .ok r s' := h
        rw [← h']
        cases m with
        | zero => rfl
        | succ m =>
          have hp : (run E (m + 1)).resolvePtr (some d) (some τ) s = .ok (some d, some τ) s := by
            show resolvePtrStep (run E m) (some d) (some τ) s = _
            simp [resolvePtrStep, peek_apply h1]
          unfold handleDeclStep
          simp only [bind_apply, hp, node_apply hτ, handleDeclSwitch, nodeR, node_apply h1]
          rfl
      rw [bind_apply] at key
      cases h3 : (run E m).handleDecl (some l) (some τ) s with
      | fuel => rw [h3] at key; cases key
      | stop w s2 => rw [h3] at key; cases key
      | ok l' s2 =>
        have hb := ident_binds hi.wf hl hτ hroom hx h3
        have e2 : EvolOut E s _ := (run_pres E m).handleDecl (some l) (some τ) s hi
        rw [h3] at e2 key
        have hk : HasKey s d .assign := ⟨_, h1, rfl⟩
        have e3 := hG l' s2 (hk.evol e2) e2.inv
        have key : G l' s2 = .ok r s' := key
        rw [key] at e3
        exact hb.evol e3

/-- every declaration `T x, …;` or `T x = e, …;` that ends has declared `x` -/
theorem decl_binds {E : Env} {m : Nat} {s s' : St} {t specs decls d : TId} {rest : List TId} {off : Nat} {x : String} {k : CT} {r : Ref} (hi : Inv s)
    (hroom : Room s 1) (ht : s.nodes t = some (.decl (some specs) (some decls) off)) (hs : TypeSpecs s.nodes specs k)
    (hd : s.nodes decls = some (.chain (d :: rest))) (hdx : DeclaresVar s.nodes x d) (hx : NewHere s x)
    (h : (run E m).ev (some t) s = .ok r s') : BoundAt s' (s.ctxs.length - 1) x := by
  cases m with
  | zero => cases h
  | succ m =>
    have x1 := addNode_ext hi.wf (.ctype k none)
    have key : (do let r ← (run E m).handleDecl (some d) (some s.next)
                   forEachLast (fun t => (run E m).handleDecl (some t) (some s.next)) r rest : M Ref) (addNode s (.ctype k none)) = .ok r s' := by
      rw [← h]
      obtain ⟨l, ks, h1, h2, h3, h4⟩ := id hs
      have hk : ∀ kw ∈ [Kw.typedef, .extern, .static],
          chainHasKw kw l (addNode s (.ctype k none)) = .ok false (addNode s (.ctype k none)) := by
        intro kw hkw
        refine chainHasKw_apply (h2.mono x1.nodes) kw fun hm => ?_
        have := h3 kw hm
        simp only [List.mem_cons, List.not_mem_nil, or_false] at hkw
        rcases hkw with rfl | rfl | rfl <;> cases this
      have e1 : (run E (m + 1)).ev (some t) s = evalDecl E (run E m) t (some specs) (some decls) s := by
        show evStep E (run E m) (some t) s = _
        simp only [evStep, bind_apply, node_apply ht]
        rfl
      rw [e1]
      simp [evalDecl, resolveSpecs_apply hs, peek_apply (addNode_self s _), chainElems_apply (x1.nodes _ _ h1), hk, eachDecl,
        peek_apply (x1.nodes _ _ hd), forEachLast]
    have e0 : Evol E true s (addNode s (.ctype k none)) := Evol.addNode hi (by simp)
    have hl : (addNode s (.ctype k none)).ctxs = s.ctxs := x1.ctxs
    rw [bind_apply] at key
    cases h3 : (run E m).handleDecl (some d) (some s.next) (addNode s (.ctype k none)) with
    | fuel => rw [h3] at key; cases key
    | stop w s2 => rw [h3] at key; cases key
    | ok r2 s2 =>
      have hdx' : DeclaresVar (addNode s (.ctype k none)).nodes x d := by
        cases hdx with
        | plain h => exact .plain (x1.nodes _ _ h)
        | init h hl => exact .init (x1.nodes _ _ h) (x1.nodes _ _ hl)
      have hx' : NewHere (addNode s (.ctype k none)) x := by
        unfold NewHere
        rw [hl]
        exact hx
      have hb := declarator_binds e0.inv hdx' (addNode_self s _) (hroom.ext x1) hx' h3
      rw [hl] at hb
      have e2 : EvolOut E _ _ := (run_pres E m).handleDecl (some d) (some s.next) _ e0.inv
      rw [h3] at e2 key
      have e3 := pres_forEachLast (fun t => (run_pres E m).handleDecl (some t) (some s.next)) r2 rest s2 e2.inv
      have key : forEachLast (fun t => (run E m).handleDecl (some t) (some s.next)) r2 rest s2 = .ok r s' := key
      rw [key] at e3
      exact hb.evol e3

/-- `t` is a loop `for (T x, …; …; …) …` or `for (T x = e, …; …; …) …` with a type `T` given by keywords -/
inductive ForDecl (nd : TId → Option Node) (x : String) (t : TId) : Prop
  | mk {i specs decls d : TId} {rest : List TId} {off : Nat} {k : CT} {c a b : Ref} : nd t = some (.forS (some i) c a b) →
      nd i = some (.decl (some specs) (some decls) off) → TypeSpecs nd specs k → nd decls = some (.chain (d :: rest)) → DeclaresVar nd x d →
      ForDecl nd x t

theorem forDecl_bound (E : Env) (s s' : St) (t : TId) (x : String) (r : Ref) (hi : Inv s) (hroom : Room s 1) (ht : ForDecl s.nodes x t)
    (hx : NewHere s x) (h : Conv E (fun R => R.ev (some t)) s (.ok r s')) : BoundAt s' (s.ctxs.length - 1) x := by
  obtain ⟨ht, hdcl, hs, hd, hdx⟩ := ht
  rename_i i specs decls d rest off k c a b
  obtain ⟨n, h⟩ := h
  have h : (run E (n + 1)).ev (some t) s = .ok r s' := h (n + 1) (by omega)
  have e1 : (run E (n + 1)).ev (some t) s = (do let _ ← (run E n).ev (some i); (run E n).loopFor c a b : M Ref) s := by
    show evStep E (run E n) (some t) s = _
    simp only [evStep, bind_apply, node_apply ht]
    rfl
  rw [e1, bind_apply] at h
  cases h3 : (run E n).ev (some i) s with
  | fuel => rw [h3] at h; cases h
  | stop w s2 => rw [h3] at h; cases h
  | ok r2 s2 =>
    have hb := decl_binds hi hroom hdcl hs hd hdx hx h3
    have e2 : EvolOut E _ _ := (run_pres E n).ev (some i) s hi
    rw [h3] at e2 h
    have e3 := (run_pres E n).loopFor c a b s2 e2.inv
    have h : (run E n).loopFor c a b s2 = .ok r s' := h
    rw [h] at e3
    exact hb.evol e3

/-- C134, what happens: every such loop that ends leaves `x` declared in the scope the loop stands in, whatever its parts are. -/
theorem C134_leaks (E : Env) (s s' : St) (t : TId) (x : String) (r : Ref) (hi : Inv s) (hroom : Room s 1) (ht : ForDecl s.nodes x t)
    (hx : NewHere s x) (h : Conv E (fun R => R.ev (some t)) s (.ok r s')) :
    (∃ l, namesAt s (s.ctxs.length - 1) = some l ∧ x ∉ l) ∧ ∃ l, namesAt s' (s.ctxs.length - 1) = some l ∧ x ∈ l := by
  constructor
  · obtain ⟨c, cs, hc, hf⟩ := hx
    refine ⟨c.ids.map Binding.name, ?_, ?_⟩
    · unfold namesAt fromBottom
      rw [hc]
      simp
    · intro hm
      obtain ⟨b, hb, hbx⟩ := List.mem_map.mp hm
      exact hf b hb hbx
  · exact (forDecl_bound E s s' t x r hi hroom ht hx h).names

/-- C134, the part that holds: the scopes around the one the loop stands in have the names they had, and that one keeps its names. Missing is
that it gets no new ones. -/
theorem C134_partial (E : Env) (s s' : St) (t : TId) (r : Ref) (hi : Inv s) (h : Conv E (fun R => R.ev (some t)) s (.ok r s')) :
    (∀ j, j + 1 < s.ctxs.length → namesAt s' j = namesAt s j) ∧
    ∀ j l, namesAt s j = some l → ∃ add, namesAt s' j = some (l ++ add) := by
  have e := h.evol hi
  constructor
  · intro j hj
    cases hc : s.ctxs.reverse[j]? with
    | none => rw [List.getElem?_eq_none_iff] at hc; simp at hc; omega
    | some c =>
      obtain ⟨c', hc', h1, _⟩ := e.outer j c hj hc
      unfold namesAt fromBottom
      rw [hc, hc']
      simp [h1]
  · intro j l hl
    unfold namesAt at hl
    cases hc : fromBottom s.ctxs j with
    | none => rw [hc] at hl; cases hl
    | some c =>
      rw [hc] at hl
      obtain ⟨top, rest, e1, hr, _⟩ := e.ctxs
      obtain ⟨c', hc', he⟩ := hr.reverse_get hc
      have hlt : j < rest.reverse.length := by
        rw [List.getElem?_eq_some_iff] at hc'; exact hc'.1
      obtain ⟨add, ha, _⟩ := he.ids
      refine ⟨add.map Binding.name, ?_⟩
      unfold namesAt fromBottom
      rw [e1, List.reverse_append, List.getElem?_append_left hlt, hc']
      have : c.ids.map Binding.name = l := by simpa using hl
      simp [ha, this]

/-- C134, the loop where the scope it stands in already declares `x`: it is given up with an error, where C makes a new `x`. -/
theorem C134_shadow (E : Env) (s : St) (t o : TId) (x : String) (c : Ctx) (cs : List Ctx) (w : WF s) (hroom : Room s 1) (ht : ForDecl s.nodes x t)
    (hc : s.ctxs = c :: cs) (hx : findId x c.ids = some o) :
    ∃ s', Conv E (fun R => R.ev (some t)) s (.stop (.die "Attempted to map already existing identifier") s') := by
  obtain ⟨ht, hdcl, hs, hd, hdx⟩ := ht
  rename_i i specs decls d rest off k cond a b
  obtain ⟨s', h⟩ := C23_redeclare E s i specs decls d rest off x o k c cs w hroom hdcl hs hd hdx hc hx
  refine ⟨s', Conv.evNode ht ?_⟩
  exact Conv.bind_stop (g := fun R _ => R.loopFor cond a b) h

/-- C134, two loops with the same variable one after the other: where the first has ended the second is given up with an error. -/
theorem C134_twice (E : Env) (s s' : St) (t u : TId) (x : String) (r : Ref) (hi : Inv s) (hb : NoBrk s) (hroom : Room s 1) (hroom' : Room s' 1)
    (ht : ForDecl s.nodes x t) (hu : ForDecl s'.nodes x u) (hx : NewHere s x) (h : Conv E (fun R => R.ev (some t)) s (.ok r s')) :
    ∃ s2, Conv E (fun R => R.ev (some u)) s' (.stop (.die "Attempted to map already existing identifier") s2) := by
  obtain ⟨c, o, hc, ho⟩ := forDecl_bound E s s' t x r hi hroom ht hx h
  have hl : s'.ctxs.length = s.ctxs.length := by
    simpa using congrArg List.length (C24_restored_partial E (some t) r s s' hi hb h)
  cases hs : s'.ctxs with
  | nil => exact absurd hs hroom'.ctxs
  | cons c' cs =>
    have : c' = c := by
      unfold fromBottom at hc
      rw [← hl, hs] at hc
      simpa using hc
    subst this
    exact C134_shadow E s' u o x c' cs (h.evol hi).inv.wf hroom' hu hs ho

/-- `for (int x = 0; 0; x) x;` twice -/
def stForDecl : St :=
  stOf [.ident "x", .kw .int, .chain [1], .integer 0, .assign (some 0) (some 3), .chain [4], .decl (some 2) (some 5) 0,
        .forS (some 6) (some 3) (some 0) (some 0), .ident "x", .kw .int, .chain [9], .integer 0, .assign (some 8) (some 11), .chain [12],
        .decl (some 10) (some 13) 0, .forS (some 14) (some 11) (some 8) (some 8)] [] []

theorem stForDecl_ends : ∃ r, Conv E0 (fun R => R.ev (some 7)) stForDecl (.ok r (outSt stForDecl ((run E0 30).ev (some 7) stForDecl))) :=
  ⟨_, Conv.computed 30 (by decide +kernel)⟩

/-- C134 is false: after `for (int x = 0; 0; x) x;` the scope the loop stands in declares `x`. -/
theorem C134_refuted : ¬ C134_statement := by
  intro h
  obtain ⟨r, hr⟩ := stForDecl_ends
  have := h E0 stForDecl _ 7 6 _ _ _ _ _ _ _ (stOf_Inv _ _ _) rfl rfl hr 0 (by decide)
  exact absurd this (by decide +kernel)

/-- the second of the two loops is given up -/
example : ∃ s2, Conv E0 (fun R => R.ev (some 15)) (outSt stForDecl ((run E0 30).ev (some 7) stForDecl))
    (.stop (.die "Attempted to map already existing identifier") s2) := by
  obtain ⟨r, hr⟩ := stForDecl_ends
  have hE : SaneEnv E0 := fun _ _ _ => ⟨fun _ h => h, Nat.le_refl _, id⟩
  refine C134_twice E0 stForDecl _ 7 15 "x" r (stOf_Inv _ _ _) ?_ ⟨by decide +kernel, by simp [stForDecl, stOf], memOf_livelt _⟩
    ⟨by decide +kernel, by decide +kernel, ((hr.evol (stOf_Inv _ _ _)).mem hE).2.2 (memOf_livelt _)⟩
    (.mk (k := .int) rfl rfl ⟨[1], [.int], rfl, .cons rfl .nil, by decide, by decide⟩ rfl (.init (l := 0) rfl rfl))
    (.mk (k := .int) (i := 14) (specs := 10) (decls := 13) (d := 12) (rest := []) (off := 0) (c := some 11) (a := some 8) (b := some 8)
      (by decide +kernel) (by decide +kernel) ⟨[9], [.int], by decide +kernel, .cons (by decide +kernel) .nil, by decide, by decide⟩
      (by decide +kernel) (.init (l := 8) (r := some 11) (by decide +kernel) (by decide +kernel)))
    ⟨_, [], rfl, by decide⟩ hr
  exact ⟨fun t ht => by
      have : t < 16 := (stOf_WF _ _ _).lt ht
      have : ∀ t < 16, stForDecl.nodes t ≠ some .brk := by decide
      exact absurd ht (this t (by assumption)),
    fun c hc => by obtain rfl : c = ctx1 _ := by simpa [stForDecl, stOf] using hc
                   rfl⟩

end Bic
