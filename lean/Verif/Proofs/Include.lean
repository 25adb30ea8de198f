import Verif.Model.Include
import Verif.Proofs.Headers
import Verif.Proofs.Library
/-!
# Evaluating the declarations of headers
-/

namespace Bic
open Spec

/-! ### The scopes -/

theorem VarAt.same {s s' : St} {t c v a} (hn : s'.nodes = s.nodes) (hm : s'.mem = s.mem) (h : VarAt s t c v a) : VarAt s' t c v a := by
  obtain ⟨τ, ⟨⟨x, y, a1⟩, ⟨z, a2⟩, a3, a4⟩⟩ := h.at_
  exact ⟨⟨τ, ⟨⟨x, y, by rw [hn]; exact a1⟩, ⟨z, by rw [hn]; exact a2⟩, a3, by rw [hm]; exact a4⟩⟩, h.int, by rw [hm]; exact h.wide, by rw [hm]; exact h.val⟩

theorem StoreRel.same {s s' : St} {σ cs as} (hn : s'.nodes = s.nodes) (hm : s'.mem = s.mem) (h : StoreRel s σ cs as) : StoreRel s' σ cs as :=
  h.map rfl fun _ _ _ _ _ => .same hn hm

theorem StoreRel.split {s : St} : ∀ {σ1 σ2 : Store} {c1 c2 : List Ctx} {as}, StoreRel s (σ1 ++ σ2) (c1 ++ c2) as → σ1.length = c1.length →
    ∃ as1 as2, as = as1 ++ as2 ∧ StoreRel s σ1 c1 as1 ∧ StoreRel s σ2 c2 as2
  | [], _, [], _, as, h, _ => ⟨[], as, rfl, .nil, h⟩
  | [], _, _ :: _, _, _, _, hl => by simp at hl
  | _ :: _, _, [], _, _, _, hl => by simp at hl
  | fr :: σ1, σ2, c :: c1, c2, _, h, hl => by
    cases h with
    | @cons _ _ _ _ as bs h1 h2 =>
      obtain ⟨a1, a2, rfl, h3, h4⟩ := StoreRel.split (σ1 := σ1) (c1 := c1) h2 (by simpa using hl)
      exact ⟨as ++ a1, a2, by simp, .cons h1 h3, h4⟩

theorem StoreRel.append {s : St} {σ1 σ2 : Store} {c1 c2 : List Ctx} {as1 as2} (h1 : StoreRel s σ1 c1 as1) (hl : σ1.length = c1.length)
    (h2 : StoreRel s σ2 c2 as2) : StoreRel s (σ1 ++ σ2) (c1 ++ c2) (as1 ++ as2) := by
  induction h1 with
  | @nil cs =>
    cases cs with
    | nil => exact h2
    | cons => simp at hl
  | cons h3 _ ih =>
    rw [List.append_assoc]
    exact .cons h3 (ih (by simpa using hl))

theorem StoreRel.absent {s : St} {x : String} {σ : Store} {cs : List Ctx} {as} (h : StoreRel s σ cs as) (hl : σ.length = cs.length)
    (hx : ∀ fr ∈ σ, Frame.find x fr = none) : findInChain x .normal cs = none := by
  induction h with
  | @nil cs =>
    cases cs with
    | nil => rfl
    | cons => simp at hl
  | cons h1 _ ih =>
    have := findId_absent (h1.fresh (hx _ List.mem_cons_self))
    simp only [findInChain, Ctx.map, this]
    exact ih (by simpa using hl) fun fr hf => hx fr (List.mem_cons_of_mem _ hf)

theorem Apart.swap {as bs : List Nat} (h : Apart (as ++ bs)) : Apart (bs ++ as) := by
  unfold Apart at h ⊢
  rw [List.pairwise_append] at h ⊢
  exact ⟨h.2.1, h.1, fun a ha b hb => (h.2.2 b hb a ha).symm⟩

/-- the state in which the declarations are evaluated -/
def headerSt (s : St) : St := { enter s "Include file declarations" with includeCtx := none }

/-- the state after that -/
def includedSt (s : St) (c : Ctx) (cs : List Ctx) : St := { s with includeCtx := some c, ctxs := cs }

theorem Good.header {s : St} {fr : Frame} {B H : Store} {n : Nat} (g : Good s (fr :: (B ++ H)) n) (hl : s.ctxs.length = 1 + B.length) :
    Good (headerSt s) ([] :: fr :: B) n where
  wf := g.wf
  flags c hc := by
    rcases List.mem_cons.mp hc with rfl | hc
    · rfl
    · exact g.flags c hc
  room := ⟨g.room.brk, List.cons_ne_nil _ _, g.room.livelt⟩
  rel := by
    obtain ⟨as, h1, h2⟩ := g.rel
    obtain ⟨a1, a2, rfl, h3, -⟩ := StoreRel.split (σ1 := fr :: B) (σ2 := H) (c1 := s.ctxs) h1 (by simp [hl]; omega)
    refine ⟨[] ++ a1, ?_, ?_⟩
    · have : lookups (headerSt s) = (headerSt s).ctxs := by simp [lookups, headerSt]
      rw [this]
      exact .cons (c := { uid := s.nextUid, name := "Include file declarations", ids := [], structs := [], unions := [], allocs := [], retval := none, shouldBreak := false, isFn := false }) .nil (StoreRel.same (s := s) rfl rfl h3)
    · exact (List.pairwise_append.mp h2).1

theorem Sane.header {s : St} (h : Sane s) : Sane (headerSt s) :=
  have h' := h.enter "Include file declarations"
  ⟨⟨h'.inv.wf, h'.inv.uids, h'.inv.tags⟩, h'.flags, h'.ne⟩

theorem Good.included {s : St} {fr hf : Frame} {B : Store} {n : Nat} {c : Ctx} {cs : List Ctx} (g : Good s (hf :: fr :: B) n)
    (hc : s.ctxs = c :: cs) (hl : cs.length = 1 + B.length) : Good (includedSt s c cs) (fr :: (B ++ [hf])) n where
  wf := g.wf
  flags d hd := g.flags d (by rw [hc]; exact List.mem_cons_of_mem _ hd)
  room := ⟨g.room.brk, by rintro rfl; simp at hl; omega, g.room.livelt⟩
  rel := by
    obtain ⟨as, h1, h2⟩ := g.rel
    rw [lookups_cons hc] at h1
    cases h1 with
    | @cons _ _ _ _ a1 b1 h3 h4 =>
      obtain ⟨a2, a3, e, h5, h6⟩ := StoreRel.split (σ1 := fr :: B) (σ2 := []) (c1 := cs) (by rw [List.append_nil]; exact h4) (by simp [hl]; omega)
      cases h6
      rw [List.append_nil] at e
      subst e
      refine ⟨b1 ++ a1, ?_, h2.swap⟩
      have h7 : StoreRel s [hf] [c] (a1 ++ []) := .cons h3 .nil
      rw [List.append_nil] at h7
      exact StoreRel.same (s := s) (cs := cs ++ [c]) rfl rfl (StoreRel.append h5 (by simp [hl]; omega) h7)

theorem Sane.included {s : St} {c : Ctx} {cs : List Ctx} (h : Sane s) (hc : s.ctxs = c :: cs) (hl : cs ≠ []) : Sane (includedSt s c cs) where
  inv := by
    have h1 := h.inv.uids
    rw [hc] at h1
    exact ⟨h.inv.wf, h1.2.mono (Nat.le_of_lt h1.1), fun d hd => h.inv.tags d (by rw [hc]; exact List.mem_cons_of_mem _ hd)⟩
  flags d hd := h.flags d (by rw [hc]; exact List.mem_cons_of_mem _ hd)
  ne := hl

/-! ### The declarations -/

/-- how the tree of a declaration looks in the heap -/
inductive ItemRep (nd : TId → Option Node) (u : TId) : HItem → Prop
  | var {c x k specs decls off} : nd u = some (.decl (some specs) (some decls) off) → TypeSpecs nd specs c → DeclsRep nd decls [(x, k.map Expr.lit)] →
      ItemRep nd u (.var c x k)
  | proto {f c cs} : ProtoRep nd u f c → ItemRep nd u (.proto f c cs)

theorem DeclsRep.mono {nd nd' : TId → Option Node} (h : ∀ t n, nd t = some n → nd' t = some n) {t ds} (r : DeclsRep nd t ds) : DeclsRep nd' t ds := by
  rcases r with ⟨l, h1, h2⟩ | h2
  · exact .inl ⟨l, h _ _ h1, h2.mono h⟩
  · exact .inr (h2.mono h)

theorem ProtoRep.mono {nd nd' : TId → Option Node} (h : ∀ t n, nd t = some n → nd' t = some n) {u f c} (r : ProtoRep nd u f c) : ProtoRep nd' u f c := by
  obtain ⟨specs, l, ks, off, ch, t, fd, args, ds, g1, g2, g3, g4, g5, g6, g7, g8, g9, g10⟩ := r
  exact ⟨specs, l, ks, off, ch, t, fd, args, ds, h _ _ g1, h _ _ g2, g3.mono h, g4, g5, h _ _ g6, h _ _ g7, h _ _ g8, g9.mono h, g10.mono h⟩

theorem ItemRep.mono {nd nd' : TId → Option Node} (h : ∀ t n, nd t = some n → nd' t = some n) {u i} (r : ItemRep nd u i) : ItemRep nd' u i := by
  cases r with
  | var h1 h2 h3 => exact .var (h _ _ h1) (h2.mono h) (h3.mono h)
  | proto h1 => exact .proto (h1.mono h)

theorem find_last {fr : Frame} {x : String} {v : Option Var} (h : Frame.find x fr = none) : Frame.find x (fr ++ [(x, v)]) = some v := by
  induction fr with
  | nil => simp [Frame.find]
  | cons p fr ih =>
    obtain ⟨y, u⟩ := p
    simp only [Frame.find, List.cons_append] at h ⊢
    split at h
    · cases h
    · rename_i hne
      rw [if_neg hne]
      exact ih h

theorem write_last {fr : Frame} {x : String} {c : CT} {w : Int} {v : Option Int} (h : Frame.find x fr = none) :
    Frame.write x w (fr ++ [(x, some ⟨c, v⟩)]) = fr ++ [(x, some ⟨c, some w⟩)] := by
  induction fr with
  | nil => simp [Frame.write]
  | cons p fr ih =>
    obtain ⟨y, u⟩ := p
    simp only [Frame.find] at h
    split at h
    · cases h
    · rename_i hne
      simp only [Frame.write, List.cons_append, if_neg hne, ih h]

/-- a declaration with a number as initialiser -/
theorem declares_lit {L : Rules} {c : CT} {fr : Frame} {σ : Store} {x : String} {k w : Int} (hf : Frame.find x fr = none)
    (ha : L.asg ((fr ++ [(x, some ⟨c, none⟩)]) :: σ) c (.lit k) k) (hw : Converts c k w) :
    Declares L c (fr :: σ) [(x, some (.lit k))] ((fr ++ [(x, some ⟨c, some w⟩)]) :: σ) := by
  refine .init hf ?_ .nil
  have h1 : Store.Has ((fr ++ [(x, some ⟨c, none⟩)]) :: σ) x c none := by simp [Store.Has, Store.find, find_last hf]
  have h2 : Store.write x w ((fr ++ [(x, some ⟨c, none⟩)]) :: σ) = (fr ++ [(x, some ⟨c, some w⟩)]) :: σ := by
    simp [Store.write, find_last hf, write_last hf]
  rw [← h2]
  exact .set h1 (.lit k) ha hw

theorem items_conv {E : Env} {Λ : String → Option LibFn} {fr fr' : Frame} {Δ Δ' : List String} {is : List HItem} (h : HDecl okRules Λ fr Δ is fr' Δ') :
    ∀ {s : St} {ls : List TId} {σ : Store} {m : Nat}, Good s (fr :: σ) (objects is + m) → LibAt Λ Δ s → List.Forall₂ (ItemRep s.nodes) ls is →
    ∃ s', Conv E (fun R => evalElems R ls) s (.ok () s') ∧ Good s' (fr' :: σ) m ∧ LibAt Λ Δ' s' ∧ cfg s' = cfg s ∧ Kept s s' ∧
      s'.ctxs.length = s.ctxs.length := by
  induction h with
  | nil =>
    intro s ls σ m g f r
    cases r
    simp only [objects, Nat.zero_add] at g
    exact ⟨s, by unfold evalElems; exact .pure _, g, f, rfl, .refl s, rfl⟩
  | plain hc hf _ ih =>
    intro s ls σ m g f r
    cases r with
    | cons r1 r2 =>
      cases r1 with
      | var h1 h2 h3 =>
        rw [objects, Nat.add_assoc] at g
        obtain ⟨r, s1, k1, k2, k3, k4, k5, k6, -⟩ := decl_conv (E := E) hc h1 h2 h3 (.plain hf .nil) g
        simp only [cfg, Prod.mk.injEq] at k6
        obtain ⟨s2, l1, l2, l3, l4, l5, l6⟩ := ih k2 (f.step k1.keep k3 k6.2.1) (r2.imp fun _ _ r => r.mono k3)
        exact ⟨s2, evalElems_cons k1.1 k5 l1, l2, l3, by rw [l4]; simp [cfg, k6], k3.trans l5, l6.trans k1.2.1⟩
  | @init fr Δ c x k w is fr' Δ' hc hf ha hw _ ih =>
    intro s ls σ m g f r
    cases r with
    | cons r1 r2 =>
      cases r1 with
      | var h1 h2 h3 =>
        rw [objects, Nat.add_assoc] at g
        have ha' : okRules.asg ((fr ++ [(x, some ⟨c, none⟩)]) :: σ) c (.lit k) k := by
          rcases ha with ha | ⟨y, d, ha, _⟩
          · exact .inl ha
          · cases ha
        obtain ⟨r, s1, k1, k2, k3, k4, k5, k6, -⟩ := decl_conv (E := E) hc h1 h2 h3 (declares_lit hf ha' hw) g
        simp only [cfg, Prod.mk.injEq] at k6
        obtain ⟨s2, l1, l2, l3, l4, l5, l6⟩ := ih k2 (f.step k1.keep k3 k6.2.1) (r2.imp fun _ _ r => r.mono k3)
        exact ⟨s2, evalElems_cons k1.1 k5 l1, l2, l3, by rw [l4]; simp [cfg, k6], k3.trans l5, l6.trans k1.2.1⟩
  | proto hq hf _ ih =>
    intro s ls σ m g f r
    cases r with
    | cons r1 r2 =>
      cases r1 with
      | proto h1 =>
        obtain ⟨r, s1, k, k1, k2, k3, k4, k5, k6, k7, k8⟩ := proto_conv (E := E) g h1 hf hq f
        obtain ⟨s2, l1, l2, l3, l4, l5, l6⟩ := ih k4 k5 (r2.imp fun _ _ r => r.mono k7)
        refine ⟨s2, evalElems_cons k1 ?_ l1, l2, l3, l4.trans k6, k7.trans l5, l6.trans k8⟩
        rintro t ⟨⟩
        obtain ⟨_, _, _, _, rfl⟩ := k3
        exact ⟨_, k2, rfl⟩
  | again hq hf _ ih =>
    intro s ls σ m g f r
    cases r with
    | cons r1 r2 =>
      cases r1 with
      | proto h1 =>
        obtain ⟨r, s1, k, k1, k2, k3, k4, k5, k6, k7, k8⟩ := again_conv (E := E) g h1 hf f
        obtain ⟨s2, l1, l2, l3, l4, l5, l6⟩ := ih k4 k5 (r2.imp fun _ _ r => r.mono k7)
        refine ⟨s2, evalElems_cons k1 ?_ l1, l2, l3, l4.trans k6, k7.trans l5, l6.trans k8⟩
        rintro t ⟨⟩
        obtain ⟨_, _, _, _, rfl⟩ := k3
        exact ⟨_, k2, rfl⟩

/-- the functions `Δ` have been declared in headers; `H` says whether there are any -/
structure HdrAt (Λ : String → Option LibFn) (Δ : List String) (B H : Store) (s : St) : Prop where
  sane : Sane s
  closures : s.closures = []
  depth : s.ctxs.length = 1 + B.length
  hdr : s.includeCtx.toList.length = H.length
  protos : ∀ f ∈ Δ, ∃ c q t, s.includeCtx = some c ∧ Λ f = some q ∧ findId f c.ids = some t ∧ ProtoAt s.nodes t f q.ret

theorem HdrAt.step {Λ : String → Option LibFn} {Δ : List String} {B H H' : Store} {s s' : St} (h : HdrAt Λ Δ B H s) (hs : Sane s') (hk : Kept s s')
    (hc : s'.closures = s.closures) (hl : s'.ctxs.length = s.ctxs.length) (hi : s'.includeCtx = s.includeCtx) (hh : H'.length = H.length) :
    HdrAt Λ Δ B H' s' where
  sane := hs
  closures := hc.trans h.closures
  depth := hl.trans h.depth
  hdr := by rw [hi, h.hdr, hh]
  protos f hf := by
    obtain ⟨c, q, t, h1, h2, h3, h4⟩ := h.protos f hf
    exact ⟨c, q, t, hi.trans h1, h2, h3, h4.mono hk⟩

open Repl (evalHeaders) in
/-- the declarations of all headers are evaluated, in a scope of their own -/
theorem headers_conv {E : Env} {Λ : String → Option LibFn} {fr hf : Frame} {B H : Store} {Δ Δ' : List String} {is : List HItem} {s : St} {x : TId}
    {ls : List TId} {m : Nat} (h : HDecl okRules Λ [] [] is hf Δ') (g : Good s (fr :: (B ++ H)) (objects is + m)) (f : HdrAt Λ Δ B H s)
    (hx : s.nodes x = some (.chain ls)) (hr : List.Forall₂ (ItemRep s.nodes) ls is) :
    ∃ s', Conv E (fun R => evalHeaders R x) s (.ok () s') ∧ Good s' (fr :: (B ++ [hf])) m ∧ HdrAt Λ Δ' B [hf] s' ∧ cfg s' = cfg s := by
  have sa := f.sane.header
  have f0 : LibAt Λ [] (headerSt s) := ⟨sa, f.closures, _, rfl, nofun⟩
  obtain ⟨s1, k1, k2, k3, k4, k5, k6⟩ := items_conv (E := E) h (g.header f.depth) f0 hr
  obtain ⟨c, cs, hc⟩ := List.exists_cons_of_ne_nil k2.room.ctxs
  have hl : cs.length = s.ctxs.length := by
    have : (headerSt s).ctxs.length = s.ctxs.length + 1 := rfl
    rw [hc, this] at k6
    simpa using k6
  have hne : cs ≠ [] := by
    rintro rfl
    have := f.depth
    simp only [List.length_nil] at hl
    omega
  have hdep : cs.length = 1 + B.length := hl.trans f.depth
  refine ⟨includedSt s1 c cs, ?_, k2.included hc hdep, ⟨k3.sane.included hc hne, k3.closures, hdep, rfl, ?_⟩, k4⟩
  · have h1 : Conv E (fun R => evaluate R (some x)) (headerSt s) (.ok () s1) := by
      have hx' : (headerSt s).nodes x = some (.chain ls) := hx
      refine k1.congr fun R => ?_
      simp only [evaluate, bind_apply, node_apply hx']
    unfold evalHeaders
    refine Conv.bind (f := fun _ => pushCtx _) (Conv.const rfl) (Conv.bind (f := fun _ => modify _) (Conv.const rfl) (Conv.bind h1
      (Conv.bind (f := fun _ => modify _) (Conv.const rfl) (Conv.fixed fun R => ?_))))
    obtain ⟨d, ds, rfl⟩ := List.exists_cons_of_ne_nil hne
    simp only [popCtx, hc, includedSt, List.head?_cons]
  · obtain ⟨c', h1, h2⟩ := k3.protos
    rw [hc] at h1
    cases h1
    intro f' hf'
    obtain ⟨q, t, t1, t2, t3⟩ := h2 f' hf'
    exact ⟨c, q, t, rfl, t1, t2, t3⟩

/-! ### The lines -/

/-- `f(e, …);` for a function that a header has declared -/
theorem hdrCall_conv {E : Env} {Λ : String → Option LibFn} {fr : Frame} {B H : Store} {Δ : List String} {s : St} {f es t} {q : LibFn} {fa : Nat}
    {ws : List Int} {v : Int} {n : Nat} (g : Good s (fr :: (B ++ H)) (1 + n)) (F : HdrAt Λ Δ B H s) (hf : f ∈ Δ) (hx : Frame.find f fr = none)
    (hb : ∀ b ∈ B, Frame.find f b = none) (hq : Λ f = some q) (hp : Provided E f q fa) (hn : es.length ≤ 32)
    (ha : Args okRules bicCalling (fr :: (B ++ H)) q.params es ws) (hv : q.val ws = some v) (hr : SRep s.nodes (.stmt t) (.call f es)) :
    ∃ r s' fs, Evl E s (some t) (some r) s' ∧ Holds s' r q.ret v ∧ Good s' (fr :: (B ++ H)) n ∧ HdrAt Λ Δ B H s' ∧ s'.includes = s.includes ∧
      s'.events = s.events ++ [⟨fa, fs, none⟩] ∧ fs.length = q.params.length ∧
      List.Forall₂ (fun (p : CT × FfiArg) w => Reads p.1 p.2 w) (q.params.zip fs) ws := by
  obtain ⟨c, q', t', c1, c2, c3, c4⟩ := F.protos f hf
  rw [hq] at c2
  cases c2
  have hfind : resolveGlobal f .normal s = some t' := by
    obtain ⟨as, h1, -⟩ := g.rel
    have hd := F.depth
    obtain ⟨a1, a2, -, h3, -⟩ := StoreRel.split (σ1 := fr :: B) (σ2 := H) (c1 := s.ctxs) h1 (by simp [hd]; omega)
    have := h3.absent (x := f) (by simp [hd]; omega) (by
      intro k hk
      rcases List.mem_cons.mp hk with rfl | hk
      · exact hx
      · exact hb k hk)
    simp [resolveGlobal, this, c1, Ctx.map, c3]
  obtain ⟨r, s', fs, k1, k2, k3, k4, k5, k6, k7, k8, k9⟩ := libLine_at (E := E) g F.closures hfind c4 hp hn ha hv hr
  have ev := Conv.evol k1 F.sane.inv
  exact ⟨r, s', fs, k1, k2, k3, F.step (Evt.keep ⟨k1, k5, k3.flags⟩ F.sane).1 k4 k6 k5 ev.includeCtx rfl, ev.includes, k7, k8, k9⟩

end Bic

namespace Bic.Repl
open Spec CSyn
open Lexer (Follows)
open _root_.Bic.Parser (PT T K Der Rep nameStr rep_one rep_kws specs_der' specs_kw resolveKws_gives build)
open Printer (Floats)
open CText (Text HText Marker IncLine ascii)

/-! ### Parsing headers -/

theorem noTypedef {ws i j ds} (hs : WSpecs ws i j) : typedefNames (.decl (.chain (ws.map .kw)) (.chain ds)) = [] := by
  have : hasTypedef (.chain (ws.map .kw)) = false := by
    simp only [hasTypedef, List.any_eq_false, List.mem_map]
    rintro _ ⟨w, hw, rfl⟩
    have := specs_kw hs w hw
    cases w <;> first | exact absurd this (by decide) | simp
  simp [typedefNames, this]

theorem item_der {d i r} (h : WItem d i r) :
    ∃ t, Der .declaration i t r ∧ typedefNames t = [] ∧ ∀ {nd : TId → Option Node} {u}, Rep nd (.t t (some u)) → ItemRep nd u d := by
  have many : ∀ {ws c s j cs a}, WSpecs ws i (.ident s :: .p .lparen :: j) → CSpec.Gives ws (.arith c) →
      Der .directDecl (.ident s :: .p .lparen :: j) (.fn (.ident s) a .null) (.p .semi :: r) →
      (∀ {nd : TId → Option Node} {x}, Rep nd (.t a x) → ∃ ds, ListOf nd x ds ∧ Fixed nd ds) →
      ∃ t, Der .declaration i t r ∧ typedefNames t = [] ∧ ∀ {nd : TId → Option Node} {u}, Rep nd (.t t (some u)) → ItemRep nd u (.proto (nameStr s) c cs) := by
    intro ws c s j cs a hs hg hd ha
    obtain ⟨t, h1, h2, -, h4⟩ := protoDecl_der hs hg hd ha
    exact ⟨t, h1, h2, fun hr => .proto (h4 hr)⟩
  cases h with
  | @var ws c s _ _ hs hg =>
    refine ⟨_, .dcDecl (specs_der' hs).1 (.idlOne (.idDecl (.dDirect .ddIdent))), noTypedef hs, ?_⟩
    intro nd u hx
    obtain ⟨g1, g2⟩ := resolveKws_gives (specs_kw hs) hg
    cases hx with
    | decl h5 h6 h7 =>
      cases h6 with
      | chain h8 h9 =>
        cases h7 with
        | chain h10 h11 =>
          obtain ⟨w, rfl, h12⟩ := rep_one h11
          cases h12 with
          | ident h12 => exact .var h5 ⟨_, _, h8, rep_kws h9, g1, g2⟩ (.inl ⟨_, h10, .plain h12 .nil⟩)
  | @init ws c s k _ _ hs hg =>
    refine ⟨_, .dcDecl (specs_der' hs).1 (.idlOne (.idInit (.dDirect .ddIdent) (.inExpr
      (Parser.nt_down (p := 2) (q := 16) (.poPrimary .pInt) (by omega) (by omega))))), noTypedef hs, ?_⟩
    intro nd u hx
    obtain ⟨g1, g2⟩ := resolveKws_gives (specs_kw hs) hg
    cases hx with
    | decl h5 h6 h7 =>
      cases h6 with
      | chain h8 h9 =>
        cases h7 with
        | chain h10 h11 =>
          obtain ⟨w, rfl, h12⟩ := rep_one h11
          cases h12 with
          | assign k1 k2 k3 =>
            cases k2 with
            | ident k2 =>
              cases k3 with
              | integer k3 => exact .var (k := some k) h5 ⟨_, _, h8, rep_kws h9, g1, g2⟩ (.inl ⟨_, h10, .init k1 k2 (.lit k3) .nil⟩)
  | proto hs hg ht =>
    obtain ⟨ts, h1, -, h2⟩ := types_der ht
    refine many hs hg (.ddFn .ddIdent (.ptlList h1)) ?_
    intro nd x hx
    cases hx with
    | chain h3 h4 => exact ⟨_, .inr ⟨_, rfl, h3⟩, decls_fixed h2 h4⟩
  | proto0 hs hg =>
    refine many hs hg (.ddFn0 .ddIdent) ?_
    intro nd x hx
    cases hx
    exact ⟨[], .inl ⟨rfl, rfl⟩, nofun⟩
  | protoVoid hs hg =>
    refine many hs hg (.ddFn .ddIdent (.ptlList (.plOne (.pdNone (.dsOne (.dsType (.typeKw (k := .void) rfl))))))) ?_
    intro nd x hx
    cases hx with
    | chain h3 h4 => exact ⟨_, .inr ⟨_, rfl, h3⟩, decls_fixed (by simp) h4⟩

theorem items_der {ds i} (h : WItems ds i) :
    ∃ ts, (ds ≠ [] → Der .cscriptUnit i (.chain ts) []) ∧
      (∀ {i0 ts0}, Der .cscriptUnit i0 (.chain ts0) i → Der .cscriptUnit i0 (.chain (ts0 ++ ts)) []) ∧
      ∀ {nd : TId → Option Node} {ls}, Rep nd (.l ts ls) → List.Forall₂ (ItemRep nd) ls ds := by
  induction h with
  | nil => exact ⟨[], fun h => absurd rfl h, fun h => by simpa using h, fun h => by cases h; exact .nil⟩
  | cons h _ ih =>
    obtain ⟨t, h1, -, h2⟩ := item_der h
    obtain ⟨ts, -, h4, h5⟩ := ih
    have h1' := Der.cxExt (.xDecl h1)
    refine ⟨t :: ts, fun _ => h4 (.cuOne h1'), fun {i0 ts0} h => ?_, ?_⟩
    · have := h4 (.cuMore h h1')
      rwa [List.append_assoc] at this
    · intro nd ls hr
      cases hr with
      | cons h6 h7 => exact .cons (h2 h6) (h5 h7)

/-! ### Lines -/

/-- how the tree of a line looks in the heap -/
inductive HInputRep (nd : TId → Option Node) (t : TId) : HInput → Prop
  | plain {p} : InputRep nd t p → HInputRep nd t (.plain p)
  | call {f es} : SRep nd (.stmt t) (.call f es) → HInputRep nd t (.call f es)

theorem hinput_der {TN p i} (h : WHInput cTable TN p i) :
    ∃ t, Der .replUnit i (.chain [t]) [] ∧ typedefNames t = [] ∧ (∀ s, t ≠ .cppInclude s) ∧
      ∀ {nd : TId → Option Node} {u}, Rep nd (.t t (some u)) → HInputRep nd u p := by
  have call : ∀ {f es}, WSInput cTable TN (.call f es) i → ∃ t, Der .replUnit i (.chain [t]) [] ∧ typedefNames t = [] ∧ (∀ s, t ≠ .cppInclude s) ∧
      ∀ {nd : TId → Option Node} {u}, Rep nd (.t t (some u)) → HInputRep nd u (.call f es) := by
    intro f es h
    obtain ⟨t, h1, h2, h3, h4⟩ := sinput_der h
    exact ⟨t, h1, h2, h3, fun hr => by cases h4 hr with | call h => exact .call h⟩
  cases h with
  | plain h =>
    obtain ⟨t, h1, h2, h3, h4⟩ := input_der h
    exact ⟨t, h1, h2, h3, fun hr => .plain (h4 hr)⟩
  | call0 => exact call .call0
  | call h => exact call (.call h)

/-- a line without `#include`, as in `line_shows` -/
theorem lineI_shows {E : Env} {fl : Floats} {F : Str → Nat} {cpp : List String → Str → Str} {hdr : List String → Option Str} {r : RSt}
    {line text out : Str} {P : St → Prop}
    {i0 i : List T} {t0 t : PT} (w : WF r.st) (hm : r.lx.mode = .initial) (ht0 : Text (Lexer.Reads r.ty) Follows i0 line)
    (d0 : Der .replUnit i0 (.chain [t0]) []) (n0 : typedefNames t0 = []) (hi0 : ∀ s, t0 ≠ .cppInclude s)
    (hcpp : LastLine (cpp r.st.includes line) text) (ht : Text (Lexer.Reads r.ty) Follows i text) (d : Der .replUnit i (.chain [t]) [])
    (nt : typedefNames t = []) (hi : ∀ s, t ≠ .cppInclude s)
    (h : ∀ s y, Ext r.st s → Rep s.nodes (.t t (some y)) → ∃ s', Shown E fl s y out s' ∧ P s') :
    (∃ r', LineI E fl F cpp hdr r line (.shows out) r') ∧
    ∀ a r', LineI E fl F cpp hdr r line a r' → a = .shows out ∧ r'.lx.mode = .initial ∧ r'.ty = r.ty ∧ P r'.st := by
  have hp := parseLine_of (F := F) (cpp := cpp) (text := text) (i := i) w hm ht0 d0 hi0 hcpp (by rw [addNames_nil n0]; exact ht) d
  obtain ⟨y, s', x, k, -, up⟩ := hp
  obtain ⟨n, hn, hn'⟩ := rep_node k hi
  have hno : ∀ y r1 h, ParseLine F cpp r line (some y) r1 → r1.st.nodes y ≠ some (.cppInclude h) := by
    intro y1 r1 h1 hp he
    obtain ⟨e1, e2, -⟩ := up _ _ hp
    cases e1
    rw [e2, hn] at he
    cases he
    exact hn' _ rfl
  obtain ⟨⟨r', l1⟩, l2⟩ := line_shows (E := E) (fl := fl) (F := F) (cpp := cpp) (out := out) (P := P) w hm ht0 d0 n0 hi0 hcpp ht d nt h
  refine ⟨⟨r', .other hno l1⟩, ?_⟩
  intro a r' hl
  cases hl with
  | header j1 j2 => exact absurd j2 (hno _ _ _ j1)
  | other _ j2 => exact l2 _ _ j2

theorem inc_lex (ty : Str → Bool) {line : Str} (h : IncLine (fun c => Lexer.incByte c = true) line) :
    ∃ toks, toks.map Parser.ofTok = ([.cPreInc line] : List T).map some ∧ ∀ b, Lexer.Lex .repl ty ⟨.initial, b⟩ line toks (some .initial) :=
  ⟨[.cPreInc line], rfl, fun b => .tok (Lexer.next_include ty b h) (.eof rfl)⟩

/-- parsing an `#include` line -/
theorem parse_include {F : Str → Nat} {cpp : List String → Str → Str} {r : RSt} {line : Str} (w : WF r.st) (hm : r.lx.mode = .initial)
    (hi : IncLine (fun c => Lexer.incByte c = true) line) :
    ∃ y s', Ext r.st s' ∧ s'.nodes y = some (.cppInclude (nameStr line)) ∧ (∃ lx', ParseLine F cpp r line (some y) ⟨lx', r.ty, s'⟩) ∧
      ∀ z r', ParseLine F cpp r line z r' → z = some y ∧ r'.st = s' ∧ r'.ty = r.ty ∧ r'.lx.mode = .initial := by
  obtain ⟨lx, ty, st⟩ := r
  obtain ⟨y, s', x, k, f1⟩ := doParse_lex (F := F) w (inc_lex ty hi) (.ruOne .rsInc)
  obtain ⟨⟨lx1, p1⟩, u1⟩ := f1 lx hm
  have e : addNames (.cppInclude line) ty = ty := addNames_nil rfl
  rw [e] at p1 u1
  cases k with
  | cppInclude k =>
    refine ⟨y, s', x, k, ⟨lx1, .header p1 k⟩, ?_⟩
    intro z r' hz
    cases hz with
    | rejected j => exact absurd (u1 _ _ j).1 (by simp)
    | header j1 _ => exact u1 _ _ j1
    | line j1 j2 j3 =>
      obtain ⟨a1, a2, _⟩ := u1 _ _ j1
      cases a1
      rw [a2, k] at j2
      cases j2
      exact absurd rfl (j3 _)

theorem startParses_of {ty : Str → Bool} {text : Str} {i : List T} (ht : HText (Lexer.Reads ty) Follows (Marker fun c => Lexer.markByte c = true) i text) :
    ∀ t, StartParses ty text t ↔ Der .cscriptUnit i t [] := by
  obtain ⟨toks, h1, h2⟩ := Lexer.htext_tokens ty ht
  intro t
  constructor
  · rintro ⟨toks', i', ⟨_, h5⟩, h6, h7⟩
    obtain rfl := (Lexer.Lex.unique (h2 []) h5).1
    obtain rfl := map_some_inj (h1.symm.trans h6)
    exact h7
  · exact fun h => ⟨toks, i, ⟨_, h2 []⟩, h1, h⟩

theorem chained_wf {s : St} (w : WF s) (h : String) : WF (chained s h) := by
  intro t (ht : s.next + 1 ≤ t)
  show (if t = s.next then _ else s.nodes t) = none
  rw [if_neg (fun e => Nat.not_succ_le_self _ (e ▸ ht))]
  exact w t (Nat.le_of_succ_le ht)

theorem chained_kept {s : St} (w : WF s) (h : String) : Bic.Kept s (chained s h) := by
  intro t n hn
  show (if t = s.next then _ else s.nodes t) = some n
  rw [if_neg (fun e => Nat.lt_irrefl _ (e ▸ w.lt hn))]
  exact hn

theorem chained_good {s : St} {σ : Store} {n : Nat} (g : Good s σ n) (h : String) : Good (chained s h) σ n := by
  have g1 := g.ext (addNode_ext g.wf (.cppInclude h))
  obtain ⟨as, h1, h2⟩ := g1.rel
  exact ⟨g1.wf, g1.flags, ⟨g1.room.brk, g1.room.ctxs, g1.room.livelt⟩, as, StoreRel.same (s := addNode s (.cppInclude h)) rfl rfl h1, h2⟩

theorem chained_sane {s : St} (g : Sane s) (h : String) : Sane (chained s h) := by
  have g1 := g.ext (addNode_ext g.inv.wf (.cppInclude h))
  exact ⟨⟨g1.inv.wf, g1.inv.uids, g1.inv.tags⟩, g1.flags, g1.ne⟩

/-- an `#include` line whose headers have declarations -/
theorem include_shows {E : Env} {fl : Floats} {F : Str → Nat} {cpp : List String → Str → Str} {hdr : List String → Option Str} {r : RSt} {line text : Str}
    {Λ : String → Option LibFn} {fr hf : Frame} {B H : Store} {Δ Δ' : List String} {is : List HItem} {i : List T} {m : Nat} (hm : r.lx.mode = .initial)
    (hi : IncLine (fun c => Lexer.incByte c = true) line) (hh : hdr (r.st.includes ++ [nameStr line]) = some text)
    (ht : HText (Lexer.Reads r.ty) Follows (Marker fun c => Lexer.markByte c = true) i text) (hw : WItems is i) (hne : is ≠ [])
    (h : HDecl okRules Λ [] [] is hf Δ') (g : Good r.st (fr :: (B ++ H)) (objects is + m)) (f : HdrAt Λ Δ B H r.st) :
    (∃ r', LineI E fl F cpp hdr r line (.shows []) r') ∧
    ∀ a r', LineI E fl F cpp hdr r line a r' → a = .shows [] ∧ r'.lx.mode = .initial ∧ r'.ty = r.ty ∧ Good r'.st (fr :: (B ++ [hf])) m ∧
      HdrAt Λ Δ' B [hf] r'.st ∧ r'.st.includes = r.st.includes ++ [nameStr line] ∧ r'.st.events = r.st.events := by
  obtain ⟨y, s1, x, k, ⟨lx1, p1⟩, u1⟩ := parse_include (F := F) (cpp := cpp) g.wf hm hi
  have g2 := chained_good (g.ext x) (nameStr line)
  have sa2 := chained_sane (f.sane.ext x) (nameStr line)
  obtain ⟨ts, d, -, b⟩ := items_der hw
  have d := d hne
  have sp := startParses_of ht
  obtain ⟨x0, s2, b1, b2, b3, -⟩ := Parser.build_makes (F := F) _ (Parser.der_full d).2 (chained s1 (nameStr line)) g2.wf
  cases b3 with
  | @chain _ x0 ls c1 c2 =>
    have f2 : HdrAt Λ Δ B H s2 := f.step (sa2.ext b2) (fun t n hn => b2.nodes _ _ (chained_kept (x.wf g.wf) _ _ _ (x.nodes _ _ hn)))
      (by rw [b2.closures]; exact x.closures) (by rw [b2.ctxs]; show s1.ctxs.length = _; rw [x.ctxs]) (by rw [b2.includeCtx]; exact x.includeCtx) rfl
    obtain ⟨s3, e1, e2, e3, e4⟩ := headers_conv (E := E) h (g2.ext b2) f2 c1 (b c2)
    simp only [cfg, Prod.mk.injEq] at e4
    have e5 : s3.includes = r.st.includes ++ [nameStr line] := by
      rw [e4.1, b2.includes]
      show s1.includes ++ _ = _
      rw [x.includes]
    have e6 : s3.events = r.st.events := by
      rw [e4.2.2, b2.events]
      exact x.events
    have hh' : hdr (s1.includes ++ [nameStr line]) = some text := by rw [x.includes]; exact hh
    refine ⟨⟨_, .header p1 k (.done hh' ((sp _).mpr d) b1 e1)⟩, ?_⟩
    intro a r' hl
    cases hl with
    | other hno => exact absurd k (hno _ _ _ p1)
    | @header _ r1 h1 _ _ j1 j2 j3 =>
      obtain ⟨a1, a2, a3, a4⟩ := u1 _ _ j1
      cases a1
      rw [a2, k] at j2
      cases j2
      cases j3 with
      | failed q1 => rw [a2, hh'] at q1; cases q1
      | rejected q1 q2 =>
        rw [a2, hh'] at q1
        cases q1
        rw [a3] at q2
        exact absurd ⟨_, (sp _).mpr d⟩ q2
      | done q1 q2 q3 q4 =>
        rw [a2, hh'] at q1
        cases q1
        rw [a3, sp] at q2
        cases C73_script d q2
        rw [a2, b1] at q3
        cases q3
        cases Conv.unique e1 q4
        exact ⟨rfl, a4, a3, e2, e3, e5, e6⟩
      | ends q1 q2 q3 q4 =>
        rw [a2, hh'] at q1
        cases q1
        rw [a3, sp] at q2
        cases C73_script d q2
        rw [a2, b1] at q3
        cases q3
        cases Conv.unique e1 q4

/-- an `#include` line whose headers have no declarations -/
theorem include_empty {E : Env} {fl : Floats} {F : Str → Nat} {cpp : List String → Str → Str} {hdr : List String → Option Str} {r : RSt} {line text : Str}
    (w : WF r.st) (hm : r.lx.mode = .initial) (hi : IncLine (fun c => Lexer.incByte c = true) line) (hh : hdr (r.st.includes ++ [nameStr line]) = some text)
    (ht : HText (Lexer.Reads r.ty) Follows (Marker fun c => Lexer.markByte c = true) [] text) :
    (∃ r', LineI E fl F cpp hdr r line (.ends (.die "Parsing of preprocessor output failed\n")) r') ∧
    ∀ a r', LineI E fl F cpp hdr r line a r' → a = .ends (.die "Parsing of preprocessor output failed\n") := by
  obtain ⟨y, s1, x, k, ⟨lx1, p1⟩, u1⟩ := parse_include (F := F) (cpp := cpp) w hm hi
  have hh' : hdr (s1.includes ++ [nameStr line]) = some text := by rw [x.includes]; exact hh
  have no : ¬ ∃ t, StartParses r.ty text t := by
    rintro ⟨t, h⟩
    exact absurd (Parser.start ((startParses_of ht t).mp h)) (by simp only [Parser.st]; decide)
  refine ⟨⟨_, .header p1 k (.rejected hh' no)⟩, ?_⟩
  intro a r' hl
  cases hl with
  | other hno => exact absurd k (hno _ _ _ p1)
  | header j1 j2 j3 =>
    obtain ⟨a1, a2, a3, a4⟩ := u1 _ _ j1
    cases a1
    rw [a2, k] at j2
    cases j2
    cases j3 with
    | failed q1 => rw [a2, hh'] at q1; cases q1
    | rejected => rfl
    | done q1 q2 | ends q1 q2 =>
      rw [a2, hh'] at q1
      cases q1
      rw [a3] at q2
      exact absurd ⟨_, q2⟩ no

end Bic.Repl

namespace Bic
open Spec

theorem store_write_length (x : String) (w : Int) : (σ : Store) → (Store.write x w σ).length = σ.length
  | [] => rfl
  | fr :: σ => by
    simp only [Store.write]
    split <;> simp [store_write_length x w σ]

theorem reply_length {L : Rules} {S : Shows} {σ σ' : Store} {p out n} (h : Reply L S σ p out σ' n) : σ'.length = σ.length := by
  cases h with
  | expr | empty => rfl
  | set | post | pre => exact store_write_length ..
  | decl _ h => exact declares_length h

end Bic

namespace Bic.Repl
open Spec CSyn
open Printer (Floats)

/-- what bic does for `#include`: the declarations of all headers so far, from the beginning; there must be some -/
def bicIncluding : Including where
  inc Λ D hs h _ _ hf Δ' := D (hs ++ [h]) ≠ [] ∧ HDecl okRules Λ [] [] (D (hs ++ [h])) hf Δ'
  clean _ _ := True

theorem hinput_conv {E : Env} (fl : Floats) {Λ : String → Option LibFn} {D : List String → List HItem} {B H H' : Store} {Δ Δ' hs hs' : List String} {s : St}
    {fr fr' : Frame} {n m : Nat} {t : TId} {p : HInput} {out : Str} {calls} (hp : Provides E Λ) (g : Good s (fr :: (B ++ H)) (n + m)) (F : HdrAt Λ Δ B H s)
    (ht : HInputRep s.nodes t p) (h : HReply okRules bicShows bicCalling bicIncluding Λ D B fr H Δ hs p out fr' H' Δ' hs' calls n) :
    ∃ s' evs, Shown E fl s t out s' ∧ Good s' (fr' :: (B ++ H')) m ∧ HdrAt Λ Δ' B H' s' ∧ hs' = hs ∧ s'.includes = s.includes ∧ s'.events = s.events ++ evs ∧
      List.Forall₂ (CallOf E Λ) evs calls := by
  cases h with
  | plain h _ =>
    cases ht with
    | plain ht =>
      obtain ⟨s', h1, h2, h3, _, h5, h6⟩ := input_keeps (E := E) fl g ht h
      simp only [cfg, Prod.mk.injEq] at h3
      have hl : H'.length = H.length := by
        have := reply_length h
        simpa using this
      refine ⟨s', [], h1, h2, ?_, rfl, h3.1, by simp [h3.2.2], .nil⟩
      rcases h1 with ⟨q, _, h1, _⟩ | ⟨h1, _⟩
      · exact F.step (Evt.keep ⟨h1, h6, h2.flags⟩ F.sane).1 h5 h3.2.1 h6 (Conv.evol h1 F.sane.inv).includeCtx hl
      · exact F.step (Evt.keep ⟨h1, h6, h2.flags⟩ F.sane).1 h5 h3.2.1 h6 (Conv.evol h1 F.sane.inv).includeCtx hl
  | inc => cases ht
  | @call f q es ws v z h1 h2 h3 h4 h5 h6 h7 h8 =>
    cases ht with
    | call ht =>
      obtain ⟨fa, hp⟩ := hp f q h4
      obtain ⟨r, s', fs, k1, k2, k3, k4, k5, k6, k7, k8⟩ := hdrCall_conv (E := E) g F h1 h2 h3 h4 hp h5 h6 h7 ht
      refine ⟨s', _, .inl ⟨r, z, k1, rfl, fun o => ?_⟩, k3, k4, rfl, k5, k6, .cons ⟨q, h4, hp.1, rfl, k7, k8⟩ .nil⟩
      rw [prints_int (.inr ⟨q.ret, hp.2.1, k2⟩), decimal_unique h8]

end Bic.Repl
