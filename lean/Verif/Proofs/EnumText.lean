import Verif.Spec.EnumSource
import Verif.Proofs.StructText
import Verif.Props.Enum
/-!
# Enumerations from their tokens
-/

namespace Bic.Parser
open Spec CSyn

section
variable {TN : List T → PT → List T → Prop}

theorem enumerator_der {d i r} (h : WEnumerator cTable TN d i r) :
    ∃ t, Der .enumerator i t r ∧ ∀ {nd : TId → Option Node} {u ts es}, Rep nd (.t t (some u)) → EnumRep nd ts es → EnumRep nd (u :: ts) (d :: es) := by
  cases h with
  | name =>
    refine ⟨_, .eName, ?_⟩
    intro nd u ts es h hs
    cases h with | ident h => exact .next h hs
  | value h =>
    obtain ⟨t, h1, h2⟩ := we_der h
    refine ⟨_, .eValue (.constant h1), ?_⟩
    intro nd u ts es h hs
    cases h with
    | assign h3 h4 h5 =>
      cases h4 with
      | ident h4 =>
        obtain ⟨v, rfl, h6⟩ := h2 h5
        exact .explicit h3 h4 h6 hs

theorem enumerators_der {es i r} (h : WEnumerators cTable TN es i r) :
    ∃ ts, Der .enumList i (.chain ts) r ∧
      (∀ {i0 ts0}, Der .enumList i0 (.chain ts0) (.p .comma :: i) → Der .enumList i0 (.chain (ts0 ++ ts)) r) ∧
      ∀ {nd : TId → Option Node} {ls}, Rep nd (.l ts ls) → EnumRep nd ls es := by
  induction h with
  | one h =>
    obtain ⟨t, h1, h2⟩ := enumerator_der h
    refine ⟨[t], .elOne h1, fun h => .elMore h h1, ?_⟩
    intro nd ls hr
    obtain ⟨u, rfl, hu⟩ := rep_one hr
    exact h2 hu .nil
  | more h _ ih =>
    obtain ⟨t, h1, h2⟩ := enumerator_der h
    obtain ⟨ts, h3, h4, h5⟩ := ih
    refine ⟨t :: ts, h4 (.elOne h1), fun {i0 ts0} h => ?_, ?_⟩
    · have := h4 (.elMore h h1)
      rwa [List.append_assoc] at this
    · intro nd ls hr
      cases hr with
      | cons h6 h7 => exact h2 h6 (h5 h7)

/-- the tree of the declaration of an enumeration -/
def EnumDecl (nd : TId → Option Node) (u : TId) (tag : Option String) (es : List (String × Option Expr)) : Prop :=
  ∃ specs off c name l ts, nd u = some (.decl (some specs) none off) ∧ nd specs = some (.chain [c]) ∧ nd c = some (.enumr name (some l)) ∧
    nd l = some (.chain ts) ∧ TagRep nd name tag ∧ EnumRep nd ts es

theorem enum_der {tag es i} (h : WEnum cTable TN tag es i) :
    ∃ t, Der .declaration i t [] ∧ Repl.typedefNames t = [] ∧ (∀ s, t ≠ .cppInclude s) ∧
      ∀ {nd : TId → Option Node} {u}, Rep nd (.t t (some u)) → EnumDecl nd u tag es := by
  have fin : ∀ {ts : List PT} {id : PT} {nd : TId → Option Node} {u : TId}, (∀ {nd : TId → Option Node} {ls}, Rep nd (.l ts ls) → EnumRep nd ls es) →
      (∀ {r}, Rep nd (.t id r) → TagRep nd r tag) → Rep nd (.t (.decl (.chain [.enumr id (.chain ts)]) .null) (some u)) → EnumDecl nd u tag es := by
    intro ts id nd u hL hid hr
    cases hr with
    | decl h1 h2 h3 =>
      cases h3
      cases h2 with
      | chain h4 h5 =>
        obtain ⟨c, rfl, g5⟩ := rep_one h5
        cases g5 with
        | enumr h8 h9 h10 =>
          cases h10 with
          | chain h11 h12 => exact ⟨_, _, _, _, _, _, h1, h4, h8, h11, hid h9, hL h12⟩
  cases h with
  | @tagged x es i r h he =>
    obtain ⟨ts, h1, -, h2⟩ := enumerators_der h
    have : Der .enumSpec (.p .enum :: .ident x :: .p .lbrace :: i) (.enumr (.ident x) (.chain ts)) [.p .semi] := by
      cases he with
      | brace => exact .enNamed h1
      | comma => exact .enNamedC h1
    refine ⟨_, .dcEmpty (.dsOne (.dsType (.typeEnum this))), by simp [Repl.typedefNames], nofun, ?_⟩
    intro nd u hr
    refine fin h2 ?_ hr
    intro r hr
    cases hr with
    | ident h => exact h
  | @anonymous es i r h he =>
    obtain ⟨ts, h1, -, h2⟩ := enumerators_der h
    have : Der .enumSpec (.p .enum :: .p .lbrace :: i) (.enumr .null (.chain ts)) [.p .semi] := by
      cases he with
      | brace => exact .enAnon h1
      | comma => exact .enAnonC h1
    refine ⟨_, .dcEmpty (.dsOne (.dsType (.typeEnum this))), by simp [Repl.typedefNames], nofun, ?_⟩
    intro nd u hr
    refine fin h2 ?_ hr
    intro r hr
    cases hr with
    | null => trivial

end

end Bic.Parser

namespace Bic
open Spec

/-- executing the declaration is executing the enumeration -/
theorem enumDecl_conv {E : Env} {s s' : St} {u specs c : TId} {off : Nat} {name l r : Ref} (h1 : s.nodes u = some (.decl (some specs) none off))
    (h2 : s.nodes specs = some (.chain [c])) (h3 : s.nodes c = some (.enumr name l)) (hn : ∀ t n, s.nodes t = some n → s'.nodes t = some n)
    (h : Conv E (fun R => R.ev (some c)) s (.ok r s')) : Conv E (fun R => R.ev (some u)) s (.ok none s') := by
  refine Conv.evNode h1 ?_
  have hkw : ∀ kw, chainHasKw kw [c] s' = .ok false s' := by
    intro kw
    simp [chainHasKw, node_apply (hn _ _ h3)]
  have h4 := Conv.bind (g := fun R ty => (do
      let ks ← chainElems (some specs)
      if ← chainHasKw .typedef ks then eachDecl (fun d => R.mapTypedef d ty) none
      else if ← chainHasKw .extern ks then eachDecl (handleExternDecl E R ty) none
      else if ← chainHasKw .static ks then handleStaticDecl R ty u none
      else pure none : M Ref)) (o := .ok none s') h (Conv.of_eq (Conv.pure none) fun R => by
        simp [chainElems_apply (hn _ _ h2), hkw])
  refine Conv.of_eq h4 fun R => ?_
  have e : resolveSpecs (some specs) s = .ok (some c) s := by
    simp [resolveSpecs, chainElems_apply h2, resolveSpecsLoop, node_apply h3]
  show evalDecl _ _ _ _ _ _ = _
  simp only [evalDecl, bind_apply, e, peek_apply h3]

theorem Spec.Enumerate.mono {val : (String → Int → Prop) → Expr → Int → Prop} {ok : Int → Prop}
    (hval : ∀ ρ ρ' : String → Int → Prop, (∀ y v, ρ y v → ρ' y v) → ∀ e v, val ρ e v → val ρ' e v) {ρ ρ' : String → Int → Prop} {n es vs}
    (hρ : ∀ y v, ρ y v → ρ' y v) (h : Enumerate val ok ρ n es vs) : Enumerate val ok ρ' n es vs := by
  have hide_mono : ∀ {ρ ρ' : String → Int → Prop} {x v}, (∀ y v, ρ y v → ρ' y v) → ∀ y w, hide ρ x v y w → hide ρ' x v y w := by
    intro ρ ρ' x v h y w hy
    unfold hide at hy ⊢
    split at hy
    · rename_i e
      rw [if_pos e]
      exact hy
    · rename_i e
      rw [if_neg e]
      exact h _ _ hy
  induction h generalizing ρ' with
  | nil => exact .nil
  | next h1 _ ih => exact .next h1 (ih (hide_mono hρ))
  | explicit h1 h2 _ ih => exact .explicit (hval _ _ hρ _ _ h1) h2 (ih (hide_mono hρ))

/-- what bic does with one enumerator with a value, whatever the value -/
theorem enumOne_conv {E : Env} {s : St} {t l : TId} {ts : List TId} {x : String} {e : Expr} {v : Int} {ρ : String → Int → Prop}
    (w : WF s) (hc : s.ctxs ≠ []) (ht : s.nodes t = some (.enumr none (some l))) (hl : s.nodes l = some (.chain ts))
    (hr : EnumRep s.nodes ts [(x, some e)]) (hx : ¬ DeclaredHere s x) (hρ : ∀ y v, ρ y v → VarIs s y v) (hv : Val okOp okTruth ρ e v) :
    ∃ r s', Conv E (fun R => R.ev (some t)) s (.ok r s') ∧
      (∃ o, resolveGlobal x .normal s' = some o ∧ s'.nodes o = some (.integer ((mpzGetUi v % 2 ^ 32 : Nat) : Int))) ∧
      (∀ u n, s.nodes u = some n → s'.nodes u = some n) ∧ WF s' ∧ s'.includes = s.includes := by
  have x1 := addNode_ext w (.ctype .uint none)
  cases hr with
  | @explicit q i r _ _ _ _ h1 h2 h3 h4 =>
    cases h4
    obtain ⟨s0, c0, x0⟩ := (eval_expr (E := E) (x1.wf w) (hv.mono (fun _ _ _ _ h => h) (fun _ _ h => h) (fun y v h => (hρ y v h).ext x1))
      (h3.mono x1.nodes)).comparable (x1.wf w)
    have xx := x1.trans x0
    have w0 := xx.wf w
    have hc0 : s0.ctxs ≠ [] := by rw [xx.ctxs]; exact hc
    have hx0 : ¬ DeclaredHere s0 x := fun h => hx ((DeclaredHere.ext xx x).mp h)
    have k := enumSt_enumerated w0 hc0 (i := i) hx0 ((mpzGetUi v % 2 ^ 32 : Nat) : Int)
    refine ⟨some s.next, _, Conv.evNode ht ?_, k.values _ _ (by simp), fun u n hu => k.nodes u n (xx.nodes u n hu), k.wf, k.includes.trans xx.includes⟩
    have e3 := Conv.bind (g := fun R z => (do
      let i0 ← mkInt ((mpzGetUi z % 2 ^ 32 : Nat) : Int)
      mapIdentifier (some i) i0
      enumLoop R ((mpzGetUi z % 2 ^ 32 + 1) % 2 ^ 32) [] : M Unit)) c0 (Conv.of_eq (Conv.pure ()) fun R => by
        exact enum_bind w0 hc0 (xx.nodes _ _ h2) hx0 _ _)
    have e4 := Conv.bind (g := fun R _ => (pure (some s.next) : M Ref)) e3 (Conv.pure _)
    refine e4.of_eq fun R => ?_
    show evalEnumerator R none (some l) s = _
    unfold evalEnumerator
    simp only [bind_apply, mk_apply, chainElems, peek_apply (x1.nodes _ _ hl), pure_apply]
    rw [enumLoop, bind_apply, node_apply (x1.nodes _ _ h1)]
    rfl

end Bic
