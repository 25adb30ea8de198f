import Verif.Spec.StructSource
import Verif.Proofs.Dialogue
import Verif.Props.Structs
/-!
# Structures and unions from their tokens
-/

namespace Bic.Parser
open Spec CSyn

theorem member_der {k d i r} (h : WMember k d i r) :
    ∃ t, Der .declarator i t r ∧ ∀ {nd : TId → Option Node} {u}, Rep nd (.t t u) → ∃ v, u = some v ∧ MDecl nd v k d.1 d.2 := by
  induction h with
  | name =>
    refine ⟨_, .dDirect .ddIdent, ?_⟩
    intro nd u h
    cases h with | ident h => exact ⟨_, rfl, .ident h⟩
  | arr =>
    refine ⟨_, .dDirect (.ddArr .ddIdent (nt_down (p := 2) (q := 16) (.poPrimary .pInt) (by omega) (by omega))), ?_⟩
    intro nd u h
    cases h with
    | array h1 h2 h3 =>
      cases h2 with
      | ident h2 => cases h3 with | integer h3 => exact ⟨_, rfl, .arr h1 h2 h3⟩
  | ptr _ ih =>
    obtain ⟨t, h1, h2⟩ := ih
    refine ⟨_, decl_ptr h1, ?_⟩
    intro nd u h
    cases h with
    | pointer h3 h4 =>
      obtain ⟨v, rfl, h5⟩ := h2 h4
      exact ⟨_, rfl, .ptr h3 h5⟩

/-- the objects of the declarators of members -/
def ItemsOf (nd : TId → Option Node) (specs : TId) (k : CT) (ls : List TId) (ds : List (String × MTy)) (L : List Item) : Prop :=
  ls = L.map Item.dd ∧ L.map (fun i => (i.x, i.m)) = ds ∧ ∀ i ∈ L, i.specs = specs ∧ i.k = k ∧ MDecl nd i.dd i.k i.x i.m

theorem ItemsOf.one {nd : TId → Option Node} {specs k u d} (h : MDecl nd u k d.1 d.2) :
    ItemsOf nd specs k [u] [d] [⟨0, specs, u, k, d.1, d.2⟩] :=
  ⟨rfl, rfl, fun i hi => by cases List.mem_singleton.mp hi; exact ⟨rfl, rfl, h⟩⟩

theorem ItemsOf.append {nd : TId → Option Node} {specs k ls ls' ds ds' L L'} (h : ItemsOf nd specs k ls ds L) (h' : ItemsOf nd specs k ls' ds' L') :
    ItemsOf nd specs k (ls ++ ls') (ds ++ ds') (L ++ L') := by
  obtain ⟨rfl, rfl, h1⟩ := h
  obtain ⟨rfl, rfl, h2⟩ := h'
  exact ⟨by simp, by simp, fun i hi => (List.mem_append.mp hi).elim (h1 i) (h2 i)⟩

theorem members_der {k ds i r} (h : WMembers k ds i r) :
    ∃ ts, Der .structDeclrList i (.chain ts) r ∧
      (∀ {i0 ts0}, Der .structDeclrList i0 (.chain ts0) (.p .comma :: i) → Der .structDeclrList i0 (.chain (ts0 ++ ts)) r) ∧
      ∀ {nd : TId → Option Node} {ls} (specs), Rep nd (.l ts ls) → ∃ L, ItemsOf nd specs k ls ds L := by
  induction h with
  | one h =>
    obtain ⟨t, h1, h2⟩ := member_der h
    refine ⟨[t], .srlOne (.srDecl h1), fun h => .srlMore h (.srDecl h1), ?_⟩
    intro nd ls specs hr
    obtain ⟨u, rfl, hu⟩ := rep_one hr
    obtain ⟨_, e, hu⟩ := h2 hu
    cases e
    exact ⟨_, .one hu⟩
  | more h _ ih =>
    obtain ⟨t, h1, h2⟩ := member_der h
    obtain ⟨ts, h3, h4, h5⟩ := ih
    refine ⟨t :: ts, h4 (.srlOne (.srDecl h1)), fun {i0 ts0} h => ?_, ?_⟩
    · have := h4 (.srlMore h (.srDecl h1))
      rwa [List.append_assoc] at this
    · intro nd ls specs hr
      cases hr with
      | cons h6 h7 =>
        obtain ⟨_, e, hu⟩ := h2 h6
        cases e
        obtain ⟨L, hL⟩ := h5 specs h7
        exact ⟨_, ItemsOf.append (.one hu) hL⟩

theorem sqs_der {ws i r} (h : WSpecs ws i r) :
    Der .sqList i (.chain (ws.map .kw)) r ∧
      ∀ {i0 ts0}, Der .sqList i0 (.chain ts0) i → Der .sqList i0 (.chain (ts0 ++ ws.map .kw)) r := by
  have one : ∀ {w k r}, kwTok w = some k → Der .sq (.p k :: r) (.kw w) r := by
    intro w k r hk
    refine .sqType (.typeKw ?_)
    revert hk
    cases w <;> simp only [kwTok, Option.some.injEq, reduceCtorEq] <;> intro hk <;> first | exact hk.elim | (subst hk; rfl)
  induction h with
  | one hk => exact ⟨.sqlOne (one hk), fun h => .sqlMore h (one hk)⟩
  | more hk _ ih =>
    refine ⟨ih.2 (.sqlOne (one hk)), fun {i0 ts0} h => ?_⟩
    have := ih.2 (.sqlMore h (one hk))
    rwa [List.append_assoc] at this

/-- the declaration of some members -/
theorem field_der {ws k ds i j r} (hs : WSpecs ws i j) (hg : CSpec.Gives ws (.arith k)) (hm : WMembers k ds j (.p .semi :: r)) :
    ∃ t, Der .structDecl i t r ∧ ∀ {nd : TId → Option Node} {u ts L'}, Rep nd (.t t (some u)) → Src nd ts L' →
      ∃ L, L.map (fun i => (i.x, i.m)) = ds ∧ Src nd (u :: ts) (L ++ L') := by
  obtain ⟨us, h1, -, h2⟩ := members_der hm
  refine ⟨_, .sdDecl (sqs_der hs).1 h1, ?_⟩
  intro nd u ts L' hr hL'
  obtain ⟨g1, g2⟩ := resolveKws_gives (specs_kw hs) hg
  cases hr with
  | decl h3 h4 h5 =>
    cases h4 with
    | chain h6 h7 =>
      cases h5 with
      | chain h8 h9 =>
        obtain ⟨L, e1, e2, e3⟩ := h2 _ h9
        refine ⟨L, e2, .cons (k := k) h3 h8 e1 (fun i hi => ?_) hL'⟩
        obtain ⟨a1, a2, a3⟩ := e3 i hi
        refine ⟨a1, a2, ?_, a3⟩
        rw [a1, a2]
        exact ⟨_, _, h6, rep_kws h7, g1, g2⟩

theorem fields_der {ms i r} (h : WFields ms i r) :
    ∃ ts, Der .structDeclList i (.chain ts) r ∧
      (∀ {i0 ts0}, Der .structDeclList i0 (.chain ts0) i → Der .structDeclList i0 (.chain (ts0 ++ ts)) r) ∧
      ∀ {nd : TId → Option Node} {ls}, Rep nd (.l ts ls) → ∃ L, L.map (fun i => (i.x, i.m)) = ms ∧ Src nd ls L := by
  induction h with
  | one h1 h2 h3 =>
    obtain ⟨t, d1, d2⟩ := field_der h1 h2 h3
    refine ⟨[t], .sdlOne d1, fun h => .sdlMore h d1, ?_⟩
    intro nd ls hr
    obtain ⟨u, rfl, hu⟩ := rep_one hr
    obtain ⟨L, e, hL⟩ := d2 hu .nil
    exact ⟨_, by simpa using e, hL⟩
  | more h1 h2 h3 _ ih =>
    obtain ⟨t, d1, d2⟩ := field_der h1 h2 h3
    obtain ⟨ts, h3, h4, h5⟩ := ih
    refine ⟨t :: ts, h4 (.sdlOne d1), fun {i0 ts0} h => ?_, ?_⟩
    · have := h4 (.sdlMore h d1)
      rwa [List.append_assoc] at this
    · intro nd ls hr
      cases hr with
      | cons h6 h7 =>
        obtain ⟨L', e', hL'⟩ := h5 h7
        obtain ⟨L, e, hL⟩ := d2 h6 hL'
        exact ⟨_, by simp [e, e'], hL⟩

/-- the declaration of a variable of a structure or union type -/
theorem compVar_der {isS tag x ms i} (h : WCompVar isS tag x ms i) :
    ∃ t, Der .declaration i t [] ∧ Repl.typedefNames t = [] ∧ (∀ s, t ≠ .cppInclude s) ∧
      ∀ {s : St} {u}, Rep s.nodes (.t t (some u)) → WF s → Fresh s x → (∀ nm, tag = some nm → FreshTag s isS nm) →
        Cap s (3 * (ms.map fun m => mcost m.2).sum + 48) → ∃ d c L, L.map (fun i => (i.x, i.m)) = ms ∧ CompDecl s u d c x isS L := by
  have hk : structAction (compKw isS) = some isS := by cases isS <;> rfl
  have fin : ∀ {ts : List PT} {x : Lexer.Str} {id : PT} {s : St} {u : TId}, (∀ {nd : TId → Option Node} {ls}, Rep nd (.l ts ls) → ∃ L, L.map (fun i => (i.x, i.m)) = ms ∧ Src nd ls L) →
      (∀ {r}, Rep s.nodes (.t id r) → ∃ tg : Option (TId × String), r = tg.map Prod.fst ∧ ∀ i nm, tg = some (i, nm) → s.nodes i = some (.ident nm) ∧ FreshTag s isS nm) →
      Rep s.nodes (.t (.decl (.chain [.compound isS id (.chain ts)]) (.chain [.ident x])) (some u)) → WF s → Fresh s (nameStr x) →
      Cap s (3 * (ms.map fun m => mcost m.2).sum + 48) → ∃ d c L, L.map (fun i => (i.x, i.m)) = ms ∧ CompDecl s u d c (nameStr x) isS L := by
    intro ts x id s u hL hid hr w hf hc
    cases hr with
    | decl h1 h2 h3 =>
      cases h2 with
      | chain h4 h5 =>
        cases h3 with
        | chain h6 h7 =>
          obtain ⟨c, rfl, g5⟩ := rep_one h5
          obtain ⟨d, rfl, g7⟩ := rep_one h7
          cases g7 with
          | ident g7 =>
            cases g5 with
            | compound h8 h9 h10 =>
              cases h10 with
              | chain h11 h12 =>
                obtain ⟨L, e, hs⟩ := hL h12
                obtain ⟨tg, rfl, htg⟩ := hid h9
                refine ⟨d, c, L, e, ⟨_, _, _, _, _, _, tg, h1, h4, h8, h11, Src.members hs, .inr h6, htg⟩, g7, hf, w, ?_⟩
                rw [← e, List.map_map] at hc
                exact hc
  cases h with
  | tagged h =>
    obtain ⟨ts, h1, -, h2⟩ := fields_der h
    refine ⟨_, .dcDecl (.dsOne (.dsType (.typeStruct (.stFull hk h1)))) (.idlOne (.idDecl (.dDirect .ddIdent))), by simp [Repl.typedefNames, Repl.hasTypedef], nofun, ?_⟩
    intro s u hr w hf ht hc
    refine fin h2 ?_ hr w hf hc
    intro r hr
    cases hr with
    | ident h => exact ⟨some (_, _), rfl, fun i nm e => by cases e; exact ⟨h, ht _ rfl⟩⟩
  | anonymous h =>
    obtain ⟨ts, h1, -, h2⟩ := fields_der h
    refine ⟨_, .dcDecl (.dsOne (.dsType (.typeStruct (.stAnon hk h1)))) (.idlOne (.idDecl (.dDirect .ddIdent))), by simp [Repl.typedefNames, Repl.hasTypedef], nofun, ?_⟩
    intro s u hr w hf ht hc
    refine fin h2 ?_ hr w hf hc
    intro r hr
    cases hr with
    | null => exact ⟨none, rfl, nofun⟩

end Bic.Parser

namespace Bic.Repl
open Spec CSyn
open Lexer (Reads Follows)
open _root_.Bic.Parser (PT T K Der Rep)
open Printer (Floats)
open CText (Text)

/-- a line typed, for any statement: what is shown for it, and what holds after it -/
theorem line_shows {E : Env} {fl : Floats} {F : Str → Nat} {cpp : List String → Str → Str} {r : RSt} {line text out : Str} {P : St → Prop}
    {i0 i : List T} {t0 t : PT} (w : WF r.st) (hm : r.lx.mode = .initial) (ht0 : Text (Reads r.ty) Follows i0 line)
    (d0 : Der .replUnit i0 (.chain [t0]) []) (n0 : typedefNames t0 = []) (hi0 : ∀ s, t0 ≠ .cppInclude s)
    (hcpp : LastLine (cpp r.st.includes line) text) (ht : Text (Reads r.ty) Follows i text) (d : Der .replUnit i (.chain [t]) [])
    (nt : typedefNames t = []) (h : ∀ s y, Ext r.st s → Rep s.nodes (.t t (some y)) → ∃ s', Shown E fl s y out s' ∧ P s') :
    (∃ r', Line E fl F cpp r line (.shows out) r') ∧
    ∀ a r', Line E fl F cpp r line a r' → a = .shows out ∧ r'.lx.mode = .initial ∧ r'.ty = r.ty ∧ P r'.st := by
  have := parseLine_of (F := F) (cpp := cpp) (text := text) (i := i) w hm ht0 d0 hi0 hcpp (by rw [addNames_nil n0]; exact ht) d
  rw [addNames_nil nt, addNames_nil n0] at this
  obtain ⟨y, s', x, k, ⟨lx', p1⟩, up⟩ := this
  obtain ⟨s3, c1, c2⟩ := h _ _ x k
  constructor
  · rcases c1 with ⟨q, o, c1, rfl, c4⟩ | ⟨c1, rfl⟩
    · exact ⟨_, .value p1 c1 ((c4 o).mpr rfl)⟩
    · exact ⟨_, .nothing p1 c1⟩
  · intro a r' hr'
    cases hr' with
    | rejected j => obtain ⟨a1, _⟩ := up _ _ j; cases a1
    | value j1 j2 j3 =>
      obtain ⟨a1, a2, a3, a4⟩ := up _ _ j1
      cases a1
      rw [a2] at j2
      rcases c1 with ⟨q, o, c1, rfl, c4⟩ | ⟨c1, rfl⟩
      · cases Conv.unique c1 j2
        rw [(c4 _).mp j3]
        exact ⟨rfl, a4, a3, c2⟩
      · cases Conv.unique c1 j2
    | nothing j1 j2 =>
      obtain ⟨a1, a2, a3, a4⟩ := up _ _ j1
      cases a1
      rw [a2] at j2
      rcases c1 with ⟨q, o, c1, rfl, c4⟩ | ⟨c1, rfl⟩
      · cases Conv.unique c1 j2
      · cases Conv.unique c1 j2
        exact ⟨rfl, a4, a3, c2⟩
    | ends j1 j2 =>
      obtain ⟨a1, a2, _⟩ := up _ _ j1
      cases a1
      rw [a2] at j2
      rcases c1 with ⟨q, o, c1, _⟩ | ⟨c1, _⟩
      · cases Conv.unique c1 j2
      · cases Conv.unique c1 j2

end Bic.Repl
