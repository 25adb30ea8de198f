import Verif.Spec.Startup
import Verif.Model.Startup
import Verif.Proofs.Start
import Verif.Proofs.StructText
/-!
# Lines after a startup file
-/

namespace Bic
open Spec

/-- a call at the top level gives no value -/
theorem callLine_conv {E : Env} {Φ : String → Option Proc} {G : String → Prop} {s : St} {fr fr' : Frame} {f es t} {n m : Nat}
    (hs : Separate Φ G) (h : Run (staticRules Φ) [fr] (.call f es) .next [fr'] n) (hr : SRep s.nodes (.stmt t) (.call f es))
    (g : Good s [fr] (n + m)) (F : FnsAt Φ s [fr]) :
    ∃ s', Conv E (fun R => R.ev (some t)) s (.ok none s') ∧ Good s' [fr'] m ∧ FnsAt Φ s' [fr'] := by
  have h' : Run (staticRules Φ) ([] ++ [fr]) (.call f es) .next [fr'] n := h
  obtain ⟨t', gl, e, _, _, _, h⟩ := run_dynamic (G := G) (loc := []) hs h' rfl (fun _ => rfl) (by simp [Clear]) (by simp)
    (by simp [Stmt.inners]) (fun _ _ => .inr (by simp))
  simp only [List.nil_append] at h
  rw [← e] at h
  clear h' e
  generalize hσ : [fr] = σ at h g F
  generalize hσ' : [fr'] = σ' at h ⊢
  cases h with
  | @call hid vis _ _ q g' fr1 fr2 vis' n hq hf hsee hok hP hnd hb =>
    obtain rfl : hid = [] := hsee
    obtain ⟨hav, hg'⟩ : Avoid [] q.params es ∧ (g' = .next ∨ g' = .left) := hok
    cases hr with
    | @call _ u i nd ca _ _ h1 h2 h3 h4 h5 h6 =>
      obtain ⟨c, g1, g2⟩ := F.glob
      obtain ⟨t', t1, fd, args, ret, b, name, t2, t3, t4, t5⟩ := g2 f q hq
      have hfind : resolveGlobal f .normal s = some t' := g.rel.procedure F.ne hf g1 t1
      have hlen := hP.length
      obtain ⟨s1, b1, b2, b3, b4⟩ := bound_conv (E := E) (name := name) (args := args) (callArgs := ca) g.assoc (hP.sub (with_sub _ _)) hav hnd (by
        rcases t4 with ⟨rfl, e1⟩ | ⟨d, ds, rfl, e1, e2, e3⟩ <;> rcases h4 with ⟨rfl, e4⟩ | ⟨c, as, rfl, e4, e5, e6⟩
        · exact .inl ⟨rfl, rfl, e1, e4⟩
        · rw [e1] at hlen; exact absurd (List.length_eq_zero_iff.mp hlen.symm) e5
        · rw [e4] at hlen; exact absurd (List.length_eq_zero_iff.mp hlen) e2
        · exact .inr ⟨d, c, ds, as, rfl, rfl, e1, e4, e3, e6⟩)
      have F1 : FnsAt Φ s1 (fr1 :: vis) := (F.push (F.sane.enterFn name) rfl rfl fr1).step (fun hs => b1.keep hs) b3 rfl
      have hi := run_ended_procs (E := E) hb (t5.mono b3) b2 (.inr F1)
      have fin : ∀ s', Evl E s (some u) none s' → uids s' = uids s → Good s' vis' m → Kept s s' →
          ∃ s', Conv E (fun R => R.ev (some t)) s (.ok none s') ∧ Good s' ([] ++ vis') m ∧ FnsAt Φ s' ([] ++ vis') := by
        intro s' hev hu gg hk
        refine ⟨s', h1.conv hev, gg, F.step ?_ hk ?_⟩
        · exact (evt_uids (h1.conv hev) hu gg.flags).keep
        · simp only [List.nil_append] at hσ hσ' ⊢
          rw [← hσ, ← hσ']
          rfl
      rcases hg' with rfl | rfl
      · obtain ⟨s', x1, x2, x3, x4⟩ := hi
        obtain ⟨y1, y2⟩ := callUser_end F.sane t3 b1 (x1 _)
        have hev : Evl E s (some u) none (leave s') := fnCall_conv h2 (ident_conv h3 hfind) t2 (by simp) y1
        obtain ⟨z1, z2⟩ := good_out (s := s) (s1 := s) (nm := "") x2 (by rw [x4, b4]; rfl) g.room.ctxs rfl
        exact fin _ hev z2 z1 (b3.trans x3)
      · obtain ⟨s', top, base, x1, x3, x4, x5, x6⟩ := hi
        obtain ⟨s'', y1, y2, y3, y4⟩ := callUser_left F.sane t3 b1 x1 x3 (by rw [x4, b4]) g.room.ctxs x5
        have hev : Evl E s (some u) none s'' := fnCall_conv h2 (ident_conv h3 hfind) t2 (by simp) y1
        have g1 := y2 (Conv.evol hev F.sane.inv).inv.wf
        exact fin _ hev y4 g1 fun t n hn => by rw [y3]; exact x6 _ _ (b3 _ _ hn)

/-- without a startup file -/
theorem init_good {mem : Mem} {n : Nat} (hl : LiveLt mem) (cap : mem.brk + 48 * n < Mem.limit) :
    Good (initSt mem) [[]] n ∧ FnsAt (fun _ => none) (initSt mem) [[]] := by
  have hs := initSt_Sane mem
  refine ⟨⟨hs.inv.wf, hs.flags, ⟨?_, hs.ne, hl⟩, ⟨[] ++ [], .cons .nil .nil, by simp [Apart]⟩⟩, ⟨hs, nofun, _, rfl, nofun⟩⟩
  exact cap

end Bic

namespace Bic.Repl
open Spec CSyn
open Lexer (Reads Follows)
open _root_.Bic.Parser (PT T K Der Rep nameStr rep_single args_der)
open Printer (Floats)
open CText (Text ascii)

/-- how the tree of a line looks in the heap -/
inductive SInputRep (nd : TId → Option Node) (t : TId) : SInput → Prop
  | plain {p} : InputRep nd t p → SInputRep nd t (.plain p)
  | call {f es} : SRep nd (.stmt t) (.call f es) → SInputRep nd t (.call f es)

theorem sinput_der {TN p i} (h : WSInput cTable TN p i) :
    ∃ t, Der .replUnit i (.chain [t]) [] ∧ typedefNames t = [] ∧ (∀ s, t ≠ .cppInclude s) ∧
      ∀ {nd : TId → Option Node} {u}, Rep nd (.t t (some u)) → SInputRep nd u p := by
  cases h with
  | plain h =>
    obtain ⟨t, h1, h2, h3, h4⟩ := input_der h
    exact ⟨t, h1, h2, h3, fun hr => .plain (h4 hr)⟩
  | call0 =>
    refine ⟨_, .ruOne (.rsExpr (.esExpr (.exOne (Parser.nt_down (p := 2) (q := 16) (.poCall0 (.poPrimary .pIdent)) (by omega) (by omega))))), rfl, nofun, ?_⟩
    intro nd x hx
    obtain ⟨u, hh, v, e, h3, h4, h5⟩ := rep_single hx
    cases e
    cases h4 with
    | fnCall h6 h7 h8 =>
      cases h7 with
      | ident h7 => cases h8; exact .call (.call h5 h6 h7 (.inl ⟨rfl, rfl⟩) h3 rfl)
  | @call s es i hes =>
    obtain ⟨ts, h1, -, h2⟩ := args_der hes
    refine ⟨_, .ruOne (.rsExpr (.esExpr (.exOne (Parser.nt_down (p := 2) (q := 16) (.poCall (.poPrimary .pIdent) h1) (by omega) (by omega))))), rfl, nofun, ?_⟩
    intro nd x hx
    obtain ⟨u, hh, v, e, h3, h4, h5⟩ := rep_single hx
    cases e
    cases h4 with
    | fnCall h6 h7 h8 =>
      cases h7 with
      | ident h7 =>
        cases h8 with
        | chain h9 h10 =>
          have : es ≠ [] := by cases hes <;> simp
          exact .call (.call h5 h6 h7 (.inr ⟨_, _, rfl, h9, this, h2 h10⟩) h3 rfl)

theorem Reply.sub {L L' : Rules} {S : Shows} (hL : L.Sub L') {σ p out σ' n} (h : Reply L S σ p out σ' n) : Reply L' S σ p out σ' n := by
  cases h with
  | expr a b => exact .expr (hL.1 _ _ _ a) b
  | set a b c d e f => exact .set a (hL.1 _ _ _ b) (hL.2 _ _ _ _ c) d e f
  | post a b c d => exact .post a b c d
  | pre a b c d => exact .pre a b c d
  | decl a b c => exact .decl a (b.sub hL) c
  | empty => exact .empty

theorem okStatic_sub : okStatic.Sub okRules := ⟨fun _ _ _ h => h, fun _ _ _ _ h => h⟩

theorem sinput_conv {E : Env} (fl : Floats) {Φ : String → Option Proc} {G : String → Prop} {s : St} {fr fr' : Frame} {n m : Nat} {t : TId}
    {p : SInput} {out : Str} (hs : Separate Φ G) (g : Good s [fr] (n + m)) (F : FnsAt Φ s [fr]) (ht : SInputRep s.nodes t p)
    (h : SReply okStatic bicShows Φ fr p out fr' n) :
    ∃ s', Shown E fl s t out s' ∧ Good s' [fr'] m ∧ FnsAt Φ s' [fr'] ∧ s'.includes = s.includes := by
  cases h with
  | plain h =>
    cases ht with
    | plain ht =>
      obtain ⟨s', h1, h2, h3, _, h5, h6⟩ := input_keeps (E := E) fl g ht (Reply.sub okStatic_sub h)
      refine ⟨s', h1, h2, F.step ?_ h5 rfl, congrArg Prod.fst h3⟩
      intro sa
      rcases h1 with ⟨q, _, h1, _⟩ | ⟨h1, _⟩
      · exact Evt.keep ⟨h1, h6, h2.flags⟩ sa
      · exact Evt.keep ⟨h1, h6, h2.flags⟩ sa
  | call h =>
    cases ht with
    | call ht =>
      obtain ⟨s', h1, h2, h3⟩ := callLine_conv (E := E) hs h ht g F
      exact ⟨s', .inr ⟨h1, rfl⟩, h2, h3, (Conv.evol h1 F.sane.inv).includes⟩

end Bic.Repl
