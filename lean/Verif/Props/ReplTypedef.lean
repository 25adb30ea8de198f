import Verif.Props.Dialogue
/-!
# C90: `typedef` at the REPL
-/

namespace Bic.Repl
open Spec CSyn
open Lexer (Reads Follows)
open _root_.Bic.Parser (PT T K Der Rep nameStr specs_der' rep_kws)
open Printer (Floats)
open CText (Text ascii)

/-- C90: after a typedef of a new name the name denotes the type. -/
def C90_statement : Prop :=
  ∀ (E : Env) (fl : Floats) (F : Str → Nat) (cpp : List String → Str → Str) (r : RSt) (ws : List Kw) (c : CT) (x line text : Str) (i : List T),
    r.lx.mode = .initial → Sane r.st → r.ty x = false → resolveGlobal (nameStr x) .normal r.st = none →
    WSpecs ws i [.ident x, .p .semi] → CSpec.Gives ws (.arith c) → CText.CText r.ty (.p .typedef :: i) line →
    LastLine (cpp r.st.includes line) text → CText.CText r.ty (.p .typedef :: i) text →
    ∃ out r' τ, Line E fl F cpp r line (.shows out) r' ∧ resolveGlobal (nameStr x) .normal r'.st = some τ ∧
      r'.st.nodes τ = some (.ctype c none)

/-- the token that is read for a name once it is the name of a type -/
def retag (x : Str) : T → T
  | .ident y => if y = x then .typeName y else .ident y
  | t => t

/-- the same text with one more type name -/
theorem text_retag {ty : Str → Bool} {x : Str} : {i : List T} → {s : Str} → Text (Reads ty) Follows i s → (∀ t ∈ i, CText.isTag t = false) →
    Text (Reads fun y => ty y || decide (y ∈ [x])) Follows (i.map (retag x)) s
  | _, _, .nil, _ => .nil
  | _, _, .space h h', hi => .space h (text_retag h' hi)
  | _, _, .tag h _ _ _ _ _ _, hi => by rw [hi _ List.mem_cons_self] at h; cases h
  | _, _, .anonymous h _ _ _, hi => by rw [hi _ List.mem_cons_self] at h; cases h
  | _, _, .tok (t := t) (w := w) h1 h2 h3 h4, hi => by
    have h5 := text_retag (x := x) h4 fun t ht => hi t (List.mem_cons_of_mem _ ht)
    have h6 : CText.isTag (retag x t) = false := by
      unfold retag
      split
      · split <;> rfl
      · exact h1
    have h7 : ∀ c, Follows (retag x t) w c → Follows t w c := by
      intro c hc
      rcases hc with hc | ⟨hc, h⟩ | ⟨hc, h⟩
      · exact .inl hc
      all_goals
        unfold retag at hc
        split at hc
        · split at hc <;> cases hc
        · subst hc
          first | exact .inr (.inl ⟨rfl, h⟩) | exact .inr (.inr ⟨rfl, h⟩)
    refine .tok h6 ?_ (fun c hc h => h3 c hc (h7 c h)) h5
    cases h2 with
    | ident a b c =>
      by_cases e : w = x
      · simp only [retag, e, if_true]
        refine .typeName (e ▸ a) (e ▸ b) ?_
        simp
      · simp only [retag, e, if_false]
        refine .ident a b ?_
        simp [c, e]
    | word a b => exact .word a b
    | typeName a b c => refine .typeName a b ?_; simp [c]
    | dec a b => exact .dec a b
    | hex a b => exact .hex a b
    | char a b => exact .char a b
    | float a b => exact .float a b
    | string a b c => exact .string a b c

theorem specs_tags {ws i r} (h : WSpecs ws i r) : (∀ t ∈ i, CText.isTag t = false) ∨ ∃ t ∈ r, CText.isTag t = true := by
  have kw : ∀ {w k}, kwTok w = some k → CText.isTag (.p k) = false := by
    intro w k h
    cases w <;> simp only [kwTok, Option.some.injEq, reduceCtorEq] at h <;> subst h <;> rfl
  induction h with
  | @one w k r h =>
    by_cases hr : ∃ t ∈ r, CText.isTag t = true
    · exact .inr hr
    · refine .inl fun t ht => ?_
      rcases List.mem_cons.mp ht with rfl | ht
      · exact kw h
      · cases e : CText.isTag t with
        | false => rfl
        | true => exact absurd ⟨t, ht, e⟩ hr
  | more h _ ih =>
    refine ih.imp_left fun hi t ht => ?_
    rcases List.mem_cons.mp ht with rfl | ht
    · exact kw h
    · exact hi t ht

/-- the words are still the words when the name after them is the name of a type -/
theorem specs_retag {ws i r} (x : Str) (h : WSpecs ws i r) : WSpecs ws (i.map (retag x)) (r.map (retag x)) := by
  induction h with
  | one h => exact .one h
  | more h _ ih => exact .more h ih

/-- specifiers that end with a name: bic gives up, or takes the name for the type -/
theorem resolve_ident {s : St} {t : TId} {x : String} (ht : s.nodes t = some (.ident x)) :
    ∀ {ws : List Kw} {ls : List TId}, KwChain s.nodes ls ws → ∀ bs,
      (∃ m, resolveSpecsLoop bs (ls ++ [t]) s = .stop (.die m) s) ∨ resolveSpecsLoop bs (ls ++ [t]) s = .ok (some t) s := by
  intro ws ls h
  induction h with
  | nil => intro bs; right; simp [resolveSpecsLoop, node_apply ht]
  | @cons t' ts k ks h _ ih =>
    intro bs
    simp only [List.cons_append, resolveSpecsLoop, bind_apply, node_apply h]
    split
    · exact ih _
    · cases addSpec clangTable clangKeys bs k with
      | some bs' => exact ih _
      | none => left; exact ⟨_, rfl⟩

theorem evalTypedef {E : Env} {s : St} {t sp y : TId} {x : String} {ws : List Kw} {ls : List TId} {off : Nat}
    (ht : s.nodes t = some (.decl (some sp) none off)) (hsp : s.nodes sp = some (.chain (ls ++ [y]))) (hk : KwChain s.nodes ls ws)
    (hy : s.nodes y = some (.ident x)) (hx : resolveGlobal x .normal s = none) :
    ∃ m, Conv E (fun R => R.ev (some t)) s (.stop (.die m) s) := by
  have hid : Conv E (fun R => R.ev (some y)) s (.stop (.die "Could not resolve identifier") s) := by
    refine Conv.evNode hy (Conv.fixed fun R => ?_)
    show evalIdentifier y s = _
    simp [evalIdentifier, resolveIdG, idStr, nodeR, node_apply hy, hx, Bic.get]
    rfl
  rcases resolve_ident hy hk 0 with ⟨m, h⟩ | h
  · refine ⟨m, Conv.evNode ht (Conv.bind_stop (Conv.fixed fun R => ?_))⟩
    simp only [resolveSpecs, bind_apply, chainElems_apply hsp, h]
  · refine ⟨"Could not resolve identifier", Conv.evNode ht (Conv.bind (a := some y) (s' := s) (Conv.fixed fun R => ?_) ?_)⟩
    · simp only [resolveSpecs, bind_apply, chainElems_apply hsp, h]
    · refine Conv.bind (a := some (.ident x)) (s' := s) (Conv.fixed fun R => peek_apply hy) ?_
      exact Conv.bind_stop hid

/-- Typing a typedef of a new name always ends bic with an error: when the line is parsed for the second
time the name is a type name already, and is taken for a specifier that cannot be resolved. -/
theorem C90_every_typedef_ends {E : Env} {fl : Floats} {F : Str → Nat} {cpp : List String → Str → Str} {r : RSt} {ws : List Kw} {x line text : Str}
    {i : List T} (hm : r.lx.mode = .initial) (hw : WF r.st) (hx : resolveGlobal (nameStr x) .normal r.st = none)
    (hs : WSpecs ws i [.ident x, .p .semi]) (ht0 : Text (Reads r.ty) Follows (.p .typedef :: i) line) (hcpp : LastLine (cpp r.st.includes line) text)
    (ht : Text (Reads r.ty) Follows (.p .typedef :: i) text) :
    (∃ m r', Line E fl F cpp r line (.ends (.die m)) r') ∧ ∀ a r', Line E fl F cpp r line a r' → ∃ m, a = .ends (.die m) := by
  have d0 : Der .replUnit (.p .typedef :: i) (.chain [.decl (.chain ((Kw.typedef :: ws).map .kw)) (.chain [.ident x])]) [] := by
    refine .ruOne (.rsDecl (.dcDecl ((specs_der' hs).2 (ts0 := [.kw .typedef]) (.dsOne (.dsStorage (.storage rfl)))) (.idlOne (.idDecl (.dDirect .ddIdent)))))
  have htag : ∀ t ∈ (.p .typedef :: i : List T), CText.isTag t = false := by
    intro t h
    rcases List.mem_cons.mp h with rfl | h
    · rfl
    · rcases specs_tags hs with h1 | ⟨t, h1, h2⟩
      · exact h1 t h
      · simp at h1
        rcases h1 with rfl | rfl <;> cases h2
  have htx := text_retag (x := x) ht htag
  have d : Der .replUnit ((.p .typedef :: i).map (retag x)) (.chain [.decl (.chain ((Kw.typedef :: ws).map .kw ++ [.ident x])) .null]) [] := by
    have := specs_retag x hs
    have e : ([.ident x, .p .semi] : List T).map (retag x) = [.typeName x, .p .semi] := by simp [retag]
    rw [e] at this
    exact .ruOne (.rsDecl (.dcEmpty (.dsMore ((specs_der' this).2 (ts0 := [.kw .typedef]) (.dsOne (.dsStorage (.storage rfl)))) (.dsType .typeName))))
  have hadd : addNames (.decl (.chain ((Kw.typedef :: ws).map .kw)) (.chain [.ident x])) r.ty = fun y => r.ty y || decide (y ∈ [x]) := by
    funext y
    simp [addNames, typedefNames, hasTypedef, declNames]
  obtain ⟨y, s', e, k, ⟨lx', p⟩, up⟩ := parseLine_of (F := F) (cpp := cpp) hw hm ht0 d0 nofun hcpp (by rw [hadd]; exact htx) d
  have hend : ∃ m, Conv E (fun R => R.ev (some y)) s' (.stop (.die m) s') := by
    cases k with
    | decl h1 h2 h3 =>
      cases h3
      cases h2 with
      | chain h4 h5 =>
        obtain ⟨as, bs, rfl, h6, h7⟩ := Parser.rep_append h5
        obtain ⟨z, rfl, h8⟩ := Parser.rep_one h7
        cases h8 with
        | ident h8 => exact evalTypedef h1 h4 (rep_kws h6) h8 (by rw [e.resolveGlobal]; exact hx)
  obtain ⟨m, hend⟩ := hend
  refine ⟨⟨m, _, .ends p hend⟩, ?_⟩
  intro a r' hr'
  have fin : ∀ {z r1 o}, ParseLine F cpp r line (some z) r1 → Conv E (fun R => R.ev (some z)) r1.st o → o = .stop (.die m) s' := by
    intro z r1 o j1 j2
    obtain ⟨a1, a2, _⟩ := up _ _ j1
    cases a1
    rw [a2] at j2
    exact Conv.unique j2 hend
  cases hr' with
  | rejected j => cases (up _ _ j).1
  | value j1 j2 j3 => cases fin j1 j2
  | nothing j1 j2 => cases fin j1 j2
  | ends j1 j2 => cases fin j1 j2; exact ⟨m, rfl⟩


/-! ### Example: `typedef int y;` -/

open TextCheck

def td90 : W89 := [kw .typedef "typedef", sp, kw .int "int", sp, idn [121] name_y, kw .semi ";"]

theorem ok90 : okW td90 = true := by decide +kernel

theorem ends90 (fl : Floats) (F : Str → Nat) : (∃ m r', Line E0 fl F cpp89 r89 (textW td90) (.ends (.die m)) r') ∧
    ∀ a r', Line E0 fl F cpp89 r89 (textW td90) a r' → ∃ m, a = .ends (.die m) :=
  C90_every_typedef_ends (r := r89) (ws := [.int]) (x := [121]) (i := [.p .int, .ident [121], .p .semi]) rfl (stOf_WF _ _ _)
    (by decide +kernel) (.one rfl) (okW_text ok90) (lastLine89 (by decide +kernel)) (okW_text ok90)

/-- C90 is false -/
theorem C90_refuted : ¬ C90_statement := by
  intro h
  obtain ⟨out, r', τ, h1, _⟩ := h E0 ⟨fun _ => [], fun _ _ => []⟩ (fun _ => 0) cpp89 r89 [.int] .int [121] (textW td90) (textW td90)
    [.p .int, .ident [121], .p .semi] rfl (stOf_Sane _ _ _) rfl (by decide +kernel) (.one rfl) ⟨[.int], by decide, by decide⟩
    (okW_ctext ok90) (lastLine89 (by decide +kernel)) (okW_ctext ok90)
  obtain ⟨m, h2⟩ := (ends90 _ _).2 _ _ h1
  cases h2

end Bic.Repl
