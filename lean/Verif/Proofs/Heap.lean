import Verif.Model.Heap
import Verif.Proofs.Prog
/-!
# The objects that `build` makes stand for the tree
-/

namespace Bic.Parser
open Lexer (Str)

mutual
/-- no chain in the tree has a missing element -/
def PT.full : PT → Prop
  | .null | .integer _ | .flt _ | .ident _ | .str _ | .kw _ | .variadic | .empty | .cppInclude _ | .repl | .brk => True
  | .chain ts => PT.fullAll ts
  | .pInc e => e.full
  | .pDec e => e.full
  | .inc e => e.full
  | .dec e => e.full
  | .negate e => e.full
  | .addr e => e.full
  | .deref e => e.full
  | .onesComp e => e.full
  | .sizeof e => e.full
  | .exprList e => e.full
  | .inspect e => e.full
  | .ret e => e.full
  | .fnCall a b => a.full ∧ b.full
  | .arrAccess a b => a.full ∧ b.full
  | .compAccess a b => a.full ∧ b.full
  | .cast a b => a.full ∧ b.full
  | .lOr a b => a.full ∧ b.full
  | .lAnd a b => a.full ∧ b.full
  | .assign a b => a.full ∧ b.full
  | .enumr a b => a.full ∧ b.full
  | .bitfield a b => a.full ∧ b.full
  | .typeSpec a b => a.full ∧ b.full
  | .whileS a b => a.full ∧ b.full
  | .decl a b => a.full ∧ b.full
  | .bin _ a b => a.full ∧ b.full
  | .cmp _ a b => a.full ∧ b.full
  | .compound _ a b => a.full ∧ b.full
  | .«infix» a b c => a.full ∧ b.full ∧ c.full
  | .ifS a b c => a.full ∧ b.full ∧ c.full
  | .fn a b c => a.full ∧ b.full ∧ c.full
  | .pointer _ e => e.full
  | .array a _ b => a.full ∧ b.full
  | .forS a b c d => a.full ∧ b.full ∧ c.full ∧ d.full
def PT.fullAll : List PT → Prop
  | [] => True
  | t :: ts => (t ≠ .null ∧ t.full) ∧ PT.fullAll ts
end

theorem fullAll_append {as bs : List PT} : PT.fullAll (as ++ bs) ↔ PT.fullAll as ∧ PT.fullAll bs := by
  induction as with
  | nil => simp [PT.fullAll]
  | cons a as ih => simp [PT.fullAll, ih, and_assoc]

theorem Rep.mono {nd nd' : TId → Option Node} (h : ∀ t n, nd t = some n → nd' t = some n) {o} (r : Rep nd o) : Rep nd' o := by
  induction r with
  | null => exact .null
  | nil => exact .nil
  | cons _ _ h1 h2 => exact .cons h1 h2
  | integer h1 => exact .integer (h _ _ h1)
  | flt h1 => exact .flt (h _ _ h1)
  | ident h1 => exact .ident (h _ _ h1)
  | str h1 => exact .str (h _ _ h1)
  | kw h1 => exact .kw (h _ _ h1)
  | variadic h1 => exact .variadic (h _ _ h1)
  | empty h1 => exact .empty (h _ _ h1)
  | cppInclude h1 => exact .cppInclude (h _ _ h1)
  | repl h1 => exact .repl (h _ _ h1)
  | brk h1 => exact .brk (h _ _ h1)
  | pInc h1 _ h2 => exact .pInc (h _ _ h1) h2
  | pDec h1 _ h2 => exact .pDec (h _ _ h1) h2
  | inc h1 _ h2 => exact .inc (h _ _ h1) h2
  | dec h1 _ h2 => exact .dec (h _ _ h1) h2
  | negate h1 _ h2 => exact .negate (h _ _ h1) h2
  | addr h1 _ h2 => exact .addr (h _ _ h1) h2
  | deref h1 _ h2 => exact .deref (h _ _ h1) h2
  | onesComp h1 _ h2 => exact .onesComp (h _ _ h1) h2
  | sizeof h1 _ h2 => exact .sizeof (h _ _ h1) h2
  | exprList h1 _ h2 => exact .exprList (h _ _ h1) h2
  | inspect h1 _ h2 => exact .inspect (h _ _ h1) h2
  | ret h1 _ h2 => exact .ret (h _ _ h1) h2
  | pointer h1 _ h2 => exact .pointer (h _ _ h1) h2
  | chain h1 _ h2 => exact .chain (h _ _ h1) h2
  | fnCall h1 _ _ h2 h3 => exact .fnCall (h _ _ h1) h2 h3
  | arrAccess h1 _ _ h2 h3 => exact .arrAccess (h _ _ h1) h2 h3
  | compAccess h1 _ _ h2 h3 => exact .compAccess (h _ _ h1) h2 h3
  | cast h1 _ _ h2 h3 => exact .cast (h _ _ h1) h2 h3
  | lOr h1 _ _ h2 h3 => exact .lOr (h _ _ h1) h2 h3
  | lAnd h1 _ _ h2 h3 => exact .lAnd (h _ _ h1) h2 h3
  | assign h1 _ _ h2 h3 => exact .assign (h _ _ h1) h2 h3
  | enumr h1 _ _ h2 h3 => exact .enumr (h _ _ h1) h2 h3
  | bitfield h1 _ _ h2 h3 => exact .bitfield (h _ _ h1) h2 h3
  | typeSpec h1 _ _ h2 h3 => exact .typeSpec (h _ _ h1) h2 h3
  | whileS h1 _ _ h2 h3 => exact .whileS (h _ _ h1) h2 h3
  | decl h1 _ _ h2 h3 => exact .decl (h _ _ h1) h2 h3
  | bin h1 _ _ h2 h3 => exact .bin (h _ _ h1) h2 h3
  | cmp h1 _ _ h2 h3 => exact .cmp (h _ _ h1) h2 h3
  | compound h1 _ _ h2 h3 => exact .compound (h _ _ h1) h2 h3
  | array h1 _ _ h2 h3 => exact .array (h _ _ h1) h2 h3
  | «infix» h1 _ _ _ h2 h3 h4 => exact .«infix» (h _ _ h1) h2 h3 h4
  | ifS h1 _ _ _ h2 h3 h4 => exact .ifS (h _ _ h1) h2 h3 h4
  | fn h1 _ _ _ h2 h3 h4 => exact .fn (h _ _ h1) h2 h3 h4
  | forS h1 _ _ _ _ h2 h3 h4 h5 => exact .forS (h _ _ h1) h2 h3 h4 h5

variable {F : Str → Nat}

/-- `build` makes the objects of `p` and changes nothing else -/
def Makes (F : Str → Nat) (p : PT) : Prop :=
  ∀ s, WF s → ∃ x s', build F p s = .ok x s' ∧ Ext s s' ∧ Rep s'.nodes (.t p x) ∧ (p ≠ .null → ∃ t, x = some t)

def MakesAll (F : Str → Nat) (ps : List PT) : Prop :=
  ∀ s, WF s → ∃ ls s', buildAll F ps s = .ok ls s' ∧ Ext s s' ∧ Rep s'.nodes (.l ps ls)

theorem leaf_apply (n : Node) (s : St) : leaf n s = .ok (some s.next) (addNode s n) := rfl

theorem makes0 {p : PT} (n : Node) (e : build F p = leaf n) (h : ∀ nd t, nd t = some n → Rep nd (.t p (some t))) : Makes F p := by
  intro s w
  exact ⟨_, _, by rw [e, leaf_apply], addNode_ext w n, h _ _ (addNode_self s n), fun _ => ⟨_, rfl⟩⟩

theorem makes1 {p a : PT} (f : Ref → Node) (ha : Makes F a) (e : build F p = (do let x ← build F a; leaf (f x)))
    (h : ∀ nd t x, nd t = some (f x) → Rep nd (.t a x) → Rep nd (.t p (some t))) : Makes F p := by
  intro s w
  obtain ⟨x, s1, b1, x1, r1, _⟩ := ha s w
  have x2 := addNode_ext (x1.wf w) (f x)
  exact ⟨_, _, by simp [e, b1, leaf_apply], x1.trans x2, h _ _ _ (addNode_self _ _) (r1.mono x2.nodes), fun _ => ⟨_, rfl⟩⟩

theorem makes2 {p a b : PT} (f : Ref → Ref → Node) (ha : Makes F a) (hb : Makes F b)
    (e : build F p = (do let x ← build F a; let y ← build F b; leaf (f x y)))
    (h : ∀ nd t x y, nd t = some (f x y) → Rep nd (.t a x) → Rep nd (.t b y) → Rep nd (.t p (some t))) : Makes F p := by
  intro s w
  obtain ⟨x, s1, b1, x1, r1, _⟩ := ha s w
  obtain ⟨y, s2, b2, x2, r2, _⟩ := hb s1 (x1.wf w)
  have x3 := addNode_ext (x2.wf (x1.wf w)) (f x y)
  exact ⟨_, _, by simp [e, b1, b2, leaf_apply], (x1.trans x2).trans x3,
    h _ _ _ _ (addNode_self _ _) (r1.mono (x2.trans x3).nodes) (r2.mono x3.nodes), fun _ => ⟨_, rfl⟩⟩

theorem makes3 {p a b c : PT} (f : Ref → Ref → Ref → Node) (ha : Makes F a) (hb : Makes F b) (hc : Makes F c)
    (e : build F p = (do let x ← build F a; let y ← build F b; let z ← build F c; leaf (f x y z)))
    (h : ∀ nd t x y z, nd t = some (f x y z) → Rep nd (.t a x) → Rep nd (.t b y) → Rep nd (.t c z) → Rep nd (.t p (some t))) :
    Makes F p := by
  intro s w
  obtain ⟨x, s1, b1, x1, r1, _⟩ := ha s w
  obtain ⟨y, s2, b2, x2, r2, _⟩ := hb s1 (x1.wf w)
  obtain ⟨z, s3, b3, x3, r3, _⟩ := hc s2 (x2.wf (x1.wf w))
  have x4 := addNode_ext (x3.wf (x2.wf (x1.wf w))) (f x y z)
  exact ⟨_, _, by simp [e, b1, b2, b3, leaf_apply], ((x1.trans x2).trans x3).trans x4,
    h _ _ _ _ _ (addNode_self _ _) (r1.mono ((x2.trans x3).trans x4).nodes) (r2.mono (x3.trans x4).nodes) (r3.mono x4.nodes),
    fun _ => ⟨_, rfl⟩⟩

theorem makes4 {p a b c d : PT} (f : Ref → Ref → Ref → Ref → Node) (ha : Makes F a) (hb : Makes F b) (hc : Makes F c) (hd : Makes F d)
    (e : build F p = (do let x ← build F a; let y ← build F b; let z ← build F c; let w ← build F d; leaf (f x y z w)))
    (h : ∀ nd t x y z w, nd t = some (f x y z w) → Rep nd (.t a x) → Rep nd (.t b y) → Rep nd (.t c z) → Rep nd (.t d w) →
      Rep nd (.t p (some t))) : Makes F p := by
  intro s w
  obtain ⟨x, s1, b1, x1, r1, _⟩ := ha s w
  obtain ⟨y, s2, b2, x2, r2, _⟩ := hb s1 (x1.wf w)
  obtain ⟨z, s3, b3, x3, r3, _⟩ := hc s2 (x2.wf (x1.wf w))
  obtain ⟨v, s4, b4, x4, r4, _⟩ := hd s3 (x3.wf (x2.wf (x1.wf w)))
  have x5 := addNode_ext (x4.wf (x3.wf (x2.wf (x1.wf w)))) (f x y z v)
  exact ⟨_, _, by simp [e, b1, b2, b3, b4, leaf_apply], (((x1.trans x2).trans x3).trans x4).trans x5,
    h _ _ _ _ _ _ (addNode_self _ _) (r1.mono (((x2.trans x3).trans x4).trans x5).nodes) (r2.mono ((x3.trans x4).trans x5).nodes)
      (r3.mono (x4.trans x5).nodes) (r4.mono x5.nodes), fun _ => ⟨_, rfl⟩⟩

mutual
/-- the objects of a tree are made -/
theorem build_makes : (p : PT) → p.full → Makes F p
  | .null, _ => fun s _ => ⟨none, s, by rw [build]; rfl, Ext.refl s, .null, fun h => absurd rfl h⟩
  | .integer v, _ => makes0 (.integer v) (by rw [build]) fun _ _ h => .integer h
  | .flt s, _ => makes0 (.flt (F s)) (by rw [build]) fun _ _ h => .flt h
  | .ident s, _ => makes0 (.ident (nameStr s)) (by rw [build]) fun _ _ h => .ident h
  | .str s, _ => makes0 (.str (s.map byteOf)) (by rw [build]) fun _ _ h => .str h
  | .kw k, _ => makes0 (.kw k) (by rw [build]) fun _ _ h => .kw h
  | .cppInclude s, _ => makes0 (.cppInclude (nameStr s)) (by rw [build]) fun _ _ h => .cppInclude h
  | .variadic, _ => makes0 .variadic (by rw [build]) fun _ _ h => .variadic h
  | .empty, _ => makes0 .empty (by rw [build]) fun _ _ h => .empty h
  | .repl, _ => makes0 .repl (by rw [build]) fun _ _ h => .repl h
  | .brk, _ => makes0 .brk (by rw [build]) fun _ _ h => .brk h
  | .pInc a, h => makes1 .pInc (build_makes a (by simpa [PT.full] using h)) (by rw [build]) fun _ _ _ h1 h2 => .pInc h1 h2
  | .pDec a, h => makes1 .pDec (build_makes a (by simpa [PT.full] using h)) (by rw [build]) fun _ _ _ h1 h2 => .pDec h1 h2
  | .inc a, h => makes1 .inc (build_makes a (by simpa [PT.full] using h)) (by rw [build]) fun _ _ _ h1 h2 => .inc h1 h2
  | .dec a, h => makes1 .dec (build_makes a (by simpa [PT.full] using h)) (by rw [build]) fun _ _ _ h1 h2 => .dec h1 h2
  | .negate a, h => makes1 .negate (build_makes a (by simpa [PT.full] using h)) (by rw [build]) fun _ _ _ h1 h2 => .negate h1 h2
  | .addr a, h => makes1 .addr (build_makes a (by simpa [PT.full] using h)) (by rw [build]) fun _ _ _ h1 h2 => .addr h1 h2
  | .deref a, h => makes1 .deref (build_makes a (by simpa [PT.full] using h)) (by rw [build]) fun _ _ _ h1 h2 => .deref h1 h2
  | .onesComp a, h => makes1 .onesComp (build_makes a (by simpa [PT.full] using h)) (by rw [build]) fun _ _ _ h1 h2 => .onesComp h1 h2
  | .sizeof a, h => makes1 .sizeof (build_makes a (by simpa [PT.full] using h)) (by rw [build]) fun _ _ _ h1 h2 => .sizeof h1 h2
  | .exprList a, h => makes1 .exprList (build_makes a (by simpa [PT.full] using h)) (by rw [build]) fun _ _ _ h1 h2 => .exprList h1 h2
  | .inspect a, h => makes1 .inspect (build_makes a (by simpa [PT.full] using h)) (by rw [build]) fun _ _ _ h1 h2 => .inspect h1 h2
  | .ret a, h => makes1 .ret (build_makes a (by simpa [PT.full] using h)) (by rw [build]) fun _ _ _ h1 h2 => .ret h1 h2
  | .pointer _ a, h => makes1 .pointer (build_makes a (by simpa [PT.full] using h)) (by rw [build]) fun _ _ _ h1 h2 => .pointer h1 h2
  | .fnCall a b, h => by
    simp only [PT.full] at h
    exact makes2 .fnCall (build_makes a h.1) (build_makes b h.2) (by rw [build]) fun _ _ _ _ h1 h2 h3 => .fnCall h1 h2 h3
  | .arrAccess a b, h => by
    simp only [PT.full] at h
    exact makes2 .arrAccess (build_makes a h.1) (build_makes b h.2) (by rw [build]) fun _ _ _ _ h1 h2 h3 => .arrAccess h1 h2 h3
  | .compAccess a b, h => by
    simp only [PT.full] at h
    exact makes2 .compAccess (build_makes a h.1) (build_makes b h.2) (by rw [build]) fun _ _ _ _ h1 h2 h3 => .compAccess h1 h2 h3
  | .cast a b, h => by
    simp only [PT.full] at h
    exact makes2 .cast (build_makes a h.1) (build_makes b h.2) (by rw [build]) fun _ _ _ _ h1 h2 h3 => .cast h1 h2 h3
  | .lOr a b, h => by
    simp only [PT.full] at h
    exact makes2 .lOr (build_makes a h.1) (build_makes b h.2) (by rw [build]) fun _ _ _ _ h1 h2 h3 => .lOr h1 h2 h3
  | .lAnd a b, h => by
    simp only [PT.full] at h
    exact makes2 .lAnd (build_makes a h.1) (build_makes b h.2) (by rw [build]) fun _ _ _ _ h1 h2 h3 => .lAnd h1 h2 h3
  | .assign a b, h => by
    simp only [PT.full] at h
    exact makes2 .assign (build_makes a h.1) (build_makes b h.2) (by rw [build]) fun _ _ _ _ h1 h2 h3 => .assign h1 h2 h3
  | .enumr a b, h => by
    simp only [PT.full] at h
    exact makes2 .enumr (build_makes a h.1) (build_makes b h.2) (by rw [build]) fun _ _ _ _ h1 h2 h3 => .enumr h1 h2 h3
  | .bitfield a b, h => by
    simp only [PT.full] at h
    exact makes2 .bitfield (build_makes a h.1) (build_makes b h.2) (by rw [build]) fun _ _ _ _ h1 h2 h3 => .bitfield h1 h2 h3
  | .typeSpec a b, h => by
    simp only [PT.full] at h
    exact makes2 .typeSpec (build_makes a h.1) (build_makes b h.2) (by rw [build]) fun _ _ _ _ h1 h2 h3 => .typeSpec h1 h2 h3
  | .whileS a b, h => by
    simp only [PT.full] at h
    exact makes2 .whileS (build_makes a h.1) (build_makes b h.2) (by rw [build]) fun _ _ _ _ h1 h2 h3 => .whileS h1 h2 h3
  | .bin o a b, h => by
    simp only [PT.full] at h
    exact makes2 (.bin o) (build_makes a h.1) (build_makes b h.2) (by rw [build]) fun _ _ _ _ h1 h2 h3 => .bin h1 h2 h3
  | .cmp o a b, h => by
    simp only [PT.full] at h
    exact makes2 (.cmp o) (build_makes a h.1) (build_makes b h.2) (by rw [build]) fun _ _ _ _ h1 h2 h3 => .cmp h1 h2 h3
  | .decl a b, h => by
    simp only [PT.full] at h
    exact makes2 (.decl · · 0) (build_makes a h.1) (build_makes b h.2) (by rw [build]) fun _ _ _ _ h1 h2 h3 => .decl h1 h2 h3
  | .compound o a b, h => by
    simp only [PT.full] at h
    exact makes2 (.compound · · 0 false o) (build_makes a h.1) (build_makes b h.2) (by rw [build]) fun _ _ _ _ h1 h2 h3 => .compound h1 h2 h3
  | .array a _ b, h => by
    simp only [PT.full] at h
    exact makes2 .array (build_makes a h.1) (build_makes b h.2) (by rw [build]) fun _ _ _ _ h1 h2 h3 => .array h1 h2 h3
  | .«infix» a b c, h => by
    simp only [PT.full] at h
    exact makes3 .infix (build_makes a h.1) (build_makes b h.2.1) (build_makes c h.2.2) (by rw [build]) fun _ _ _ _ _ h1 h2 h3 h4 => .«infix» h1 h2 h3 h4
  | .ifS a b c, h => by
    simp only [PT.full] at h
    exact makes3 .ifS (build_makes a h.1) (build_makes b h.2.1) (build_makes c h.2.2) (by rw [build]) fun _ _ _ _ _ h1 h2 h3 h4 => .ifS h1 h2 h3 h4
  | .fn a b c, h => by
    simp only [PT.full] at h
    exact makes3 (.fn · · none ·) (build_makes a h.1) (build_makes b h.2.1) (build_makes c h.2.2) (by rw [build]) fun _ _ _ _ _ h1 h2 h3 h4 => .fn h1 h2 h3 h4
  | .forS a b c d, h => by
    simp only [PT.full] at h
    exact makes4 .forS (build_makes a h.1) (build_makes b h.2.1) (build_makes c h.2.2.1) (build_makes d h.2.2.2) (by rw [build])
      fun _ _ _ _ _ _ h1 h2 h3 h4 h5 => .forS h1 h2 h3 h4 h5
  | .chain ts, h => by
    intro s w
    obtain ⟨ls, s1, b1, x1, r1⟩ := buildAll_makes ts (by simpa [PT.full] using h) s w
    have x2 := addNode_ext (x1.wf w) (.chain ls)
    exact ⟨_, _, by rw [build]; simp [b1, leaf_apply], x1.trans x2, .chain (addNode_self _ _) (r1.mono x2.nodes), fun _ => ⟨_, rfl⟩⟩
theorem buildAll_makes : (ps : List PT) → PT.fullAll ps → MakesAll F ps
  | [], _ => fun s _ => ⟨[], s, by rw [buildAll]; rfl, Ext.refl s, .nil⟩
  | p :: ps, h => by
    intro s w
    simp only [PT.fullAll] at h
    obtain ⟨x, s1, b1, x1, r1, n1⟩ := build_makes p h.1.2 s w
    obtain ⟨t, rfl⟩ := n1 h.1.1
    obtain ⟨ls, s2, b2, x2, r2⟩ := buildAll_makes ps h.2 s1 (x1.wf w)
    exact ⟨t :: ls, s2, by rw [buildAll]; simp [b1, b2], x1.trans x2, .cons (r1.mono x2.nodes) r2⟩
end

theorem binAction_full {l k f a b} (hk : binAction l k = some f) (ha : PT.full a) (hb : PT.full b) :
    f a b ≠ .null ∧ (f a b).full := by
  unfold binAction at hk
  split at hk <;> simp only [Option.some.injEq, reduceCtorEq] at hk <;> subst hk <;> simp [PT.full, ha, hb]

theorem unaryAction_full {k f a} (hk : unaryAction k = some f) (ha : PT.full a) : f a ≠ .null ∧ (f a).full := by
  unfold unaryAction at hk
  split at hk <;> simp only [Option.some.injEq, reduceCtorEq] at hk <;> subst hk <;> simp [PT.full, ha]

theorem assignAction_full {k f a b} (hk : assignAction k = some f) (ha : PT.full a) (hb : PT.full b) :
    f a b ≠ .null ∧ (f a b).full := by
  unfold assignAction at hk
  split at hk <;> simp only [Option.some.injEq, reduceCtorEq] at hk <;> subst hk <;> simp [PT.full, ha, hb]

theorem fillPtr_full : (p d : PT) → p ≠ .null → p.full → d.full → fillPtr p d ≠ .null ∧ (fillPtr p d).full
  | .pointer q e, d, _, h, hd => by
    by_cases he : e = .null
    · subst he; rw [fillPtr]; simp [PT.full, hd]
    · have := fillPtr_full e d he (by simpa [PT.full] using h) hd
      have e2 : fillPtr (.pointer q e) d = .pointer q (fillPtr e d) := by
        cases e <;> first | exact absurd rfl he | rfl
      rw [e2]
      simp [PT.full, this.2]
  | .null, _, h, _, _ => absurd rfl h
  | .integer _, _, _, h, _ | .flt _, _, _, h, _ | .ident _, _, _, h, _ | .str _, _, _, h, _ | .kw _, _, _, h, _ | .variadic, _, _, h, _
  | .empty, _, _, h, _ | .cppInclude _, _, _, h, _ | .repl, _, _, h, _ | .brk, _, _, h, _ | .chain _, _, _, h, _
  | .pInc _, _, _, h, _ | .pDec _, _, _, h, _ | .inc _, _, _, h, _ | .dec _, _, _, h, _ | .negate _, _, _, h, _ | .addr _, _, _, h, _
  | .deref _, _, _, h, _ | .onesComp _, _, _, h, _ | .sizeof _, _, _, h, _ | .exprList _, _, _, h, _ | .inspect _, _, _, h, _
  | .ret _, _, _, h, _ | .fnCall _ _, _, _, h, _ | .arrAccess _ _, _, _, h, _ | .compAccess _ _, _, _, h, _ | .cast _ _, _, _, h, _
  | .lOr _ _, _, _, h, _ | .lAnd _ _, _, _, h, _ | .assign _ _, _, _, h, _ | .enumr _ _, _, _, h, _ | .bitfield _ _, _, _, h, _
  | .typeSpec _ _, _, _, h, _ | .whileS _ _, _, _, h, _ | .bin _ _ _, _, _, h, _ | .cmp _ _ _, _, _, h, _ | .decl _ _, _, _, h, _
  | .compound _ _ _, _, _, h, _ | .array _ _ _, _, _, h, _ | .infix _ _ _, _, _, h, _ | .ifS _ _ _, _, _, h, _ | .fn _ _ _, _, _, h, _
  | .forS _ _ _ _, _, _, h, _ => ⟨nofun, h⟩

theorem setStmts_full {d b t : PT} (h : setStmts d b = some t) (hd : d.full) (hb : b.full) : t ≠ .null ∧ t.full := by
  cases d <;> simp only [setStmts, Option.some.injEq, reduceCtorEq] at h
  subst h
  simp only [PT.full] at hd ⊢
  exact ⟨nofun, hd.1, hd.2.1, hb⟩

/-- the trees of the grammar have no holes -/
theorem der_full {N i t r} (h : Der N i t r) : t ≠ .null ∧ t.full := by
  induction h with
  | uOp h _ ih => exact unaryAction_full h ih.2
  | bOp _ h _ ih1 ih2 => exact binAction_full h ih1.2 ih2.2
  | asOp _ h _ ih1 ih2 => exact assignAction_full h ih1.2 ih2.2
  | dPtr _ _ ih1 ih2 => exact fillPtr_full _ _ ih1.1 ih1.2 ih2.2
  | abBoth _ _ ih1 ih2 => exact fillPtr_full _ _ ih1.1 ih1.2 ih2.2
  | fdOld _ _ _ _ h ih1 ih2 _ ih4 =>
    refine ⟨nofun, ?_⟩
    simp only [PT.full, PT.fullAll, and_true]
    exact ⟨ih1.2, setStmts_full h ih2.2 ih4.2⟩
  | fdNew _ _ _ h ih1 ih2 ih4 =>
    refine ⟨nofun, ?_⟩
    simp only [PT.full, PT.fullAll, and_true]
    exact ⟨ih1.2, setStmts_full h ih2.2 ih4.2⟩
  | _ =>
    first
    | assumption
    | (refine ⟨nofun, ?_⟩
       simp only [PT.full, PT.fullAll, fullAll_append, and_true, true_and] at *
       first
       | done
       | (simp only [*, and_self, ne_eq, not_false_eq_true, true_and, and_true]; done)
       | simp_all)

end Bic.Parser
