import Verif.Spec.LangDesc
/-! # Reading a language description: lemmas -/

namespace Bic.LangGen
open Spec

/-! ## The effect of a form -/

/-- the properties of a type, one after the other -/
def addProps : List PropDecl → PropSt → Option PropSt
  | [], s => some s
  | ⟨n, .tree⟩ :: l, s => addProps l (addTree n s)
  | ⟨n, .data k⟩ :: l, s => (addData n k s).bind (addProps l)

def startProps (l : Lang) : PropSt := ⟨l.pools, l.treePool, l.pools.map fun e => (e.1, e.2.pool), l.treePool.pool, []⟩

/-- the type itself and the description with the new fields -/
def addBody (n fr : String) (l : Lang) : Option Body → Option (Lang × TreeType)
  | none => some (l, ⟨n, fr, "", []⟩)
  | some b => (addProps b.props (startProps l)).map fun s => ({ l with pools := s.pools, treePool := s.treePool }, ⟨n, fr, b.pre, s.props⟩)

def addBases : List (String × String) → Lang → Lang
  | [], l => l
  | (n, t) :: bs, l => addBases bs { l with pools := insert n ⟨⟨t, n, false⟩, []⟩ l.pools }

def apply (l : Lang) : Form → Option Lang
  | .base bs => some (addBases bs l)
  | .type n fr b => (addBody n fr l b).map fun r => { r.1 with treeTypes := r.1.treeTypes ++ [r.2] }
  | .ctype n fr c fmt mem ffi b => (addBody n fr l b).map fun r => { r.1 with treeCTypes := r.1.treeCTypes ++ [⟨r.2, c, fmt, mem, ffi⟩] }
  | .spec n ls => some { l with specMaps := l.specMaps ++ [⟨n, ls⟩] }
  | .ignore x => some { l with ignored := l.ignored ++ [x] }
  | .self x => some { l with selfs := l.selfs ++ [x] }

def applyAll : List Form → Lang → Option Lang
  | [], l => some l
  | f :: d, l => (apply l f).bind (applyAll d)

/-! ## The parser reads what is written -/

theorem parseBaseTypes_toks (bs : List (String × String)) (l : Lang) (ts : List Tok) :
    parseBaseTypes (baseToks bs ++ ts) l = .ok (addBases bs l, ts) := by
  induction bs generalizing l with
  | nil => rfl
  | cons e bs ih => exact ih _

/-- an outcome of the parser -/
def res {α : Type} : Option α → Res α
  | some a => .ok a
  | none => .thrown

theorem parseProps_toks (ps : List PropDecl) (s : PropSt) (ts : List Tok) :
    parseProps (propToks ps ++ ts) s = res ((addProps ps s).map (·, ts)) := by
  induction ps generalizing s with
  | nil => rfl
  | cons p ps ih =>
    obtain ⟨n, k⟩ := p
    cases k with
    | tree => exact ih _
    | data k =>
      show (match addData n k s with | some s' => parseProps (propToks ps ++ ts) s' | none => .thrown) = _
      unfold addProps
      cases addData n k s with
      | none => rfl
      | some s' => exact ih s'

theorem parseTypeTail_toks (b : Option Body) (n fr : String) (l : Lang) (ts : List Tok) :
    parseTypeTail (bodyToks b ++ ts) n fr l = res ((addBody n fr l b).map fun r => (r.1, r.2, ts)) := by
  cases b with
  | none => rfl
  | some b =>
    show (match parsePropList (.str b.pre :: .lp :: ((propToks b.props ++ [.rp]) ++ ts)) l with
      | .ok (l, pre, props, .rp :: ts) => Res.ok (l, (⟨n, fr, pre, props⟩ : TreeType), ts)
      | .ok _ => .error
      | .error => .error
      | .thrown => .thrown) = _
    rw [parsePropList, List.append_assoc, parseProps_toks]
    simp only [addBody, startProps]
    cases addProps b.props ⟨l.pools, l.treePool, l.pools.map fun e => (e.1, e.2.pool), l.treePool.pool, []⟩ <;> rfl

theorem parseSpecList_toks (xs acc : List String) (ts : List Tok) :
    parseSpecList (xs.map Tok.ident ++ (.rp :: ts)) acc = .ok (acc ++ xs, ts) := by
  induction xs generalizing acc with
  | nil => simp [parseSpecList]
  | cons x xs ih => simp [parseSpecList, ih]

theorem parseSpecLists_toks (ls acc : List (List String)) (ts : List Tok) (n : Nat) (hn : ls.length ≤ n) :
    parseSpecLists n (ls.flatMap listToks ++ (.rp :: ts)) acc = .ok (acc ++ ls, ts) := by
  induction ls generalizing acc n with
  | nil => cases n <;> simp [parseSpecLists]
  | cons x ls ih =>
    obtain ⟨n, rfl⟩ : ∃ m, n = m + 1 := ⟨n - 1, by simp at hn; omega⟩
    simp only [List.flatMap_cons, listToks, List.cons_append, List.append_assoc, List.nil_append, parseSpecLists]
    rw [parseSpecList_toks]
    simp only [List.nil_append]
    rw [ih _ _ (by simpa using hn)]
    simp

theorem parseForm_toks (f : Form) (l : Lang) (ts : List Tok) :
    ∃ us, f.toks = .lp :: us ∧ parseForm (us ++ ts) l = res ((apply l f).map (·, ts)) := by
  cases f with
  | base bs => exact ⟨_, rfl, parseBaseTypes_toks bs l ts⟩
  | type n fr b =>
    refine ⟨_, rfl, ?_⟩
    show parseType (.ident n :: .str fr :: (bodyToks b ++ ts)) l = _
    rw [parseType, parseTypeTail_toks]
    simp only [apply]
    cases addBody n fr l b <;> rfl
  | ctype n fr c fmt mem ffi b =>
    refine ⟨_, rfl, ?_⟩
    show parseCType (.ident n :: .str fr :: .str c :: .str fmt :: .str mem :: .ident ffi :: (bodyToks b ++ ts)) l = _
    rw [parseCType, parseTypeTail_toks]
    simp only [apply]
    cases addBody n fr l b <;> rfl
  | spec n ls =>
    refine ⟨_, rfl, ?_⟩
    show parseSpecifier (.ident n :: .lp :: ((ls.flatMap listToks ++ [.rp, .rp]) ++ ts)) l = _
    rw [parseSpecifier, List.append_assoc]
    show (match parseSpecLists _ (ls.flatMap listToks ++ (.rp :: .rp :: ts)) [] with
      | .ok (xs, .rp :: ts) => Res.ok ({ l with specMaps := l.specMaps ++ [(⟨n, xs⟩ : SpecifierMap)] }, ts)
      | .thrown => .thrown
      | _ => .error) = _
    rw [parseSpecLists_toks]
    · rfl
    · have : ls.length ≤ (ls.flatMap listToks).length := by
        induction ls with
        | nil => simp
        | cons x ls ih => simp only [List.flatMap_cons, List.length_append, listToks, List.length_cons] at ih ⊢; omega
      simp only [List.length_append]
      omega
  | ignore x => exact ⟨_, rfl, rfl⟩
  | self x => exact ⟨_, rfl, rfl⟩

theorem parseN_toks (d : List Form) (l : Lang) (n : Nat) (hn : d.length ≤ n) :
    parseN n (d.flatMap Form.toks) l = res (applyAll d l) := by
  induction d generalizing l n with
  | nil => cases n <;> rfl
  | cons f d ih =>
    obtain ⟨n, rfl⟩ : ∃ m, n = m + 1 := ⟨n - 1, by simp at hn; omega⟩
    obtain ⟨us, e, h⟩ := parseForm_toks f l (d.flatMap Form.toks)
    rw [List.flatMap_cons, e]
    show (match parseForm (us ++ d.flatMap Form.toks) l with
      | .ok (l, ts) => parseN n ts l
      | .error => .error
      | .thrown => .thrown) = _
    rw [h, applyAll]
    cases apply l f with
    | none => rfl
    | some l' => exact ih l' n (by simpa using hn)

theorem parse_toks (d : List Form) : parse (d.flatMap Form.toks) = res (applyAll d Lang.empty) := by
  refine parseN_toks d _ _ ?_
  induction d with
  | nil => simp
  | cons f d ih =>
    obtain ⟨us, e, _⟩ := parseForm_toks f Lang.empty []
    simp only [List.flatMap_cons, e, List.length_append, List.length_cons]
    omega

/-! ## Everything the parser accepts is written that way -/

theorem parseBaseTypes_inv (ts : List Tok) (l : Lang) {r} (h : parseBaseTypes ts l = .ok r) : ∃ bs, ts = baseToks bs ++ r.2 := by
  induction ts, l using parseBaseTypes.induct with
  | case1 ts l => cases h; exact ⟨[], rfl⟩
  | case2 n t ts l ih =>
    rw [parseBaseTypes] at h
    obtain ⟨bs, e⟩ := ih h
    exact ⟨(n, t) :: bs, by simp [baseToks, ← e]⟩
  | case3 ts l h1 h2 => rw [parseBaseTypes] at h; · cases h
                        · exact h1
                        · exact h2

theorem parseProps_inv (ts : List Tok) (s : PropSt) {r} (h : parseProps ts s = .ok r) : ∃ ps, ts = propToks ps ++ r.2 := by
  induction ts, s using parseProps.induct with
  | case1 ts s => cases h; exact ⟨[], rfl⟩
  | case2 n k ts s s' hs ih =>
    rw [parseProps, hs] at h
    obtain ⟨ps, e⟩ := ih h
    exact ⟨⟨n, .data k⟩ :: ps, by simp [propToks, ← e]⟩
  | case3 n k ts s hs => rw [parseProps, hs] at h; cases h
  | case4 n ts s ih =>
    rw [parseProps] at h
    obtain ⟨ps, e⟩ := ih h
    exact ⟨⟨n, .tree⟩ :: ps, by simp [propToks, ← e]⟩
  | case5 ts s h1 h2 h3 => rw [parseProps] at h; · cases h
                           · exact h1
                           · exact h2
                           · exact h3

theorem parseTypeTail_inv (ts : List Tok) (n fr : String) (l : Lang) {r} (h : parseTypeTail ts n fr l = .ok r) :
    ∃ b, ts = bodyToks b ++ r.2.2 := by
  unfold parseTypeTail at h
  split at h
  · cases h; exact ⟨none, rfl⟩
  · split at h
    · rename_i l' pre props ts' hp
      cases h
      unfold parsePropList at hp
      split at hp
      · rename_i pre' us
        split at hp
        · rename_i s us' hs
          cases hp
          obtain ⟨ps, e⟩ := parseProps_inv _ _ hs
          exact ⟨some ⟨pre, ps⟩, by simp [bodyToks, e]⟩
        · cases hp
        · cases hp
      · cases hp
    all_goals cases h

theorem parseSpecList_inv (ts : List Tok) (acc : List String) {r} (h : parseSpecList ts acc = .ok r) :
    ∃ xs : List String, ts = xs.map Tok.ident ++ (.rp :: r.2) := by
  induction ts, acc using parseSpecList.induct with
  | case1 ts acc => cases h; exact ⟨[], rfl⟩
  | case2 x ts acc ih =>
    rw [parseSpecList] at h
    obtain ⟨xs, e⟩ := ih h
    exact ⟨x :: xs, by simp [e]⟩
  | case3 ts acc h1 h2 => rw [parseSpecList] at h; · cases h
                          · exact h1
                          · exact h2

theorem parseSpecLists_inv (n : Nat) (ts : List Tok) (acc : List (List String)) {r} (h : parseSpecLists n ts acc = .ok r) :
    ∃ ls : List (List String), ts = ls.flatMap listToks ++ (.rp :: r.2) := by
  induction n, ts, acc using parseSpecLists.induct with
  | case1 n ts acc => rw [parseSpecLists] at h; cases h; exact ⟨[], rfl⟩
  | case2 acc n ts x us hs ih =>
    rw [parseSpecLists, hs] at h
    obtain ⟨ls, e⟩ := ih h
    obtain ⟨xs, e'⟩ := parseSpecList_inv _ _ hs
    exact ⟨xs :: ls, by simp [listToks, e', e]⟩
  | case3 acc n ts hs => rw [parseSpecLists, hs] at h; cases h
  | case4 acc n ts hs => rw [parseSpecLists, hs] at h; cases h
  | case5 n ts acc h1 h2 => rw [parseSpecLists] at h; · cases h
                            · exact h1
                            · exact h2

theorem parseForm_inv (ts : List Tok) (l : Lang) {r} (h : parseForm ts l = .ok r) : ∃ f : Form, .lp :: ts = f.toks ++ r.2 := by
  unfold parseForm at h
  split at h
  · rename_i ts
    unfold parseType at h
    split at h
    · rename_i n fr ts
      split at h
      · rename_i l' t us hs
        cases h
        obtain ⟨b, e⟩ := parseTypeTail_inv _ _ _ _ hs
        exact ⟨.type n fr b, by simp [Form.toks, e]⟩
      all_goals cases h
    · cases h
  · rename_i ts
    unfold parseCType at h
    split at h
    · rename_i n fr c fmt mem ffi ts
      split at h
      · rename_i l' t us hs
        cases h
        obtain ⟨b, e⟩ := parseTypeTail_inv _ _ _ _ hs
        exact ⟨.ctype n fr c fmt mem ffi b, by simp [Form.toks, e]⟩
      all_goals cases h
    · cases h
  · obtain ⟨bs, e⟩ := parseBaseTypes_inv _ _ h
    exact ⟨.base bs, by simp [Form.toks, e]⟩
  · rename_i ts
    unfold parseSpecifier at h
    split at h
    · rename_i n ts
      split at h
      · rename_i xs us hs
        cases h
        obtain ⟨ls, e⟩ := parseSpecLists_inv _ _ _ hs
        exact ⟨.spec n ls, by simp [Form.toks, e]⟩
      all_goals cases h
    · cases h; exact ⟨.ignore _, rfl⟩
    · cases h; exact ⟨.self _, rfl⟩
    · cases h
  · cases h

theorem parseN_inv (n : Nat) (ts : List Tok) (l : Lang) {r} (h : parseN n ts l = .ok r) : ∃ d : List Form, ts = d.flatMap Form.toks := by
  induction n, ts, l using parseN.induct with
  | case1 n l => exact ⟨[], rfl⟩
  | case2 l n ts l' us hs ih =>
    rw [parseN, hs] at h
    obtain ⟨d, e⟩ := ih h
    obtain ⟨f, e'⟩ := parseForm_inv _ _ hs
    exact ⟨f :: d, by rw [List.flatMap_cons, e', ← e]⟩
  | case3 l n ts hs => rw [parseN, hs] at h; cases h
  | case4 l n ts hs => rw [parseN, hs] at h; cases h
  | case5 n ts l h1 h2 => rw [parseN] at h; · cases h
                          · exact h1
                          · exact h2

/-- what the parser accepts is a description, and it is read as `applyAll` says -/
theorem parse_inv {ts : List Tok} {r : Lang} (h : parse ts = .ok r) :
    ∃ d : List Form, ts = d.flatMap Form.toks ∧ applyAll d Lang.empty = some r := by
  obtain ⟨d, rfl⟩ := parseN_inv _ _ _ h
  refine ⟨d, rfl, ?_⟩
  rw [parse_toks] at h
  cases e : applyAll d Lang.empty <;> rw [e] at h <;> cases h
  rfl

/-! ## Fields -/

/-- the `j`-th field of a base type -/
def mkInst (b : BaseType) (j : Nat) : Inst := ⟨b.name ++ toString j, b⟩

/-- a pool that has given out `n` fields -/
def mkPool (b : BaseType) (n : Nat) : Pool := ⟨b, (List.range n).map (mkInst b)⟩

theorem mkPool_alloc (b : BaseType) (n : Nat) : (mkPool b n).alloc = (mkInst b n, mkPool b (n + 1)) := by
  simp [Pool.alloc, mkPool, mkInst, List.range_succ]

theorem allocFrom_mkPool (b : BaseType) {n u : Nat} (h : u ≤ n) :
    allocFrom (mkPool b n) ((mkPool b n).pool.drop u) =
      (mkInst b u, mkPool b (max n (u + 1)), (mkPool b (max n (u + 1))).pool.drop (u + 1)) := by
  by_cases hu : u = n
  · subst hu
    have h1 : (mkPool b u).pool.drop u = [] := by simp [mkPool]
    have h2 : max u (u + 1) = u + 1 := by omega
    have h3 : (mkPool b (u + 1)).pool.drop (u + 1) = [] := by simp [mkPool]
    rw [h1, h2, h3]
    simp [allocFrom, mkPool_alloc]
  · have hlt : u < n := by omega
    have h1 : (mkPool b n).pool.drop u = mkInst b u :: (mkPool b n).pool.drop (u + 1) := by
      have hl : u < (mkPool b n).pool.length := by simpa [mkPool] using hlt
      rw [List.drop_eq_getElem_cons hl]
      simp [mkPool]
    have h2 : max n (u + 1) = n := by omega
    rw [h2, h1]
    rfl

/-- the base type of a kind of property, given the C types of the base types -/
def baseOf (cty : String → String) : Kind → BaseType
  | .tree => ⟨"tree", "t", true⟩
  | .data k => ⟨cty k, k, false⟩

def KindKnown (keys : List String) : Kind → Prop
  | .tree => True
  | .data k => k ∈ keys

def upd (f : Kind → Nat) (k : Kind) (v : Nat) : Kind → Nat := fun x => if x = k then v else f x

theorem lookup_keys {α : Type} (keys : List String) (f : String → α) (k : String) :
    (keys.map fun k => (k, f k)).lookup k = if k ∈ keys then some (f k) else none := by
  induction keys with
  | nil => rfl
  | cons a keys ih =>
    simp only [List.map_cons, List.lookup_cons, ih]
    by_cases h : k = a
    · subst h; simp
    · have : (k == a) = false := by simpa using h
      simp [this, h]

theorem update_keys {α : Type} (keys : List String) (f : String → α) (k : String) (v : α) :
    update k v (keys.map fun k => (k, f k)) = keys.map fun x => (x, if x = k then v else f x) := by
  simp only [update, List.map_map]
  refine List.map_congr_left fun x _ => ?_
  by_cases h : x = k <;> simp [h]

abbrev Slot := Kind × Nat

/-- the field of a slot -/
def instOf (cty : String → String) (s : Slot) : Inst := mkInst (baseOf cty s.1) s.2

/-- the properties `props` are kept in the slots `sl`, which are all different, below the bound `u`, and of known kinds -/
structure Slots (keys : List String) (cty : String → String) (u : Kind → Nat) (props : List (String × Inst)) (sl : List (String × Slot)) : Prop where
  props : props = sl.map fun e => (e.1, instOf cty e.2)
  names : (sl.map (·.1)).Nodup
  slots : (sl.map (·.2)).Nodup
  known : ∀ e ∈ sl, KindKnown keys e.2.1
  below : ∀ e ∈ sl, e.2.2 < u e.2.1

/-- the state of `parsePropList`: `n` fields exist, `u` of them are used by the type -/
structure PRep (keys : List String) (cty : String → String) (n u : Kind → Nat) (s : PropSt) (sl : List (String × Slot)) : Prop where
  pools : s.pools = keys.map fun k => (k, mkPool (baseOf cty (.data k)) (n (.data k)))
  treePool : s.treePool = mkPool (baseOf cty .tree) (n .tree)
  allocs : s.allocs = keys.map fun k => (k, (mkPool (baseOf cty (.data k)) (n (.data k))).pool.drop (u (.data k)))
  treeCur : s.treeCur = (mkPool (baseOf cty .tree) (n .tree)).pool.drop (u .tree)
  le : ∀ k, u k ≤ n k
  slots : Slots keys cty u s.props sl

/-- the slots after one more property -/
def addSlot (p : String) (s : Slot) (sl : List (String × Slot)) : List (String × Slot) := insert p s sl

theorem Slots.add {keys cty u props sl} (h : Slots keys cty u props sl) (p : String) (k : Kind) (hk : KindKnown keys k) :
    Slots keys cty (upd u k (u k + 1)) (insert p (instOf cty (k, u k)) props) (addSlot p (k, u k) sl) := by
  have below : ∀ e ∈ sl, e.2.2 < upd u k (u k + 1) e.2.1 := by
    intro e he
    have := h.below e he
    unfold upd
    split
    · rename_i hx; rw [hx] at this; omega
    · exact this
  have hany : props.any (·.1 == p) = sl.any (·.1 == p) := by rw [h.props]; simp [List.any_map, Function.comp_def]
  unfold insert addSlot insert
  rw [hany]
  split
  · exact ⟨h.props, h.names, h.slots, h.known, below⟩
  · rename_i hn
    have hn : ∀ e ∈ sl, e.1 ≠ p := fun e he hp => hn (List.any_eq_true.mpr ⟨e, he, by simpa using hp⟩)
    refine ⟨by simp [h.props], ?_, ?_, ?_, ?_⟩
    · rw [List.map_append, List.nodup_append]
      refine ⟨h.names, by simp, ?_⟩
      intro a ha b hb
      obtain ⟨e, he, rfl⟩ := List.mem_map.mp ha
      obtain rfl : b = p := by simpa using hb
      exact hn e he
    · rw [List.map_append, List.nodup_append]
      refine ⟨h.slots, by simp, ?_⟩
      intro a ha b hb
      obtain ⟨e, he, rfl⟩ := List.mem_map.mp ha
      obtain rfl : b = (k, u k) := by simpa using hb
      intro heq
      have := h.below e he
      rw [heq] at this
      simp at this
    · intro e he
      rcases List.mem_append.mp he with he | he
      · exact h.known e he
      · obtain rfl : e = (p, k, u k) := by simpa using he
        exact hk
    · intro e he
      rcases List.mem_append.mp he with he | he
      · exact below e he
      · obtain rfl : e = (p, k, u k) := by simpa using he
        simp [upd]

theorem PRep.addTree {keys cty n u s sl} (h : PRep keys cty n u s sl) (p : String) :
    PRep keys cty (upd n .tree (max (n .tree) (u .tree + 1))) (upd u .tree (u .tree + 1)) (addTree p s) (addSlot p (.tree, u .tree) sl) := by
  unfold LangGen.addTree
  rw [h.treePool, h.treeCur, allocFrom_mkPool _ (h.le _)]
  refine ⟨?_, ?_, ?_, ?_, ?_, h.slots.add p .tree trivial⟩
  · rw [h.pools]; simp [upd]
  · simp [upd]
  · rw [h.allocs]; simp [upd]
  · simp [upd]
  · intro k
    have := h.le k
    unfold upd
    split
    · omega
    · exact this

theorem PRep.addData {keys cty n u s sl} (h : PRep keys cty n u s sl) (p k : String) :
    (k ∈ keys → ∃ s', addData p k s = some s' ∧
      PRep keys cty (upd n (.data k) (max (n (.data k)) (u (.data k) + 1))) (upd u (.data k) (u (.data k) + 1)) s'
        (addSlot p (.data k, u (.data k)) sl)) ∧ (k ∉ keys → addData p k s = none) := by
  have e1 := lookup_keys keys (fun k => mkPool (baseOf cty (.data k)) (n (.data k))) k
  have e2 := lookup_keys keys (fun k => (mkPool (baseOf cty (.data k)) (n (.data k))).pool.drop (u (.data k))) k
  unfold LangGen.addData
  rw [h.pools, h.allocs, e1, e2]
  constructor
  · intro hk
    simp only [if_pos hk, allocFrom_mkPool _ (h.le _)]
    refine ⟨_, rfl, ?_, ?_, ?_, ?_, ?_, h.slots.add p (.data k) hk⟩
    · simp only [update_keys]
      refine List.map_congr_left fun x _ => ?_
      by_cases hx : x = k
      · subst hx; simp [upd]
      · simp [upd, hx]
    · simp [upd, h.treePool]
    · simp only [update_keys]
      refine List.map_congr_left fun x _ => ?_
      by_cases hx : x = k
      · subst hx; simp [upd]
      · simp [upd, hx]
    · simp [upd, h.treeCur]
    · intro x
      have := h.le x
      unfold upd
      split
      · omega
      · exact this
  · intro hk
    simp [hk]

/-- the kind of a property in the slots -/
def slotKind (sl : List (String × Slot)) (p : String) : Option Kind := (sl.find? (·.1 = p)).map (·.2.1)

theorem slotKind_add (sl : List (String × Slot)) (p q : String) (s : Slot) :
    slotKind (addSlot p s sl) q = (slotKind sl q).or (if q = p then some s.1 else none) := by
  unfold addSlot insert slotKind
  split
  · rename_i h
    by_cases hq : q = p
    · subst hq
      obtain ⟨e, he, hp⟩ := List.any_eq_true.mp h
      have : (sl.find? (·.1 = q)).isSome := by
        rw [List.find?_isSome]
        exact ⟨e, he, by simpa using hp⟩
      obtain ⟨x, hx⟩ := Option.isSome_iff_exists.mp this
      simp [hx]
    · simp [hq]
  · rename_i h
    rw [List.find?_append]
    cases hx : sl.find? (·.1 = q) with
    | some x => simp
    | none =>
      by_cases hq : q = p
      · subst hq; simp
      · have : ¬ p = q := fun e => hq e.symm
        simp [hq, this]

theorem addProps_rep (ps : List PropDecl) {keys cty n u s sl} (h : PRep keys cty n u s sl) {s'} (hs : addProps ps s = some s') :
    ∃ n' u' sl', PRep keys cty n' u' s' sl' ∧ (∀ k, n k ≤ n' k) ∧
      (∀ p, slotKind sl' p = (slotKind sl p).or ((ps.find? (·.name = p)).map (·.kind))) := by
  induction ps generalizing n u s sl with
  | nil => cases hs; exact ⟨n, u, sl, h, fun _ => Nat.le_refl _, fun p => by simp⟩
  | cons d ps ih =>
    obtain ⟨x, k⟩ := d
    have step : ∀ (j : Nat) {a b c : Option Kind} {p : String}, a = (slotKind (addSlot x (k, j) sl) p).or b →
        c = (((⟨x, k⟩ : PropDecl) :: ps).find? (·.name = p)).map (·.kind) → b = (ps.find? (·.name = p)).map (·.kind) → a = (slotKind sl p).or c := by
      intro j a b c p h1 h2 h3
      rw [h1, h2, h3, slotKind_add, Option.or_assoc]
      congr 1
      by_cases hp : p = x
      · subst hp; simp
      · have : ¬ x = p := fun e => hp e.symm
        simp [hp, this]
    have grow : ∀ k v : _, ∀ x, n x ≤ upd n k (max (n k) v) x := by
      intro k v x
      unfold upd
      split
      · rename_i e; subst e; omega
      · omega
    cases k with
    | tree =>
      obtain ⟨n', u', sl', h1, h2, h3⟩ := ih (h.addTree x) hs
      exact ⟨n', u', sl', h1, fun k => Nat.le_trans (grow _ _ k) (h2 k), fun p => step _ (h3 p) rfl rfl⟩
    | data k =>
      simp only [addProps] at hs
      by_cases hk : k ∈ keys
      · obtain ⟨s1, e, hr⟩ := (h.addData x k).1 hk
        rw [e] at hs
        obtain ⟨n', u', sl', h1, h2, h3⟩ := ih hr hs
        exact ⟨n', u', sl', h1, fun k => Nat.le_trans (grow _ _ k) (h2 k), fun p => step _ (h3 p) rfl rfl⟩
      · rw [(h.addData x k).2 hk] at hs
        cases hs

/-! ## Whole descriptions -/

theorem Slots.mono {keys keys' : List String} {cty cty' : String → String} {u u' : Kind → Nat} {props sl} (h : Slots keys cty u props sl)
    (hk : ∀ k ∈ keys, k ∈ keys' ∧ cty' k = cty k) (hu : ∀ k, KindKnown keys k → u k ≤ u' k) : Slots keys' cty' u' props sl := by
  refine ⟨?_, h.names, h.slots, ?_, fun e he => Nat.lt_of_lt_of_le (h.below e he) (hu _ (h.known e he))⟩
  · rw [h.props]
    refine List.map_congr_left fun e he => ?_
    have := h.known e he
    obtain ⟨p, k, j⟩ := e
    cases k with
    | tree => rfl
    | data k => simp [instOf, baseOf, (hk k this).2]
  · intro e he
    have := h.known e he
    obtain ⟨p, k, j⟩ := e
    cases k with
    | tree => trivial
    | data k => exact (hk k this).1

/-- `L` has the base types `bs` and the types `ts`: `n` fields of each kind exist -/
structure Rep (bs : List (String × String)) (ts : List (String × Body)) (keys : List String) (cty : String → String) (n : Kind → Nat)
    (L : Lang) : Prop where
  pools : L.pools = keys.map fun k => (k, mkPool (baseOf cty (.data k)) (n (.data k)))
  treePool : L.treePool = mkPool (baseOf cty .tree) (n .tree)
  nodup : keys.Nodup
  bases : ∀ k, bs.lookup k = if k ∈ keys then some (cty k) else none
  types : ∀ T b, (T, b) ∈ ts → ∃ t ∈ L.types, t.name = T ∧ t.propPrefix = b.pre ∧
    ∃ sl, Slots keys cty n t.props sl ∧ ∀ p, slotKind sl p = kindOf b p

theorem bases_append (d d' : List Form) : Spec.bases (d ++ d') = Spec.bases d ++ Spec.bases d' := by simp [Spec.bases]
theorem types_append (d d' : List Form) : Spec.types (d ++ d') = Spec.types d ++ Spec.types d' := by simp [Spec.types]

theorem lookup_append {α : Type} (k : String) (a b : List (String × α)) : (a ++ b).lookup k = (a.lookup k).or (b.lookup k) := by
  induction a with
  | nil => simp
  | cons e a ih =>
    obtain ⟨x, v⟩ := e
    simp only [List.cons_append, List.lookup_cons]
    cases k == x
    · exact ih
    · rfl

theorem Rep.other {bs ts keys cty n L} (h : Rep bs ts keys cty n L) {L' : Lang} 
    (h1 : L'.pools = L.pools) (h2 : L'.treePool = L.treePool) (h3 : ∀ t ∈ L.types, t ∈ L'.types) : Rep bs ts keys cty n L' := by
  refine ⟨h1.trans h.pools, h2.trans h.treePool, h.nodup, h.bases, ?_⟩
  intro T b hT
  obtain ⟨t, ht, r⟩ := h.types T b hT
  exact ⟨t, h3 t ht, r⟩

theorem Rep.body {bs ts keys cty n L} (h : Rep bs ts keys cty n L) {nm fr : String} {b : Body} {L1 L' : Lang} {t : TreeType}
    (ha : addBody nm fr L (some b) = some (L1, t))
    (h1 : L'.pools = L1.pools) (h2 : L'.treePool = L1.treePool) (h3 : ∀ t ∈ L.types, t ∈ L'.types) (h4 : t ∈ L'.types) :
    ∃ n', Rep bs (ts ++ [(nm, b)]) keys cty n' L' := by
  have r0 : PRep keys cty n (fun _ => 0) (startProps L) [] := by
    refine ⟨h.pools, h.treePool, ?_, ?_, fun _ => Nat.zero_le _, ⟨rfl, List.nodup_nil, List.nodup_nil, by simp, by simp⟩⟩
    · simp [startProps, h.pools, Function.comp_def]
    · simp [startProps, h.treePool]
  simp only [addBody, Option.map_eq_some_iff] at ha
  obtain ⟨s', hs, e⟩ := ha
  obtain ⟨n', u', sl, g1, g2, g3⟩ := addProps_rep b.props r0 hs
  cases e
  refine ⟨n', h1.trans g1.pools, h2.trans g1.treePool, h.nodup, h.bases, ?_⟩
  intro T c hT
  rcases List.mem_append.mp hT with hT | hT
  · obtain ⟨t, k1, k2, k3, sl, k4, k5⟩ := h.types T c hT
    exact ⟨t, h3 t k1, k2, k3, sl, k4.mono (fun k hk => ⟨hk, rfl⟩) (fun k _ => g2 k), k5⟩
  · cases List.mem_singleton.mp hT
    exact ⟨_, h4, rfl, rfl, sl, g1.slots.mono (fun k hk => ⟨hk, rfl⟩) (fun k _ => g1.le k), fun p => by rw [g3]; simp [slotKind, kindOf]⟩

theorem insert_keys {α : Type} (keys : List String) (f : String → α) (k : String) (v : α) :
    insert k v (keys.map fun k => (k, f k)) = if k ∈ keys then keys.map fun k => (k, f k) else (keys.map fun k => (k, f k)) ++ [(k, v)] := by
  unfold insert
  have : (keys.map fun k => (k, f k)).any (·.1 == k) = true ↔ k ∈ keys := by
    rw [List.any_eq_true]
    constructor
    · rintro ⟨e, he, hk⟩
      obtain ⟨x, hx, rfl⟩ := List.mem_map.mp he
      obtain rfl : x = k := by simpa using hk
      exact hx
    · intro hk
      exact ⟨(k, f k), List.mem_map.mpr ⟨k, hk, rfl⟩, by simp⟩
  by_cases h : k ∈ keys
  · rw [if_pos (this.mpr h), if_pos h]
  · rw [if_neg (fun e => h (this.mp e)), if_neg h]

theorem Rep.base1 {bs ts keys cty n L} (h : Rep bs ts keys cty n L) (k c : String) :
    ∃ keys' cty' n', Rep (bs ++ [(k, c)]) ts keys' cty' n' { L with pools := insert k ⟨⟨c, k, false⟩, []⟩ L.pools } := by
  by_cases hk : k ∈ keys
  · refine ⟨keys, cty, n, ?_, h.treePool, h.nodup, ?_, h.types⟩
    · show insert k _ L.pools = _
      rw [h.pools, insert_keys, if_pos hk]
    · intro x
      rw [lookup_append, h.bases]
      by_cases hx : x ∈ keys
      · simp [hx]
      · have : (x == k) = false := by
          simp only [beq_eq_false_iff_ne]
          rintro rfl
          exact hx hk
        simp [hx, List.lookup_cons, this]
  · have ne : ∀ x ∈ keys, x ≠ k := fun x hx e => hk (e ▸ hx)
    refine ⟨keys ++ [k], fun x => if x = k then c else cty x, upd n (.data k) 0, ?_, ?_, ?_, ?_, ?_⟩
    · show insert k _ L.pools = _
      rw [h.pools, insert_keys, if_neg hk, List.map_append]
      congr 1
      · refine List.map_congr_left fun x hx => ?_
        simp [baseOf, upd, ne x hx]
      · simp [upd, mkPool, baseOf]
    · show L.treePool = _
      rw [h.treePool]
      simp [upd, baseOf]
    · rw [List.nodup_append]
      refine ⟨h.nodup, by simp, ?_⟩
      intro a ha b hb
      obtain rfl : b = k := by simpa using hb
      exact ne a ha
    · intro x
      rw [lookup_append, h.bases]
      by_cases hx : x ∈ keys
      · simp [hx, ne x hx]
      · by_cases hxk : x = k
        · subst hxk; simp [hx]
        · have : (x == k) = false := by simpa using hxk
          simp [hx, hxk, List.lookup_cons, this]
    · intro T b hT
      obtain ⟨t, k1, k2, k3, sl, k4, k5⟩ := h.types T b hT
      refine ⟨t, k1, k2, k3, sl, k4.mono (fun x hx => ⟨List.mem_append_left _ hx, by simp [ne x hx]⟩) ?_, k5⟩
      intro x hx
      unfold upd
      split
      · rename_i e
        subst e
        exact absurd hx hk
      · exact Nat.le_refl _

theorem Rep.addBases (l : List (String × String)) {bs ts keys cty n L} (h : Rep bs ts keys cty n L) :
    ∃ keys' cty' n', Rep (bs ++ l) ts keys' cty' n' (addBases l L) := by
  induction l generalizing bs keys cty n L with
  | nil => exact ⟨keys, cty, n, by rw [List.append_nil]; exact h⟩
  | cons e l ih =>
    obtain ⟨k, c⟩ := e
    obtain ⟨keys', cty', n', h1⟩ := h.base1 k c
    obtain ⟨keys'', cty'', n'', h2⟩ := ih h1
    exact ⟨keys'', cty'', n'', by rw [List.append_assoc] at h2; exact h2⟩

theorem addBody_types {nm fr : String} {b : Option Body} {L L1 : Lang} {t : TreeType} (ha : addBody nm fr L b = some (L1, t)) :
    L1.treeTypes = L.treeTypes ∧ L1.treeCTypes = L.treeCTypes := by
  cases b with
  | none => cases ha; exact ⟨rfl, rfl⟩
  | some b =>
    simp only [addBody, Option.map_eq_some_iff] at ha
    obtain ⟨s', hs, e⟩ := ha
    cases e
    exact ⟨rfl, rfl⟩

theorem Rep.apply {bs ts keys cty n L} (h : Rep bs ts keys cty n L) {f : Form} {L'} (ha : apply L f = some L') :
    ∃ keys' cty' n', Rep (bs ++ Spec.bases [f]) (ts ++ Spec.types [f]) keys' cty' n' L' := by
  cases f with
  | base l =>
    cases ha
    obtain ⟨keys', cty', n', h1⟩ := h.addBases l
    exact ⟨keys', cty', n', by simpa [Spec.bases, Spec.types] using h1⟩
  | type nm fr b =>
    simp only [LangGen.apply, Option.map_eq_some_iff] at ha
    obtain ⟨⟨L1, t⟩, hb, rfl⟩ := ha
    obtain ⟨e1, e2⟩ := addBody_types hb
    have sub : ∀ x ∈ L.types, x ∈ ({ L1 with treeTypes := L1.treeTypes ++ [t] } : Lang).types := by
      intro x hx
      simp only [Lang.types, e1, e2, List.mem_append] at hx ⊢
      rcases hx with hx | hx
      · exact .inl (.inl hx)
      · exact .inr hx
    cases b with
    | none =>
      cases hb
      exact ⟨keys, cty, n, by simpa [Spec.bases, Spec.types] using h.other (L' := { L with treeTypes := L.treeTypes ++ [_] }) rfl rfl sub⟩
    | some b =>
      obtain ⟨n', h1⟩ := h.body (L' := { L1 with treeTypes := L1.treeTypes ++ [t] }) hb rfl rfl sub (by simp [Lang.types])
      exact ⟨keys, cty, n', by simpa [Spec.bases, Spec.types] using h1⟩
  | ctype nm fr c fmt mem ffi b =>
    simp only [LangGen.apply, Option.map_eq_some_iff] at ha
    obtain ⟨⟨L1, t⟩, hb, rfl⟩ := ha
    obtain ⟨e1, e2⟩ := addBody_types hb
    have sub : ∀ x ∈ L.types, x ∈ ({ L1 with treeCTypes := L1.treeCTypes ++ [⟨t, c, fmt, mem, ffi⟩] } : Lang).types := by
      intro x hx
      simp only [Lang.types, e1, e2, List.mem_append, List.map_append] at hx ⊢
      rcases hx with hx | hx
      · exact .inl hx
      · exact .inr (.inl hx)
    cases b with
    | none =>
      cases hb
      exact ⟨keys, cty, n, by simpa [Spec.bases, Spec.types] using h.other (L' := { L with treeCTypes := L.treeCTypes ++ [_] }) rfl rfl sub⟩
    | some b =>
      obtain ⟨n', h1⟩ := h.body (L' := { L1 with treeCTypes := L1.treeCTypes ++ [⟨t, c, fmt, mem, ffi⟩] }) hb rfl rfl sub (by simp [Lang.types])
      exact ⟨keys, cty, n', by simpa [Spec.bases, Spec.types] using h1⟩
  | spec _ _ => cases ha; exact ⟨keys, cty, n, by simp only [Spec.bases, Spec.types, List.flatMap_cons, List.flatMap_nil, List.append_nil, List.filterMap_cons, List.filterMap_nil]; exact h.other rfl rfl (fun _ h => h)⟩
  | ignore _ => cases ha; exact ⟨keys, cty, n, by simp only [Spec.bases, Spec.types, List.flatMap_cons, List.flatMap_nil, List.append_nil, List.filterMap_cons, List.filterMap_nil]; exact h.other rfl rfl (fun _ h => h)⟩
  | self _ => cases ha; exact ⟨keys, cty, n, by simp only [Spec.bases, Spec.types, List.flatMap_cons, List.flatMap_nil, List.append_nil, List.filterMap_cons, List.filterMap_nil]; exact h.other rfl rfl (fun _ h => h)⟩

theorem Rep.applyAll (d : List Form) {bs ts keys cty n L} (h : Rep bs ts keys cty n L) {L'} (ha : applyAll d L = some L') :
    ∃ keys' cty' n', Rep (bs ++ Spec.bases d) (ts ++ Spec.types d) keys' cty' n' L' := by
  induction d generalizing bs ts keys cty n L with
  | nil => cases ha; exact ⟨keys, cty, n, by simpa [Spec.bases, Spec.types] using h⟩
  | cons f d ih =>
    simp only [LangGen.applyAll, Option.bind_eq_some_iff] at ha
    obtain ⟨L1, h1, h2⟩ := ha
    obtain ⟨k1, c1, n1, r1⟩ := h.apply h1
    obtain ⟨k2, c2, n2, r2⟩ := ih r1 h2
    refine ⟨k2, c2, n2, ?_⟩
    rw [List.append_assoc, List.append_assoc, ← bases_append, ← types_append] at r2
    exact r2

theorem rep_empty : Rep [] [] [] (fun _ => "") (fun _ => 0) Lang.empty :=
  ⟨rfl, rfl, List.nodup_nil, fun _ => by simp, by simp⟩

theorem rep_of_parse {ts : List Tok} {L : Lang} (h : parse ts = .ok L) :
    ∃ d keys cty n, ts = d.flatMap Form.toks ∧ Rep (Spec.bases d) (Spec.types d) keys cty n L := by
  obtain ⟨d, e, ha⟩ := parse_inv h
  obtain ⟨keys, cty, n, r⟩ := rep_empty.applyAll d ha
  exact ⟨d, keys, cty, n, e, by simpa using r⟩

end Bic.LangGen
