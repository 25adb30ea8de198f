import Verif.Proofs.Complete
import Verif.Proofs.Control
import Verif.Proofs.Witness
import Mathlib.Data.List.Forall2
/-!
# Completion: what is offered (C52) and what is left alone (C42)

The evaluator's state (Model/Eval.lean) keeps scopes as lists of bindings and chains as lists of
trees.  Completion works on the linked lists themselves and re-chains trees that belong to the
program, so here the state is tied to the heap of list objects it stands for.
-/

namespace Bic.Repl

open Bic.ListC

/-! ## Specification -/

/-- the text of a name as C has it (names are ASCII) -/
def text (n : String) : Str := n.toList.map fun c => UInt8.ofNat c.toNat

/-- the scopes in which names are looked up -/
def scopes (s : St) : List Ctx := s.ctxs ++ s.includeCtx.toList

/-- the declared names that are visible, innermost scope first -/
def visible (s : St) : List Binding := (scopes s).flatMap (·.ids)

/-- what readline offers for the array a completion function returns: without an array nothing,
otherwise all elements but the first, which is the text that is put in; an array of one
element is both -/
def offered : Option (List Str) → List Str
  | none => []
  | some [x] => [x]
  | some (_ :: l) => l
  | some [] => []

/-- The heap `h` is how the state `s` is stored: one ring per scope (`L`: its head and its E_MAP
entries), one ring per chain of the program.  Trees of the model keep their numbers, the
trees the model does not have (heads of maps and entries) have larger ones. -/
structure Stored (s : St) (h : Heap) (ids : Ids) (L : List IdMap) : Prop where
  rings : ∀ p ∈ L, Ring h p.1 p.2
  maps : List.Forall₂ (fun (c : Ctx) (p : IdMap) => p.2.map ids.left = c.ids.map (·.id)) (scopes s) L
  trees : ∀ b ∈ visible s, s.nodes b.id = some (.ident b.name)
  names : ∀ b ∈ visible s, ids.str b.id = text b.name
  new : ∀ a ∈ cells L, s.next ≤ a
  chains : ∀ t els, s.nodes t = some (.chain els) → Ring h t els ∧ ∀ a ∈ els, a < s.next

/-- the tree `tree_make` gives for the matches is a new one -/
def New (s : St) (L : List IdMap) (t : Nat) : Prop := s.next ≤ t ∧ t ∉ cells L

/-- C52 in full: in every state a program comes to, every prefix -/
def C52_statement : Prop :=
  ∀ (E : Env) (l : List Node) (s : St) (h : Heap) (ids : Ids) (L : List IdMap) (chain : Nat) (pre : Str),
    (∀ n ∈ l, Parsed n) → Reach E (stOf l [] []) s → Stored s h ids L → New s L chain →
    ∃ n h' r, complete ids chain (L.map (·.1)) pre n h = some (h', r) ∧
      ∀ x, x ∈ offered r ↔ (∃ b ∈ visible s, text b.name = x) ∧ pre <+: x

/-- C42 in full: in every state a program comes to, every prefix: the trees of the program are
stored as before -/
def C42_statement : Prop :=
  ∀ (E : Env) (l : List Node) (s : St) (h h' : Heap) (ids : Ids) (L : List IdMap) (chain n : Nat) (pre : Str)
    (r : Option (List Str)), (∀ n ∈ l, Parsed n) → Reach E (stOf l [] []) s → Stored s h ids L → New s L chain →
    complete ids chain (L.map (·.1)) pre n h = some (h', r) → Stored s h' ids L

/-! ## What holds -/

theorem forall₂_map {ids : Ids} {cs : List Ctx} {L : List IdMap}
    (hm : List.Forall₂ (fun (c : Ctx) (p : IdMap) => p.2.map ids.left = c.ids.map (·.id)) cs L) :
    L.flatMap (fun p => p.2.map ids.left) = (cs.flatMap (·.ids)).map (·.id) := by
  induction hm with
  | nil => rfl
  | cons h _ ih => rw [List.flatMap_cons, List.flatMap_cons, List.map_append, h, ih]

theorem foundAll_eq {s : St} {h : Heap} {ids : Ids} {L : List IdMap} (hs : Stored s h ids L) (pre : Str) :
    foundAll ids pre L = ((visible s).map (·.id)).filter fun t => decide (pre <+: ids.str t) := by
  rw [visible, ← forall₂_map hs.maps, List.filter_flatMap]
  rfl

/-- the visible names that start with `pre` -/
def matching (s : St) (pre : Str) : List Binding := (visible s).filter fun b => decide (pre <+: text b.name)

theorem foundAll_matching {s : St} {h : Heap} {ids : Ids} {L : List IdMap} (hs : Stored s h ids L) (pre : Str) :
    foundAll ids pre L = (matching s pre).map (·.id) ∧
      (foundAll ids pre L).map ids.str = (matching s pre).map fun b => text b.name := by
  have e : foundAll ids pre L = (matching s pre).map (·.id) := by
    rw [foundAll_eq hs, matching, List.filter_map]
    congr 1
    refine List.filter_congr fun b hb => ?_
    simp [hs.names b hb]
  refine ⟨e, ?_⟩
  rw [e, List.map_map]
  exact List.map_congr_left fun b hb => hs.names b (List.mem_filter.mp hb).1

theorem offered_create (pre : Str) (l : List Str) : offered (createMatches pre l) = l := by
  match l with
  | [] => rfl
  | [_] => rfl
  | _ :: _ :: _ => rfl

theorem complete_stored {s : St} {h : Heap} {ids : Ids} {L : List IdMap} {chain : Nat} (pre : Str) (hwf : WF s)
    (hs : Stored s h ids L) (hn : New s L chain) (hd : ((matching s pre).map (·.id)).Nodup) :
    ∃ n, ∀ m, n ≤ m → ∃ h', complete ids chain (L.map (·.1)) pre m h =
        some (h', createMatches pre ((matching s pre).map fun b => text b.name)) ∧
      SameOff (fun a => a = chain ∨ a ∈ (matching s pre).map (·.id)) h h' := by
  have hf := foundAll_matching hs pre
  have hlt : ∀ a ∈ foundAll ids pre L, a < s.next := by
    intro a ha
    rw [hf.1] at ha
    obtain ⟨b, hb, rfl⟩ := List.mem_map.mp ha
    exact hwf.lt (hs.trees b (List.mem_filter.mp hb).1)
  refine ⟨(cells L).length + (foundAll ids pre L).length + 1, fun m hm => ?_⟩
  have hlen : ∀ p ∈ L, p.2.length < m := by
    intro p hp
    have : p.2.length < (cells L).length := by
      obtain ⟨l1, l2, rfl⟩ := List.append_of_mem hp
      simp [cells]
      omega
    omega
  obtain ⟨h', e, hso⟩ := complete_spec ids chain pre L m h (fun p hp => ⟨hs.rings p hp, hlen p hp⟩) (by omega)
    (by rw [hf.1]; exact hd) (fun hc => absurd (hlt _ hc) (Nat.not_lt.mpr hn.1)) hn.2
    (fun a ha hc => absurd (hlt _ hc) (Nat.not_lt.mpr (hs.new a ha)))
  rw [hf.2] at e
  rw [hf.1] at hso
  exact ⟨h', e, hso⟩

/-- **C52, part.** Every state and prefix, if the names that match are different trees: what is
offered are the visible names that start with the prefix, in the order of the scopes, and no
others. -/
theorem C52_offers_partial {s : St} {h : Heap} {ids : Ids} {L : List IdMap} {chain : Nat} (pre : Str) (hwf : WF s)
    (hs : Stored s h ids L) (hn : New s L chain) (hd : ((matching s pre).map (·.id)).Nodup) :
    ∃ n, ∀ m, n ≤ m → ∃ h' r, complete ids chain (L.map (·.1)) pre m h = some (h', r) ∧
      offered r = ((visible s).map fun b => text b.name).filter (fun x => decide (pre <+: x)) ∧
      ∀ x, x ∈ offered r ↔ (∃ b ∈ visible s, text b.name = x) ∧ pre <+: x := by
  obtain ⟨n, h1⟩ := complete_stored pre hwf hs hn hd
  refine ⟨n, fun m hm => ?_⟩
  obtain ⟨h', e, -⟩ := h1 m hm
  have e2 : ((visible s).map fun b => text b.name).filter (fun x => decide (pre <+: x)) =
      (matching s pre).map fun b => text b.name := by
    rw [List.filter_map]
    rfl
  refine ⟨h', _, e, by rw [offered_create, e2], fun x => ?_⟩
  rw [offered_create, ← e2]
  simp

/-- **C42, part.** Every state and prefix, if the names that match are different trees: the scopes
are as they were, and so is every chain of the program in which none of the matching
identifiers is linked directly. -/
theorem C42_untouched_partial {s : St} {h : Heap} {ids : Ids} {L : List IdMap} {chain : Nat} (pre : Str) (hwf : WF s)
    (hs : Stored s h ids L) (hn : New s L chain) (hd : ((matching s pre).map (·.id)).Nodup) :
    ∃ n, ∀ m, n ≤ m → ∃ h' r, complete ids chain (L.map (·.1)) pre m h = some (h', r) ∧ (∀ p ∈ L, Ring h' p.1 p.2) ∧
      (∀ t els, s.nodes t = some (.chain els) → (∀ b ∈ matching s pre, b.id ∉ els) → Ring h' t els) ∧
      ((∀ b ∈ matching s pre, ∀ t els, s.nodes t = some (.chain els) → b.id ∉ els) → Stored s h' ids L) := by
  obtain ⟨n, h1⟩ := complete_stored pre hwf hs hn hd
  refine ⟨n, fun m hm => ?_⟩
  obtain ⟨h', e, hso⟩ := h1 m hm
  have hid : ∀ b ∈ matching s pre, s.nodes b.id = some (.ident b.name) := fun b hb => hs.trees b (List.mem_filter.mp hb).1
  have hrings : ∀ p ∈ L, Ring h' p.1 p.2 := by
    intro p hp
    refine hso.ring (hs.rings p hp) fun a ha => ?_
    have hc : a ∈ cells L := by simp only [cells, List.mem_flatMap]; exact ⟨p, hp, ha⟩
    rintro (rfl | hm)
    · exact hn.2 hc
    · obtain ⟨b, hb, rfl⟩ := List.mem_map.mp hm
      exact absurd (hwf.lt (hid b hb)) (Nat.not_lt.mpr (hs.new _ hc))
  have hchains : ∀ t els, s.nodes t = some (.chain els) → (∀ b ∈ matching s pre, b.id ∉ els) →
      Ring h' t els := by
    intro t els ht hb
    obtain ⟨hring, hlt⟩ := hs.chains t els ht
    refine hso.ring hring fun a ha => ?_
    have hal : a < s.next := by
      rcases List.mem_cons.mp ha with rfl | ha
      · exact hwf.lt ht
      · exact hlt a ha
    rintro (rfl | hm)
    · exact absurd hal (Nat.not_lt.mpr hn.1)
    · obtain ⟨b, hb', rfl⟩ := List.mem_map.mp hm
      rcases List.mem_cons.mp ha with e | ha
      · have := hid b hb'
        rw [e, ht] at this
        cases this
      · exact hb b hb' ha
  exact ⟨h', _, e, hrings, hchains, fun hno => ⟨hrings, hs.maps, hs.trees, hs.names, hs.new,
    fun t els ht => ⟨hchains t els ht fun b hb => hno b hb t els ht, (hs.chains t els ht).2⟩⟩⟩

/-! ## Concrete states -/

instance instDecLinked (h : Heap) : ∀ l, Decidable (Linked h l)
  | [] => .isTrue trivial
  | [_] => .isTrue trivial
  | a :: b :: l =>
    have := instDecLinked h (b :: l)
    show Decidable ((h.next a = some b ∧ h.prev b = some a) ∧ Linked h (b :: l)) from inferInstance

instance (h : Heap) (head : Nat) (l : List Nat) : Decidable (Ring h head l) :=
  show Decidable (_ ∧ _) from inferInstance

/-- the heap with the given rings, everything else NULL -/
def heapOf (rings : List (List Nat)) : Heap where
  next a := (rings.flatMap fun r => r.zip (r.rotate 1)).lookup a
  prev a := (rings.flatMap fun r => (r.rotate 1).zip r).lookup a

/-- the chains of the program are stored -/
def chainsOk (s : St) (h : Heap) : Bool :=
  (List.range s.next).all fun t =>
    match s.nodes t with
    | some (.chain els) => decide (Ring h t els) && els.all (· < s.next)
    | _ => true

theorem chainsOk_spec {s : St} {h : Heap} (hwf : WF s) (hc : chainsOk s h = true) (t : TId) (els : List TId)
    (ht : s.nodes t = some (.chain els)) : Ring h t els ∧ ∀ a ∈ els, a < s.next := by
  have := List.all_eq_true.mp hc t (List.mem_range.mpr (hwf.lt ht))
  rw [ht] at this
  simpa using this

/-- the scopes of `s` and the maps of `L` have the same identifiers -/
theorem maps_of {s : St} {ids : Ids} {L : List IdMap}
    (h : (scopes s).map (fun c => c.ids.map (·.id)) = L.map fun p => p.2.map ids.left) :
    List.Forall₂ (fun (c : Ctx) (p : IdMap) => p.2.map ids.left = c.ids.map (·.id)) (scopes s) L := by
  generalize scopes s = cs at h
  induction cs generalizing L with
  | nil =>
    cases L with
    | nil => exact .nil
    | cons _ _ => simp at h
  | cons c cs ih =>
    cases L with
    | nil => simp at h
    | cons p L =>
      simp only [List.map_cons, List.cons.injEq] at h
      exact .cons h.1.symm (ih h.2)

/-- `int ab, c;` -/
def prog42 : List Node := [.ident "ab", .ident "c", .chain [0, 1], .kw .int, .chain [3], .decl (some 4) (some 2) 0]

def st42 : St := evTo 40 5 (stOf prog42 [] [])

/-- the map of the scope is 100 with the entries 101 and 102 -/
def ids42 : Ids := ⟨fun e => if e = 101 then 0 else 1, fun t => if t = 0 then text "ab" else text "c"⟩

def heap42 : Heap := heapOf [[100, 101, 102], [2, 0, 1], [4, 3]]

theorem reach42 : Reach E0 (stOf prog42 [] []) st42 := Reach.computed .start 40 5 (by decide +kernel)

theorem visible42 : visible st42 = [⟨"ab", 0, some 7⟩, ⟨"c", 1, some 8⟩] := by decide +kernel

theorem maps42 : (scopes st42).map (fun c => c.ids.map (·.id)) = [((100 : Nat), [101, 102])].map fun p => p.2.map ids42.left := by
  decide +kernel

theorem wf_evTo {s : St} (hi : Inv s) (n : Nat) (t : TId) (hok : isOk ((run E0 n).ev (some t) s) = true) : Inv (evTo n t s) :=
  (Conv.evol (Conv.computed n hok) hi).inv

theorem wf42 : WF st42 := (wf_evTo (stOf_Inv _ _ _) 40 5 (by decide +kernel)).wf

theorem chains42 : chainsOk st42 heap42 = true := by decide +kernel

theorem stored42 : Stored st42 heap42 ids42 [(100, [101, 102])] where
  rings p hp := by
    obtain rfl := List.mem_singleton.mp hp
    decide +kernel
  maps := maps_of maps42
  trees b hb := by
    rw [visible42] at hb
    revert b
    decide +kernel
  names b hb := by
    rw [visible42] at hb
    revert b
    decide +kernel
  new a ha := by
    revert a
    decide +kernel
  chains := chainsOk_spec wf42 chains42

theorem new42 : New st42 [(100, [101, 102])] 200 := by
  unfold New
  decide +kernel

/-- the completions of `a` after `int ab, c;` -/
example : ∃ n, ∀ m, n ≤ m → ∃ h' r, complete ids42 200 [100] (text "a") m heap42 = some (h', r) ∧ offered r = [text "ab"] := by
  obtain ⟨n, h⟩ := C52_offers_partial (text "a") wf42 stored42 new42 (by decide +kernel)
  refine ⟨n, fun m hm => ?_⟩
  obtain ⟨h', r, h1, h2, -⟩ := h m hm
  refine ⟨h', r, h1, h2.trans ?_⟩
  rw [visible42]
  decide +kernel

def after42 : Heap := ((complete ids42 200 [100] (text "a") 5 heap42).map (·.1)).getD heap42

theorem complete42 : complete ids42 200 [100] (text "a") 5 heap42 = some (after42, some [text "ab"]) := by
  have h1 : (complete ids42 200 [100] (text "a") 5 heap42).map (·.2) = some (some [text "ab"]) := by decide +kernel
  unfold after42
  cases hc : complete ids42 200 [100] (text "a") 5 heap42 with
  | none => rw [hc] at h1; cases h1
  | some p =>
    rw [hc] at h1
    cases p
    simp only [Option.map_some, Option.some.injEq] at h1
    subst h1
    rfl

theorem broken42 : ¬ Ring after42 2 [0, 1] := by decide +kernel

/-- C42 in full is false: completing `a` after `int ab, c;` takes `ab` out of the declaration, which
the evaluator then can no longer walk -/
theorem C42_refuted : ¬ C42_statement := by
  intro h
  have := h E0 prog42 st42 heap42 after42 ids42 [(100, [101, 102])] 200 5 (text "a") (some [text "ab"]) (by decide) reach42 stored42
    new42 complete42
  exact broken42 (this.chains 2 [0, 1] (by decide +kernel)).1

/-- `int f() { int ab; while (1) break; } f(); f();`: leaving the loop leaves its scope open, so the
scopes of both calls are visible -/
def prog52 : List Node :=
  [.ident "f", .kw .int, .chain [1], .ident "ab", .chain [3], .decl (some 2) (some 4) 0, .integer 1, .brk, -- 0 … 7
   .chain [7], .whileS (some 6) (some 8), .chain [5, 9], .fn (some 0) none none (some 10), .kw .int, .chain [12], -- 8 … 13
   .decl (some 13) (some 11) 0, .ident "f", .fnCall (some 15) none, .ident "f", .fnCall (some 17) none] -- 14 … 18

def st52a : St := evTo 40 14 (stOf prog52 [] [])
def st52b : St := evTo 40 16 st52a
def st52 : St := evTo 40 18 st52b

theorem ok52a : isOk ((run E0 40).ev (some 14) (stOf prog52 [] [])) = true := by decide +kernel
theorem ok52b : isOk ((run E0 40).ev (some 16) st52a) = true := by decide +kernel
theorem ok52 : isOk ((run E0 40).ev (some 18) st52b) = true := by decide +kernel

theorem reach52 : Reach E0 (stOf prog52 [] []) st52 :=
  Reach.computed (Reach.computed (Reach.computed .start 40 14 ok52a) 40 16 ok52b) 40 18 ok52

theorem wf52 : WF st52 := (wf_evTo (wf_evTo (wf_evTo (stOf_Inv _ _ _) 40 14 ok52a) 40 16 ok52b) 40 18 ok52).wf

theorem visible52 : visible st52 = [⟨"ab", 3, some 24⟩, ⟨"ab", 3, some 22⟩, ⟨"f", 0, some 20⟩] := by decide +kernel

def maps52 : List IdMap := [(100, [101]), (102, [103]), (104, [105])]
def ids52 : Ids := ⟨fun e => if e = 105 then 0 else 3, fun t => if t = 0 then text "f" else text "ab"⟩
def heap52 : Heap := heapOf [[100, 101], [102, 103], [104, 105], [2, 1], [4, 3], [8, 7], [10, 5, 9], [13, 12]]

theorem same52 : (scopes st52).map (fun c => c.ids.map (·.id)) = maps52.map fun p => p.2.map ids52.left := by
  decide +kernel

theorem chains52 : chainsOk st52 heap52 = true := by decide +kernel

theorem stored52 : Stored st52 heap52 ids52 maps52 where
  rings := by decide +kernel
  maps := maps_of same52
  trees b hb := by
    rw [visible52] at hb
    revert b
    decide +kernel
  names b hb := by
    rw [visible52] at hb
    revert b
    decide +kernel
  new a ha := by
    revert a
    decide +kernel
  chains := chainsOk_spec wf52 chains52

def after52 : Heap := (findGlobal ids52 200 (maps52.map (·.1)) (text "ab") 2 heap52).getD heap52

theorem find52 (n : Nat) : findGlobal ids52 200 (maps52.map (·.1)) (text "ab") (n + 2) heap52 = some after52 := rfl

theorem first52 : after52.next 200 = some 3 := by decide +kernel
theorem loop52 : after52.next 3 = some 3 := by decide +kernel

theorem endless52 : ∀ n, visit after52 200 n (some 3) = none
  | 0 => rfl
  | n + 1 => by
    rw [visit, if_neg (by decide), loop52, endless52 n]
    rfl

theorem none52 (n : Nat) : complete ids52 200 (maps52.map (·.1)) (text "ab") n heap52 = none := by
  match n with
  | 0 => rfl
  | 1 => rfl
  | n + 2 =>
    unfold complete
    rw [find52]
    show (visit after52 200 (n + 2) (after52.next 200) >>= _) = none
    rw [first52, endless52]
    rfl

/-- C52 in full is false: an identifier that is visible twice is chained twice, and walking the
matches does not end -/
theorem C52_refuted : ¬ C52_statement := by
  intro h
  obtain ⟨n, h', r, hc, -⟩ := h E0 prog52 st52 heap52 ids52 maps52 200 (text "ab") (by decide) reach52 stored52
    (by unfold New; decide +kernel)
  rw [none52] at hc
  cases hc

end Bic.Repl
