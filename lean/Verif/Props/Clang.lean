import Verif.Props.LangGen
import Verif.Proofs.Clang

/-!
# C50 and C67 for `c.lang`

The whole of `/repo/src/c.lang` meets the hypotheses of the theorems of `Props/LangGen.lean`.
-/

namespace Bic.LangGen
open Spec

def applied (d : List Form) : Option Lang := applyAll d Lang.empty

theorem clang_applied : (applied clangDesc).isSome = true := by decide +kernel

/-- the generators accept `c.lang` -/
theorem clang_read : ∃ L, read clangText = .ok L := by
  obtain ⟨L, h⟩ := Option.isSome_iff_exists.mp clang_applied
  refine ⟨L, ?_⟩
  unfold read
  rw [clang_lex, parse_toks]
  unfold applied at h
  rw [h]
  rfl

theorem clang_names : GoodNames clangDesc := by decide +kernel

/-- **C50** for bic itself: no two properties of one of its node kinds share a field, and each
has its declared kind -/
theorem C50_clang : ∃ L, read clangText = .ok L ∧ Separate clangDesc L ∧ (L.fields.map (·.2)).Nodup := by
  obtain ⟨L, h⟩ := clang_read
  exact ⟨L, h, C50_separate_partial clang_lex h clang_names, C50_fields_nodup_partial clang_lex h clang_names⟩

theorem clang_ectx : ("E_CTX", ⟨"tECTX", [⟨"ID_MAP", .tree⟩, ⟨"STRUCT_ID_MAP", .tree⟩, ⟨"UNION_ID_MAP", .tree⟩, ⟨"PARENT_CTX", .tree⟩,
    ⟨"ALLOC_CHAIN", .tree⟩, ⟨"NAME", .tree⟩, ⟨"RETVAL", .tree⟩, ⟨"JMP_BUF", .data "jmp_buf"⟩, ⟨"SHOULD_BREAK", .data "flag"⟩,
    ⟨"IS_FN_CALL", .data "flag"⟩, ⟨"IS_STATIC", .data "flag"⟩]⟩) ∈ types clangDesc := by decide +kernel

/-- an instance of C50: the flags of a context are kept in fields of type `bool` -/
example : ∃ L, read clangText = .ok L ∧ ∃ t ∈ L.types, t.name = "E_CTX" ∧
    ∃ m ∈ t.macros, m.name = "tECTX_IS_STATIC" ∧ ∃ m' ∈ t.macros, m'.name = "tECTX_IS_FN_CALL" ∧ m.field ≠ m'.field ∧ ("bool", m.field) ∈ L.fields := by
  obtain ⟨L, h, h1, -⟩ := C50_clang
  obtain ⟨t, ht, hn, h2, h3⟩ := h1 _ _ clang_ectx
  obtain ⟨m, hm, hmn, -, c, hc, hf, -⟩ := h2 "IS_STATIC" (.data "flag") (by decide)
  obtain ⟨m', hm', hmn', -⟩ := h2 "IS_FN_CALL" (.data "flag") (by decide)
  have hc' : cType clangDesc (.data "flag") = some "bool" := by decide +kernel
  rw [hc'] at hc
  cases hc
  refine ⟨L, h, t, ht, hn, m, hm, hmn, m', hm', hmn', h3 m hm m' hm' ?_, hf⟩
  rw [hmn, hmn']
  decide

/-- an instance of C67: the saved environment of a context is not traversed, its parent is -/
example : ∃ L, read clangText = .ok L ∧ ∃ t ∈ L.types, t.name = "E_CTX" ∧ "tECTX_PARENT_CTX" ∈ t.marked ∧ "tECTX_JMP_BUF" ∉ t.marked := by
  obtain ⟨L, h⟩ := clang_read
  obtain ⟨t, ht, hn, hm⟩ := C67_marked clang_lex h clang_ectx (by decide)
  refine ⟨L, h, t, ht, hn, (hm _).mpr ⟨"PARENT_CTX", by decide, by decide⟩, fun hj => ?_⟩
  obtain ⟨p, hp, hk⟩ := (hm _).mp hj
  have : p = "JMP_BUF" := by
    have e := congrArg String.toList hp
    rw [String.toList_append, show "tECTX_JMP_BUF" = "tECTX" ++ "_" ++ "JMP_BUF" by decide, String.toList_append] at e
    exact (String.toList_injective (List.append_cancel_left e)).symm
  subst this
  revert hk
  decide

end Bic.LangGen
