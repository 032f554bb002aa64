import Verif.Tests.Utils

/-!
# `tests/struct_tuple.rs`, replayed on the model

Generated by tools/gen_tests.py from the test file: the same declarations, the same assertions.
-/

set_option maxRecDepth 4000

namespace Verif.Tests.StructTuple
open Verif Verif.Js Verif.Schema Verif.Spec Verif.Props


/-! `tests/struct_tuple.rs:9` -/
namespace ok

def T0 : StructDecl := exTuple "Test" [exPos (.prim .usize), exPos (.prim .usize), exPos (.prim .string)]
def P : Program := [.struct T0]

example : Ser P false (.named 0) (.arr [.num (.int 123), .num (.int 42), .str (lit "abc")]) :=
  .struct 0 T0 (.arr [.num (.int 123), .num (.int 42), .str (lit "abc")]) rfl rfl rfl (.tuple T0.fields (serFields T0.fields) [.num (.int 123), .num (.int 42), .str (lit "abc")] (by decide) (.refl _) (.cons (.int .usize 0 (2 ^ 64 - 1) 123 (.inr rfl) (by decide) (by decide)) (.cons (.int .usize 0 (2 ^ 64 - 1) 42 (.inr rfl) (by decide) (by decide)) (.cons (.string _) (.nil)))))
example : call P .schema (.named 0) = tuple [call P .schema (.prim .usize), call P .schema (.prim .usize), call P .schema (.prim .string)] := by decide +kernel
example : call P .typeDef (.named 0) = lit "[number, number, string]" := by decide +kernel
example : call P .inline (.named 0) = lit "Ns.Test" := by decide +kernel
example : (eval P 20 .inline (.named 0)).isSome = true := by decide +kernel
example : (eval P 20 .schema (.named 0)).isSome = true := by decide +kernel
example : (eval P 20 .typeDef (.named 0)).isSome = true := by decide +kernel

end ok

/-! `tests/struct_tuple.rs:26` -/
namespace with_default_fields

def T0 : StructDecl := exTuple "Test" [exPos (.prim .usize), { exPos (.prim .usize) with dflt := true }]
def P : Program := [.struct T0]

example : De P (.named 0) (.arr [.num (.int 42)]) :=
  .struct 0 T0 (.arr [.num (.int 42)]) rfl rfl rfl (.short _ T0.fields [exPos (.prim .usize)] [{ exPos (.prim .usize) with dflt := true }] [.num (.int 42)] (by decide) rfl (by simp) (.cons (.wide .usize 0 (2 ^ 64 - 1) 42 (.inr (.inr (.inl rfl))) rfl (by decide) (by decide)) (.nil)))
example : call P .schema (.named 0) = tuple [call P .schema (.prim .usize), optional (call P .schema (.prim .usize))] := by decide +kernel
example : call P .typeDef (.named 0) = lit "[number, number | undefined]" := by decide +kernel
example : call P .inline (.named 0) = lit "Ns.Test" := by decide +kernel
example : (eval P 20 .inline (.named 0)).isSome = true := by decide +kernel
example : (eval P 20 .schema (.named 0)).isSome = true := by decide +kernel
example : (eval P 20 .typeDef (.named 0)).isSome = true := by decide +kernel

end with_default_fields

end Verif.Tests.StructTuple
