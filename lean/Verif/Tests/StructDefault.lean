import Verif.Tests.Utils

/-!
# `tests/struct_default.rs`, replayed on the model

Generated by tools/gen_tests.py from the test file: the same declarations, the same assertions.
-/

set_option maxRecDepth 4000

namespace Verif.Tests.StructDefault
open Verif Verif.Js Verif.Schema Verif.Spec Verif.Props


/-! `tests/struct_default.rs:7` -/
namespace serde_default_named_struct_field

def T0 : StructDecl := exStruct "Test" [{ exField "s" (.prim .string) with dflt := true }, exField "num" (.prim .usize)]
def P : Program := [.struct T0]

example : contains (call P .schema (.named 0)) (lit "z.string().optional()") = true := by decide +kernel
example : call P .typeDef (.named 0) = lit "{s?: string | undefined,\nnum: number}" := by decide +kernel
example : (eval P 20 .schema (.named 0)).isSome = true := by decide +kernel
example : (eval P 20 .typeDef (.named 0)).isSome = true := by decide +kernel

end serde_default_named_struct_field

/-! `tests/struct_default.rs:22` -/
namespace serde_default_tuple_struct_field

def T0 : StructDecl := exTuple "Test" [{ exPos (.prim .string) with dflt := true }]
def P : Program := [.struct T0]

example : contains (call P .schema (.named 0)) (lit "z.string().optional()") = true := by decide +kernel
example : call P .typeDef (.named 0) = lit "string | undefined" := by decide +kernel
example : (eval P 20 .schema (.named 0)).isSome = true := by decide +kernel
example : (eval P 20 .typeDef (.named 0)).isSome = true := by decide +kernel

end serde_default_tuple_struct_field

/-! `tests/struct_default.rs:33` -/
namespace flatten

def T0 : StructDecl := exTuple "Test" [{ exPos (.prim .usize) with dflt := true }]
def P : Program := [.struct T0]

example : call P .schema (.named 0) = optional (call P .schema (.prim .usize)) := by decide +kernel
example : call P .typeDef (.named 0) = lit "number | undefined" := by decide +kernel
example : call P .inline (.named 0) = lit "Ns.Test" := by decide +kernel
example : (eval P 20 .inline (.named 0)).isSome = true := by decide +kernel
example : (eval P 20 .schema (.named 0)).isSome = true := by decide +kernel
example : (eval P 20 .typeDef (.named 0)).isSome = true := by decide +kernel

end flatten

end Verif.Tests.StructDefault
