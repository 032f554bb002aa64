import Verif.Tests.Utils

/-!
# `tests/enum_default.rs`, replayed on the model

Generated by tools/gen_tests.py from the test file: the same declarations, the same assertions.
-/

set_option maxRecDepth 4000

namespace Verif.Tests.EnumDefault
open Verif Verif.Js Verif.Schema Verif.Spec Verif.Props


/-! `tests/enum_default.rs:5` -/
namespace serde_skip_enum_tuple_variant

def T0_0 : Variant := exVariant "A" .tuple [{ exPos (.prim .string) with dflt := true }]
def T0_1 : Variant := exVariant "B" .tuple [exPos (.prim .usize)]
def T0 : EnumDecl := exEnum "Test" .external [T0_0, T0_1]
def P : Program := [.enum T0]

example : contains (call P .schema (.named 0)) (lit "z.string().optional()") = true := by decide +kernel
example : call P .typeDef (.named 0) = lit "{ A: string | undefined } | { B: number }" := by decide +kernel
example : (eval P 20 .schema (.named 0)).isSome = true := by decide +kernel
example : (eval P 20 .typeDef (.named 0)).isSome = true := by decide +kernel

end serde_skip_enum_tuple_variant

/-! `tests/enum_default.rs:23` -/
namespace serde_skip_enum_struct_variant

def T0_0 : Variant := exVariant "A" .named [{ exField "s" (.prim .string) with dflt := true }]
def T0_1 : Variant := exVariant "B" .tuple [exPos (.prim .usize)]
def T0 : EnumDecl := exEnum "Test" .external [T0_0, T0_1]
def P : Program := [.enum T0]

example : contains (call P .schema (.named 0)) (lit "z.string().optional()") = true := by decide +kernel
example : call P .typeDef (.named 0) = lit "{ A: { s?: string | undefined } } | { B: number }" := by decide +kernel
example : (eval P 20 .schema (.named 0)).isSome = true := by decide +kernel
example : (eval P 20 .typeDef (.named 0)).isSome = true := by decide +kernel

end serde_skip_enum_struct_variant

/-! `tests/enum_default.rs:43` -/
namespace serde_skip_enum_tuple_field

def T0_0 : Variant := exVariant "A" .tuple [{ exPos (.prim .string) with dflt := true }, exPos (.prim .usize)]
def T0_1 : Variant := exVariant "B" .tuple [exPos (.prim .usize)]
def T0 : EnumDecl := exEnum "Test" .external [T0_0, T0_1]
def P : Program := [.enum T0]

example : contains (call P .schema (.named 0)) (lit "z.string().optional()") = true := by decide +kernel
example : (eval P 20 .schema (.named 0)).isSome = true := by decide +kernel

end serde_skip_enum_tuple_field

end Verif.Tests.EnumDefault
