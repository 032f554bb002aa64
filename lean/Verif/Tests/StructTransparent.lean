import Verif.Tests.Utils

/-!
# `tests/struct_transparent.rs`, replayed on the model

Generated by tools/gen_tests.py from the test file: the same declarations, the same assertions.
-/

set_option maxRecDepth 4000

namespace Verif.Tests.StructTransparent
open Verif Verif.Js Verif.Schema Verif.Spec Verif.Props


/-! `tests/struct_transparent.rs:5` -/
namespace serde_transparent_struct

def T0 : StructDecl := { exStruct "Test" [exField "s" (.prim .string)] with transparent := true }
def P : Program := [.struct T0]

example : call P .schema (.named 0) = call P .schema (.prim .string) := by decide +kernel
example : call P .typeDef (.named 0) = call P .typeDef (.prim .string) := by decide +kernel
example : call P .inline (.named 0) = lit "Ns.Test" := by decide +kernel
example : (eval P 20 .inline (.named 0)).isSome = true := by decide +kernel
example : (eval P 20 .schema (.named 0)).isSome = true := by decide +kernel
example : (eval P 20 .typeDef (.named 0)).isSome = true := by decide +kernel

end serde_transparent_struct

/-! `tests/struct_transparent.rs:20` -/
namespace serde_transparent_newtype_struct

def T0 : StructDecl := { exTuple "Test" [exPos (.prim .string)] with transparent := true }
def P : Program := [.struct T0]

example : call P .schema (.named 0) = call P .schema (.prim .string) := by decide +kernel
example : call P .typeDef (.named 0) = call P .typeDef (.prim .string) := by decide +kernel
example : call P .inline (.named 0) = lit "Ns.Test" := by decide +kernel
example : (eval P 20 .inline (.named 0)).isSome = true := by decide +kernel
example : (eval P 20 .schema (.named 0)).isSome = true := by decide +kernel
example : (eval P 20 .typeDef (.named 0)).isSome = true := by decide +kernel

end serde_transparent_newtype_struct

end Verif.Tests.StructTransparent
