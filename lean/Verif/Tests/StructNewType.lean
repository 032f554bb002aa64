import Verif.Tests.Utils

/-!
# `tests/struct_new_type.rs`, replayed on the model

Generated by tools/gen_tests.py from the test file: the same declarations, the same assertions.
-/

set_option maxRecDepth 4000

namespace Verif.Tests.StructNewType
open Verif Verif.Js Verif.Schema Verif.Spec Verif.Props


/-! `tests/struct_new_type.rs:8` -/
namespace ok

def T0 : StructDecl := exTuple "Test" [exPos (.prim .usize)]
def P : Program := [.struct T0]

example : Ser P false (.named 0) (.num (.int 123)) :=
  .struct 0 T0 (.num (.int 123)) rfl rfl rfl (.newtype (exPos (.prim .usize)) (.num (.int 123)) (.int .usize 0 (2 ^ 64 - 1) 123 (.inr rfl) (by decide) (by decide)))
example : call P .schema (.named 0) = call P .schema (.prim .usize) := by decide +kernel
example : call P .typeDef (.named 0) = call P .typeDef (.prim .usize) := by decide +kernel
example : call P .inline (.named 0) = lit "Ns.Test" := by decide +kernel
example : (eval P 20 .inline (.named 0)).isSome = true := by decide +kernel
example : (eval P 20 .schema (.named 0)).isSome = true := by decide +kernel
example : (eval P 20 .typeDef (.named 0)).isSome = true := by decide +kernel

end ok

end Verif.Tests.StructNewType
