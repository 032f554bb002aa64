import Verif.Tests.Utils

/-!
# `tests/struct_flattening.rs`, replayed on the model

Generated by tools/gen_tests.py from the test file: the same declarations, the same assertions.
-/

set_option maxRecDepth 4000

namespace Verif.Tests.StructFlattening
open Verif Verif.Js Verif.Schema Verif.Spec Verif.Props


/-! `tests/struct_flattening.rs:6` -/
namespace serde_flatten_struct

def T0 : StructDecl := exStruct "Test" [{ exField "nested" (.named 1) with flatten := true }, exField "false_value" (.prim .bool)]
def T1 : StructDecl := exStruct "Nested" [exField "true_value" (.prim .bool)]
def T2 : StructDecl := exStruct "Base" [exField "false_value" (.prim .bool)]
def P : Program := [.struct T0, .struct T1, .struct T2]

example : Ser P false (.named 0) (.obj [(lit "true_value", .bool true), (lit "false_value", .bool false)]) :=
  .struct 0 T0 (.obj [(lit "true_value", .bool true), (lit "false_value", .bool false)]) rfl rfl rfl (.named T0.fields [(lit "true_value", .bool true), (lit "false_value", .bool false)] (.flat ({ exField "nested" (.named 1) with flatten := true }) _ [(lit "true_value", .bool true)] _ rfl rfl (.struct 1 T1 (.obj [(lit "true_value", .bool true)]) rfl rfl rfl (.named T1.fields [(lit "true_value", .bool true)] (.field (exField "true_value" (.prim .bool)) _ _ (.bool true) rfl rfl rfl (.bool _) (.nil)))) (.field (exField "false_value" (.prim .bool)) _ _ (.bool false) rfl rfl rfl (.bool _) (.nil))))
example : call P .schema (.named 0) = call P .schema (.named 2) ++ lit ".extend(z.lazy(() => Ns.Nested))" := by decide +kernel
example : call P .typeDef (.named 0) = call P .typeDef (.named 2) ++ lit " & Ns.Nested" := by decide +kernel
example : call P .inline (.named 0) = lit "Ns.Test" := by decide +kernel
example : (eval P 20 .inline (.named 0)).isSome = true := by decide +kernel
example : (eval P 20 .schema (.named 0)).isSome = true := by decide +kernel
example : (eval P 20 .schema (.named 2)).isSome = true := by decide +kernel
example : (eval P 20 .typeDef (.named 0)).isSome = true := by decide +kernel
example : (eval P 20 .typeDef (.named 2)).isSome = true := by decide +kernel

end serde_flatten_struct

end Verif.Tests.StructFlattening
