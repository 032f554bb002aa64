import Verif.Tests.Utils

/-!
# `tests/struct_rename_fields.rs`, replayed on the model

Generated by tools/gen_tests.py from the test file: the same declarations, the same assertions.
-/

set_option maxRecDepth 4000

namespace Verif.Tests.StructRenameFields
open Verif Verif.Js Verif.Schema Verif.Spec Verif.Props


/-! `tests/struct_rename_fields.rs:9` -/
namespace rename_all_struct

def T0 : StructDecl := exStruct "Test" [exField "after" (.prim .string), exField "usize_value" (.prim .usize)]
def P : Program := [.struct T0]

example : Ser P false (.named 0) (.obj [(lit "after", .str (lit "abc")), (lit "usize_value", .num (.int 123))]) :=
  .struct 0 T0 (.obj [(lit "after", .str (lit "abc")), (lit "usize_value", .num (.int 123))]) rfl rfl rfl (.named T0.fields [(lit "after", .str (lit "abc")), (lit "usize_value", .num (.int 123))] (.field (exField "after" (.prim .string)) _ _ (.str (lit "abc")) rfl rfl rfl (.string _) (.field (exField "usize_value" (.prim .usize)) _ _ (.num (.int 123)) rfl rfl rfl (.int .usize 0 (2 ^ 64 - 1) 123 (.inr rfl) (by decide) (by decide)) (.nil))))
example : contains (call P .schema (.named 0)) (lit "after") = true := by decide +kernel
example : contains (call P .schema (.named 0)) (lit "before") = false := by decide +kernel
example : contains (call P .typeDef (.named 0)) (lit "after") = true := by decide +kernel
example : contains (call P .typeDef (.named 0)) (lit "before") = false := by decide +kernel
example : call P .inline (.named 0) = lit "Ns.Test" := by decide +kernel
example : (eval P 20 .inline (.named 0)).isSome = true := by decide +kernel
example : (eval P 20 .schema (.named 0)).isSome = true := by decide +kernel
example : (eval P 20 .typeDef (.named 0)).isSome = true := by decide +kernel

end rename_all_struct

end Verif.Tests.StructRenameFields
