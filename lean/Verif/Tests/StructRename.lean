import Verif.Tests.Utils

/-!
# `tests/struct_rename.rs`, replayed on the model

Generated by tools/gen_tests.py from the test file: the same declarations, the same assertions.
-/

set_option maxRecDepth 4000

namespace Verif.Tests.StructRename
open Verif Verif.Js Verif.Schema Verif.Spec Verif.Props


/-! `tests/struct_rename.rs:7` -/
namespace serde_name_named_struct

def T0 : StructDecl := exStruct "Hello" [exField "s" (.prim .string), exField "num" (.prim .usize)]
def P : Program := [.struct T0]

example : call P .inline (.named 0) = lit "Ns.Hello" := by decide +kernel
example : (eval P 20 .inline (.named 0)).isSome = true := by decide +kernel

end serde_name_named_struct

/-! `tests/struct_rename.rs:20` -/
namespace serde_name_tuple_str

def T0 : StructDecl := exTuple "Hello" [exPos (.prim .string)]
def P : Program := [.struct T0]

example : call P .inline (.named 0) = lit "Ns.Hello" := by decide +kernel
example : (eval P 20 .inline (.named 0)).isSome = true := by decide +kernel

end serde_name_tuple_str

/-! `tests/struct_rename.rs:29` -/
namespace serde_rename_struct_field

def T0 : StructDecl := exStruct "Test" [exField "after" (.prim .string), exField "other" (.prim .usize)]
def P : Program := [.struct T0]

example : contains (call P .schema (.named 0)) (lit "after") = true := by decide +kernel
example : contains (call P .schema (.named 0)) (lit "other") = true := by decide +kernel
example : contains (call P .schema (.named 0)) (lit "before") = false := by decide +kernel
example : (eval P 20 .schema (.named 0)).isSome = true := by decide +kernel

end serde_rename_struct_field

end Verif.Tests.StructRename
