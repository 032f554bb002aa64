import Verif.Tests.Utils

/-!
# `tests/enum_rename.rs`, replayed on the model

Generated by tools/gen_tests.py from the test file: the same declarations, the same assertions.
-/

set_option maxRecDepth 4000

namespace Verif.Tests.EnumRename
open Verif Verif.Js Verif.Schema Verif.Spec Verif.Props


/-! `tests/enum_rename.rs:7` -/
namespace serde_name_struct

def T0_0 : Variant := exVariant "HelloWorld" .named [exField "s" (.prim .string)]
def T0_1 : Variant := exVariant "AnotherValue" .named [exField "num" (.prim .usize)]
def T0 : EnumDecl := exEnum "Hello" .external [T0_0, T0_1]
def P : Program := [.enum T0]

example : call P .inline (.named 0) = lit "Ns.Hello" := by decide +kernel
example : (eval P 20 .inline (.named 0)).isSome = true := by decide +kernel

end serde_name_struct

/-! `tests/enum_rename.rs:20` -/
namespace serde_name_tuple

def T0_0 : Variant := exVariant "HelloWorld" .tuple [exPos (.prim .string), exPos (.prim .usize)]
def T0_1 : Variant := exVariant "AnotherValue" .tuple [exPos (.prim .usize), exPos (.prim .usize)]
def T0 : EnumDecl := exEnum "Hello" .external [T0_0, T0_1]
def P : Program := [.enum T0]

example : call P .inline (.named 0) = lit "Ns.Hello" := by decide +kernel
example : (eval P 20 .inline (.named 0)).isSome = true := by decide +kernel

end serde_name_tuple

/-! `tests/enum_rename.rs:32` -/
namespace serde_name_unit

def T0_0 : Variant := exVariant "HelloWorld" .unit []
def T0_1 : Variant := exVariant "AnotherValue" .unit []
def T0 : EnumDecl := exEnum "Hello" .external [T0_0, T0_1]
def P : Program := [.enum T0]

example : call P .inline (.named 0) = lit "Ns.Hello" := by decide +kernel
example : (eval P 20 .inline (.named 0)).isSome = true := by decide +kernel

end serde_name_unit

end Verif.Tests.EnumRename
