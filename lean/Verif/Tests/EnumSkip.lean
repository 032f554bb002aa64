import Verif.Tests.Utils

/-!
# `tests/enum_skip.rs`, replayed on the model

Generated by tools/gen_tests.py from the test file: the same declarations, the same assertions.
-/

set_option maxRecDepth 4000

namespace Verif.Tests.EnumSkip
open Verif Verif.Js Verif.Schema Verif.Spec Verif.Props


/-! `tests/enum_skip.rs:7` -/
namespace serde_skip_enum_tuple_variant

def T0_0 : Variant := { exVariant "ToBeSkipped" .tuple [exPos (.prim .string)] with skipDe := true, skipSer := true }
def T0_1 : Variant := exVariant "Number" .tuple [exPos (.prim .usize)]
def T0 : EnumDecl := exEnum "Test" .external [T0_0, T0_1]
def P : Program := [.enum T0]

example : contains (call P .schema (.named 0)) (lit "ToBeSkipped") = false := by decide +kernel
example : (eval P 20 .schema (.named 0)).isSome = true := by decide +kernel

end serde_skip_enum_tuple_variant

/-! `tests/enum_skip.rs:21` -/
namespace serde_skip_enum_unit_variant

def T0_0 : Variant := { exVariant "ToBeSkipped" .unit [] with skipDe := true, skipSer := true }
def T0_1 : Variant := exVariant "Number" .tuple [exPos (.prim .usize)]
def T0 : EnumDecl := exEnum "Test" .external [T0_0, T0_1]
def P : Program := [.enum T0]

example : contains (call P .schema (.named 0)) (lit "ToBeSkipped") = false := by decide +kernel
example : (eval P 20 .schema (.named 0)).isSome = true := by decide +kernel

end serde_skip_enum_unit_variant

/-! `tests/enum_skip.rs:35` -/
namespace serde_skip_enum_struct_variant

def T0_0 : Variant := { exVariant "ToBeSkipped" .named [exField "s" (.prim .string)] with skipDe := true, skipSer := true }
def T0_1 : Variant := exVariant "Number" .tuple [exPos (.prim .usize)]
def T0 : EnumDecl := exEnum "Test" .external [T0_0, T0_1]
def P : Program := [.enum T0]

example : contains (call P .schema (.named 0)) (lit "ToBeSkipped") = false := by decide +kernel
example : (eval P 20 .schema (.named 0)).isSome = true := by decide +kernel

end serde_skip_enum_struct_variant

/-! `tests/enum_skip.rs:51` -/
namespace serde_skip_enum_tuple_field

def T0_0 : Variant := exVariant "A" .tuple [{ exPos (.prim .string) with skipDe := true, skipSer := true }, exPos (.prim .usize)]
def T0_1 : Variant := exVariant "B" .tuple [exPos (.prim .usize)]
def T0 : EnumDecl := exEnum "Test" .external [T0_0, T0_1]
def P : Program := [.enum T0]

example : Ser P false (.named 0) (.obj [(lit "A", .arr [.num (.int 123)])]) :=
  .external 0 T0 T0_0 (.arr [.num (.int 123)]) rfl rfl rfl (List.mem_of_getElem? (i := 0) rfl) rfl (.tuple T0_0.fields (serFields T0_0.fields) [.num (.int 123)] (by decide) (.refl _) (.cons (.int .usize 0 (2 ^ 64 - 1) 123 (.inr rfl) (by decide) (by decide)) (.nil)))
example : contains (call P .schema (.named 0)) (lit "z.string") = false := by decide +kernel
example : (eval P 20 .schema (.named 0)).isSome = true := by decide +kernel

end serde_skip_enum_tuple_field

/-! `tests/enum_skip.rs:67` -/
namespace serde_skip_enum_only_tuple_field

def T0_0 : Variant := exVariant "A" .unit []
def T0_1 : Variant := exVariant "B" .tuple [exPos (.prim .usize)]
def T0 : EnumDecl := exEnum "Test" .external [T0_0, T0_1]
def T1_0 : Variant := exVariant "A" .tuple [{ exPos (.prim .string) with skipDe := true, skipSer := true }]
def T1_1 : Variant := exVariant "B" .tuple [exPos (.prim .usize)]
def T1 : EnumDecl := exEnum "Test2" .external [T1_0, T1_1]
def P : Program := [.enum T0, .enum T1]

example : Ser P false (.named 1) (.str (lit "A")) :=
  .externalUnit 1 T1 T1_0 rfl rfl rfl (List.mem_of_getElem? (i := 0) rfl) rfl rfl
example : call P .schema (.named 0) = call P .schema (.named 1) := by decide +kernel
example : call P .typeDef (.named 0) = call P .typeDef (.named 1) := by decide +kernel
example : (eval P 20 .schema (.named 0)).isSome = true := by decide +kernel
example : (eval P 20 .schema (.named 1)).isSome = true := by decide +kernel
example : (eval P 20 .typeDef (.named 0)).isSome = true := by decide +kernel
example : (eval P 20 .typeDef (.named 1)).isSome = true := by decide +kernel

end serde_skip_enum_only_tuple_field

/-! `tests/enum_skip.rs:91` -/
namespace serde_skip_struct_field

def T0_0 : Variant := exVariant "A" .named [{ exField "s" (.prim .string) with skipDe := true, skipSer := true }, exField "num" (.prim .usize)]
def T0_1 : Variant := exVariant "B" .tuple [exPos (.prim .usize)]
def T0 : EnumDecl := exEnum "Test" .external [T0_0, T0_1]
def T1_0 : Variant := exVariant "A" .named [exField "num" (.prim .usize)]
def T1_1 : Variant := exVariant "B" .tuple [exPos (.prim .usize)]
def T1 : EnumDecl := exEnum "TestExpected" .external [T1_0, T1_1]
def P : Program := [.enum T0, .enum T1]

example : call P .schema (.named 0) = call P .schema (.named 1) := by decide +kernel
example : call P .typeDef (.named 0) = call P .typeDef (.named 1) := by decide +kernel
example : (eval P 20 .schema (.named 0)).isSome = true := by decide +kernel
example : (eval P 20 .schema (.named 1)).isSome = true := by decide +kernel
example : (eval P 20 .typeDef (.named 0)).isSome = true := by decide +kernel
example : (eval P 20 .typeDef (.named 1)).isSome = true := by decide +kernel

end serde_skip_struct_field

end Verif.Tests.EnumSkip
