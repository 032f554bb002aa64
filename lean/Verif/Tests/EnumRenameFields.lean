import Verif.Tests.Utils

/-!
# `tests/enum_rename_fields.rs`, replayed on the model

Generated by tools/gen_tests.py from the test file: the same declarations, the same assertions.
-/

set_option maxRecDepth 4000

namespace Verif.Tests.EnumRenameFields
open Verif Verif.Js Verif.Schema Verif.Spec Verif.Props


/-! `tests/enum_rename_fields.rs:9` -/
namespace rename_variant_struct

def T0_0 : Variant := exVariant "HelloWorld" .named [exField "s" (.prim .string)]
def T0_1 : Variant := exVariant "after" .named [exField "num" (.prim .usize)]
def T0 : EnumDecl := exEnum "Test" .external [T0_0, T0_1]
def P : Program := [.enum T0]

example : Ser P false (.named 0) (.obj [(lit "after", .obj [(lit "num", .num (.int 123))])]) :=
  .external 0 T0 T0_1 (.obj [(lit "num", .num (.int 123))]) rfl rfl rfl (List.mem_of_getElem? (i := 1) rfl) rfl (.named T0_1.fields [(lit "num", .num (.int 123))] (.field (exField "num" (.prim .usize)) _ _ (.num (.int 123)) rfl rfl rfl (.int .usize 0 (2 ^ 64 - 1) 123 (.inr rfl) (by decide) (by decide)) (.nil)))
example : contains (call P .schema (.named 0)) (lit "HelloWorld") = true := by decide +kernel
example : contains (call P .schema (.named 0)) (lit "after") = true := by decide +kernel
example : contains (call P .schema (.named 0)) (lit "AnotherValue") = false := by decide +kernel
example : contains (call P .typeDef (.named 0)) (lit "HelloWorld") = true := by decide +kernel
example : contains (call P .typeDef (.named 0)) (lit "after") = true := by decide +kernel
example : contains (call P .typeDef (.named 0)) (lit "AnotherValue") = false := by decide +kernel
example : call P .inline (.named 0) = lit "Ns.Test" := by decide +kernel
example : (eval P 20 .inline (.named 0)).isSome = true := by decide +kernel
example : (eval P 20 .schema (.named 0)).isSome = true := by decide +kernel
example : (eval P 20 .typeDef (.named 0)).isSome = true := by decide +kernel

end rename_variant_struct

/-! `tests/enum_rename_fields.rs:33` -/
namespace rename_struct_field

def T0_0 : Variant := exVariant "HelloWorld" .named [exField "s" (.prim .string)]
def T0_1 : Variant := exVariant "AnotherValue" .named [exField "after" (.prim .usize)]
def T0 : EnumDecl := exEnum "Test" .external [T0_0, T0_1]
def P : Program := [.enum T0]

example : Ser P false (.named 0) (.obj [(lit "AnotherValue", .obj [(lit "after", .num (.int 123))])]) :=
  .external 0 T0 T0_1 (.obj [(lit "after", .num (.int 123))]) rfl rfl rfl (List.mem_of_getElem? (i := 1) rfl) rfl (.named T0_1.fields [(lit "after", .num (.int 123))] (.field (exField "after" (.prim .usize)) _ _ (.num (.int 123)) rfl rfl rfl (.int .usize 0 (2 ^ 64 - 1) 123 (.inr rfl) (by decide) (by decide)) (.nil)))
example : contains (call P .schema (.named 0)) (lit "HelloWorld") = true := by decide +kernel
example : contains (call P .schema (.named 0)) (lit "AnotherValue") = true := by decide +kernel
example : contains (call P .schema (.named 0)) (lit "after") = true := by decide +kernel
example : contains (call P .schema (.named 0)) (lit "before") = false := by decide +kernel
example : contains (call P .typeDef (.named 0)) (lit "HelloWorld") = true := by decide +kernel
example : contains (call P .typeDef (.named 0)) (lit "AnotherValue") = true := by decide +kernel
example : contains (call P .typeDef (.named 0)) (lit "after") = true := by decide +kernel
example : contains (call P .typeDef (.named 0)) (lit "before") = false := by decide +kernel
example : call P .inline (.named 0) = lit "Ns.Test" := by decide +kernel
example : (eval P 20 .inline (.named 0)).isSome = true := by decide +kernel
example : (eval P 20 .schema (.named 0)).isSome = true := by decide +kernel
example : (eval P 20 .typeDef (.named 0)).isSome = true := by decide +kernel

end rename_struct_field

/-! `tests/enum_rename_fields.rs:60` -/
namespace rename_all_tuple

def T0_0 : Variant := exVariant "HelloWorld" .tuple [exPos (.prim .string), exPos (.prim .usize)]
def T0_1 : Variant := exVariant "after" .tuple [exPos (.prim .usize), exPos (.prim .usize)]
def T0 : EnumDecl := exEnum "Test" .external [T0_0, T0_1]
def P : Program := [.enum T0]

example : Ser P false (.named 0) (.obj [(lit "after", .arr [.num (.int 123), .num (.int 42)])]) :=
  .external 0 T0 T0_1 (.arr [.num (.int 123), .num (.int 42)]) rfl rfl rfl (List.mem_of_getElem? (i := 1) rfl) rfl (.tuple T0_1.fields (serFields T0_1.fields) [.num (.int 123), .num (.int 42)] (by decide) (.refl _) (.cons (.int .usize 0 (2 ^ 64 - 1) 123 (.inr rfl) (by decide) (by decide)) (.cons (.int .usize 0 (2 ^ 64 - 1) 42 (.inr rfl) (by decide) (by decide)) (.nil))))
example : contains (call P .schema (.named 0)) (lit "HelloWorld") = true := by decide +kernel
example : contains (call P .schema (.named 0)) (lit "after") = true := by decide +kernel
example : contains (call P .schema (.named 0)) (lit "before") = false := by decide +kernel
example : contains (call P .typeDef (.named 0)) (lit "HelloWorld") = true := by decide +kernel
example : contains (call P .typeDef (.named 0)) (lit "after") = true := by decide +kernel
example : contains (call P .typeDef (.named 0)) (lit "before") = false := by decide +kernel
example : call P .inline (.named 0) = lit "Ns.Test" := by decide +kernel
example : (eval P 20 .inline (.named 0)).isSome = true := by decide +kernel
example : (eval P 20 .schema (.named 0)).isSome = true := by decide +kernel
example : (eval P 20 .typeDef (.named 0)).isSome = true := by decide +kernel

end rename_all_tuple

/-! `tests/enum_rename_fields.rs:84` -/
namespace rename_all_unit

def T0_0 : Variant := exVariant "HelloWorld" .unit []
def T0_1 : Variant := exVariant "after" .unit []
def T0 : EnumDecl := exEnum "Test" .external [T0_0, T0_1]
def P : Program := [.enum T0]

example : Ser P false (.named 0) (.str (lit "after")) :=
  .externalUnit 0 T0 T0_1 rfl rfl rfl (List.mem_of_getElem? (i := 1) rfl) rfl rfl
example : contains (call P .schema (.named 0)) (lit "HelloWorld") = true := by decide +kernel
example : contains (call P .schema (.named 0)) (lit "after") = true := by decide +kernel
example : contains (call P .schema (.named 0)) (lit "before") = false := by decide +kernel
example : contains (call P .typeDef (.named 0)) (lit "HelloWorld") = true := by decide +kernel
example : contains (call P .typeDef (.named 0)) (lit "after") = true := by decide +kernel
example : contains (call P .typeDef (.named 0)) (lit "before") = false := by decide +kernel
example : call P .inline (.named 0) = lit "Ns.Test" := by decide +kernel
example : (eval P 20 .inline (.named 0)).isSome = true := by decide +kernel
example : (eval P 20 .schema (.named 0)).isSome = true := by decide +kernel
example : (eval P 20 .typeDef (.named 0)).isSome = true := by decide +kernel

end rename_all_unit

end Verif.Tests.EnumRenameFields
