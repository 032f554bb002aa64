import Verif.Tests.Utils

/-!
# `tests/enum.rs`, replayed on the model

Generated by tools/gen_tests.py from the test file: the same declarations, the same assertions.
-/

set_option maxRecDepth 4000

namespace Verif.Tests.Enum
open Verif Verif.Js Verif.Schema Verif.Spec Verif.Props


/-! `tests/enum.rs:9` -/
namespace enum_adj_struct

def T0_0 : Variant := exVariant "A" .named [exField "s" (.prim .string)]
def T0_1 : Variant := exVariant "B" .named [exField "num" (.prim .usize)]
def T0 : EnumDecl := exEnum "Test" (.adjacent (lit "type") (lit "content")) [T0_0, T0_1]
def P : Program := [.enum T0]

example : Ser P false (.named 0) (.obj [(lit "type", .str (lit "B")), (lit "content", .obj [(lit "num", .num (.int 123))])]) :=
  .adjacent 0 T0 T0_1 (lit "type") (lit "content") (.obj [(lit "num", .num (.int 123))]) rfl rfl rfl (List.mem_of_getElem? (i := 1) rfl) rfl (.named T0_1.fields [(lit "num", .num (.int 123))] (.field (exField "num" (.prim .usize)) _ _ (.num (.int 123)) rfl rfl rfl (.int .usize 0 (2 ^ 64 - 1) 123 (.inr rfl) (by decide) (by decide)) (.nil)))
example : call P .schema (.named 0) = discriminatedUnion (lit "type") [adjTagged (lit "A") (zodObj [(lit "s", call P .schema (.prim .string))]), adjTagged (lit "B") (zodObj [(lit "num", call P .schema (.prim .usize))])] := by decide +kernel
example : call P .typeDef (.named 0) = lit "{ type: \"A\", content: { s: string } } | { type: \"B\", content: { num: number } }" := by decide +kernel
example : call P .inline (.named 0) = lit "Ns.Test" := by decide +kernel
example : (eval P 20 .inline (.named 0)).isSome = true := by decide +kernel
example : (eval P 20 .schema (.named 0)).isSome = true := by decide +kernel
example : (eval P 20 .typeDef (.named 0)).isSome = true := by decide +kernel

end enum_adj_struct

/-! `tests/enum.rs:42` -/
namespace enum_adj_struct_multiple_fields

def T0_0 : Variant := exVariant "A" .named [exField "s" (.prim .string), exField "num" (.prim .usize)]
def T0_1 : Variant := exVariant "B" .named [exField "num" (.prim .usize)]
def T0 : EnumDecl := exEnum "Test" (.adjacent (lit "type") (lit "content")) [T0_0, T0_1]
def P : Program := [.enum T0]

example : Ser P false (.named 0) (.obj [(lit "type", .str (lit "A")), (lit "content", .obj [(lit "s", .str (lit "abc")), (lit "num", .num (.int 123))])]) :=
  .adjacent 0 T0 T0_0 (lit "type") (lit "content") (.obj [(lit "s", .str (lit "abc")), (lit "num", .num (.int 123))]) rfl rfl rfl (List.mem_of_getElem? (i := 0) rfl) rfl (.named T0_0.fields [(lit "s", .str (lit "abc")), (lit "num", .num (.int 123))] (.field (exField "s" (.prim .string)) _ _ (.str (lit "abc")) rfl rfl rfl (.string _) (.field (exField "num" (.prim .usize)) _ _ (.num (.int 123)) rfl rfl rfl (.int .usize 0 (2 ^ 64 - 1) 123 (.inr rfl) (by decide) (by decide)) (.nil))))
example : call P .schema (.named 0) = discriminatedUnion (lit "type") [adjTagged (lit "A") (zodObj [(lit "s", call P .schema (.prim .string)), (lit "num", call P .schema (.prim .usize))]), adjTagged (lit "B") (zodObj [(lit "num", call P .schema (.prim .usize))])] := by decide +kernel
example : call P .typeDef (.named 0) = lit "{ type: \"A\", content: { s: string, num: number } } | { type: \"B\", content: { num: number } }" := by decide +kernel
example : call P .inline (.named 0) = lit "Ns.Test" := by decide +kernel
example : (eval P 20 .inline (.named 0)).isSome = true := by decide +kernel
example : (eval P 20 .schema (.named 0)).isSome = true := by decide +kernel
example : (eval P 20 .typeDef (.named 0)).isSome = true := by decide +kernel

end enum_adj_struct_multiple_fields

/-! `tests/enum.rs:84` -/
namespace enum_adj_struct_multiple_fields_single

def T0_0 : Variant := exVariant "A" .named [exField "s" (.prim .string), exField "num" (.prim .usize)]
def T0 : EnumDecl := exEnum "Test" (.adjacent (lit "type") (lit "content")) [T0_0]
def P : Program := [.enum T0]

example : Ser P false (.named 0) (.obj [(lit "type", .str (lit "A")), (lit "content", .obj [(lit "s", .str (lit "")), (lit "num", .num (.int 123))])]) :=
  .adjacent 0 T0 T0_0 (lit "type") (lit "content") (.obj [(lit "s", .str (lit "")), (lit "num", .num (.int 123))]) rfl rfl rfl (List.mem_of_getElem? (i := 0) rfl) rfl (.named T0_0.fields [(lit "s", .str (lit "")), (lit "num", .num (.int 123))] (.field (exField "s" (.prim .string)) _ _ (.str (lit "")) rfl rfl rfl (.string _) (.field (exField "num" (.prim .usize)) _ _ (.num (.int 123)) rfl rfl rfl (.int .usize 0 (2 ^ 64 - 1) 123 (.inr rfl) (by decide) (by decide)) (.nil))))
example : call P .schema (.named 0) = adjTagged (lit "A") (zodObj [(lit "s", call P .schema (.prim .string)), (lit "num", call P .schema (.prim .usize))]) := by decide +kernel
example : call P .typeDef (.named 0) = lit "{ type: \"A\", content: { s: string, num: number } }" := by decide +kernel
example : call P .inline (.named 0) = lit "Ns.Test" := by decide +kernel
example : (eval P 20 .inline (.named 0)).isSome = true := by decide +kernel
example : (eval P 20 .schema (.named 0)).isSome = true := by decide +kernel
example : (eval P 20 .typeDef (.named 0)).isSome = true := by decide +kernel

end enum_adj_struct_multiple_fields_single

/-! `tests/enum.rs:113` -/
namespace enum_adj_tuple

def T0_0 : Variant := exVariant "A" .tuple [exPos (.prim .string)]
def T0_1 : Variant := exVariant "B" .tuple [exPos (.prim .usize)]
def T0 : EnumDecl := exEnum "Test" (.adjacent (lit "type") (lit "content")) [T0_0, T0_1]
def P : Program := [.enum T0]

example : Ser P false (.named 0) (.obj [(lit "type", .str (lit "B")), (lit "content", .num (.int 123))]) :=
  .adjacent 0 T0 T0_1 (lit "type") (lit "content") (.num (.int 123)) rfl rfl rfl (List.mem_of_getElem? (i := 1) rfl) rfl (.newtype (exPos (.prim .usize)) (.num (.int 123)) (.int .usize 0 (2 ^ 64 - 1) 123 (.inr rfl) (by decide) (by decide)))
example : call P .schema (.named 0) = discriminatedUnion (lit "type") [adjTagged (lit "A") (call P .schema (.prim .string)), adjTagged (lit "B") (call P .schema (.prim .usize))] := by decide +kernel
example : call P .typeDef (.named 0) = lit "{ type: \"A\", content: string } | { type: \"B\", content: number }" := by decide +kernel
example : call P .inline (.named 0) = lit "Ns.Test" := by decide +kernel
example : (eval P 20 .inline (.named 0)).isSome = true := by decide +kernel
example : (eval P 20 .schema (.named 0)).isSome = true := by decide +kernel
example : (eval P 20 .typeDef (.named 0)).isSome = true := by decide +kernel

end enum_adj_tuple

/-! `tests/enum.rs:142` -/
namespace enum_adj_tuple_multiple_fields

def T0_0 : Variant := exVariant "A" .tuple [exPos (.prim .usize), exPos (.prim .usize)]
def T0_1 : Variant := exVariant "B" .tuple [exPos (.prim .string)]
def T0 : EnumDecl := exEnum "Test" (.adjacent (lit "type") (lit "content")) [T0_0, T0_1]
def P : Program := [.enum T0]

example : Ser P false (.named 0) (.obj [(lit "type", .str (lit "A")), (lit "content", .arr [.num (.int 123), .num (.int 42)])]) :=
  .adjacent 0 T0 T0_0 (lit "type") (lit "content") (.arr [.num (.int 123), .num (.int 42)]) rfl rfl rfl (List.mem_of_getElem? (i := 0) rfl) rfl (.tuple T0_0.fields (serFields T0_0.fields) [.num (.int 123), .num (.int 42)] (by decide) (.refl _) (.cons (.int .usize 0 (2 ^ 64 - 1) 123 (.inr rfl) (by decide) (by decide)) (.cons (.int .usize 0 (2 ^ 64 - 1) 42 (.inr rfl) (by decide) (by decide)) (.nil))))
example : call P .schema (.named 0) = discriminatedUnion (lit "type") [adjTagged (lit "A") (tuple [call P .schema (.prim .usize), call P .schema (.prim .usize)]), adjTagged (lit "B") (call P .schema (.prim .string))] := by decide +kernel
example : call P .typeDef (.named 0) = lit "{ type: \"A\", content: [number, number] } | { type: \"B\", content: string }" := by decide +kernel
example : call P .inline (.named 0) = lit "Ns.Test" := by decide +kernel
example : (eval P 20 .inline (.named 0)).isSome = true := by decide +kernel
example : (eval P 20 .schema (.named 0)).isSome = true := by decide +kernel
example : (eval P 20 .typeDef (.named 0)).isSome = true := by decide +kernel

end enum_adj_tuple_multiple_fields

/-! `tests/enum.rs:172` -/
namespace enum_adj_tuple_multiple_fields_single_variant

def T0_0 : Variant := exVariant "A" .tuple [exPos (.prim .usize), exPos (.prim .usize)]
def T0 : EnumDecl := exEnum "Test" (.adjacent (lit "type") (lit "content")) [T0_0]
def P : Program := [.enum T0]

example : Ser P false (.named 0) (.obj [(lit "type", .str (lit "A")), (lit "content", .arr [.num (.int 123), .num (.int 42)])]) :=
  .adjacent 0 T0 T0_0 (lit "type") (lit "content") (.arr [.num (.int 123), .num (.int 42)]) rfl rfl rfl (List.mem_of_getElem? (i := 0) rfl) rfl (.tuple T0_0.fields (serFields T0_0.fields) [.num (.int 123), .num (.int 42)] (by decide) (.refl _) (.cons (.int .usize 0 (2 ^ 64 - 1) 123 (.inr rfl) (by decide) (by decide)) (.cons (.int .usize 0 (2 ^ 64 - 1) 42 (.inr rfl) (by decide) (by decide)) (.nil))))
example : call P .schema (.named 0) = adjTagged (lit "A") (tuple [call P .schema (.prim .usize), call P .schema (.prim .usize)]) := by decide +kernel
example : call P .typeDef (.named 0) = lit "{ type: \"A\", content: [number, number] }" := by decide +kernel
example : call P .inline (.named 0) = lit "Ns.Test" := by decide +kernel
example : (eval P 20 .inline (.named 0)).isSome = true := by decide +kernel
example : (eval P 20 .schema (.named 0)).isSome = true := by decide +kernel
example : (eval P 20 .typeDef (.named 0)).isSome = true := by decide +kernel

end enum_adj_tuple_multiple_fields_single_variant

/-! `tests/enum.rs:194` -/
namespace enum_adj_tuple_single_variant

def T0_0 : Variant := exVariant "A" .tuple [exPos (.prim .usize)]
def T0 : EnumDecl := exEnum "Test" (.adjacent (lit "type") (lit "content")) [T0_0]
def P : Program := [.enum T0]

example : Ser P false (.named 0) (.obj [(lit "type", .str (lit "A")), (lit "content", .num (.int 123))]) :=
  .adjacent 0 T0 T0_0 (lit "type") (lit "content") (.num (.int 123)) rfl rfl rfl (List.mem_of_getElem? (i := 0) rfl) rfl (.newtype (exPos (.prim .usize)) (.num (.int 123)) (.int .usize 0 (2 ^ 64 - 1) 123 (.inr rfl) (by decide) (by decide)))
example : call P .schema (.named 0) = adjTagged (lit "A") (call P .schema (.prim .usize)) := by decide +kernel
example : call P .typeDef (.named 0) = lit "{ type: \"A\", content: number }" := by decide +kernel
example : call P .inline (.named 0) = lit "Ns.Test" := by decide +kernel
example : (eval P 20 .inline (.named 0)).isSome = true := by decide +kernel
example : (eval P 20 .schema (.named 0)).isSome = true := by decide +kernel
example : (eval P 20 .typeDef (.named 0)).isSome = true := by decide +kernel

end enum_adj_tuple_single_variant

/-! `tests/enum.rs:211` -/
namespace enum_adj_unit

def T0_0 : Variant := exVariant "A" .unit []
def T0_1 : Variant := exVariant "B" .unit []
def T0 : EnumDecl := exEnum "Test" (.adjacent (lit "type") (lit "content")) [T0_0, T0_1]
def P : Program := [.enum T0]

example : Ser P false (.named 0) (.obj [(lit "type", .str (lit "B"))]) :=
  .adjacentUnit 0 T0 T0_1 (lit "type") (lit "content") rfl rfl rfl (List.mem_of_getElem? (i := 1) rfl) rfl rfl
example : call P .schema (.named 0) = discriminatedUnion (lit "type") [zodObj [(lit "type", A)], zodObj [(lit "type", B)]] := by decide +kernel
example : call P .typeDef (.named 0) = lit "{ type: \"A\" } | { type: \"B\" }" := by decide +kernel
example : call P .inline (.named 0) = lit "Ns.Test" := by decide +kernel
example : (eval P 20 .inline (.named 0)).isSome = true := by decide +kernel
example : (eval P 20 .schema (.named 0)).isSome = true := by decide +kernel
example : (eval P 20 .typeDef (.named 0)).isSome = true := by decide +kernel

end enum_adj_unit

/-! `tests/enum.rs:231` -/
namespace enum_adj_unit_single_variant

def T0_0 : Variant := exVariant "A" .unit []
def T0 : EnumDecl := exEnum "Test" (.adjacent (lit "type") (lit "content")) [T0_0]
def P : Program := [.enum T0]

example : Ser P false (.named 0) (.obj [(lit "type", .str (lit "A"))]) :=
  .adjacentUnit 0 T0 T0_0 (lit "type") (lit "content") rfl rfl rfl (List.mem_of_getElem? (i := 0) rfl) rfl rfl
example : call P .schema (.named 0) = zodObj [(lit "type", A)] := by decide +kernel
example : call P .typeDef (.named 0) = lit "{ type: \"A\" }" := by decide +kernel
example : call P .inline (.named 0) = lit "Ns.Test" := by decide +kernel
example : (eval P 20 .inline (.named 0)).isSome = true := by decide +kernel
example : (eval P 20 .schema (.named 0)).isSome = true := by decide +kernel
example : (eval P 20 .typeDef (.named 0)).isSome = true := by decide +kernel

end enum_adj_unit_single_variant

/-! `tests/enum.rs:247` -/
namespace enum_extern_struct

def T0_0 : Variant := exVariant "A" .named [exField "s" (.prim .string)]
def T0_1 : Variant := exVariant "B" .named [exField "num" (.prim .usize)]
def T0 : EnumDecl := exEnum "Test" .external [T0_0, T0_1]
def P : Program := [.enum T0]

example : Ser P false (.named 0) (.obj [(lit "B", .obj [(lit "num", .num (.int 123))])]) :=
  .external 0 T0 T0_1 (.obj [(lit "num", .num (.int 123))]) rfl rfl rfl (List.mem_of_getElem? (i := 1) rfl) rfl (.named T0_1.fields [(lit "num", .num (.int 123))] (.field (exField "num" (.prim .usize)) _ _ (.num (.int 123)) rfl rfl rfl (.int .usize 0 (2 ^ 64 - 1) 123 (.inr rfl) (by decide) (by decide)) (.nil)))
example : call P .schema (.named 0) = zodUnion [zodObj [(lit "A", zodObj [(lit "s", call P .schema (.prim .string))])], zodObj [(lit "B", zodObj [(lit "num", call P .schema (.prim .usize))])]] := by decide +kernel
example : call P .typeDef (.named 0) = lit "{ A: { s: string } } | { B: { num: number } }" := by decide +kernel
example : call P .inline (.named 0) = lit "Ns.Test" := by decide +kernel
example : (eval P 20 .inline (.named 0)).isSome = true := by decide +kernel
example : (eval P 20 .schema (.named 0)).isSome = true := by decide +kernel
example : (eval P 20 .typeDef (.named 0)).isSome = true := by decide +kernel

end enum_extern_struct

/-! `tests/enum.rs:273` -/
namespace enum_extern_struct_multiple_fields

def T0_0 : Variant := exVariant "A" .named [exField "s" (.prim .string), exField "num" (.prim .usize)]
def T0_1 : Variant := exVariant "B" .named [exField "num" (.prim .usize)]
def T0 : EnumDecl := exEnum "Test" .external [T0_0, T0_1]
def P : Program := [.enum T0]

example : Ser P false (.named 0) (.obj [(lit "B", .obj [(lit "num", .num (.int 123))])]) :=
  .external 0 T0 T0_1 (.obj [(lit "num", .num (.int 123))]) rfl rfl rfl (List.mem_of_getElem? (i := 1) rfl) rfl (.named T0_1.fields [(lit "num", .num (.int 123))] (.field (exField "num" (.prim .usize)) _ _ (.num (.int 123)) rfl rfl rfl (.int .usize 0 (2 ^ 64 - 1) 123 (.inr rfl) (by decide) (by decide)) (.nil)))
example : call P .schema (.named 0) = zodUnion [zodObj [(lit "A", zodObj [(lit "s", call P .schema (.prim .string)), (lit "num", call P .schema (.prim .usize))])], zodObj [(lit "B", zodObj [(lit "num", call P .schema (.prim .usize))])]] := by decide +kernel
example : call P .typeDef (.named 0) = lit "{ A: { s: string, num: number } } | { B: { num: number } }" := by decide +kernel
example : call P .inline (.named 0) = lit "Ns.Test" := by decide +kernel
example : (eval P 20 .inline (.named 0)).isSome = true := by decide +kernel
example : (eval P 20 .schema (.named 0)).isSome = true := by decide +kernel
example : (eval P 20 .typeDef (.named 0)).isSome = true := by decide +kernel

end enum_extern_struct_multiple_fields

/-! `tests/enum.rs:307` -/
namespace enum_extern_struct_multiple_fields_single_variant

def T0_0 : Variant := exVariant "A" .named [exField "s" (.prim .string), exField "num" (.prim .usize)]
def T0 : EnumDecl := exEnum "Test" .external [T0_0]
def P : Program := [.enum T0]

example : Ser P false (.named 0) (.obj [(lit "A", .obj [(lit "s", .str (lit "")), (lit "num", .num (.int 123))])]) :=
  .external 0 T0 T0_0 (.obj [(lit "s", .str (lit "")), (lit "num", .num (.int 123))]) rfl rfl rfl (List.mem_of_getElem? (i := 0) rfl) rfl (.named T0_0.fields [(lit "s", .str (lit "")), (lit "num", .num (.int 123))] (.field (exField "s" (.prim .string)) _ _ (.str (lit "")) rfl rfl rfl (.string _) (.field (exField "num" (.prim .usize)) _ _ (.num (.int 123)) rfl rfl rfl (.int .usize 0 (2 ^ 64 - 1) 123 (.inr rfl) (by decide) (by decide)) (.nil))))
example : call P .schema (.named 0) = zodObj [(lit "A", zodObj [(lit "s", call P .schema (.prim .string)), (lit "num", call P .schema (.prim .usize))])] := by decide +kernel
example : call P .typeDef (.named 0) = lit "{ A: { s: string, num: number } }" := by decide +kernel
example : call P .inline (.named 0) = lit "Ns.Test" := by decide +kernel
example : (eval P 20 .inline (.named 0)).isSome = true := by decide +kernel
example : (eval P 20 .schema (.named 0)).isSome = true := by decide +kernel
example : (eval P 20 .typeDef (.named 0)).isSome = true := by decide +kernel

end enum_extern_struct_multiple_fields_single_variant

/-! `tests/enum.rs:334` -/
namespace enum_extern_tuple

def T0_0 : Variant := exVariant "A" .tuple [exPos (.prim .string)]
def T0_1 : Variant := exVariant "B" .tuple [exPos (.prim .usize)]
def T0 : EnumDecl := exEnum "Test" .external [T0_0, T0_1]
def P : Program := [.enum T0]

example : Ser P false (.named 0) (.obj [(lit "B", .num (.int 123))]) :=
  .external 0 T0 T0_1 (.num (.int 123)) rfl rfl rfl (List.mem_of_getElem? (i := 1) rfl) rfl (.newtype (exPos (.prim .usize)) (.num (.int 123)) (.int .usize 0 (2 ^ 64 - 1) 123 (.inr rfl) (by decide) (by decide)))
example : call P .schema (.named 0) = zodUnion [zodObj [(lit "A", call P .schema (.prim .string))], zodObj [(lit "B", call P .schema (.prim .usize))]] := by decide +kernel
example : call P .typeDef (.named 0) = lit "{ A: string } | { B: number }" := by decide +kernel
example : call P .inline (.named 0) = lit "Ns.Test" := by decide +kernel
example : (eval P 20 .inline (.named 0)).isSome = true := by decide +kernel
example : (eval P 20 .schema (.named 0)).isSome = true := by decide +kernel
example : (eval P 20 .typeDef (.named 0)).isSome = true := by decide +kernel

end enum_extern_tuple

/-! `tests/enum.rs:360` -/
namespace enum_extern_tuple_multiple_fields

def T0_0 : Variant := exVariant "A" .tuple [exPos (.prim .usize), exPos (.prim .usize)]
def T0_1 : Variant := exVariant "B" .tuple [exPos (.prim .string)]
def T0 : EnumDecl := exEnum "Test" .external [T0_0, T0_1]
def P : Program := [.enum T0]

example : Ser P false (.named 0) (.obj [(lit "A", .arr [.num (.int 123), .num (.int 42)])]) :=
  .external 0 T0 T0_0 (.arr [.num (.int 123), .num (.int 42)]) rfl rfl rfl (List.mem_of_getElem? (i := 0) rfl) rfl (.tuple T0_0.fields (serFields T0_0.fields) [.num (.int 123), .num (.int 42)] (by decide) (.refl _) (.cons (.int .usize 0 (2 ^ 64 - 1) 123 (.inr rfl) (by decide) (by decide)) (.cons (.int .usize 0 (2 ^ 64 - 1) 42 (.inr rfl) (by decide) (by decide)) (.nil))))
example : call P .schema (.named 0) = zodUnion [zodObj [(lit "A", tuple [call P .schema (.prim .usize), call P .schema (.prim .usize)])], zodObj [(lit "B", call P .schema (.prim .string))]] := by decide +kernel
example : call P .typeDef (.named 0) = lit "{ A: [number, number] } | { B: string }" := by decide +kernel
example : call P .inline (.named 0) = lit "Ns.Test" := by decide +kernel
example : (eval P 20 .inline (.named 0)).isSome = true := by decide +kernel
example : (eval P 20 .schema (.named 0)).isSome = true := by decide +kernel
example : (eval P 20 .typeDef (.named 0)).isSome = true := by decide +kernel

end enum_extern_tuple_multiple_fields

/-! `tests/enum.rs:386` -/
namespace enum_extern_tuple_multiple_fields_single_variant

def T0_0 : Variant := exVariant "A" .tuple [exPos (.prim .usize), exPos (.prim .usize)]
def T0 : EnumDecl := exEnum "Test" .external [T0_0]
def P : Program := [.enum T0]

example : Ser P false (.named 0) (.obj [(lit "A", .arr [.num (.int 123), .num (.int 42)])]) :=
  .external 0 T0 T0_0 (.arr [.num (.int 123), .num (.int 42)]) rfl rfl rfl (List.mem_of_getElem? (i := 0) rfl) rfl (.tuple T0_0.fields (serFields T0_0.fields) [.num (.int 123), .num (.int 42)] (by decide) (.refl _) (.cons (.int .usize 0 (2 ^ 64 - 1) 123 (.inr rfl) (by decide) (by decide)) (.cons (.int .usize 0 (2 ^ 64 - 1) 42 (.inr rfl) (by decide) (by decide)) (.nil))))
example : call P .schema (.named 0) = zodObj [(lit "A", tuple [call P .schema (.prim .usize), call P .schema (.prim .usize)])] := by decide +kernel
example : call P .typeDef (.named 0) = lit "{ A: [number, number] }" := by decide +kernel
example : call P .inline (.named 0) = lit "Ns.Test" := by decide +kernel
example : (eval P 20 .inline (.named 0)).isSome = true := by decide +kernel
example : (eval P 20 .schema (.named 0)).isSome = true := by decide +kernel
example : (eval P 20 .typeDef (.named 0)).isSome = true := by decide +kernel

end enum_extern_tuple_multiple_fields_single_variant

/-! `tests/enum.rs:406` -/
namespace enum_extern_tuple_single_single_field_single_variant

def T0_0 : Variant := exVariant "A" .tuple [exPos (.prim .usize)]
def T0 : EnumDecl := exEnum "Test" .external [T0_0]
def P : Program := [.enum T0]

example : Ser P false (.named 0) (.obj [(lit "A", .num (.int 123))]) :=
  .external 0 T0 T0_0 (.num (.int 123)) rfl rfl rfl (List.mem_of_getElem? (i := 0) rfl) rfl (.newtype (exPos (.prim .usize)) (.num (.int 123)) (.int .usize 0 (2 ^ 64 - 1) 123 (.inr rfl) (by decide) (by decide)))
example : call P .schema (.named 0) = zodObj [(lit "A", call P .schema (.prim .usize))] := by decide +kernel
example : call P .typeDef (.named 0) = lit "{ A: number }" := by decide +kernel
example : call P .inline (.named 0) = lit "Ns.Test" := by decide +kernel
example : (eval P 20 .inline (.named 0)).isSome = true := by decide +kernel
example : (eval P 20 .schema (.named 0)).isSome = true := by decide +kernel
example : (eval P 20 .typeDef (.named 0)).isSome = true := by decide +kernel

end enum_extern_tuple_single_single_field_single_variant

/-! `tests/enum.rs:426` -/
namespace enum_extern_unit

def T0_0 : Variant := exVariant "A" .unit []
def T0_1 : Variant := exVariant "B" .unit []
def T0 : EnumDecl := exEnum "Test" .external [T0_0, T0_1]
def P : Program := [.enum T0]

example : Ser P false (.named 0) (.str (lit "B")) :=
  .externalUnit 0 T0 T0_1 rfl rfl rfl (List.mem_of_getElem? (i := 1) rfl) rfl rfl
example : call P .schema (.named 0) = zodUnion [A, B] := by decide +kernel
example : call P .typeDef (.named 0) = lit "\"A\" | \"B\"" := by decide +kernel
example : call P .inline (.named 0) = lit "Ns.Test" := by decide +kernel
example : (eval P 20 .inline (.named 0)).isSome = true := by decide +kernel
example : (eval P 20 .schema (.named 0)).isSome = true := by decide +kernel
example : (eval P 20 .typeDef (.named 0)).isSome = true := by decide +kernel

end enum_extern_unit

/-! `tests/enum.rs:443` -/
namespace enum_extern_unit_single_variant

def T0_0 : Variant := exVariant "A" .unit []
def T0 : EnumDecl := exEnum "Test" .external [T0_0]
def P : Program := [.enum T0]

example : Ser P false (.named 0) (.str (lit "A")) :=
  .externalUnit 0 T0 T0_0 rfl rfl rfl (List.mem_of_getElem? (i := 0) rfl) rfl rfl
example : call P .schema (.named 0) = A := by decide +kernel
example : call P .typeDef (.named 0) = lit "\"A\"" := by decide +kernel
example : call P .inline (.named 0) = lit "Ns.Test" := by decide +kernel
example : (eval P 20 .inline (.named 0)).isSome = true := by decide +kernel
example : (eval P 20 .schema (.named 0)).isSome = true := by decide +kernel
example : (eval P 20 .typeDef (.named 0)).isSome = true := by decide +kernel

end enum_extern_unit_single_variant

/-! `tests/enum.rs:458` -/
namespace enum_intern_struct

def T0_0 : Variant := exVariant "A" .named [exField "s" (.prim .string)]
def T0_1 : Variant := exVariant "B" .named [exField "num" (.prim .usize)]
def T0 : EnumDecl := exEnum "Test" (.internal (lit "type")) [T0_0, T0_1]
def P : Program := [.enum T0]

example : Ser P false (.named 0) (.obj [(lit "type", .str (lit "B")), (lit "num", .num (.int 123))]) :=
  .internal 0 T0 T0_1 (lit "type") [(lit "num", .num (.int 123))] rfl rfl rfl (List.mem_of_getElem? (i := 1) rfl) rfl rfl (.field (exField "num" (.prim .usize)) _ _ (.num (.int 123)) rfl rfl rfl (.int .usize 0 (2 ^ 64 - 1) 123 (.inr rfl) (by decide) (by decide)) (.nil))
example : call P .schema (.named 0) = discriminatedUnion (lit "type") [zodObj [(lit "type", A), (lit "s", call P .schema (.prim .string))], zodObj [(lit "type", B), (lit "num", call P .schema (.prim .usize))]] := by decide +kernel
example : call P .typeDef (.named 0) = lit "{ type: \"A\", s: string } | { type: \"B\", num: number }" := by decide +kernel
example : call P .inline (.named 0) = lit "Ns.Test" := by decide +kernel
example : (eval P 20 .inline (.named 0)).isSome = true := by decide +kernel
example : (eval P 20 .schema (.named 0)).isSome = true := by decide +kernel
example : (eval P 20 .typeDef (.named 0)).isSome = true := by decide +kernel

end enum_intern_struct

/-! `tests/enum.rs:493` -/
namespace enum_intern_struct_multiple_fields

def T0_0 : Variant := exVariant "A" .named [exField "s" (.prim .string), exField "num" (.prim .usize)]
def T0_1 : Variant := exVariant "B" .named [exField "num" (.prim .usize)]
def T0 : EnumDecl := exEnum "Test" (.internal (lit "type")) [T0_0, T0_1]
def P : Program := [.enum T0]

example : Ser P false (.named 0) (.obj [(lit "type", .str (lit "B")), (lit "num", .num (.int 123))]) :=
  .internal 0 T0 T0_1 (lit "type") [(lit "num", .num (.int 123))] rfl rfl rfl (List.mem_of_getElem? (i := 1) rfl) rfl rfl (.field (exField "num" (.prim .usize)) _ _ (.num (.int 123)) rfl rfl rfl (.int .usize 0 (2 ^ 64 - 1) 123 (.inr rfl) (by decide) (by decide)) (.nil))
example : call P .schema (.named 0) = discriminatedUnion (lit "type") [zodObj [(lit "type", A), (lit "s", call P .schema (.prim .string)), (lit "num", call P .schema (.prim .usize))], zodObj [(lit "type", B), (lit "num", call P .schema (.prim .usize))]] := by decide +kernel
example : call P .typeDef (.named 0) = lit "{ type: \"A\", s: string, num: number } | { type: \"B\", num: number }" := by decide +kernel
example : call P .inline (.named 0) = lit "Ns.Test" := by decide +kernel
example : (eval P 20 .inline (.named 0)).isSome = true := by decide +kernel
example : (eval P 20 .schema (.named 0)).isSome = true := by decide +kernel
example : (eval P 20 .typeDef (.named 0)).isSome = true := by decide +kernel

end enum_intern_struct_multiple_fields

/-! `tests/enum.rs:530` -/
namespace enum_intern_struct_multiple_fields_single_variant

def T0_0 : Variant := exVariant "A" .named [exField "s" (.prim .string), exField "num" (.prim .usize)]
def T0 : EnumDecl := exEnum "Test" (.internal (lit "type")) [T0_0]
def P : Program := [.enum T0]

example : Ser P false (.named 0) (.obj [(lit "type", .str (lit "A")), (lit "s", .str (lit "")), (lit "num", .num (.int 123))]) :=
  .internal 0 T0 T0_0 (lit "type") [(lit "s", .str (lit "")), (lit "num", .num (.int 123))] rfl rfl rfl (List.mem_of_getElem? (i := 0) rfl) rfl rfl (.field (exField "s" (.prim .string)) _ _ (.str (lit "")) rfl rfl rfl (.string _) (.field (exField "num" (.prim .usize)) _ _ (.num (.int 123)) rfl rfl rfl (.int .usize 0 (2 ^ 64 - 1) 123 (.inr rfl) (by decide) (by decide)) (.nil)))
example : call P .schema (.named 0) = zodObj [(lit "type", A), (lit "s", call P .schema (.prim .string)), (lit "num", call P .schema (.prim .usize))] := by decide +kernel
example : call P .typeDef (.named 0) = lit "{ type: \"A\", s: string, num: number }" := by decide +kernel
example : call P .inline (.named 0) = lit "Ns.Test" := by decide +kernel
example : (eval P 20 .inline (.named 0)).isSome = true := by decide +kernel
example : (eval P 20 .schema (.named 0)).isSome = true := by decide +kernel
example : (eval P 20 .typeDef (.named 0)).isSome = true := by decide +kernel

end enum_intern_struct_multiple_fields_single_variant

/-! `tests/enum.rs:558` -/
namespace enum_intern_unit

def T0_0 : Variant := exVariant "A" .unit []
def T0_1 : Variant := exVariant "B" .unit []
def T0 : EnumDecl := exEnum "Test" (.internal (lit "type")) [T0_0, T0_1]
def P : Program := [.enum T0]

example : Ser P false (.named 0) (.obj [(lit "type", .str (lit "B"))]) :=
  .internalUnit 0 T0 T0_1 (lit "type") rfl rfl rfl (List.mem_of_getElem? (i := 1) rfl) rfl rfl
example : call P .schema (.named 0) = discriminatedUnion (lit "type") [zodObj [(lit "type", A)], zodObj [(lit "type", B)]] := by decide +kernel
example : call P .typeDef (.named 0) = lit "{ type: \"A\" } | { type: \"B\" }" := by decide +kernel
example : call P .inline (.named 0) = lit "Ns.Test" := by decide +kernel
example : (eval P 20 .inline (.named 0)).isSome = true := by decide +kernel
example : (eval P 20 .schema (.named 0)).isSome = true := by decide +kernel
example : (eval P 20 .typeDef (.named 0)).isSome = true := by decide +kernel

end enum_intern_unit

/-! `tests/enum.rs:578` -/
namespace enum_intern_unit_single_variant

def T0_0 : Variant := exVariant "A" .unit []
def T0 : EnumDecl := exEnum "Test" (.internal (lit "type")) [T0_0]
def P : Program := [.enum T0]

example : Ser P false (.named 0) (.obj [(lit "type", .str (lit "A"))]) :=
  .internalUnit 0 T0 T0_0 (lit "type") rfl rfl rfl (List.mem_of_getElem? (i := 0) rfl) rfl rfl
example : call P .schema (.named 0) = zodObj [(lit "type", A)] := by decide +kernel
example : call P .typeDef (.named 0) = lit "{ type: \"A\" }" := by decide +kernel
example : call P .inline (.named 0) = lit "Ns.Test" := by decide +kernel
example : (eval P 20 .inline (.named 0)).isSome = true := by decide +kernel
example : (eval P 20 .schema (.named 0)).isSome = true := by decide +kernel
example : (eval P 20 .typeDef (.named 0)).isSome = true := by decide +kernel

end enum_intern_unit_single_variant

/-! `tests/enum.rs:595` -/
namespace enum_untagged_struct

def T0_0 : Variant := exVariant "A" .named [exField "s" (.prim .string)]
def T0_1 : Variant := exVariant "B" .named [exField "num" (.prim .usize)]
def T0 : EnumDecl := exEnum "Test" .untagged [T0_0, T0_1]
def P : Program := [.enum T0]

example : Ser P false (.named 0) (.obj [(lit "num", .num (.int 123))]) :=
  .untagged 0 T0 T0_1 (.obj [(lit "num", .num (.int 123))]) rfl rfl rfl (List.mem_of_getElem? (i := 1) rfl) rfl (.named T0_1.fields [(lit "num", .num (.int 123))] (.field (exField "num" (.prim .usize)) _ _ (.num (.int 123)) rfl rfl rfl (.int .usize 0 (2 ^ 64 - 1) 123 (.inr rfl) (by decide) (by decide)) (.nil)))
example : call P .schema (.named 0) = zodUnion [zodObj [(lit "s", call P .schema (.prim .string))], zodObj [(lit "num", call P .schema (.prim .usize))]] := by decide +kernel
example : call P .typeDef (.named 0) = lit "{ s: string } | { num: number }" := by decide +kernel
example : call P .inline (.named 0) = lit "Ns.Test" := by decide +kernel
example : (eval P 20 .inline (.named 0)).isSome = true := by decide +kernel
example : (eval P 20 .schema (.named 0)).isSome = true := by decide +kernel
example : (eval P 20 .typeDef (.named 0)).isSome = true := by decide +kernel

end enum_untagged_struct

/-! `tests/enum.rs:618` -/
namespace enum_untagged_struct_multiple_fields

def T0_0 : Variant := exVariant "A" .named [exField "s" (.prim .string), exField "num" (.prim .usize)]
def T0_1 : Variant := exVariant "B" .named [exField "num" (.prim .usize)]
def T0 : EnumDecl := exEnum "Test" .untagged [T0_0, T0_1]
def P : Program := [.enum T0]

example : Ser P false (.named 0) (.obj [(lit "num", .num (.int 123))]) :=
  .untagged 0 T0 T0_1 (.obj [(lit "num", .num (.int 123))]) rfl rfl rfl (List.mem_of_getElem? (i := 1) rfl) rfl (.named T0_1.fields [(lit "num", .num (.int 123))] (.field (exField "num" (.prim .usize)) _ _ (.num (.int 123)) rfl rfl rfl (.int .usize 0 (2 ^ 64 - 1) 123 (.inr rfl) (by decide) (by decide)) (.nil)))
example : call P .schema (.named 0) = zodUnion [zodObj [(lit "s", call P .schema (.prim .string)), (lit "num", call P .schema (.prim .usize))], zodObj [(lit "num", call P .schema (.prim .usize))]] := by decide +kernel
example : call P .typeDef (.named 0) = lit "{ s: string, num: number } | { num: number }" := by decide +kernel
example : call P .inline (.named 0) = lit "Ns.Test" := by decide +kernel
example : (eval P 20 .inline (.named 0)).isSome = true := by decide +kernel
example : (eval P 20 .schema (.named 0)).isSome = true := by decide +kernel
example : (eval P 20 .typeDef (.named 0)).isSome = true := by decide +kernel

end enum_untagged_struct_multiple_fields

/-! `tests/enum.rs:644` -/
namespace enum_untagged_struct_multiple_fields_single_variant

def T0_0 : Variant := exVariant "A" .named [exField "s" (.prim .string), exField "num" (.prim .usize)]
def T0 : EnumDecl := exEnum "Test" .untagged [T0_0]
def P : Program := [.enum T0]

example : Ser P false (.named 0) (.obj [(lit "s", .str (lit "")), (lit "num", .num (.int 123))]) :=
  .untagged 0 T0 T0_0 (.obj [(lit "s", .str (lit "")), (lit "num", .num (.int 123))]) rfl rfl rfl (List.mem_of_getElem? (i := 0) rfl) rfl (.named T0_0.fields [(lit "s", .str (lit "")), (lit "num", .num (.int 123))] (.field (exField "s" (.prim .string)) _ _ (.str (lit "")) rfl rfl rfl (.string _) (.field (exField "num" (.prim .usize)) _ _ (.num (.int 123)) rfl rfl rfl (.int .usize 0 (2 ^ 64 - 1) 123 (.inr rfl) (by decide) (by decide)) (.nil))))
example : call P .schema (.named 0) = zodObj [(lit "s", call P .schema (.prim .string)), (lit "num", call P .schema (.prim .usize))] := by decide +kernel
example : call P .typeDef (.named 0) = lit "{ s: string, num: number }" := by decide +kernel
example : call P .inline (.named 0) = lit "Ns.Test" := by decide +kernel
example : (eval P 20 .inline (.named 0)).isSome = true := by decide +kernel
example : (eval P 20 .schema (.named 0)).isSome = true := by decide +kernel
example : (eval P 20 .typeDef (.named 0)).isSome = true := by decide +kernel

end enum_untagged_struct_multiple_fields_single_variant

/-! `tests/enum.rs:667` -/
namespace enum_untagged_tuple

def T0_0 : Variant := exVariant "A" .tuple [exPos (.prim .string)]
def T0_1 : Variant := exVariant "B" .tuple [exPos (.prim .usize)]
def T0 : EnumDecl := exEnum "Test" .untagged [T0_0, T0_1]
def P : Program := [.enum T0]

example : Ser P false (.named 0) (.num (.int 123)) :=
  .untagged 0 T0 T0_1 (.num (.int 123)) rfl rfl rfl (List.mem_of_getElem? (i := 1) rfl) rfl (.newtype (exPos (.prim .usize)) (.num (.int 123)) (.int .usize 0 (2 ^ 64 - 1) 123 (.inr rfl) (by decide) (by decide)))
example : call P .schema (.named 0) = zodUnion [call P .schema (.prim .string), call P .schema (.prim .usize)] := by decide +kernel
example : call P .typeDef (.named 0) = lit "string | number" := by decide +kernel
example : call P .inline (.named 0) = lit "Ns.Test" := by decide +kernel
example : (eval P 20 .inline (.named 0)).isSome = true := by decide +kernel
example : (eval P 20 .schema (.named 0)).isSome = true := by decide +kernel
example : (eval P 20 .typeDef (.named 0)).isSome = true := by decide +kernel

end enum_untagged_tuple

/-! `tests/enum.rs:687` -/
namespace enum_untagged_tuple_multiple_fields

def T0_0 : Variant := exVariant "A" .tuple [exPos (.prim .usize), exPos (.prim .usize)]
def T0_1 : Variant := exVariant "B" .tuple [exPos (.prim .string)]
def T0 : EnumDecl := exEnum "Test" .untagged [T0_0, T0_1]
def P : Program := [.enum T0]

example : Ser P false (.named 0) (.arr [.num (.int 123), .num (.int 42)]) :=
  .untagged 0 T0 T0_0 (.arr [.num (.int 123), .num (.int 42)]) rfl rfl rfl (List.mem_of_getElem? (i := 0) rfl) rfl (.tuple T0_0.fields (serFields T0_0.fields) [.num (.int 123), .num (.int 42)] (by decide) (.refl _) (.cons (.int .usize 0 (2 ^ 64 - 1) 123 (.inr rfl) (by decide) (by decide)) (.cons (.int .usize 0 (2 ^ 64 - 1) 42 (.inr rfl) (by decide) (by decide)) (.nil))))
example : call P .schema (.named 0) = zodUnion [tuple [call P .schema (.prim .usize), call P .schema (.prim .usize)], call P .schema (.prim .string)] := by decide +kernel
example : call P .typeDef (.named 0) = lit "[number, number] | string" := by decide +kernel
example : call P .inline (.named 0) = lit "Ns.Test" := by decide +kernel
example : (eval P 20 .inline (.named 0)).isSome = true := by decide +kernel
example : (eval P 20 .schema (.named 0)).isSome = true := by decide +kernel
example : (eval P 20 .typeDef (.named 0)).isSome = true := by decide +kernel

end enum_untagged_tuple_multiple_fields

/-! `tests/enum.rs:707` -/
namespace enum_untagged_tuple_multiple_fields_single_variant

def T0_0 : Variant := exVariant "A" .tuple [exPos (.prim .usize), exPos (.prim .usize)]
def T0 : EnumDecl := exEnum "Test" .untagged [T0_0]
def P : Program := [.enum T0]

example : Ser P false (.named 0) (.arr [.num (.int 123), .num (.int 42)]) :=
  .untagged 0 T0 T0_0 (.arr [.num (.int 123), .num (.int 42)]) rfl rfl rfl (List.mem_of_getElem? (i := 0) rfl) rfl (.tuple T0_0.fields (serFields T0_0.fields) [.num (.int 123), .num (.int 42)] (by decide) (.refl _) (.cons (.int .usize 0 (2 ^ 64 - 1) 123 (.inr rfl) (by decide) (by decide)) (.cons (.int .usize 0 (2 ^ 64 - 1) 42 (.inr rfl) (by decide) (by decide)) (.nil))))
example : call P .schema (.named 0) = tuple [call P .schema (.prim .usize), call P .schema (.prim .usize)] := by decide +kernel
example : call P .typeDef (.named 0) = lit "[number, number]" := by decide +kernel
example : call P .inline (.named 0) = lit "Ns.Test" := by decide +kernel
example : (eval P 20 .inline (.named 0)).isSome = true := by decide +kernel
example : (eval P 20 .schema (.named 0)).isSome = true := by decide +kernel
example : (eval P 20 .typeDef (.named 0)).isSome = true := by decide +kernel

end enum_untagged_tuple_multiple_fields_single_variant

/-! `tests/enum.rs:723` -/
namespace enum_untagged_tuple_single_field_single_variant

def T0_0 : Variant := exVariant "A" .tuple [exPos (.prim .usize)]
def T0 : EnumDecl := exEnum "Test" .untagged [T0_0]
def P : Program := [.enum T0]

example : Ser P false (.named 0) (.num (.int 123)) :=
  .untagged 0 T0 T0_0 (.num (.int 123)) rfl rfl rfl (List.mem_of_getElem? (i := 0) rfl) rfl (.newtype (exPos (.prim .usize)) (.num (.int 123)) (.int .usize 0 (2 ^ 64 - 1) 123 (.inr rfl) (by decide) (by decide)))
example : call P .schema (.named 0) = call P .schema (.prim .usize) := by decide +kernel
example : call P .typeDef (.named 0) = lit "number" := by decide +kernel
example : call P .inline (.named 0) = lit "Ns.Test" := by decide +kernel
example : (eval P 20 .inline (.named 0)).isSome = true := by decide +kernel
example : (eval P 20 .schema (.named 0)).isSome = true := by decide +kernel
example : (eval P 20 .typeDef (.named 0)).isSome = true := by decide +kernel

end enum_untagged_tuple_single_field_single_variant

/-! `tests/enum.rs:738` -/
namespace enum_untagged_unit

def T0_0 : Variant := exVariant "A" .unit []
def T0_1 : Variant := exVariant "B" .unit []
def T0 : EnumDecl := exEnum "Test" .untagged [T0_0, T0_1]
def P : Program := [.enum T0]

example : Ser P false (.named 0) (.null) :=
  .untaggedUnit 0 T0 T0_1 rfl rfl rfl (List.mem_of_getElem? (i := 1) rfl) rfl rfl
example : call P .schema (.named 0) = zodUnion [NULL, NULL] := by decide +kernel
example : call P .typeDef (.named 0) = lit "null | null" := by decide +kernel
example : call P .inline (.named 0) = lit "Ns.Test" := by decide +kernel
example : (eval P 20 .inline (.named 0)).isSome = true := by decide +kernel
example : (eval P 20 .schema (.named 0)).isSome = true := by decide +kernel
example : (eval P 20 .typeDef (.named 0)).isSome = true := by decide +kernel

end enum_untagged_unit

/-! `tests/enum.rs:754` -/
namespace enum_untagged_unit_single_variant

def T0_0 : Variant := exVariant "A" .unit []
def T0 : EnumDecl := exEnum "Test" .untagged [T0_0]
def P : Program := [.enum T0]

example : Ser P false (.named 0) (.null) :=
  .untaggedUnit 0 T0 T0_0 rfl rfl rfl (List.mem_of_getElem? (i := 0) rfl) rfl rfl
example : call P .schema (.named 0) = NULL := by decide +kernel
example : call P .typeDef (.named 0) = lit "null" := by decide +kernel
example : call P .inline (.named 0) = lit "Ns.Test" := by decide +kernel
example : (eval P 20 .inline (.named 0)).isSome = true := by decide +kernel
example : (eval P 20 .schema (.named 0)).isSome = true := by decide +kernel
example : (eval P 20 .typeDef (.named 0)).isSome = true := by decide +kernel

end enum_untagged_unit_single_variant

end Verif.Tests.Enum
