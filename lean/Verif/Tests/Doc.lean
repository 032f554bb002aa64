import Verif.Tests.Utils

/-!
# `tests/doc.rs`, replayed on the model

Generated by tools/gen_tests.py from the test file: the same declarations, the same assertions.
-/

set_option maxRecDepth 4000

namespace Verif.Tests.Doc
open Verif Verif.Js Verif.Schema Verif.Spec Verif.Props


def T0_0 : Variant := exVariant "A" .unit []
def T0 : EnumDecl := { exEnum "SingleVariantUnit" .external [T0_0] with attrs := [.doc (lit " Hello World")] }
def T1_0 : Variant := exVariant "A" .unit []
def T1_1 : Variant := exVariant "B" .unit []
def T1 : EnumDecl := { exEnum "MultiVariantUnit" .external [T1_0, T1_1] with attrs := [.doc (lit " Hello World")] }
def T2_0 : Variant := exVariant "A" .tuple [exPos (.prim .usize)]
def T2 : EnumDecl := { exEnum "SingleVariantTuple" .external [T2_0] with attrs := [.doc (lit " Hello World")] }
def T3_0 : Variant := exVariant "A" .tuple [exPos (.prim .usize)]
def T3_1 : Variant := exVariant "B" .tuple [exPos (.prim .usize)]
def T3 : EnumDecl := { exEnum "MultiVariantTuple" .external [T3_0, T3_1] with attrs := [.doc (lit " Hello World")] }
def T4_0 : Variant := exVariant "A" .named [exField "s" (.prim .string)]
def T4 : EnumDecl := { exEnum "SingleVariantStruct" .external [T4_0] with attrs := [.doc (lit " Hello World")] }
def T5_0 : Variant := exVariant "A" .named [exField "s" (.prim .string)]
def T5_1 : Variant := exVariant "B" .named [exField "num" (.prim .usize)]
def T5 : EnumDecl := { exEnum "MultiVariantStruct" .external [T5_0, T5_1] with attrs := [.doc (lit " Hello World")] }
def T6 : StructDecl := { exTuple "Newtype" [exPos (.prim .usize)] with attrs := [.doc (lit " Hello World")] }
def T7 : StructDecl := { exStruct "StructSingle" [exField "num" (.prim .usize)] with attrs := [.doc (lit " Hello World")] }
def T8 : StructDecl := { exStruct "StructMulti" [exField "num" (.prim .usize), exField "s" (.prim .string)] with attrs := [.doc (lit " Hello World")] }
def P : Program := [.enum T0, .enum T1, .enum T2, .enum T3, .enum T4, .enum T5, .struct T6, .struct T7, .struct T8]

/-- `DOC`: `tests/doc.rs:82` -/
def DOC : Str := lit "/**\n* Hello World\n*/\n"

/-! `enum_variant_unit_single` -/
example : docsOf P 0 = some (some DOC) := by decide +kernel

/-! `enum_variant_unit_multi` -/
example : docsOf P 1 = some (some DOC) := by decide +kernel

/-! `enum_variant_tuple_single` -/
example : docsOf P 2 = some (some DOC) := by decide +kernel

/-! `enum_variant_tuple_multi` -/
example : docsOf P 3 = some (some DOC) := by decide +kernel

/-! `enum_variant_struct_single` -/
example : docsOf P 4 = some (some DOC) := by decide +kernel

/-! `enum_variant_struct_multi` -/
example : docsOf P 5 = some (some DOC) := by decide +kernel

/-! `newtype` -/
example : docsOf P 6 = some (some DOC) := by decide +kernel

/-! `struct_single` -/
example : docsOf P 7 = some (some DOC) := by decide +kernel

/-! `struct_multi` -/
example : docsOf P 8 = some (some DOC) := by decide +kernel

end Verif.Tests.Doc
