import Verif.Tests.Utils
import Verif.Codegen.Rpc

/-!
# `tests/ui/**/fail/*.rs` and the test of `core/src/build_ins.rs`, replayed on the model

The programs the macros must reject are rejected, with the error of the corresponding `.stderr` file. Not
here: `missing_namespace.rs` (the model's declarations always name a namespace) and the three whose error comes
from the Rust compiler (`multiple_impls.rs`, `function_returning_impl_iterator.rs` and
`sync_function_not_returning_stream.rs`: trait implementations that overlap or are missing).
-/

namespace Verif.Tests.Ui
open Verif Verif.Js Verif.Schema Verif.Spec Verif.Props Verif.Codegen

/-! `tests/ui/zod/fail/enum_empty.rs` -/
example : derive (.enum (exEnum "MyEnum" .external [])) = .error .emptyEnum := rfl

/-! `tests/ui/zod/fail/unit_struct.rs` -/
example : derive (.struct { exStruct "Test" [] with style := .unit }) = .error .unsupportedShape := rfl

/-! `tests/ui/zod/fail/tuple_structs_default_before_non_default_field.rs` -/
example : derive (.struct (exTuple "Test" [{ exPos (.prim .string) with dflt := true }, exPos (.prim .string)])) =
    .error .nonDefaultAfterDefault := rfl

/-- `fn test(..) -> ..`, with `&mut self` unless said otherwise. `tests/ui/rpc/fail/*.rs:6-11` -/
def sig (isAsync : Bool) (output : Output) (inputs : List FnArg) : List ImplItem :=
  [.method { ident := lit "test", isAsync := isAsync, output := output, inputs := inputs }]

def refMutSelf : FnArg := .receiver { mutability := true, reference := some none }

/-! `async_function_returning_impl_stream.rs`: `async fn test(&mut self) -> impl Stream<Item = usize>` -/
example : rpcItems (sig true (.type true (.prim .usize)) [refMutSelf]) = .error .asyncStream := rfl

/-! `function_bare_self.rs`: `async fn test(self)` -/
example : rpcItems (sig true .default [.receiver { mutability := false, reference := none }]) = .error .gotSelf := rfl

/-! `function_no_self.rs`: `async fn test()` -/
example : rpcItems (sig true .default []) = .error .noSelf := rfl

/-! `function_ref_self.rs`: `async fn test(&self)` -/
example : rpcItems (sig true .default [.receiver { mutability := false, reference := some none }]) =
    .error .gotRefSelf := rfl

/-! `core/src/build_ins.rs:299-317` -/
example : Ser [] false (.result (.prim .usize) (.prim .string)) (.obj [(lit "Ok", .num (.int 1))]) :=
  .ok _ _ _ (.int .usize 0 (2 ^ 64 - 1) 1 (.inr rfl) (by decide) (by decide))
example : Ser [] false (.result (.prim .usize) (.prim .string)) (.obj [(lit "Err", .str (lit "abc"))]) :=
  .err _ _ _ (.string _)
example : call [] .schema (.result (.prim .usize) (.prim .string)) =
    lit "z.union([z.object({ Ok: " ++ call [] .schema (.prim .usize) ++ lit " }), z.object({ Err: " ++
      call [] .schema (.prim .string) ++ lit " })])" := by decide +kernel

end Verif.Tests.Ui
