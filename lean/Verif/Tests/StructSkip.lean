import Verif.Tests.Utils

/-!
# `tests/struct_skip.rs`, replayed on the model

Generated by tools/gen_tests.py from the test file: the same declarations, the same assertions.
-/

set_option maxRecDepth 4000

namespace Verif.Tests.StructSkip
open Verif Verif.Js Verif.Schema Verif.Spec Verif.Props


/-! `tests/struct_skip.rs:7` -/
namespace serde_skip_struct_field

def T0 : StructDecl := exStruct "Test" [{ exField "to_be_skipped" (.prim .string) with skipDe := true, skipSer := true }, exField "num" (.prim .usize)]
def P : Program := [.struct T0]

example : De P (.named 0) (.obj [(lit "num", .num (.int 123))]) :=
  .struct 0 T0 (.obj [(lit "num", .num (.int 123))]) rfl rfl rfl (.named _ T0.fields [(lit "num", .num (.int 123))] (by decide +kernel) (fun _ h => nomatch h) (List.forall_mem_cons.2 (.intro (fun h => nomatch h) (List.forall_mem_cons.2 (.intro (fun _ _ => .present _ _ (.num (.int 123)) rfl rfl nofun (.wide .usize 0 (2 ^ 64 - 1) 123 (.inr (.inr (.inl rfl))) rfl (by decide) (by decide))) (by simp))))) (by simp [T0, exStruct, exField]))
example : contains (call P .schema (.named 0)) (lit "to_be_skipped") = false := by decide +kernel
example : (eval P 20 .schema (.named 0)).isSome = true := by decide +kernel

end serde_skip_struct_field

/-! `tests/struct_skip.rs:30` -/
namespace serde_skip_deserializing_struct_field

def T0 : StructDecl := exStruct "Test" [{ exField "to_be_skipped" (.prim .string) with skipDe := true }, exField "num" (.prim .usize)]
def P : Program := [.struct T0]

example : De P (.named 0) (.obj [(lit "num", .num (.int 123))]) :=
  .struct 0 T0 (.obj [(lit "num", .num (.int 123))]) rfl rfl rfl (.named _ T0.fields [(lit "num", .num (.int 123))] (by decide +kernel) (fun _ h => nomatch h) (List.forall_mem_cons.2 (.intro (fun h => nomatch h) (List.forall_mem_cons.2 (.intro (fun _ _ => .present _ _ (.num (.int 123)) rfl rfl nofun (.wide .usize 0 (2 ^ 64 - 1) 123 (.inr (.inr (.inl rfl))) rfl (by decide) (by decide))) (by simp))))) (by simp [T0, exStruct, exField]))
example : contains (call P .schema (.named 0)) (lit "to_be_skipped") = false := by decide +kernel
example : (eval P 20 .schema (.named 0)).isSome = true := by decide +kernel

end serde_skip_deserializing_struct_field

end Verif.Tests.StructSkip
