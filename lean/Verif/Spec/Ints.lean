import Verif.Schema.Types

/-!
# Ranges of Rust's integer types
-/

namespace Verif.Spec
open Verif.Schema

/-- Rust's integer types of at most 32 bits and their least and greatest values. -/
def smallRange : Prim → Option (Int × Int)
  | .u8 => some (0, 2 ^ 8 - 1)
  | .u16 => some (0, 2 ^ 16 - 1)
  | .u32 => some (0, 2 ^ 32 - 1)
  | .i8 => some (-2 ^ 7, 2 ^ 7 - 1)
  | .i16 => some (-2 ^ 15, 2 ^ 15 - 1)
  | .i32 => some (-2 ^ 31, 2 ^ 31 - 1)
  | _ => none

/-- Rust's wider integer types (`usize` and `isize` on a 64 bit machine). -/
def wideRange : Prim → Option (Int × Int)
  | .u64 => some (0, 2 ^ 64 - 1)
  | .u128 => some (0, 2 ^ 128 - 1)
  | .usize => some (0, 2 ^ 64 - 1)
  | .i64 => some (-2 ^ 63, 2 ^ 63 - 1)
  | .i128 => some (-2 ^ 127, 2 ^ 127 - 1)
  | .isize => some (-2 ^ 63, 2 ^ 63 - 1)
  | _ => none

end Verif.Spec
