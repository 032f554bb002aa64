import Verif.Props.Valid
import Verif.Spec.Ser

/-!
# The helpers of `tests/test_utils/mod.rs`

The texts the repository's tests compare with. The modules beside this one replay the assertions of
`/repo/tests/*.rs` on the model.
-/

namespace Verif.Tests
open Verif Verif.Schema

/-- `tests/test_utils/mod.rs:3` -/
def A : Str := lit "z.literal(\"A\")"
/-- `tests/test_utils/mod.rs:4` -/
def B : Str := lit "z.literal(\"B\")"
/-- `tests/test_utils/mod.rs:5` -/
def NULL : Str := lit "z.null()"

/-- `[..].join(", ")`. `tests/test_utils/mod.rs:11-15` -/
def joinC : List Str → Str
  | [] => []
  | [x] => x
  | x :: y :: r => x ++ lit ", " ++ joinC (y :: r)

/-- `tests/test_utils/mod.rs:7-17` -/
def discriminatedUnion (t : Str) (items : List Str) : Str :=
  lit "z.discriminatedUnion(\"" ++ t ++ lit "\", [" ++ joinC items ++ lit "])"

/-- `tests/test_utils/mod.rs:19-28` -/
def zodUnion (items : List Str) : Str := lit "z.union([" ++ joinC items ++ lit "])"

/-- `tests/test_utils/mod.rs:30-44` -/
def zodObj (fields : List (Str × Str)) : Str :=
  lit "z.object({ " ++ joinC (fields.map (fun p => p.1 ++ lit ": " ++ p.2)) ++ lit " })"

/-- `tests/test_utils/mod.rs:46-49` -/
def tuple (fields : List Str) : Str := lit "z.tuple([" ++ joinC fields ++ lit "])"

/-- `tests/test_utils/mod.rs:51-56` -/
def adjTagged (variant inner : Str) : Str :=
  zodObj [(lit "type", lit "z.literal(\"" ++ variant ++ lit "\")"), (lit "content", inner)]

/-- `tests/test_utils/mod.rs:58-60` -/
def optional (inner : Str) : Str := inner ++ lit ".optional()"

/-- `str::contains`, used for example at `tests/enum_default.rs:14`. -/
def contains : Str → Str → Bool
  | [], sub => sub.isEmpty
  | c :: s, sub => sub.isPrefixOf (c :: s) || contains s sub

/-- The result of a call of `schema`, `type_def` or `inline` in a test, for example
`tests/enum.rs:24`. That there is one is checked beside each use. -/
def call (P : Program) (m : Method) (t : Ty) : Str := (eval P 20 m t).getD []

/-- `docs()` of a derived type, used at `tests/doc.rs:91`. -/
def docsOf (P : Program) (i : Nat) : Option (Option Str) :=
  match (P[i]?).map derive with
  | some (.ok impl) => some impl.docs
  | _ => none

end Verif.Tests
