import Verif.Schema.Norm
import Verif.Derive.Docs

/-!
# The type table of the documentation

Models `core/src/docs.rs`.
-/

namespace Verif.Schema
open Verif

/-- The placeholder types `T` (`core/src/docs.rs:3-4`) and `U` (`core/src/docs.rs:6-7`) stand for the
first two types of a program; `E` is `U` (`core/src/docs.rs:29`). -/
def tyT : Ty := .named 0
/-- The second derived type the rows of the table are compared at. -/
def tyU : Ty := .named 1

/-- `schema()` where the placeholders have the impls of `core/src/docs.rs:9-27`: the name, for every
function (`inline_schema` and `inline` by the defaults of `core/src/lib.rs:21-23,30-32`). -/
def evalDoc : Nat → Method → Ty → Option Str
  | 0, _, _ => none
  | _ + 1, _, .named 0 => some (lit "T")
  | _ + 1, _, .named 1 => some (lit "U")
  | n + 1, m, t => match body [] m t with
    | some ps => runPieces (evalDoc n) ps
    | none => none

/-- A row: the type, its name as given to `Line::with_link` or as `std::any::type_name` gives it
(`core/src/docs.rs:94-97`), and the link. -/
structure Row where
  ty : Ty
  name : Str
  link : Option Str

/-- `Line::new::<T>()`: `core/src/docs.rs:94-97`. -/
def Row.new (p : Prim) (name : String) : Row := ⟨.prim p, lit name, some (lit name)⟩

/-- `Line::with_link::<T>(name, link)`: `core/src/docs.rs:99-111`. -/
def Row.withLink (t : Ty) (name link : String) : Row := ⟨t, lit name, some (lit link)⟩

/-- The lines of `generate()`: `core/src/docs.rs:32-81`. -/
def table : List Row := [
  .withLink (.prim .unit) "()" "https://doc.rust-lang.org/std/primitive.unit.html",
  .new .bool "bool",
  .new .char "char",
  .withLink (.option tyT) "Option<T>" "Option",
  .withLink (.result tyT tyU) "Result<T, E>" "Result",
  .withLink (.vec tyT) "Vec<T>" "Vec",
  .new .strRef "&str",
  ⟨.prim .string, lit "String", none⟩,
  .new .usize "usize",
  .new .u8 "u8",
  .new .u16 "u16",
  .new .u32 "u32",
  .new .u64 "u64",
  .new .u128 "u128",
  .new .i8 "i8",
  .new .i16 "i16",
  .new .i32 "i32",
  .new .i64 "i64",
  .new .i128 "i128",
  .new .usize "usize",
  .new .isize "isize",
  .new .f32 "f32",
  .new .f64 "f64",
  .withLink (.wrap .box tyT) "Box<T>" "Box",
  .withLink (.wrap .arc tyT) "Arc<T>" "std::sync::Arc",
  .withLink (.wrap .rc tyT) "Rc<T>" "std::rc::Rc",
  .withLink (.wrap .cow tyT) "Cow<'static, T>" "std::borrow::Cow",
  .withLink (.wrap .cell tyT) "Cell<T>" "std::cell::Cell",
  .withLink (.wrap .refCell tyT) "RefCell<T>" "std::cell::RefCell",
  .withLink (.wrap .mutex tyT) "Mutex<T>" "std::sync::Mutex",
  .withLink (.wrap .weak tyT) "Weak<T>" "std::sync::Weak",
  .withLink (.wrap .phantomData tyT) "PhantomData<T>" "std::marker::PhantomData",
  .withLink (.hashSet tyT) "HashSet<T>" "std::collections::HashSet",
  .withLink (.hashMap tyT tyU) "HashMap<T1, U2>" "std::collections::HashMap",
  .withLink (.btreeSet tyT) "BTreeSet<T>" "std::collections::BTreeSet",
  .withLink (.btreeMap tyT tyU) "BTreeMap<T1, U2>" "std::collections::BTreeMap"]

/-- `T::schema()` of a line: `core/src/docs.rs:109`. No type of the table needs more than three nested
calls. -/
def Row.text (r : Row) : Str := (evalDoc 4 .schema r.ty).getD []

/-- `impl Display for Line`: `core/src/docs.rs:114-122`, with the first line of
`core/src/docs.rs:99-107`. -/
def Row.line (r : Row) : Str :=
  (match r.link with
   | some l => lit "[" ++ Derive.escape r.name ++ lit "](" ++ Derive.escape l ++ lit ")"
   | none => lit "[" ++ Derive.escape r.name ++ lit "]") ++
  lit "\n```ignore// schema\n" ++ r.text ++ lit "\n```\n"

/-- `generate()`: `core/src/docs.rs:31-86`. -/
def generateTable : Str := lit "## Type Overview\n\n\n\n" ++ (table.map Row.line).flatten

end Verif.Schema
