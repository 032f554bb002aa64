import Verif.Schema.Types

/-!
# What the type table of the documentation should say
-/

namespace Verif.TableSpec
open Verif Verif.Schema

/-- The type with the placeholders replaced by types. -/
def inst (t u : Ty) : Ty → Ty
  | .prim p => .prim p
  | .wrap w a => .wrap w (inst t u a)
  | .option a => .option (inst t u a)
  | .vec a => .vec (inst t u a)
  | .array n a => .array n (inst t u a)
  | .hashSet a => .hashSet (inst t u a)
  | .btreeSet a => .btreeSet (inst t u a)
  | .hashMap a b => .hashMap (inst t u a) (inst t u b)
  | .btreeMap a b => .btreeMap (inst t u a) (inst t u b)
  | .tuple ts => .tuple (ts.map (inst t u))
  | .result a b => .result (inst t u a) (inst t u b)
  | .named 0 => t
  | .named 1 => u
  | .named (n + 2) => .named n

/-- Characters of identifiers. -/
def isIdChar (c : Char) : Bool := c.isAlphanum || c == '_' || c == '$'

/-- A text with the names `T` and `U` replaced by texts. `before` says whether the text follows a
character of a name. -/
def fill (a b : Str) : Bool → Str → Str
  | _, [] => []
  | before, c :: r =>
    let last := match r with
      | [] => true
      | d :: _ => !isIdChar d
    if !before && last && c == 'T' then a ++ fill a b true r
    else if !before && last && c == 'U' then b ++ fill a b true r
    else c :: fill a b (isIdChar c) r

/-- The text mentions the name. -/
def mentions (x : Char) : Bool → Str → Bool
  | _, [] => false
  | before, c :: r =>
    (!before && c == x && (match r with
      | [] => true
      | d :: _ => !isIdChar d)) || mentions x (isIdChar c) r

/-- What Rust calls a type without parameters. -/
def primName : Prim → Str
  | .string => lit "String" | .strRef => lit "&str"
  | .u8 => lit "u8" | .u16 => lit "u16" | .u32 => lit "u32" | .u64 => lit "u64" | .u128 => lit "u128" | .usize => lit "usize"
  | .i8 => lit "i8" | .i16 => lit "i16" | .i32 => lit "i32" | .i64 => lit "i64" | .i128 => lit "i128" | .isize => lit "isize"
  | .f32 => lit "f32" | .f64 => lit "f64"
  | .bool => lit "bool" | .char => lit "char" | .unit => lit "()"
  | .ipv4 => lit "Ipv4Addr" | .ipv6 => lit "Ipv6Addr" | .ip => lit "IpAddr"
  | .smolStr => lit "SmolStr" | .notNanF32 => lit "NotNan<f32>" | .notNanF64 => lit "NotNan<f64>"

/-- What Rust calls a type with the parameters `x` and `y`. -/
def nameWith (x y : Str) : Ty → Option Str
  | .prim p => some (primName p)
  | .wrap w _ => some (match w with
    | .box => lit "Box<" ++ x ++ lit ">" | .arc => lit "Arc<" ++ x ++ lit ">" | .rc => lit "Rc<" ++ x ++ lit ">"
    | .cow => lit "Cow<'static, " ++ x ++ lit ">" | .cell => lit "Cell<" ++ x ++ lit ">"
    | .refCell => lit "RefCell<" ++ x ++ lit ">" | .mutex => lit "Mutex<" ++ x ++ lit ">"
    | .weak => lit "Weak<" ++ x ++ lit ">" | .phantomData => lit "PhantomData<" ++ x ++ lit ">")
  | .option _ => some (lit "Option<" ++ x ++ lit ">")
  | .vec _ => some (lit "Vec<" ++ x ++ lit ">")
  | .hashSet _ => some (lit "HashSet<" ++ x ++ lit ">")
  | .btreeSet _ => some (lit "BTreeSet<" ++ x ++ lit ">")
  | .hashMap _ _ => some (lit "HashMap<" ++ x ++ lit ", " ++ y ++ lit ">")
  | .btreeMap _ _ => some (lit "BTreeMap<" ++ x ++ lit ", " ++ y ++ lit ">")
  | .result _ _ => some (lit "Result<" ++ x ++ lit ", " ++ y ++ lit ">")
  | _ => none

/-- Types that are not derived. -/
def builtin : Ty → Prop
  | .named _ => False
  | _ => True

/-- The lines of a text. -/
def linesOf : Str → List Str
  | [] => [[]]
  | '\n' :: r => [] :: linesOf r
  | c :: r => match linesOf r with
    | [] => [[c]]
    | l :: ls => (c :: l) :: ls

/-- The headings of a Markdown document that are followed by a fenced block of one line, with this
line. -/
def blocks : List Str → List (Str × Str)
  | h :: o :: x :: c :: r =>
    if o.take 3 = lit "```" ∧ c = lit "```" ∧ x.take 3 ≠ lit "```" then (h, x) :: blocks r
    else blocks (o :: x :: c :: r)
  | _ => []

/-- What a browser shows for a text with `&lt;`, `&gt;` and `&#124;`; `none` if there is a `<` in it, which Markdown takes for the
start of an HTML tag. -/
def shown : Str → Option Str
  | '&' :: 'l' :: 't' :: ';' :: r => (shown r).map ('<' :: ·)
  | '&' :: 'g' :: 't' :: ';' :: r => (shown r).map ('>' :: ·)
  | '&' :: '#' :: '1' :: '2' :: '4' :: ';' :: r => (shown r).map ('|' :: ·)
  | '<' :: _ => none
  | c :: r => (shown r).map (c :: ·)
  | [] => some []

/-- The text of a link `[name](target)` or `[name]`, which contains no brackets. -/
def linkText : Str → Option Str
  | '[' :: r => some (r.takeWhile (· != ']'))
  | _ => none

/-- The target of a link `[name](target)`; rustdoc takes the text of a link `[name]` as the target. -/
def linkTarget (h : Str) : Option Str :=
  (linkText h).map (fun n => match h.drop (n.length + 2) with
    | '(' :: r => r.takeWhile (· != ')')
    | _ => n)

/-- The last name of a path `a::b::c`. -/
def lastName (p : Str) : Str := (p.reverse.takeWhile (· != ':')).reverse

/-- A link leads to the page of the item: it is a path that ends with the name of the item, or a web
address. -/
def LeadsTo (item target : Str) : Prop :=
  lastName target = item ∨ (lit "https://").isPrefixOf target = true

instance (i t : Str) : Decidable (LeadsTo i t) := by unfold LeadsTo; infer_instance

end Verif.TableSpec
