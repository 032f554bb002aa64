import Verif.Basic.Str
import Verif.Derive.Docs

/-!
# Rust types, annotated declarations and texts with calls

The types for which `ZodType` is implemented (`core/src/build_ins.rs`), the struct and enum declarations
`#[derive(Zod)]` accepts with the serde attributes it reads (`derive/src/args.rs`,
`serde_derive_internals`), and the shape of the generated functions: a text with holes, each hole a call
of a `ZodType` function of another type.
-/

namespace Verif.Schema
open Verif

/-- Types with a fixed text: `core/src/build_ins.rs:93-149,273-297`. -/
inductive Prim where
  | string | strRef
  | u8 | u16 | u32 | u64 | u128 | usize
  | i8 | i16 | i32 | i64 | i128 | isize
  | f32 | f64
  | bool | char | unit
  | ipv4 | ipv6 | ip
  | smolStr | notNanF32 | notNanF64
  deriving DecidableEq, Repr

/-- `impl_wrapper!`: `core/src/build_ins.rs:156-164`. -/
inductive Wrapper where
  | box | arc | rc | cow | cell | refCell | mutex | weak | phantomData
  deriving DecidableEq, Repr

/-- Rust types with a `ZodType` implementation. `named i` is the `i`-th derived type of the program;
tuples have 1 to 30 components (`core/src/build_ins.rs:151-154`), a bound the model does not need. -/
inductive Ty where
  | prim (p : Prim)
  | wrap (w : Wrapper) (t : Ty)
  | option (t : Ty)
  | vec (t : Ty)
  | array (n : Nat) (t : Ty)
  | hashSet (t : Ty)
  | btreeSet (t : Ty)
  | hashMap (k v : Ty)
  | btreeMap (k v : Ty)
  | tuple (ts : List Ty)
  | result (t e : Ty)
  | named (i : Nat)

/-- The text-producing functions of `trait ZodType`: `core/src/lib.rs:18-33`. -/
inductive Method where
  | schema | inlineSchema | typeDef | inline
  deriving DecidableEq, Repr

/-- A generated `format!` expression: constant text and calls. For example
`derive/src/impl_struct.rs:186-194`. -/
inductive Piece where
  | txt (s : Str)
  | call (m : Method) (t : Ty)

/-- The shape of a struct or variant: `darling::ast::Style`. `derive/src/impl_struct.rs:33`,
`derive/src/impl_enum/field.rs:18`. -/
inductive Style where
  | named | tuple | unit
  deriving DecidableEq, Repr

/-- A field with the serde attributes that matter, as `serde_derive_internals` reports them. The code of
this repository reads `named` (`ident.is_some()`), `name`, `ty`, `skipDe`, `dflt` and `flatten`
(`derive/src/impl_struct.rs:35-46`, `derive/src/impl_enum/field.rs:20-40`); the others only matter to
serde: `serName` is the serialize name, `skipSer` is `skip_serializing`, `skipIfNone` is
`skip_serializing_if = "Option::is_none"`, `skipIf` is `skip_serializing_if` with another predicate, which may leave
out any value; `aliases` are the names given by `alias`. -/
structure Field where
  named : Bool
  name : Str
  ty : Ty
  skipDe : Bool
  dflt : Bool
  flatten : Bool
  serName : Str
  skipSer : Bool
  skipIfNone : Bool
  skipIf : Bool := false
  aliases : List Str := []

/-- Container attribute `from` / `try_from`. `derive/src/impl_struct.rs:48-52`. -/
inductive From where
  | none
  | from_ (t : Ty)
  | tryFrom (t : Ty)

/-- `type_from().or_else(type_try_from())`: `derive/src/impl_struct.rs:48-52`. -/
def From.ty? : From → Option Ty
  | .none => Option.none
  | .from_ t => some t
  | .tryFrom t => some t

/-- A struct with `#[derive(Zod)]`, with what is read at `derive/src/args.rs:7-18` and
`derive/src/impl_struct.rs:22-52`; `into`, `deny` (`deny_unknown_fields`) and `dfltAll` (`default` on
the struct) only matter to serde. -/
structure StructDecl where
  ns : Str
  name : Str
  attrs : List Derive.Attr
  transparent : Bool
  from_ : From
  into : Option Ty
  style : Style
  fields : List Field
  deny : Bool := false
  dfltAll : Bool := false

/-- `serde_derive_internals::attr::TagType`. Read at `derive/src/impl_enum/mod.rs:156-174`. -/
inductive Tag where
  | external
  | internal (tag : Str)
  | adjacent (tag content : Str)
  | untagged
  deriving DecidableEq

/-- A variant, with what is read at `derive/src/impl_enum/mod.rs:20-35` and
`derive/src/impl_enum/variant/mod.rs:20-48`; `serName` and `skipSer` only matter to serde. -/
structure Variant where
  name : Str
  serName : Str
  skipDe : Bool
  skipSer : Bool
  style : Style
  fields : List Field

/-- An enum with `#[derive(Zod)]`, with what is read at `derive/src/args.rs:7-18` and
`derive/src/impl_enum/mod.rs:15-50`; `into` and `deny` (`deny_unknown_fields`) only matter to serde. -/
structure EnumDecl where
  ns : Str
  name : Str
  attrs : List Derive.Attr
  tag : Tag
  from_ : From
  into : Option Ty
  variants : List Variant
  deny : Bool := false

/-- A declaration with `#[derive(Zod)]`; `ns` is the `NAME` of the namespace it is registered in.
`derive/src/lib.rs:91-94`. -/
inductive Decl where
  | struct (s : StructDecl)
  | enum (e : EnumDecl)

/-- `derive/src/args.rs:16` with `derive/src/impl_namespace.rs:10`. -/
def Decl.ns : Decl → Str
  | .struct s => s.ns
  | .enum e => e.ns

/-- `derive/src/impl_struct.rs:25`; the deserialize name of the container. -/
def Decl.name : Decl → Str
  | .struct s => s.name
  | .enum e => e.name

/-- `derive/src/lib.rs:77`. -/
def Decl.attrs : Decl → List Derive.Attr
  | .struct s => s.attrs
  | .enum e => e.attrs

/-- The derived types of a program. All items under `derive/src/lib.rs:58-96`. -/
abbrev Program := List Decl

/-- Deriving fails. The compile-time errors of `derive/src/lib.rs:58-96`. -/
inductive DeriveErr where
  /-- an attribute that `parse_meta` rejects, `derive/src/lib.rs:77-82` -/
  | unreadableAttrs
  /-- darling: "unsupported shape `no fields`", `derive/src/args.rs:11` -/
  | unsupportedShape
  /-- `derive/src/impl_enum/mod.rs:137-142` -/
  | emptyEnum
  /-- `derive/src/impl_struct.rs:225-231` -/
  | nonDefaultAfterDefault
  /-- an `unreachable!` or `expect` of the macro is hit -/
  | panic
  deriving DecidableEq, Repr

/-- Whether a declaration is emitted as `interface` or `type`: the variant of `TsTypeDef`
(`core/src/lib.rs:112-116`); `same t`: whatever `type_def` of `t` returns. -/
inductive Kind where
  | interface
  | type
  | same (t : Ty)

/-- The functions of a derived `impl ZodType`. `derive/src/impl_struct.rs:80-165`,
`derive/src/impl_enum/mod.rs:60-130`. -/
structure Impl where
  schema : List Piece
  inlineSchema : List Piece
  typeDef : List Piece
  kind : Kind
  inline : List Piece
  docs : Option Str

end Verif.Schema
