import Verif.Codegen.Members

/-!
# The compile-time check against duplicate types

Models `format_ident_for_registration` and `expand_type_registration` (`derive/src/lib.rs:167-189`), their use in
`derive/src/impl_namespace.rs:9-31`, `derive/src/impl_struct.rs:88-89,120-122,160-162` and `derive/src/impl_enum/mod.rs:72-73,99-101,134-136`, and the
names `impl_inventory::expand` registers.

Simplification: paths are given as absolute paths to the items they refer to (imports are resolved), and an import
never brings in a namespace under one name and its register struct under another.
-/

namespace Verif.Codegen
open Verif Verif.Schema

/-- A path: the modules and the name of the item. -/
structure Path where
  modules : List Str
  last : Str
  deriving DecidableEq

/-- `format_ident_for_registration`: the path with `__ZodRegister__` in front of its last segment.
`derive/src/lib.rs:167-176`. -/
def formatIdentForRegistration (p : Path) : Path := { p with last := lit "__ZodRegister__" ++ p.last }

/-- A struct with `#[derive(Namespace)]` and its attribute `#[namespace(name = "..")]`. `derive/src/args.rs:41-47`. -/
structure NsStruct where
  path : Path
  name : Option Str

/-- `const NAME`. `derive/src/impl_namespace.rs:10,21`. -/
def NsStruct.NAME (n : NsStruct) : Str := n.name.getD n.path.last

/-- The struct the macro declares next to the namespace. `derive/src/impl_namespace.rs:13-14,28-30`. -/
def NsStruct.register (n : NsStruct) : Path := formatIdentForRegistration n.path

/-- A type with `#[derive(Zod)]`, `#[zod(namespace = "..")]` and maybe `#[serde(rename = "..")]`.
`derive/src/args.rs:7-19`. -/
structure DerivedType where
  ident : Str
  nsPath : Path
  rename : Option Str

/-- `serde_ast.attrs.name().deserialize_name()`. `derive/src/impl_struct.rs:25`, `derive/src/impl_enum/mod.rs:27`. -/
def DerivedType.name (t : DerivedType) : Str := t.rename.getD t.ident

/-- `expand_type_registration`: an associated constant with the name of the Rust type, of the register struct of
its namespace. `derive/src/lib.rs:179-189`. -/
def expandTypeRegistration (t : DerivedType) : Path × Str := (formatIdentForRegistration t.nsPath, t.ident)

/-- The namespaces and derived types of a crate. -/
structure Crate where
  namespaces : List NsStruct
  types : List DerivedType

/-- What rustc checks: no two structs with the same path (those of the macro included), namespaces and register structs
that are referred to exist, and no two associated constants of a struct have the same name (E0592).
`derive/src/lib.rs:179-189`, `derive/src/impl_namespace.rs:9-31`, `derive/src/impl_inventory.rs:7-12`. -/
structure Crate.Compiles (c : Crate) : Prop where
  structs : (c.namespaces.map (·.path) ++ c.namespaces.map NsStruct.register).Nodup
  exists_ : ∀ t ∈ c.types, t.nsPath ∈ c.namespaces.map (·.path) ∧
    (expandTypeRegistration t).1 ∈ c.namespaces.map NsStruct.register
  consts : (c.types.map expandTypeRegistration).Nodup

/-- What `impl_inventory::expand` registers for a type: the `NAME` of its namespace and its name.
`derive/src/impl_inventory.rs:7-12`. -/
def Crate.Registers (c : Crate) (t : DerivedType) (ns name : Str) : Prop :=
  ∃ n ∈ c.namespaces, n.path = t.nsPath ∧ ns = n.NAME ∧ name = t.name

end Verif.Codegen
