import Verif.Codegen.Generate
import Verif.Schema.Eval

/-!
# Registered types of a program

Models `impl_inventory::expand` (`derive/src/impl_inventory.rs`) and `NamespaceMemberDefinition::new_for`
(`core/src/lib.rs:78-89`): a derived type is registered with its namespace's `NAME`, its name, and the functions
`schema`, `type_def` and `docs` of its implementation. (Registration needs the feature `inventory`.)
-/

namespace Verif.Codegen
open Verif Verif.Schema

/-- The value `type_def()` returns: variant and text. `core/src/lib.rs:112-116`. -/
def tsTypeDef : Kind → Str → TsTypeDef
  | .interface, s => .interface s
  | _, s => .type s

/-- `m` is what the `i`-th declaration `d` of the program registers, if its functions return.
`core/src/lib.rs:78-89`, `derive/src/impl_inventory.rs:1-12`. -/
structure IsMember (P : Program) (i : Nat) (d : Decl) (m : Member) : Prop where
  decl : P[i]? = some d
  ns : m.ns = d.ns
  name : m.name = d.name
  schema : Returns P .schema (.named i) m.schema
  typeDef : ∃ n k s, kindOf P n (.named i) = some k ∧ Returns P .typeDef (.named i) s ∧ m.typeDef = tsTypeDef k s
  docs : ∃ impl, derive d = .ok impl ∧ m.docs = impl.docs

/-- The registry of the program: what its declarations register, in some order, and any rpc
functions. `derive/src/impl_inventory.rs:1-12`, `core/src/lib.rs:162`. -/
def IsRegistry (P : Program) (r : Registry) : Prop :=
  ∃ ms : List Member, ms.Perm r.members ∧ ms.length = P.length ∧
    ∀ i d m, P[i]? = some d → ms[i]? = some m → IsMember P i d m

end Verif.Codegen
