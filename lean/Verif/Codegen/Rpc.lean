import Verif.Codegen.Members

/-!
# The `#[rpc]` macro: which functions it accepts and what it registers

Models `derive/src/rpc/args.rs:17-143` and `derive/src/rpc/impl_rpc.rs:61-127`. A signature is what `syn` parses;
its types are types with a `ZodType` implementation (others do not compile).
-/

namespace Verif.Codegen
open Verif Verif.Schema

/-- `syn::Receiver`: `mut`, and the reference with its lifetime, if any. Read at
`derive/src/rpc/args.rs:84-114`. -/
structure Receiver where
  mutability : Bool
  reference : Option (Option Str)
  deriving DecidableEq

/-- `syn::Pat`: a name, or anything else. Read at `derive/src/rpc/args.rs:116-129`. -/
inductive Pat where
  | ident (name : Str)
  | other
  deriving DecidableEq

/-- `syn::FnArg`. Read at `derive/src/rpc/args.rs:84-129`. -/
inductive FnArg where
  | receiver (r : Receiver)
  | typed (pat : Pat) (ty : Ty)

/-- `syn::ReturnType`. `ty` is the type itself for an `async fn`, and the `Item` type of the
returned stream otherwise; `implTrait` says whether it is written `impl Trait`. Read at
`derive/src/rpc/args.rs:70-82` and `derive/src/rpc/impl_rpc.rs:71-114`. -/
inductive Output where
  | default
  | type (implTrait : Bool) (ty : Ty)

/-- `syn::Signature`. `ident` is the text of the identifier, with `r#` if it is a raw identifier.
Read at `derive/src/rpc/args.rs:60-138`. -/
structure Sig where
  ident : Str
  isAsync : Bool
  output : Output
  inputs : List FnArg

/-- `syn::ImplItem`: a function, or anything else. Read at `derive/src/rpc/args.rs:32-35`. -/
inductive ImplItem where
  | method (s : Sig)
  | other

/-- The compile-time errors. `derive/src/rpc/args.rs:70-129`, `derive/src/rpc/impl_rpc.rs:72-77`. -/
inductive Rejected where
  | notAsyncNoStream | lifetime | gotSelf | gotRefSelf | gotMutSelf | noSelf | argNotIdent | asyncStream
  deriving DecidableEq

/-- `RpcItem`: `derive/src/rpc/args.rs:46-56`. -/
structure RpcItem where
  ident : Str
  args : List (Str × Ty)
  kind : RpcKind
  output : Ty
  implTrait : Bool

/-- `output`: `derive/src/rpc/args.rs:70-82`. -/
def outputOf : RpcKind → Output → Except Rejected (Bool × Ty)
  | .method, .default => .ok (false, .prim .unit)
  | .stream, .default => .error .notAsyncNoStream
  | _, .type i t => .ok (i, t)

/-- `sig.inputs.iter().find_map(..)`: `derive/src/rpc/args.rs:84-87`. -/
def firstReceiver : List FnArg → Option Receiver
  | [] => none
  | .receiver r :: _ => some r
  | .typed _ _ :: l => firstReceiver l

/-- `derive/src/rpc/args.rs:84-114` -/
def checkReceiver (inputs : List FnArg) : Except Rejected Unit :=
  match firstReceiver inputs with
  | some ⟨true, some none⟩ => .ok ()
  | some ⟨true, some (some _)⟩ => .error .lifetime
  | some ⟨false, none⟩ => .error .gotSelf
  | some ⟨false, some _⟩ => .error .gotRefSelf
  | some ⟨true, none⟩ => .error .gotMutSelf
  | none => .error .noSelf

/-- `arg_types`: `derive/src/rpc/args.rs:116-129`. -/
def argTypes : List FnArg → Except Rejected (List (Str × Ty))
  | [] => .ok []
  | .receiver _ :: l => argTypes l
  | .typed (.ident n) t :: l => match argTypes l with
    | .ok r => .ok ((n, t) :: r)
    | .error e => .error e
  | .typed .other _ :: _ => .error .argNotIdent

/-- `RpcItem::from_ast`: `derive/src/rpc/args.rs:59-138`. -/
def RpcItem.fromAst (s : Sig) : Except Rejected RpcItem :=
  let kind : RpcKind := if s.isAsync then .method else .stream
  match outputOf kind s.output with
  | .error e => .error e
  | .ok (i, t) =>
    match checkReceiver s.inputs with
    | .error e => .error e
    | .ok () =>
      match argTypes s.inputs with
      | .error e => .error e
      | .ok args => .ok ⟨s.ident, args, kind, t, i⟩

/-- The functions of the `impl` block: `derive/src/rpc/args.rs:29-37`. -/
def methodsOf (items : List ImplItem) : List Sig :=
  items.filterMap (fun i => match i with | .method s => some s | .other => none)

/-- `RpcInput::from_ast`: `derive/src/rpc/args.rs:24-39`. That the self type is not a single identifier is not
modelled (`parse_quote!` panics). -/
def fromAst (items : List ImplItem) : Except Rejected (List RpcItem) := allOk ((methodsOf items).map RpcItem.fromAst)

/-- The check in `expand_inventory_submit`: `derive/src/rpc/impl_rpc.rs:71-77`. -/
def RpcItem.check (i : RpcItem) : Except Rejected RpcItem :=
  if i.kind = .method ∧ i.implTrait = true then .error .asyncStream else .ok i

/-- `expand`: `derive/src/rpc/impl_rpc.rs:10-59`: what is registered, unless the macro fails. -/
def rpcItems (items : List ImplItem) : Except Rejected (List RpcItem) :=
  match fromAst items with
  | .error e => .error e
  | .ok l => allOk (l.map RpcItem.check)

/-- `m` is what the function registers in the namespace with this NAME, if the functions it calls return:
`derive/src/rpc/impl_rpc.rs:61-127` and `RpcArgument::new` (`core/src/rpc/codegen/mod.rs:23-31`). -/
structure IsRpcMember (P : Program) (ns : Str) (i : RpcItem) (m : RpcMember) : Prop where
  kind : m.kind = i.kind
  ns : m.ns = ns
  name : m.name = i.ident
  argNames : m.args.map (·.name) = i.args.map (·.1)
  args : ∀ (k : Nat) (a : RpcArg) (p : Str × Ty), m.args[k]? = some a → i.args[k]? = some p →
    Returns P .inline p.2 a.typeDef ∧ Returns P .inlineSchema p.2 a.schema
  res : Returns P .typeDef i.output m.res

/-- The registry of a program with these derived types and these rpc `impl` blocks, each with the
NAME of its namespace: types and functions are registered in some order.
`derive/src/impl_inventory.rs:1-12`, `derive/src/rpc/impl_rpc.rs:19-22,56`. -/
structure IsModule (P : Program) (impls : List (Str × List RpcItem)) (r : Registry) : Prop where
  types : IsRegistry P r
  rpc : ∃ l : List (Str × RpcItem), l.Perm (impls.flatMap (fun b => b.2.map (fun i => (b.1, i)))) ∧
    l.length = r.rpc.length ∧ ∀ (k : Nat) x m, l[k]? = some x → r.rpc[k]? = some m → IsRpcMember P x.1 x.2 m

end Verif.Codegen
