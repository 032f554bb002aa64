import Verif.Rpc.Wire

/-!
# Derived namespaces and backends

Models the code generated by `#[rpc::namespace]` (`derive/src/rpc/impl_rpc.rs`) and
`#[derive(Backend)]` (`derive/src/rpc/backend_impl.rs`): the request enums with their derived
`Deserialize` implementations and the dispatch to the methods.
-/

namespace Verif

/-- A decoded argument list together with a serialized result is all dispatch needs; `V` is the type
of decoded argument values, `S` the type of namespace states (one type for all namespaces, a
simplification: Rust has one type per namespace). The two cases of
`derive/src/rpc/impl_rpc.rs:149-152`. -/
inductive Body (S V : Type) where
  /-- `async fn`: `derive/src/rpc/impl_rpc.rs:161-176`. The result is given after
  `serde_json::to_value`. -/
  | method (run : S → List V → S × Except SerdeErr Json)
  /-- non-async `fn` returning a stream: `derive/src/rpc/impl_rpc.rs:178-203`. The stream is given
  by what its `n`-th `next()` yields, `none` meaning it has ended. -/
  | stream (run : S → List V → S × (Nat → Option (Except SerdeErr Json)))

/-- One method of a namespace: `derive/src/rpc/args.rs:46-51` `RpcItem`. -/
structure MethodDef (S V : Type) where
  /-- `item.ident`, the serde variant name. -/
  name : Str
  /-- `Deserialize` of each argument type in order (`none` = rejected). -/
  args : List (Json → Option V)
  body : Body S V

/-- One field of the backend struct: `derive/src/rpc/args.rs:12-16` `BackendField` plus the
namespace it refers to. -/
structure NamespaceDef (S V : Type) where
  /-- last path segment of the field type: `derive/src/rpc/backend_impl.rs:132-135`
  `variant_ident_from_ty`. -/
  ident : Str
  /-- `<ty as Namespace>::NAME`: `derive/src/impl_namespace.rs:10`, the ident unless overridden by
  `#[namespace(name = "..")]`. -/
  nsName : Str
  methods : List (MethodDef S V)

/-- A `#[derive(Backend)]` struct: its fields in order. `derive/src/rpc/args.rs:6-16`. -/
structure BackendDef (S V : Type) where
  fields : List (NamespaceDef S V)

/-- A decoded request: field index, method index, decoded arguments. A value of the enums of
`derive/src/rpc/backend_impl.rs:80-95` and `derive/src/rpc/impl_rpc.rs:31-38`. -/
structure Call (V : Type) where
  ns : Nat
  method : Nat
  args : List V

section decode
variable {S V : Type}

/-- serde's buffered representation of what is left of an internally tagged enum after its tag has
been taken out: `TaggedContentVisitor` of serde. Used by the derived `Deserialize` of
`derive/src/rpc/backend_impl.rs:89-93` and `derive/src/rpc/impl_rpc.rs:31-38`. -/
inductive Rest where
  | map (kvs : List (Str × Json))
  | seq (l : List Json)

/-- Extract the tag `tag` from a map or sequence (`#[serde(tag = "..")]`,
`derive/src/rpc/backend_impl.rs:90`, `derive/src/rpc/impl_rpc.rs:32`). -/
def takeTag (tag : Str) : Rest → Except SerdeErr (Json × Rest)
  | .map kvs =>
      match kvs.filter (fun p => p.1 = tag) with
      | [] => .error .missingField
      | [(_, v)] => .ok (v, .map (kvs.filter (fun p => p.1 ≠ tag)))
      | _ => .error .duplicateField
  | .seq [] => .error .missingField
  | .seq (v :: r) => .ok (v, .seq r)

/-- Position of the variant called `s`. The variants are those of
`derive/src/rpc/backend_impl.rs:92` and `derive/src/rpc/impl_rpc.rs:37`. -/
def variantIndex (names : List Str) (s : Str) : Option Nat := names.findIdx? (· = s)

/-- The tag of the outer enum is read straight from the `serde_json::Value`: only strings select a
variant (`derive/src/rpc/backend_impl.rs:89-93`). -/
def outerVariant (names : List Str) : Json → Except SerdeErr Nat
  | .str s => match variantIndex names s with
    | some i => .ok i
    | none => .error .unknownVariant
  | _ => .error .invalidType

/-- The tag of the inner enum is read from serde's buffered content, where an unsigned number is
accepted as a variant index too (`derive/src/rpc/impl_rpc.rs:31-38`). -/
def innerVariant (names : List Str) : Json → Except SerdeErr Nat
  | .str s => match variantIndex names s with
    | some i => .ok i
    | none => .error .unknownVariant
  | .num (.int n) =>
      if 0 ≤ n ∧ n < 2 ^ 64 then
        (if n.toNat < names.length then .ok n.toNat else .error .invalidValue)
      else .error .invalidType
  | _ => .error .invalidType

/-- Positional decoding of a non-empty tuple: the array must have exactly as many elements.
`derive/src/rpc/impl_rpc.rs:134`. -/
def decodeTuple : List (Json → Option V) → List Json → Except SerdeErr (List V)
  | [], [] => .ok []
  | [], _ :: _ => .error .invalidLength
  | _ :: _, [] => .error .invalidLength
  | d :: ds, j :: js =>
      match d j with
      | none => .error .invalidType
      | some v =>
        match decodeTuple ds js with
        | .ok vs => .ok (v :: vs)
        | .error e => .error e

/-- `args: (#(#arg_types)*)` (`derive/src/rpc/impl_rpc.rs:129-136`). Without arguments the type is
the unit type `()`, which serde reads from `null` (and, buffered, from an empty map), not from `[]`.
-/
def decodeArgs (ds : List (Json → Option V)) (j : Json) : Except SerdeErr (List V) :=
  match ds with
  | [] =>
    match j with
    | .null => .ok []
    | .obj [] => .ok []
    | _ => .error .invalidType
  | d :: ds =>
    match j with
    | .arr js => decodeTuple (d :: ds) js
    | _ => .error .invalidType

/-- The struct variant `{ args: (..) }` of the inner enum from what is left of the message.
`derive/src/rpc/impl_rpc.rs:133-135`. -/
def takeArgs : Rest → Except SerdeErr Json
  | .map kvs =>
      match kvs.filter (fun p => p.1 = lit "args") with
      | [] => .error .missingField
      | [(_, v)] => .ok v
      | _ => .error .duplicateField
  | .seq [] => .error .invalidLength
  | .seq [v] => .ok v
  | .seq _ => .error .invalidLength

/-- `from_value::<NsReq>` for one namespace (`derive/src/rpc/impl_rpc.rs:31-38`): method index and
arguments. -/
def decodeMethod (n : NamespaceDef S V) (r : Rest) : Except SerdeErr (Nat × List V) := do
  let (t, r) ← takeTag (lit "method") r
  let i ← innerVariant (n.methods.map (·.name)) t
  match n.methods[i]? with
  | none => .error .unknownVariant
  | some m =>
    let a ← takeArgs r
    let vs ← decodeArgs m.args a
    pure (i, vs)

/-- `from_value::<BackendReq>(value)` (`derive/src/rpc/backend_impl.rs:56,80-95`): the tag
`namespace` is matched against the *type identifiers* of the fields. -/
def decodeCall (b : BackendDef S V) (value : Json) : Except SerdeErr (Call V) := do
  let r ← (match value with
    | .obj kvs => .ok (Rest.map kvs)
    | .arr l => .ok (Rest.seq l)
    | _ => .error .invalidType : Except SerdeErr Rest)
  let (t, r) ← takeTag (lit "namespace") r
  let i ← outerVariant (b.fields.map (·.ident)) t
  match b.fields[i]? with
  | none => .error .unknownVariant
  | some n =>
    let (m, vs) ← decodeMethod n r
    pure { ns := i, method := m, args := vs }

end decode

/-- What the server loop needs to know of a backend: how a request value is classified and what
running it does. `σ` is the backend state, `C` the type of decoded calls. Abstracts what
`handle_request` (`derive/src/rpc/backend_impl.rs:48-75`) uses of the backend. -/
structure Service (σ C : Type) where
  /-- `from_value::<BackendReq>` -/
  decode : Json → Except SerdeErr C
  /-- does the call start a stream (or run an `async` method)? -/
  isStream : C → Bool
  /-- an `async` method run to completion: new state and serialized result -/
  runMethod : σ → C → σ × Except SerdeErr Json
  /-- a stream method: new state and the stream, given by what its `n`-th `next()` yields -/
  runStream : σ → C → σ × (Nat → Option (Except SerdeErr Json))

section backend
variable {S V : Type}

/-- The method a decoded call names. The `match self` of `derive/src/rpc/backend_impl.rs:124-126`
and `derive/src/rpc/impl_rpc.rs:49-51`. -/
def BackendDef.lookup (b : BackendDef S V) (c : Call V) : Option (MethodDef S V) :=
  match b.fields[c.ns]? with
  | some n => n.methods[c.method]?
  | none => none

/-- `NsReq::call` / `BackendReq::call` on an `async` method (`derive/src/rpc/impl_rpc.rs:43-52,
161-176`, `derive/src/rpc/backend_impl.rs:104-127`): only the field the request names is borrowed.
An index out of range cannot come out of `decodeCall`; it is mapped to an error. -/
def runMethod (b : BackendDef S V) (st : List S) (c : Call V) : List S × Except SerdeErr Json :=
  match b.lookup c, st[c.ns]? with
  | some m, some s =>
    match m.body with
    | .method run => (st.set c.ns (run s c.args).1, (run s c.args).2)
    | .stream _ => (st, .error .custom)
  | _, _ => (st, .error .custom)

/-- The same for a stream method (`derive/src/rpc/impl_rpc.rs:178-203`). -/
def runStream (b : BackendDef S V) (st : List S) (c : Call V) :
    List S × (Nat → Option (Except SerdeErr Json)) :=
  match b.lookup c, st[c.ns]? with
  | some m, some s =>
    match m.body with
    | .method _ => (st, fun _ => none)
    | .stream run => (st.set c.ns (run s c.args).1, (run s c.args).2)
  | _, _ => (st, fun _ => none)

/-- `RpcItemKind` of the called method: `derive/src/rpc/args.rs:62-68`. -/
def isStreamCall (b : BackendDef S V) (c : Call V) : Bool :=
  match b.lookup c with
  | some m => match m.body with
    | .method _ => false
    | .stream _ => true
  | none => false

/-- A derived backend as a service. `derive/src/rpc/backend_impl.rs:54-61`. -/
def BackendDef.service (b : BackendDef S V) : Service (List S) (Call V) where
  decode := decodeCall b
  isStream := isStreamCall b
  runMethod := runMethod b
  runStream := runStream b

end backend
end Verif
