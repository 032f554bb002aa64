import Verif.Basic.Str

/-!
# The code generator

Models `core/src/rpc/server.rs:41-152`, `core/src/lib.rs:51-110` and `core/src/rpc/codegen/mod.rs`.

`inventory::iter` yields the registered items in an order fixed at link time; a registry is a list in
that order. The closures stored in the registry (`schema`, `type_def`, `docs`, `args`, `res`) are
modelled by the values they return.
-/

namespace Verif.Codegen
open Verif

/-- `TsTypeDef`: `core/src/lib.rs:112-116`. -/
inductive TsTypeDef where
  | interface (s : Str)
  | type (s : Str)
  deriving DecidableEq

/-- `impl Display for TsTypeDef`: `core/src/lib.rs:129-136`. -/
def TsTypeDef.text : TsTypeDef → Str
  | .interface s => s
  | .type s => s

/-- `NamespaceMemberDefinition`: `core/src/lib.rs:70-76`. -/
structure Member where
  ns : Str
  name : Str
  schema : Str
  typeDef : TsTypeDef
  docs : Option Str
  deriving DecidableEq

/-- `RpcArgument`: `core/src/rpc/codegen/mod.rs:17-31`. -/
structure RpcArg where
  name : Str
  typeDef : Str
  schema : Str
  deriving DecidableEq

/-- The variants of `RpcMember`: `core/src/rpc/codegen/mod.rs:33-46`. -/
inductive RpcKind where
  | method | stream
  deriving DecidableEq

/-- `RpcMember`: `core/src/rpc/codegen/mod.rs:33-46`. -/
structure RpcMember where
  kind : RpcKind
  ns : Str
  name : Str
  args : List RpcArg
  res : Str
  deriving DecidableEq

/-- `create_phantom_arg_names`: `core/src/rpc/codegen/mod.rs:50-58`. -/
def phantomArgNames (args : List RpcArg) : Str :=
  let names := args.map (·.name)
  if names.isEmpty then [] else lit "// phantom usage\n" ++ join (lit ";\n") names

/-- The line breaks and indentation of the format strings at `core/src/rpc/codegen/mod.rs:82-91`. -/
def indent : Str := lit "\n                    "

/-- `RpcMember::decl`: `core/src/rpc/codegen/mod.rs:61-133`. -/
def RpcMember.decl (m : RpcMember) : Str :=
  let argFields := join (lit ",") (m.args.map (fun a => a.name ++ lit ": " ++ a.typeDef))
  let argZod := join (lit ",") (m.args.map (·.schema))
  let phantom := phantomArgNames m.args
  match m.kind with
  | .method =>
      indent ++ lit "// @ts-ignore" ++
      indent ++ lit "export async function " ++ m.name ++ lit "(" ++ argFields ++ lit "): Promise<" ++
        m.res ++ lit "> {" ++
      indent ++ phantom ++ lit "\n" ++
      indent ++ lit "z.tuple([" ++ argZod ++ lit "]).parse([...arguments]);" ++
      indent ++ lit "return request(\"" ++ m.ns ++ lit "\", \"" ++ m.name ++ lit "\", arguments);" ++
      lit "\n                };"
  | .stream =>
      indent ++ lit "// @ts-ignore" ++
      indent ++ lit "export function " ++ m.name ++ lit "(" ++ argFields ++ lit "): Store<" ++
        m.res ++ lit "> {" ++
      indent ++ phantom ++ lit "\n" ++
      indent ++ lit "z.tuple([" ++ argZod ++ lit "]).parse([...arguments]);" ++
      indent ++ lit "return subscribe(\"" ++ m.ns ++ lit "\", \"" ++ m.name ++ lit "\", arguments);" ++
      lit "\n                };"

/-- `CodegenOptions`: `core/src/rpc/server.rs:41-51`. -/
structure Options where
  prefixSchema : Str
  suffixSchema : Str
  prefixType : Str
  suffixType : Str
  prefixInterface : Str
  suffixInterface : Str

/-- `Default for CodegenOptions`. `core/src/rpc/server.rs:41`. -/
def Options.default : Options := ⟨[], [], [], [], [], []⟩

/-- What the linker collected. `core/src/lib.rs:162`, `core/src/rpc/codegen/mod.rs:48`
(`inventory::collect!`). -/
structure Registry where
  members : List Member
  rpc : List RpcMember

/-- `out.entry(key).or_default().push(x)`. `core/src/lib.rs:106`, `core/src/rpc/server.rs:63,74`. -/
def push {α : Type} (key : Str) (x : α) (m : BMap (List α)) : BMap (List α) :=
  m.alter key (fun o => o.getD [] ++ [x])

/-- `NamespaceMemberDefinition::collect`: `core/src/lib.rs:103-109`. -/
def collect (r : Registry) : BMap (List Member) :=
  r.members.foldl (fun out d => push d.ns d out) []

/-- `Namespace::members` of the namespace with this NAME: `core/src/lib.rs:60-65`. -/
def nsMembers (r : Registry) (name : Str) : List Member := r.members.filter (fun m => m.ns = name)

/-- `RpcNamespace::rpc_members`: `core/src/rpc/codegen/mod.rs:10-14`. -/
def nsRpcMembers (r : Registry) (name : Str) : List RpcMember := r.rpc.filter (fun m => m.ns = name)

/-- `Backend::rpc_members`: `core/src/rpc/server.rs:57-66`. The `HashMap` is only looked up, so a
sorted map stands for it. -/
def backendRpcMembers (r : Registry) (names : List Str) : BMap (List Str) :=
  (r.rpc.filter (fun m => m.ns ∈ names)).foldl (fun out m => push m.ns m.decl out) []

/-- `Backend::zod_namespaces`: `core/src/rpc/server.rs:68-77`. The `HashMap` is only looked up. -/
def backendNamespaces (r : Registry) (names : List Str) : BMap (List Member) :=
  (r.members.filter (fun m => m.ns ∈ names)).foldl (fun out m => push m.ns m out) []

/-- The text for one registered type: `core/src/rpc/server.rs:100-134`. -/
def Member.text (o : Options) (d : Member) : Str :=
  let td := match d.typeDef with
    | .interface inner =>
        d.docs.getD [] ++ lit "export interface " ++ o.prefixInterface ++ d.name ++
          o.suffixInterface ++ lit " " ++ inner
    | .type inner =>
        d.docs.getD [] ++ lit "export type " ++ o.prefixType ++ d.name ++ o.suffixType ++
          lit " = " ++ inner ++ lit ";"
  d.docs.getD [] ++ lit "export const " ++ o.prefixSchema ++ d.name ++ o.suffixSchema ++ lit "= " ++
    d.schema ++ lit "\n" ++ td ++ lit "\n\n"

/-- `.collect()` of key-value pairs into a `BTreeMap`. `core/src/rpc/server.rs:138`. -/
def toBMap {α : Type} (l : List (Str × α)) : BMap α := l.foldl (fun m p => m.insert p.1 p.2) []

/-- `records` after the types: `core/src/rpc/server.rs:93-138`. -/
def typeRecords (r : Registry) (names : List Str) (o : Options) : BMap Str :=
  toBMap (((collect r).filter (fun p => p.1 ∈ names)).map
    (fun p => (p.1, (p.2.map (Member.text o)).flatten)))

/-- `records` after the rpc members: `core/src/rpc/server.rs:89-91,140-143`. -/
def records (r : Registry) (names : List Str) (o : Options) : BMap Str :=
  ((r.rpc.filter (fun m => m.ns ∈ names)).map (fun m => (m.ns, m.decl))).foldl
    (fun recs p => recs.alter p.1 (fun s => s.getD [] ++ p.2)) (typeRecords r names o)

/-- `Backend::generate_with_options`: `core/src/rpc/server.rs:85-151`; `client` is `T::get()` and
`names` is `NS_NAMES`. -/
def generateWithOptions (r : Registry) (names : List Str) (client : Str) (o : Options) : Str :=
  (records r names o).foldl
    (fun code p => code ++ lit "export namespace " ++ p.1 ++ lit " { " ++ p.2 ++ lit " }") client

/-- `Backend::generate`: `core/src/rpc/server.rs:78-83`. -/
def generate (r : Registry) (names : List Str) (client : Str) : Str :=
  generateWithOptions r names client Options.default

end Verif.Codegen
