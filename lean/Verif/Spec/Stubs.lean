import Verif.Spec.Module
import Verif.Codegen.Generate

/-!
# What a client stub should be

As the syntax tree of a TypeScript function, see `Verif/Spec/Module.lean`.
-/

namespace Verif.Spec
open Verif Verif.Js Verif.Ts Verif.Codegen

/-- The client function that transmits a call: `request` for methods, `subscribe` for streams. -/
def transport : RpcKind → Str
  | .method => lit "request"
  | .stream => lit "subscribe"

/-- The generic type of the result: a promise of one value, or a store of all values. -/
def container : RpcKind → Str
  | .method => lit "Promise"
  | .stream => lit "Store"

/-- `z.tuple([S1, S2, ..]).parse([...arguments])` -/
def validation (schemas : List JsExpr) : JsExpr :=
  .call (.member (.call (.member (.var (lit "z")) (lit "tuple")) [.arr schemas]) (lit "parse"))
    [.arr [.spread (.var (lit "arguments"))]]

/-- `request("Ns", "name", arguments)` -/
def transmission (kind : RpcKind) (ns name : Str) : JsExpr :=
  .call (.var (transport kind)) [.str ns, .str name, .var (lit "arguments")]

/-- The function: async for methods; it mentions its parameters, validates all arguments, and then returns what
the client function returns for the namespace, the name and the arguments. -/
def stub (kind : RpcKind) (ns name : Str) (params : List (Str × TsType)) (schemas : List JsExpr) (res : TsType) : Fn where
  isAsync := kind = .method
  name := name
  params := params
  ret := .app [container kind] [res]
  body := params.map (fun p => .expr (.var p.1)) ++ [.expr (validation schemas), .ret (transmission kind ns name)]

end Verif.Spec
