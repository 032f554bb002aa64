import Verif.Rpc.Server

/-!
# A concrete backend for witnesses and non-vacuity examples

```ignore
#[derive(rpc::Backend)] struct Api { counter: Counter }
#[rpc::namespace] impl Counter {
    async fn add(&mut self, n: usize) -> usize { self.0 += n; self.0 }
    fn ticks(&mut self, from: usize) -> impl Stream<Item = usize> { /* from, from+1, .. */ }
}
```
-/

namespace Verif.Demo
open Verif Verif.Server

/-- An example namespace with a method and a stream; the examples use it. -/
def counter : NamespaceDef Nat Nat where
  ident := lit "Counter"
  nsName := lit "Counter"
  methods := [
    { name := lit "add", args := [Json.asUsize],
      body := .method fun s a => match a with
        | [n] => (s + n, .ok (.num (.int ↑(s + n))))
        | _ => (s, .error .custom) },
    { name := lit "ticks", args := [Json.asUsize],
      body := .stream fun s a => match a with
        | [n] => (s, fun i => some (.ok (.num (.int ↑(n + i)))))
        | _ => (s, fun _ => none) }]

/-- An example backend with one namespace (`derive/src/rpc/backend_impl.rs:60-135` generates such). -/
def api : BackendDef Nat Nat := ⟨[counter]⟩
/-- The example backend as a service. -/
def sv : Service (List Nat) (Call Nat) := api.service

/-- `{exec: {id, method, namespace, args: [n]}}` -/
def callDoc (method : String) (id n : Nat) : Json :=
  .obj [(lit "exec", .obj [(lit "id", .num (.int id)), (lit "method", .str (lit method)),
    (lit "namespace", .str (lit "Counter")), (lit "args", .arr [.num (.int n)])])]
/-- The document that cancels stream `id` (`core/src/rpc/mod.rs:9-20`). -/
def cancelDoc (id : Nat) : Json := .obj [(lit "cancelStream", .obj [(lit "id", .num (.int id))])]

/-- A frame with a call arrives on connection `c`. -/
def callF (c : Nat) (method : String) (id n : Nat) : Label :=
  .frame c (.text (some (callDoc method id n)))
/-- A frame that cancels stream `id` arrives on connection `c`. -/
def cancelF (c id : Nat) : Label := .frame c (.text (some (cancelDoc id)))

/-- The example server at the start, with counter 0. -/
def init : State (List Nat) (Call Nat) := Server.init [0]

end Verif.Demo
