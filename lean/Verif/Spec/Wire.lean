import Verif.Rpc.Dispatch

/-!
# Message shapes, said directly

What a well formed request looks like, independent of how it is decoded.
-/

namespace Verif.WireSpec
open Verif

/-- `n` is written as a JSON integer token and fits a 64-bit `usize`. -/
def IsId (j : Json) (n : Nat) : Prop := j = .num (.int (n : Int)) ∧ n < 2 ^ 64

/-- The value of the last member called `k`. -/
def lastOf (k : Str) (kvs : List (Str × Json)) : Option Json :=
  ((kvs.filter (fun p => p.1 = k)).getLast?).map (·.2)

/-- `kvs` has exactly one member called `id`, and it is the id `n`. -/
def HasId (kvs : List (Str × Json)) (n : Nat) : Prop :=
  ∃ j, kvs.filter (fun p => p.1 = lit "id") = [(lit "id", j)] ∧ IsId j n

/-- The documented request shapes. For `exec`, `m` holds every member but `id`, last occurrence
winning, sorted by key. -/
inductive IsRequest : Json → Request → Prop
  | exec {kvs id m} : HasId kvs id → BMap.Sorted m →
      (∀ k, k ≠ lit "id" → BMap.get k m = (lastOf k kvs).map Json.toValue) →
      BMap.get (lit "id") m = none →
      IsRequest (.obj [(lit "exec", .obj kvs)]) (.exec id (.obj m))
  | cancel {kvs id} : HasId kvs id →
      IsRequest (.obj [(lit "cancelStream", .obj kvs)]) (.cancelStream id)
  | cancelSeq {j id} : IsId j id →
      IsRequest (.obj [(lit "cancelStream", .arr [j])]) (.cancelStream id)

/-- The message built by `execute` of the client: `src/rpc/clients/static/websocket_client.ts:132-144`
(`JSON.stringify` of already serialized arguments). -/
def clientMessage (id : Nat) (ns method : Str) (args : List Json) : Json :=
  .obj [(lit "exec", .obj [(lit "id", .num (.int id)), (lit "method", .str method),
    (lit "namespace", .str ns), (lit "args", .arr args)])]

/-- What is left of a client message after the id: the value the backend decodes. -/
def callValue (ns method : Str) (args : List Json) : Json :=
  .obj [(lit "args", .arr args), (lit "method", .str method), (lit "namespace", .str ns)]

end Verif.WireSpec
