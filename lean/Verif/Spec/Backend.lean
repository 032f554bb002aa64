import Verif.Spec.Sent
import Verif.Spec.Typed
import Verif.Spec.Ser
import Verif.Spec.Scope
import Verif.Spec.ModuleOf
import Verif.Spec.System
import Verif.Spec.TsTypes
import Verif.Zod.Schema
import Verif.Zod.Parse

/-!
# The backend of a program, and the types and schemas of a module
-/

namespace Verif.Spec
open Verif Verif.Js Verif.Ts Verif.Schema Verif.SchemaSpec Verif.Codegen

/-- `d` is the `Value` that `serde_json::to_value` makes of a value of the type (`Ser`: what serde writes for it). -/
def Written (P : Program) (odd : Bool) (t : Ty) (d : Json) : Prop :=
  ∃ j, Ser P odd t j ∧ DistinctKeys j ∧ d = j.toValue

/-- The method returns values of the type that the function `f` returns, or a stream of such values if it is a stream. -/
inductive ResultFor {S V : Type} (P : Program) (odd : Bool) (f : RpcItem) (m : MethodDef S V) : Prop where
  | method (run : S → List V → S × Except SerdeErr Json) : f.kind = .method → m.body = .method run →
      (∀ s vs d, (run s vs).2 = .ok d → Written P odd f.output d) → ResultFor P odd f m
  | stream (run : S → List V → S × (Nat → Option (Except SerdeErr Json))) : f.kind = .stream → m.body = .stream run →
      (∀ s vs n d, (run s vs).2 n = some (.ok d) → Written P odd f.output d) → ResultFor P odd f m

/-- The backend whose namespaces have the functions of `impls`: the methods of a namespace are, in order, those
of one of the implementations for its name. -/
structure BackendFor {S V : Type} (P : Program) (odd : Bool) (impls : List (Str × List RpcItem)) (b : BackendDef S V) : Prop where
  wellFormed : DispatchSpec.WellFormed b
  methods : ∀ n ∈ b.fields, ∃ fs, (n.nsName, fs) ∈ impls ∧
    All2 (fun f m => MethodFor P f m ∧ ResultFor P odd f m) fs n.methods

/-- The names of the namespaces of the backend. -/
def backendNames {S V : Type} (b : BackendDef S V) : List Str := b.fields.map (·.nsName)

/-- The type with the name `x` that the item declares. -/
def Item.type? (x : Str) : Item → Option TsType
  | .alias n t => if n = x then some t else none
  | .interface n ps => if n = x then some (.obj ps) else none
  | _ => none

/-- The value of the constant with the name `x` that the item declares. -/
def Item.const? (x : Str) : Item → Option JsExpr
  | .const n e => if n = x then some e else none
  | _ => none

/-- The declarations of the namespace. -/
def itemsOf (M : List Ns) (ns : Str) : List Item := (M.filter (fun N => N.name = ns)).flatMap (·.items)

/-- The types that the module declares. -/
def moduleTypes (M : List Ns) : TsEnv := fun ns x => (itemsOf M ns).findSome? (Item.type? x)

/-- The schemas that the module declares. -/
def moduleSchemas (M : List Ns) : Zod.ZEnv where
  const ns x := match ((itemsOf M ns).findSome? (Item.const? x)).bind Zod.evalE with
    | some (.schema z) => some z
    | _ => none

/-- The body of the function ends with `return fn("ns", "method", arguments)`. -/
def Transmits (F : Fn) (fn ns method : Str) : Prop :=
  ∃ ss, F.body = ss ++ [.ret (.call (.var fn) [.str ns, .str method, .var (lit "arguments")])]

section
open Verif.System Verif.SystemSpec
variable {σ C : Type}

/-- In some history of the system a call of the client function `F`, which is declared to return a promise or a
store of values of type `T`, gave the caller the value `d`: the promise resolved with it, or a callback given to the
store was called with it. (Ids of calls are exact up to `2^53` calls.) -/
inductive Received (sv : Service σ C) (b : σ) (F : Fn) (T : TsType) (d : Json) : Prop where
  | promise (ns m : Str) (i : Nat) (a : List Json) (s₁ s₂ s : State σ C) (ls : List Label) :
      F.ret = .app [lit "Promise"] [T] → Transmits F (lit "request") ns m → Reachable sv b s₁ →
      step sv s₁ (.client i (.request ns m a)) = some s₂ → run sv s₂ ls = some s →
      (s.clients i).calls.length ≤ 2 ^ 53 → d ∈ promise s₁ i s → Received sv b F T d
  | store (ns m : Str) (i : Nat) (a : List Json) (s₁ s₂ s₃ s₄ s : State σ C) (ls ls' : List Label) :
      F.ret = .app [lit "Store"] [T] → Transmits F (lit "subscribe") ns m → Reachable sv b s₁ →
      step sv s₁ (.client i (.subscribe ns m a)) = some s₂ → run sv s₂ ls = some s₃ →
      step sv s₃ (.client i (.attach (s₂.clients i).reqId)) = some s₄ → run sv s₄ ls' = some s →
      (s.clients i).calls.length ≤ 2 ^ 53 → d ∈ calledWith s₃ i s → Received sv b F T d

end

end Verif.Spec
