import Verif.Spec.Backend
import Verif.Spec.Fair
import Verif.Spec.File
import Verif.Spec.Scope
import Verif.Spec.Serde

/-!
# What a user of the crate relies on

All in one place, for a project: the declarations `P`, the functions `impls` of its namespaces, the backend `b` that serves
them, and the namespaces `M` of the generated file.
-/

namespace Verif.Spec
open Verif Verif.Js Verif.Ts Verif.Schema Verif.SchemaSpec Verif.Codegen Verif.Zod
open Verif.WireSpec Verif.DispatchSpec Verif.ServerSpec Verif.System Verif.SystemSpec

/-- What a user relies on (`wide`: whether integers of more than 32 bits are used; then `plainJs wide` says that the numbers in
values are exact). -/
structure Dependable {S V : Type} (wide : Bool) (P : Program) (impls : List (Str × List RpcItem)) (b : BackendDef S V)
    (M : List Ns) : Prop where
  /-- every name is declared once in its namespace, names refer to what they should, and to the functions of the client -/
  noClash : NoClash M
  resolved : AllResolved M
  reached : ClientReached M
  /-- the file declares a schema and a type for every type of the program; what serde writes for values of the type is accepted
  by the schema and is of the type -/
  written : ∀ i d, P[i]? = some d → ∃ z T, (moduleSchemas M).const d.ns d.name = some z ∧ moduleTypes M d.ns d.name = some T ∧
    ∀ j, Ser P false (.named i) j → DistinctKeys j → Accepts (moduleSchemas M) z (fromJson j) ∧ Inhabits (moduleTypes M) false T (fromJson j)
  /-- validation ends, and what it accepts is of the type, and can be read by serde -/
  accepted : ∀ i d z T, P[i]? = some d → (moduleSchemas M).const d.ns d.name = some z → moduleTypes M d.ns d.name = some T →
    (∀ v, ∃ n x, parse (moduleSchemas M) n z v = some x) ∧
    ∀ v res, ParsesTo (moduleSchemas M) z v res → Inhabits (moduleTypes M) false T v ∧ Inhabits (moduleTypes M) false T res ∧
      (plainJs wide res = true → (res = .undefined ∧ De P (.named i) .null) ∨
        ∃ j, stringify res = some (some j) ∧ De P (.named i) j)
  /-- every function of the program has a client function -/
  stubs : ∀ x ∈ impls, ∀ f ∈ x.2, ∃ N ∈ M, N.name = x.1 ∧ ∃ F, Item.func F ∈ N.items ∧ F.name = f.ident ∧
    F.params.map (·.1) = f.args.map (·.1)
  /-- what a client function gives its caller is of the declared type -/
  received : ∀ N ∈ M, ∀ F, Item.func F ∈ N.items → ∀ T (st : List S) d, Received b.service st F T d →
    Inhabits (moduleTypes M) false T (fromJson d)
  /-- arguments that the function accepts are of the declared types -/
  arguments : ∀ N ∈ M, ∀ F, Item.func F ∈ N.items → ∀ ss es last, F.body = ss ++ [.expr (validation es), last] →
    ∀ zs, All2 (fun e z => evalE e = some (.schema z)) es zs → ∀ l, Accepts (moduleSchemas M) (.tuple zs) (.arr l) →
      All2 (fun p v => Inhabits (moduleTypes M) false p.2 v) F.params l
  /-- a call with arguments that are accepted (as they are), in a history of the system in which nothing is lost: when nothing more
  is on its way, the method of that name has been executed with these arguments, and the promise has resolved with what
  it returned, which is of the declared type -/
  calls : ∀ N ∈ M, ∀ F, Item.func F ∈ N.items → F.params ≠ [] → ∀ T, F.ret = .app [lit "Promise"] [T] →
    ∀ ss es ns m, F.body = ss ++ [.expr (validation es),
      .ret (.call (.var (lit "request")) [.str ns, .str m, .var (lit "arguments")])] →
    ∀ zs, All2 (fun e z => evalE e = some (.schema z)) es zs →
    ∀ l res, ParsesTo (moduleSchemas M) (.tuple zs) (.arr l) res → properJs (.arr l) = true → plainJs wide (.arr l) = true →
      Kept (.arr l) res → ∀ js, stringify (.arr l) = some (some (.arr js)) →
    ∀ (st : List S) (s₁ s₂ s : State (List S) (Call V)) (i k c : Nat) (ls₁ ls₂ : List Label),
      run b.service (System.init st) ls₁ = some s₁ → step b.service s₁ (.client i (.request ns m js)) = some s₂ →
      run b.service s₂ ls₂ = some s →
      Calm b.service (System.init st) (ls₁ ++ .client i (.request ns m js) :: ls₂) → (s.clients i).calls.length ≤ 2 ^ 53 →
      (k, lastMessage s₂ i ns m js) ∈ (s.clients i).sent → s.owner c = some (i, k) → Quiet s i c →
      ∃ im nd jm md fn vs before after, HasMethod b im nd jm md ∧ nd.nsName = N.name ∧ md.name = F.name ∧
        md.body = .method fn ∧ ArgsDecode md.args (js.map Json.toValue) vs ∧
        s.server.log = before ++ (c, lastRequest s₂ i ns m js) :: after ∧
        ∀ x, (replay b.service st before)[im]? = some x → ∀ d, (fn x vs).2 = .ok d →
          promise s₁ i s = [d] ∧ Inhabits (moduleTypes M) false T (fromJson d)
  /-- such a call in a history that goes on for ever, in which nothing is lost and everything that can happen for this client
  happens some time (C63): the method gets executed, and the promise resolves with what it returned -/
  answered : ∀ N ∈ M, ∀ F, Item.func F ∈ N.items → F.params ≠ [] → ∀ T, F.ret = .app [lit "Promise"] [T] →
    ∀ ss es ns m, F.body = ss ++ [.expr (validation es),
      .ret (.call (.var (lit "request")) [.str ns, .str m, .var (lit "arguments")])] →
    ∀ zs, All2 (fun e z => evalE e = some (.schema z)) es zs →
    ∀ l res, ParsesTo (moduleSchemas M) (.tuple zs) (.arr l) res → properJs (.arr l) = true → plainJs wide (.arr l) = true →
      Kept (.arr l) res → ∀ js, stringify (.arr l) = some (some (.arr js)) →
    ∀ (b₀ : List S), b₀.length = b.fields.length →
    ∀ (st : Nat → State (List S) (Call V)) (lab : Nat → Option Label) (i n : Nat),
      Execution b.service b₀ st lab → Peaceful b.service st lab → CalmForever st lab → Fair b.service st lab i →
      lab n = some (.client i (.request ns m js)) → hasSocket (st (n + 1)) i →
      ∃ n', n < n' ∧ ∃ im nd jm md fn vs c before after x, HasMethod b im nd jm md ∧ nd.nsName = N.name ∧ md.name = F.name ∧
        md.body = .method fn ∧ ArgsDecode md.args (js.map Json.toValue) vs ∧
        (st n').server.log = before ++ (c, lastRequest (st (n + 1)) i ns m js) :: after ∧
        (replay b.service b₀ before)[im]? = some x ∧
        ∀ d, (fn x vs).2 = .ok d → promise (st n) i (st n') = [d] ∧ Inhabits (moduleTypes M) false T (fromJson d)
  /-- the same for streams: the callback gets called with the items, in order, and they are of the declared type -/
  streamed : ∀ N ∈ M, ∀ F, Item.func F ∈ N.items → F.params ≠ [] → ∀ T, F.ret = .app [lit "Store"] [T] →
    ∀ ss es ns m, F.body = ss ++ [.expr (validation es),
      .ret (.call (.var (lit "subscribe")) [.str ns, .str m, .var (lit "arguments")])] →
    ∀ zs, All2 (fun e z => evalE e = some (.schema z)) es zs →
    ∀ l res, ParsesTo (moduleSchemas M) (.tuple zs) (.arr l) res → properJs (.arr l) = true → plainJs wide (.arr l) = true →
      Kept (.arr l) res → ∀ js, stringify (.arr l) = some (some (.arr js)) →
    ∀ (b₀ : List S), b₀.length = b.fields.length →
    ∀ (st : Nat → State (List S) (Call V)) (lab : Nat → Option Label) (i n : Nat),
      Execution b.service b₀ st lab → Peaceful b.service st lab → CalmForever st lab → Fair b.service st lab i →
      lab n = some (.client i (.subscribe ns m js)) →
      lab (n + 1) = some (.client i (.attach ((st (n + 1)).clients i).reqId)) → hasSocket (st (n + 1)) i →
      (∀ n', n + 2 ≤ n' → attached (st (n + 1)) i (st n')) → (∀ n', ((st n').clients i).threw = false) →
      (∀ n', n + 2 ≤ n' → ∀ d ∈ calledWith (st (n + 1)) i (st n'), Inhabits (moduleTypes M) false T (fromJson d)) ∧
      ∃ n', n + 2 ≤ n' ∧ ∃ im nd jm md fn vs c before after x, HasMethod b im nd jm md ∧ nd.nsName = N.name ∧ md.name = F.name ∧
        md.body = .stream fn ∧ ArgsDecode md.args (js.map Json.toValue) vs ∧
        (st n').server.log = before ++ (c, lastRequest (st (n + 1)) i ns m js) :: after ∧
        (replay b.service b₀ before)[im]? = some x ∧
        (FairStream b.service st lab (streams b.service b₀ before).length → ∀ K, (∀ p, p < K → (fn x vs).2 p ≠ none) →
          ∃ n'', n' ≤ n'' ∧ itemData (fn x vs).2 K <+: calledWith (st (n + 1)) i (st n''))

end Verif.Spec
