import Verif.Spec.Server
import Verif.Spec.Wire
import Verif.System.Model

/-!
# What calls through the whole system should do

Stated with the reference execution of requests (`Verif/Spec/Server.lean`: one sequence of requests,
executed one after the other) and the message format (`Verif/Spec/Wire.lean`).
-/

namespace Verif.SystemSpec
open Verif Verif.System

variable {σ C : Type}

/-- The request the server should see for a call: its id and namespace, method and arguments. -/
def requestOf (id : Nat) (ns method : Str) (args : List Json) : Server.Input :=
  .ok (.exec id (WireSpec.callValue ns method (args.map Json.toValue)))

/-- On backend state `st` the request returns `d`: it calls an `async` method whose result serializes
to `d`. -/
def Returns (sv : Service σ C) (st : σ) (i : Server.Input) (d : Json) : Prop :=
  ∃ id v call, i = .ok (.exec id v) ∧ sv.decode v = .ok call ∧ sv.isStream call = false ∧
    (sv.runMethod st call).2 = .ok d

/-- On backend state `st` the request starts a stream whose items are `items`. -/
def Streams (sv : Service σ C) (st : σ) (i : Server.Input)
    (items : Nat → Option (Except SerdeErr Json)) : Prop :=
  ∃ id v call, i = .ok (.exec id v) ∧ sv.decode v = .ok call ∧ sv.isStream call = true ∧
    (sv.runStream st call).2 = items

/-- The serializable items among the first `n` items of a stream. -/
def itemData (items : Nat → Option (Except SerdeErr Json)) : Nat → List Json
  | 0 => []
  | n + 1 => itemData items n ++
    match items n with
    | some (.ok d) => [d]
    | _ => []

/-- The history goes without network failures, and the close event of a socket never reaches a client
that has made a new socket in the meantime (it has none, or still that one). -/
def Calm (sv : Service σ C) : State σ C → List Label → Prop
  | _, [] => True
  | s, l :: ls => l.isFailure = false ∧
      (∀ i k, l = .endDown i k → ∀ k', (s.clients i).socket = some k' → k' = k) ∧
      ∀ s', step sv s l = some s' → Calm sv s' ls

/-- No code of the backend panics, and the server is not dropped. -/
def Label.harmless : Label → Bool
  | .server .takePanic => false
  | .server .methodPanic => false
  | .server .dropProxy => false
  | _ => true

/-- Only generated clients: no foreign connections, and `subscribe` is only called for streams. -/
def Label.generated (sv : Service σ C) : Label → Prop
  | .foreignConnect => False
  | .client _ (.subscribe ns m a) =>
      ∀ call, sv.decode (WireSpec.callValue ns m (a.map Json.toValue)) = .ok call →
        sv.isStream call = true
  | _ => True

/-- What the promise returned by a `request` call of client `i` made in state `s₁` has resolved with
in the later state `s`: nothing, or one value. -/
def promise (s₁ : State σ C) (i : Nat) (s : State σ C) : List Json :=
  ((s.clients i).subs (s₁.clients i).nsub).got

/-- What a callback given by client `i` to a store in state `s₁` has been called with up to state
`s`, in order. -/
def calledWith (s₁ : State σ C) (i : Nat) (s : State σ C) : List Json :=
  ((s.clients i).subs (s₁.clients i).nsub).got

/-- The callback has not been detached. -/
def attached (s₁ : State σ C) (i : Nat) (s : State σ C) : Prop :=
  (s₁.clients i).nsub ∈ (s.clients i).live

/-- The request of the last call of client `i`. -/
def lastRequest (s : State σ C) (i : Nat) (ns method : Str) (args : List Json) : Server.Input :=
  requestOf (s.clients i).reqId ns method args

/-- The message of the last call of client `i`. -/
def lastMessage (s : State σ C) (i : Nat) (ns method : Str) (args : List Json) : Client.Msg :=
  ⟨(s.clients i).reqId, ns, method, args⟩

/-- What must happen for the calls of client `i` on connection `c` to be answered: frames travel,
the server takes requests, methods return, responses are written, the client delivers. -/
def Label.routine (i c : Nat) (l : Label) : Prop :=
  l = .deliver c ∨ l = .server .take ∨ l = .server .methodDone ∨ l = .server (.flush c) ∨
  l = .respond c ∨ l = .client i .visit

/-- Connection `c` of client `i` has nothing under way: everything sent has reached the server, the
server has executed every request, everything it answered has reached the client, and the client has
delivered it. -/
structure Quiet (s : State σ C) (i c : Nat) : Prop where
  up : ∀ k, s.owner c = some (i, k) → s.up c = (sentOn (s.clients i) k).length
  idle : s.server.loop = .idle
  queue : s.server.queue = []
  chan : (s.server.conns c).chan = []
  down : s.down c = (s.server.conns c).written.length
  phase : (s.clients i).phase = .idle

end Verif.SystemSpec
