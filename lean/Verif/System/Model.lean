import Verif.Rpc.Server
import Verif.Client.Model
import Verif.Spec.Wire

/-!
# Generated clients and the server together

Composes the client state machine (`Verif/Client/Model.lean`, `websocket_client.ts`) with the server
transition system (`Verif/Rpc/Server.lean`, `src/rpc/servers/{proxy,axum}.rs`) over websockets. Any
number of clients (numbered `i`), each with any number of sockets over time (numbered `k`), talk to one
server; besides there may be foreign clients that send whatever they like.

A websocket carries frames in order in both directions. What is under way is not stored: it is what
has been passed to `socket.send` and not yet been delivered (`up` counts the delivered ones), and what
the server has written and the client has not yet received (`down`).

A connection ends at one side after the other side has closed it (`endUp`, `beginDown`, `endDown`), or because the
network fails (`failUp`, `failWrite`, `failBegin`, `failDown`); frames under way may be lost then.
-/

namespace Verif.System
open Verif

/-- The states of `websocket_client.ts:8-14,129-130` and `src/rpc/servers/proxy.rs:14-43`, and what
the network knows. -/
structure State (σ C : Type) where
  server : Server.State σ C
  clients : Nat → Client.State
  /-- which client and socket a server connection belongs to (`none`: a foreign client, or no
  connection with this number) -/
  owner : Nat → Option (Nat × Nat)
  /-- number of messages of the connection delivered to the server -/
  up : Nat → Nat
  /-- number of responses of the connection delivered to the client -/
  down : Nat → Nat

/-- A fresh server (`src/rpc/servers/proxy.rs:14-35`) and clients that have loaded the generated
module (`websocket_client.ts:129-130`). -/
def init {σ C : Type} (b : σ) : State σ C where
  server := Server.init b
  clients := fun _ => Client.init
  owner := fun _ => none
  up := fun _ => 0
  down := fun _ => 0

/-- The messages passed to socket `k`, in order (`websocket_client.ts:104`). -/
def sentOn (s : Client.State) (k : Nat) : List Client.Msg :=
  (s.sent.filter (fun p => p.1 == k)).map (·.2)

/-- The frame of a message: `websocket_client.ts:143`. -/
def frameOf (m : Client.Msg) : Server.Frame :=
  .text (some (WireSpec.clientMessage m.id m.ns m.method m.args))

/-- How `onmessage` (`websocket_client.ts:56-71`) sees a serialized `Response`
(`core/src/rpc/mod.rs:22-37`, externally tagged, `camelCase`). -/
def incoming : Response → Client.Incoming
  | .method id d => .method id d
  | .stream id d => .stream id d
  | .error id _ => .error id

/-- Labels of the client that do not involve the network. All but the socket events of
`websocket_client.ts:56-96`. -/
def isLocal : Client.Label → Bool
  | .opened _ => false
  | .closing _ => false
  | .closed _ _ => false
  | .message _ _ => false
  | _ => true

/-- Labels of the server that do not involve the read side of a connection. All but
`src/rpc/servers/axum.rs:30-55,61-64`. -/
def isInternal : Server.Label → Bool
  | .connect => false
  | .frame _ _ => false
  | .recvEnd _ => false
  | .flushFail _ => false
  | _ => true

/-- What can happen next. `websocket_client.ts:42-122`, `src/rpc/servers/axum.rs:30-77`; the network
between them is not code of the repository. -/
inductive Label where
  /-- client `i` does something by itself: user calls, delivery to subscriptions, its timer -/
  | client (i : Nat) (l : Client.Label)
  /-- the server does something by itself -/
  | server (l : Server.Label)
  /-- the server accepts the connection of socket `k` of client `i` -/
  | accept (i k : Nat)
  /-- the client learns that connection `c` is open -/
  | opened (c : Nat)
  /-- the next message of connection `c` reaches the server -/
  | deliver (c : Nat)
  /-- the next response of connection `c` reaches the client -/
  | respond (c : Nat)
  /-- the server learns that the client has closed connection `c` -/
  | endUp (c : Nat)
  /-- the client learns that the server closes the connection of its socket `k`; the close event comes later -/
  | beginDown (i k : Nat)
  /-- the close event of socket `k` of client `i`, closed by the client, or by the server -/
  | endDown (i k : Nat)
  /-- foreign clients -/
  | foreignConnect
  | foreignFrame (c : Nat) (f : Server.Frame)
  | foreignEnd (c : Nat)
  /-- network failures -/
  | failUp (c : Nat)
  | failWrite (c : Nat)
  | failBegin (i k : Nat)
  | failDown (i k : Nat) (failed : Bool)

/-- Is the label a network failure?. These end `src/rpc/servers/axum.rs:43` or `:61-64`, or fire
`websocket_client.ts:74-90`. -/
def Label.isFailure : Label → Bool
  | .failUp _ => true
  | .failWrite _ => true
  | .failBegin _ _ => true
  | .failDown _ _ _ => true
  | _ => false

section
variable {σ C : Type}

/-- Replaces the state of one client (`websocket_client.ts:129-130`). -/
def State.setClient (s : State σ C) (i : Nat) (x : Client.State) : State σ C :=
  { s with clients := fun j => if j = i then x else s.clients j }

/-- The client makes a step. `websocket_client.ts:42-203`. -/
def State.clientStep (s : State σ C) (i : Nat) (l : Client.Label) : Option (State σ C) :=
  (Client.step (s.clients i) l).map (s.setClient i)

/-- The server makes a step. `src/rpc/servers/proxy.rs:21-43`. -/
def State.serverStep (sv : Service σ C) (s : State σ C) (l : Server.Label) : Option (State σ C) :=
  (Server.step sv s.server l).map (fun x => { s with server := x })

/-- No connection belongs to the socket yet. `src/rpc/servers/axum.rs:30-36` runs once per socket.
-/
def State.unowned (s : State σ C) (i k : Nat) : Bool :=
  (List.range s.server.nconn).all (fun c => s.owner c != some (i, k))

/-- Some connection of the socket has been closed by the server. `src/rpc/servers/axum.rs:73-76`. -/
def State.serverClosed (s : State σ C) (i k : Nat) : Bool :=
  (List.range s.server.nconn).any (fun c => s.owner c == some (i, k) && !(s.server.conns c).alive)

/-- One step of the whole system; `none` when the label is not enabled. `accept`:
`src/rpc/servers/axum.rs:30-36`; `opened`: `websocket_client.ts:91-95`; `deliver`: from
`websocket_client.ts:104` to `src/rpc/servers/axum.rs:43`; `respond`: from
`src/rpc/servers/axum.rs:61` to `websocket_client.ts:56`; `endUp`: `src/rpc/servers/axum.rs:43`;
`beginDown`: `websocket_client.ts:101`; `endDown`: `websocket_client.ts:74-79`. -/
def step (sv : Service σ C) (s : State σ C) : Label → Option (State σ C)
  | .client i l => if isLocal l then s.clientStep i l else none
  | .server l => if isInternal l then s.serverStep sv l else none
  | .accept i k =>
      if ((s.clients i).socks k).st ≠ .closed ∧ ((s.clients i).socks k).wasOpen = false ∧
          s.unowned i k = true then
        match Server.step sv s.server .connect with
        | some x => some { s with
            server := x
            owner := fun c => if c = s.server.nconn then some (i, k) else s.owner c }
        | none => none
      else none
  | .opened c =>
      match s.owner c with
      | some (i, k) => s.clientStep i (.opened k)
      | none => none
  | .deliver c =>
      match s.owner c with
      | some (i, k) =>
        match (sentOn (s.clients i) k)[s.up c]? with
        | some m =>
          match Server.step sv s.server (.frame c (frameOf m)) with
          | some x => some { s with
              server := x
              up := fun c' => if c' = c then s.up c + 1 else s.up c' }
          | none => none
        | none => none
      | none => none
  | .respond c =>
      match s.owner c with
      | some (i, k) =>
        match (s.server.conns c).written[s.down c]? with
        | some r =>
          match Client.step (s.clients i) (.message k (incoming r)) with
          | some x => some { s.setClient i x with
              down := fun c' => if c' = c then s.down c + 1 else s.down c' }
          | none => none
        | none => none
      | none => none
  | .endUp c =>
      match s.owner c with
      | some (i, k) =>
        if ((s.clients i).socks k).st = .closing ∨ ((s.clients i).socks k).st = .closed then
          s.serverStep sv (.recvEnd c)
        else none
      | none => none
  | .beginDown i k => if s.serverClosed i k = true then s.clientStep i (.closing k) else none
  | .endDown i k =>
      if ((s.clients i).socks k).st = .closing ∨ s.serverClosed i k = true then
        s.clientStep i (.closed k (!((s.clients i).socks k).wasOpen))
      else none
  | .foreignConnect => s.serverStep sv .connect
  | .foreignFrame c f =>
      match s.owner c with
      | some _ => none
      | none => s.serverStep sv (.frame c f)
  | .foreignEnd c =>
      match s.owner c with
      | some _ => none
      | none => s.serverStep sv (.recvEnd c)
  | .failUp c => s.serverStep sv (.recvEnd c)
  | .failWrite c => s.serverStep sv (.flushFail c)
  | .failBegin i k => s.clientStep i (.closing k)
  | .failDown i k f => s.clientStep i (.closed k f)

/-- Run a history. Any order of events (`websocket_client.ts:42-122`,
`src/rpc/servers/axum.rs:30-77`). -/
def run (sv : Service σ C) : State σ C → List Label → Option (State σ C)
  | s, [] => some s
  | s, l :: ls =>
    match step sv s l with
    | some s' => run sv s' ls
    | none => none

/-- Reached from the start (`src/rpc/servers/proxy.rs:14-35`, `websocket_client.ts:129-130`). -/
def Reachable (sv : Service σ C) (b : σ) (s : State σ C) : Prop :=
  ∃ ls, run sv (init b) ls = some s

theorem run_append (sv : Service σ C) (s : State σ C) (l₁ l₂ : List Label) :
    run sv s (l₁ ++ l₂) = (run sv s l₁).bind (fun s' => run sv s' l₂) := by
  induction l₁ generalizing s with
  | nil => rfl
  | cons l ls ih =>
    simp only [List.cons_append, run]
    cases step sv s l with
    | none => rfl
    | some s' => exact ih s'

theorem Reachable.step {sv : Service σ C} {b : σ} {s s' : State σ C} {l : Label}
    (h : Reachable sv b s) (hs : System.step sv s l = some s') : Reachable sv b s' := by
  obtain ⟨ls, h⟩ := h
  exact ⟨ls ++ [l], by rw [run_append, h]; simp [run, hs]⟩

theorem Reachable.run {sv : Service σ C} {b : σ} {s s' : State σ C} {ls : List Label}
    (h : Reachable sv b s) (hs : System.run sv s ls = some s') : Reachable sv b s' := by
  obtain ⟨l₀, h⟩ := h
  exact ⟨l₀ ++ ls, by rw [run_append, h]; exact hs⟩

/-- Invariants hold in every reachable state. -/
theorem Reachable.induct {sv : Service σ C} {b : σ} {P : State σ C → Prop} (h0 : P (init b))
    (hs : ∀ s l s', Reachable sv b s → P s → System.step sv s l = some s' → P s')
    {s : State σ C} (h : Reachable sv b s) : P s := by
  obtain ⟨ls, h⟩ := h
  have key : ∀ (ls : List Label) (s₀ : State σ C), Reachable sv b s₀ → P s₀ →
      ∀ s, System.run sv s₀ ls = some s → P s := by
    intro ls
    induction ls with
    | nil => intro s₀ _ hp s he; simp only [System.run, Option.some.injEq] at he; exact he ▸ hp
    | cons l ls ih =>
      intro s₀ hr hp s he
      simp only [System.run] at he
      cases hst : System.step sv s₀ l with
      | none => simp [hst] at he
      | some s₁ =>
        simp only [hst] at he
        exact ih s₁ (hr.step hst) (hs _ _ _ hr hp hst) s he
  exact key ls (init b) ⟨[], rfl⟩ h0 s h

end
end Verif.System
