import Verif.Rpc.Wire

/-!
# The generated TypeScript client as an event-driven state machine

Models `src/rpc/clients/static/websocket_client.ts`. JavaScript runs one task at a time: a user call,
a socket event or a timer. A `Label` says what happens next; a history is any sequence of enabled
labels.

* `Set.prototype.forEach` visits elements in insertion order, skips elements deleted meanwhile and
  visits elements added meanwhile. Subscriptions get increasing keys, so insertion order is key order.
  The visit is a phase of its own (`Phase.delivering`), so callbacks may call back into the client.
* Promise jobs (microtasks) run when the task that caused them is over. The jobs of this program are:
  the continuations of `open().then(..)`, run in registration order after `onopen`; and the
  `.finally(..)` of a settled request, run after the message handler.
* WebSocket (WHATWG): `close()` on a connecting or open socket makes it closing, and so does the other side; messages are
  delivered only while open; the close event comes last, preceded by an error event if the
  connection failed, which is always the case for a socket that never opened.

Simplifications: text on the socket is the JSON document it encodes; console output and
`performance.now` are dropped; ids in responses are natural numbers.
-/

namespace Verif.Client
open Verif

/-- Pointwise update of a table. Auxiliary: models no code of its own, used for the tables of
`State` (`websocket_client.ts:8-14`). -/
def upd {α : Type} (f : Nat → α) (i : Nat) (x : α) : Nat → α := fun j => if j = i then x else f j

@[simp] theorem upd_self {α : Type} (f : Nat → α) (i : Nat) (x : α) : upd f i x i = x := by
  simp [upd]
theorem upd_ne {α : Type} (f : Nat → α) {i j : Nat} (x : α) (h : j ≠ i) : upd f i x j = f j := by
  simp [upd, h]

/-- `websocket_client.ts:143`, the message text built by `execute`. -/
structure Msg where
  id : Nat
  ns : Str
  method : Str
  args : List Json

/-- What arrives in `onmessage` (`websocket_client.ts:56-71`): a method or stream response, or
anything else (error responses, unparsable text). -/
inductive Incoming where
  | method (id : Nat) (data : Json)
  | stream (id : Nat) (data : Json)
  | error (id : Option Nat)
  | garbage

/-- `WebSocket.readyState`. `websocket_client.ts:101`. -/
inductive SockSt where
  | connecting | opened | closing | closed
  deriving DecidableEq, Repr

/-- A socket together with its `openPromise` (`websocket_client.ts:81-96`). -/
structure Sock where
  st : SockSt
  /-- the open event has been fired -/
  wasOpen : Bool
  /-- continuations `() => open_and_send(value)` waiting for the promise -/
  waiting : List Msg

/-- An element of `subscriptions` (`websocket_client.ts:14`): made by `request`
(`websocket_client.ts:183-193`) or by a callback given to a store (`websocket_client.ts:157-161`). -/
inductive Kind where
  | request | callback
  deriving DecidableEq, Repr

/-- An element of `subscriptions` with its history: `websocket_client.ts:14,157-161,183-193`. -/
structure Sub where
  kind : Kind
  /-- the id the closure compares with -/
  id : Nat
  /-- history: data passed to `resolve` / to the callback, oldest first (for a request: only the
  first `resolve` has an effect and is recorded) -/
  got : List Json
  /-- history: number of messages whose delivery was over when the subscription was added -/
  from_ : Nat
  /-- history: number of messages the subscription could see when it was deleted -/
  until_ : Option Nat

/-- Whether `subscriptions.forEach` is being executed: `websocket_client.ts:63-65,68-70`. -/
inductive Phase where
  | idle
  /-- inside `subscriptions.forEach`: message, key of the last visited element (plus one), keys of
  the requests resolved so far -/
  | delivering (id : Nat) (data : Json) (cursor : Nat) (settled : List Nat)

/-- Observable timing events, for the backoff property. `websocket_client.ts:38,91-95`. -/
inductive Tick where
  | opened
  | wait (ms : Nat)
  deriving DecidableEq, Repr

/-- The variables of the module: `websocket_client.ts:8-14,129-130`, with histories. -/
structure State where
  /-- `req_id`: `websocket_client.ts:130` -/
  reqId : Nat
  /-- keys of the elements of `subscriptions`, in insertion order -/
  live : List Nat
  subs : Nat → Sub
  nsub : Nat
  socks : Nat → Sock
  nsock : Nat
  /-- `socket`: `websocket_client.ts:9` -/
  socket : Option Nat
  /-- `openPromise`: `websocket_client.ts:10`, as the socket it belongs to -/
  openP : Option Nat
  /-- pending `setTimeout(() => open(), ..)`: `websocket_client.ts:11,38` -/
  timer : Option Nat
  /-- `websocket_client.ts:12` -/
  reopenCount : Nat
  phase : Phase
  /-- history: ids handed out, oldest first -/
  issued : List Nat
  /-- history: ids of stores made by `subscribe` -/
  stores : List Nat
  /-- history: messages handed to `CONNECTION.send`, oldest first -/
  calls : List Msg
  /-- history: messages passed to `socket.send`, with the socket -/
  sent : List (Nat × Msg)
  /-- history: messages whose open promise was rejected -/
  dropped : List Msg
  /-- history: method/stream messages received -/
  received : List (Nat × Json)
  ticks : List Tick
  /-- history: some user callback has thrown -/
  threw : Bool

/-- Entry of the table of sockets where there is none yet (`websocket_client.ts:9`). -/
def noSock : Sock := { st := .closed, wasOpen := false, waiting := [] }
/-- Entry of the table of subscriptions where there is none yet (`websocket_client.ts:14`). -/
def noSub : Sub := { kind := .callback, id := 0, got := [], from_ := 0, until_ := some 0 }

/-- The module has been loaded. `websocket_client.ts:8-14,129-130`. -/
def init : State where
  reqId := 0
  live := []
  subs := fun _ => noSub
  nsub := 0
  socks := fun _ => noSock
  nsock := 0
  socket := none
  openP := none
  timer := none
  reopenCount := 0
  phase := .idle
  issued := []
  stores := []
  calls := []
  sent := []
  dropped := []
  received := []
  ticks := []
  threw := false

/-- JavaScript's `n + 1` on a non-negative integral double: exact below `2^53`, where it gets stuck
(`2^53 + 1` rounds to `2^53`). `websocket_client.ts:151,178`. -/
def jsInc (n : Nat) : Nat := if n < 2 ^ 53 then n + 1 else n

/-- `reopenTimeouts`: `websocket_client.ts:5`. -/
def reopenTimeouts : List Nat := [100, 200, 1000, 3000]

/-- The delay computed by `reopenTimeout()` from `reopenCount`: `websocket_client.ts:16-22`. -/
def reopenDelay (n : Nat) : Nat :=
  reopenTimeouts.getD
    (if n ≥ reopenTimeouts.length - 1 then reopenTimeouts.length - 1 else n) 0

/-- `WebSocket.close()`. `websocket_client.ts:30`. -/
def Sock.close (k : Sock) : Sock :=
  match k.st with
  | .connecting => { k with st := .closing }
  | .opened => { k with st := .closing }
  | _ => k

namespace State

/-- `close()`: `websocket_client.ts:24-33`. -/
def close (s : State) : State :=
  match s.socket with
  | some k => { s with timer := none, socks := upd s.socks k (s.socks k).close, socket := none }
  | none => { s with timer := none }

/-- `reopen()`: `websocket_client.ts:35-40`. -/
def reopen (s : State) : State :=
  let s := s.close
  match s.live with
  | [] => s
  | _ :: _ =>
    { s with timer := some (reopenDelay s.reopenCount), reopenCount := s.reopenCount + 1,
             ticks := s.ticks ++ [.wait (reopenDelay s.reopenCount)] }

/-- `open()`: `websocket_client.ts:42-98`. The socket whose promise it returns is `openP` of the
result. -/
def open_ (s : State) : State :=
  match s.openP with
  | some _ => { s with timer := none }
  | none =>
    { s with
      timer := none
      socks := upd s.socks s.nsock { st := .connecting, wasOpen := false, waiting := [] }
      nsock := s.nsock + 1
      socket := some s.nsock
      openP := some s.nsock }

/-- The current socket is open: `websocket_client.ts:101`. -/
def ready (s : State) : Option Nat :=
  match s.socket with
  | some k => match (s.socks k).st with
    | .opened => some k
    | _ => none
  | none => none

/-- `open_and_send(value)`: `websocket_client.ts:100-106`. -/
def openAndSend (s : State) (m : Msg) : State :=
  match s.ready with
  | some k => { s with sent := s.sent ++ [(k, m)] }
  | none =>
    let s := s.open_
    match s.openP with
    | some k =>
      { s with socks := upd s.socks k { s.socks k with waiting := (s.socks k).waiting ++ [m] } }
    | none => s

/-- Number of messages whose delivery is over. History for `websocket_client.ts:61-71`. -/
def doneCount (s : State) : Nat :=
  match s.phase with
  | .idle => s.received.length
  | .delivering _ _ _ _ => s.received.length - 1

/-- `CONNECTION.subscribe(..)`: `websocket_client.ts:112-113`. -/
def addSub (s : State) (kind : Kind) (id : Nat) : State :=
  { s with
    live := s.live ++ [s.nsub]
    subs := upd s.subs s.nsub
      { kind := kind, id := id, got := [], from_ := s.doneCount, until_ := none }
    nsub := s.nsub + 1 }

/-- Number of messages subscription `k` has been able to see. History for
`websocket_client.ts:61-71`. -/
def seenCount (s : State) (k : Nat) : Nat :=
  match s.phase with
  | .idle => s.received.length
  | .delivering _ _ cursor _ => if k < cursor then s.received.length else s.received.length - 1

/-- The function returned by `CONNECTION.subscribe`: `websocket_client.ts:114-119`. -/
def unsubscribe (s : State) (k : Nat) : State :=
  let s := { s with
    live := s.live.filter (· != k)
    subs := upd s.subs k
      { s.subs k with until_ := some ((s.subs k).until_.getD (s.seenCount k)) } }
  match s.live with
  | [] => s.close
  | _ :: _ => s

/-- The `.finally(..)` handlers of the requests settled by a message: `websocket_client.ts:202`. -/
def finish (s : State) : List Nat → State
  | [] => s
  | k :: ks => (s.unsubscribe k).finish ks

end State

/-- What can happen next: calls of the exported functions (`websocket_client.ts:146-203`), socket
events (`websocket_client.ts:56-96`), the timer (`websocket_client.ts:38`). -/
inductive Label where
  /-- `request(namespace, method, args)` -/
  | request (ns method : Str) (args : List Json)
  /-- `subscribe(namespace, method, args)`, giving the store with the new id -/
  | subscribe (ns method : Str) (args : List Json)
  /-- `store.subscribe(cb)` on the store with the given id -/
  | attach (id : Nat)
  /-- calling the function returned by `store.subscribe` (subscription `k`) -/
  | detach (k : Nat)
  /-- open event of socket `k` -/
  | opened (k : Nat)
  /-- the closing of socket `k` is begun by the other side, or because the connection has failed: no event, but the socket is
  no longer open (WHATWG: "when the WebSocket closing handshake is started") -/
  | closing (k : Nat)
  /-- the connection of socket `k` is gone: error event if it failed, then close event -/
  | closed (k : Nat) (failed : Bool)
  /-- message event of socket `k` -/
  | message (k : Nat) (m : Incoming)
  /-- `forEach` calls the next subscription, or ends -/
  | visit
  /-- `forEach` calls the next subscription, whose user callback throws -/
  | visitThrow
  /-- the reopen timer fires -/
  | timer

/-- The element `forEach` visits next. `websocket_client.ts:63-65,68-70`. -/
def nextSub (live : List Nat) (cursor : Nat) : Option Nat := live.find? (fun k => cursor ≤ k)

namespace State

/-- Beginning of `onmessage` for a method/stream message: `websocket_client.ts:61-70`. -/
def receive (s : State) (id : Nat) (data : Json) : State :=
  { s with received := s.received ++ [(id, data)], phase := .delivering id data 0 [] }

/-- The message of a new call: `websocket_client.ts:151-153,178-180`. -/
def newMsg (s : State) (ns method : Str) (args : List Json) : Msg :=
  { id := jsInc s.reqId, ns := ns, method := method, args := args }

/-- `req_id += 1` and the histories. `websocket_client.ts:151,178`. -/
def issue (s : State) (m : Msg) : State :=
  { s with reqId := m.id, issued := s.issued ++ [m.id], calls := s.calls ++ [m] }

/-- `request(..)`: `websocket_client.ts:171-203`; the executor of the promise runs at once. -/
def request (s : State) (m : Msg) : State :=
  ((s.issue m).addSub .request m.id).openAndSend m

/-- `subscribe(..)`: `websocket_client.ts:146-169`. -/
def subscribe (s : State) (m : Msg) : State :=
  { s.issue m with stores := s.stores ++ [m.id] }.openAndSend m

/-- `onopen`: `websocket_client.ts:91-95`. -/
def onOpen (s : State) (k : Nat) : State :=
  { s with
    socks := upd s.socks k { st := .opened, wasOpen := true, waiting := [] }
    reopenCount := 0
    ticks := s.ticks ++ [.opened]
    openP := none }

/-- `onerror` (`websocket_client.ts:87-90`) of a socket that is gone; a rejected promise drops its
continuations. -/
def onError (s : State) (k : Nat) : State :=
  { s with
    socks := upd s.socks k { s.socks k with st := .closed, waiting := [] }
    dropped := s.dropped ++ (s.socks k).waiting
    openP := none }

/-- The connection is gone without failure. `websocket_client.ts:74-79`. -/
def goneClean (s : State) (k : Nat) : State :=
  { s with socks := upd s.socks k { s.socks k with st := .closed } }

/-- The closing of the connection has begun, without the client's doing: no handler (`websocket_client.ts:56-96`), but
`readyState` (`websocket_client.ts:101`) is no longer `OPEN`. -/
def beginClose (s : State) (k : Nat) : State :=
  { s with socks := upd s.socks k (s.socks k).close }

/-- The closure of subscription `k` is called with `[id, data]`; returns the state and whether a
request was resolved: `websocket_client.ts:157-161,183-193`. -/
def call (s : State) (k : Nat) (id : Nat) (data : Json) : State × Bool :=
  if (s.subs k).id = id then
    match (s.subs k).kind with
    | .callback =>
      ({ s with subs := upd s.subs k { s.subs k with got := (s.subs k).got ++ [data] } }, false)
    | .request =>
      match (s.subs k).got with
      | [] => ({ s with subs := upd s.subs k { s.subs k with got := [data] } }, true)
      | _ :: _ => (s, false)
  else (s, false)

end State

/-- One step; `none` when the label is not enabled. The handlers cited at the cases:
`websocket_client.ts:56-96,146-203`. -/
def step (s : State) : Label → Option State
  | .request ns method args => some (s.request (s.newMsg ns method args))
  | .subscribe ns method args => some (s.subscribe (s.newMsg ns method args))
  -- `websocket_client.ts:156-162`
  | .attach id => if id ∈ s.stores then some (s.addSub .callback id) else none
  | .detach k =>
      if k < s.nsub ∧ (s.subs k).kind = .callback then some (s.unsubscribe k) else none
  -- `onopen`, then the waiting continuations
  | .opened k =>
      match s.phase, (s.socks k).st with
      | .idle, .connecting => some ((s.socks k).waiting.foldl State.openAndSend (s.onOpen k))
      | _, _ => none
  -- `onerror`, then `onclose` (`websocket_client.ts:74-79`)
  | .closed k failed =>
      match s.phase with
      | .delivering _ _ _ _ => none
      | .idle =>
        if (s.socks k).st = .closed then none
        else if failed then some (s.onError k).reopen
        else if (s.socks k).wasOpen then some (s.goneClean k).reopen
        else none
  -- no handler
  | .closing k =>
      match s.phase, (s.socks k).st with
      | .idle, .opened => some (s.beginClose k)
      | _, _ => none
  | .message k m =>
      match s.phase, (s.socks k).st with
      | .idle, .opened =>
        match m with
        | .method id data => some (s.receive id data)
        | .stream id data => some (s.receive id data)
        | .error _ => some s
        | .garbage => some s
      | _, _ => none
  | .visit =>
      match s.phase with
      | .idle => none
      | .delivering id data cursor settled =>
        match nextSub s.live cursor with
        | none => some ({ s with phase := .idle }.finish settled)
        | some k =>
          some { (s.call k id data).1 with
            phase := .delivering id data (k + 1)
              (if (s.call k id data).2 then settled ++ [k] else settled) }
  | .visitThrow =>
      match s.phase with
      | .idle => none
      | .delivering id data cursor settled =>
        match nextSub s.live cursor with
        | none => none
        | some k =>
          if (s.subs k).id = id ∧ (s.subs k).kind = .callback then
            -- the exception leaves `forEach` and the handler
            some ({ (s.call k id data).1 with phase := .idle, threw := true }.finish settled)
          else none
  | .timer =>
      match s.phase, s.timer with
      | .idle, some _ => some s.open_
      | _, _ => none

/-- Run a history. JavaScript's event loop may choose any order of events
(`websocket_client.ts:38,56-96`). -/
def run : State → List Label → Option State
  | s, [] => some s
  | s, l :: ls =>
    match step s l with
    | some s' => run s' ls
    | none => none

/-- Reached from the loaded module (`websocket_client.ts:129-130`) by some history. -/
def Reachable (s : State) : Prop := ∃ ls, run init ls = some s

theorem run_append (s : State) (l₁ l₂ : List Label) :
    run s (l₁ ++ l₂) = (run s l₁).bind (fun s' => run s' l₂) := by
  induction l₁ generalizing s with
  | nil => rfl
  | cons l ls ih =>
    simp only [List.cons_append, run]
    cases step s l with
    | none => rfl
    | some s' => exact ih s'

theorem Reachable.step {s s' : State} {l : Label} (h : Reachable s) (hs : step s l = some s') :
    Reachable s' := by
  obtain ⟨ls, h⟩ := h
  exact ⟨ls ++ [l], by rw [run_append, h]; simp [run, hs]⟩

/-- Invariants hold in every reachable state. -/
theorem Reachable.induct {P : State → Prop} (h0 : P init)
    (hs : ∀ s l s', Reachable s → P s → Client.step s l = some s' → P s')
    {s : State} (h : Reachable s) : P s := by
  obtain ⟨ls, h⟩ := h
  have key : ∀ (ls : List Label) (s₀ : State), Reachable s₀ → P s₀ →
      ∀ s, run s₀ ls = some s → P s := by
    intro ls
    induction ls with
    | nil => intro s₀ _ hp s he; simp only [run, Option.some.injEq] at he; exact he ▸ hp
    | cons l ls ih =>
      intro s₀ hr hp s he
      simp only [run] at he
      cases hst : Client.step s₀ l with
      | none => simp [hst] at he
      | some s₁ =>
        simp only [hst] at he
        exact ih s₁ (hr.step hst) (hs _ _ _ hr hp hst) s he
  exact key ls init ⟨[], rfl⟩ h0 s h

end Verif.Client
