import Verif.Rpc.Dispatch

/-!
# The server as a transition system

Models `src/rpc/servers/proxy.rs`, `src/rpc/servers/axum.rs` and the `handle_request` generated by
`derive/src/rpc/backend_impl.rs:48-75` together with the generated method/stream code
(`derive/src/rpc/impl_rpc.rs:161-203`).

Concurrency is explicit: one server-loop task, one websocket task per connection, one task per
stream. A `Label` says which of them moves next; a run is any sequence of enabled labels, so a
statement about all reachable states is a statement about all schedules and all crash points of
clients.

Simplifications: the two `mpsc::unbounded` channels are FIFO lists; the text of JSON documents is
not modelled (a text frame carries the parsed document, or `none` for a syntax error); a method's
effect on the backend takes place when its future completes (nobody else can observe the backend
meanwhile, it is owned by the loop); `tracing::warn!` has no effect.
-/

namespace Verif.Server

open Verif

/-- Pointwise update of a table. Auxiliary: models no code of its own, used for the tables of
`State` (`src/rpc/servers/proxy.rs:14-43`). -/
def upd {α : Type} (f : Nat → α) (i : Nat) (x : α) : Nat → α := fun j => if j = i then x else f j

@[simp] theorem upd_self {α : Type} (f : Nat → α) (i : Nat) (x : α) : upd f i x i = x := by
  simp [upd]
theorem upd_ne {α : Type} (f : Nat → α) {i j : Nat} (x : α) (h : j ≠ i) : upd f i x j = f j := by
  simp [upd, h]

/-- What the websocket task hands to the loop: `Result<Request, Response>`
(`src/rpc/servers/proxy.rs:10`). -/
abbrev Input := Except Response Request

/-- A websocket frame (`axum::extract::ws::Message`): text carrying a document (`none`: not JSON),
or any other message. `src/rpc/servers/axum.rs:43-44`. -/
inductive Frame where
  | text (doc : Option Json)
  | other

/-- `serde_json::from_str(&json).map_err(|err| Response::Error { id: None, .. })`:
`src/rpc/servers/axum.rs:45-48`. -/
def frameInput : Option Json → Input
  | none => .error (.error none .custom)
  | some doc =>
    match Request.decode doc with
    | .ok r => .ok r
    | .error e => .error (.error none e)

/-- Life cycle of a tokio task that runs a stream. `running` = being polled; an abort requested
while it is being polled takes effect when the poll returns `Pending`.
`derive/src/rpc/impl_rpc.rs:187-201`, with the semantics of `tokio::task`. -/
inductive TaskSt where
  | suspended
  | running
  | runningAborted
  | done
  | cancelled
  deriving DecidableEq, Repr

/-- The task spawned for a stream: `derive/src/rpc/impl_rpc.rs:185-201`. -/
structure Task where
  /-- connection whose response sender the task owns -/
  conn : Nat
  /-- request id the responses carry -/
  id : Nat
  /-- what the `n`-th `next()` of the stream yields -/
  src : Nat → Option (Except SerdeErr Json)
  /-- number of items taken so far -/
  pos : Nat
  st : TaskSt

/-- One websocket connection: `ProxyConnection` split over the two halves of
`src/rpc/servers/axum.rs:38-77`. -/
structure Conn where
  /-- the websocket task runs, so both ends of the response channel exist -/
  alive : Bool
  /-- response channel, oldest first -/
  chan : List Response
  /-- frames written to the socket, oldest first -/
  written : List Response
  /-- history: every response ever put into the channel, with the stream task that produced it
  (`none`: the server loop) -/
  produced : List (Option Nat × Response)

/-- The server loop (`src/rpc/servers/proxy.rs:21-32`): waiting for a request, awaiting a method
future, or gone. -/
inductive Loop (C : Type) where
  | idle
  | busy (conn : Nat) (id : Nat) (call : C) (inp : Input)
  | dead

/-- Everything that lives while the server runs: the variables of `BackendProxy::new`
(`src/rpc/servers/proxy.rs:14-35`), the connections (`src/rpc/servers/proxy.rs:36-43`) and the
stream tasks (`derive/src/rpc/impl_rpc.rs:187-201`), with histories. -/
structure State (σ C : Type) where
  backend : σ
  loop : Loop C
  /-- request channel, oldest first: `src/rpc/servers/proxy.rs:18` -/
  queue : List (Nat × Input)
  conns : Nat → Conn
  nconn : Nat
  tasks : Nat → Task
  ntask : Nat
  /-- `SubscriberMap` (`core/src/rpc/server.rs:14-17`): request id ↦ stream task. One map for all
  connections: `src/rpc/servers/proxy.rs:19` -/
  subs : List (Nat × Nat)
  /-- some `BackendProxy` handle still exists -/
  held : Bool
  /-- history: requests accepted into the request channel, oldest first -/
  accepted : List (Nat × Input)
  /-- history: requests the loop has finished, oldest first -/
  log : List (Nat × Input)

/-- Entry of the table of connections where there is none yet (`src/rpc/servers/proxy.rs:36-43`). -/
def deadConn : Conn := { alive := false, chan := [], written := [], produced := [] }
/-- `BackendProxy::connect`: `src/rpc/servers/proxy.rs:36-43`. -/
def freshConn : Conn := { alive := true, chan := [], written := [], produced := [] }
/-- Entry of the table of stream tasks where there is none yet (`derive/src/rpc/impl_rpc.rs:187`).
-/
def noTask : Task := { conn := 0, id := 0, src := fun _ => none, pos := 0, st := .done }

/-- `BackendProxy::new(backend)`: `src/rpc/servers/proxy.rs:14-35`. -/
def init {σ C : Type} (b : σ) : State σ C where
  backend := b
  loop := .idle
  queue := []
  conns := fun _ => deadConn
  nconn := 0
  tasks := fun _ => noTask
  ntask := 0
  subs := []
  held := true
  accepted := []
  log := []

/-- `UnboundedSender::unbounded_send` on the response channel of a connection: succeeds iff the
receiver still exists. Returns the new connection and whether it succeeded.
`derive/src/rpc/impl_rpc.rs:171-173,191-192`, `derive/src/rpc/backend_impl.rs:63-65`,
`src/rpc/servers/proxy.rs:26`. -/
def Conn.send (c : Conn) (from? : Option Nat) (r : Response) : Conn × Bool :=
  if c.alive then
    ({ c with chan := c.chan ++ [r], produced := c.produced ++ [(from?, r)] }, true)
  else (c, false)

/-- The websocket task ends: both channel halves are dropped, unread responses are lost
(`src/rpc/servers/axum.rs:73-76`). -/
def Conn.close (c : Conn) : Conn := { c with alive := false, chan := [] }

/-- `JoinHandle::abort`. `derive/src/rpc/backend_impl.rs:71`, `core/src/rpc/server.rs:36`. -/
def Task.abort (t : Task) : Task :=
  match t.st with
  | .suspended => { t with st := .cancelled }
  | .running => { t with st := .runningAborted }
  | _ => t

/-- `HashMap::get`. `derive/src/rpc/backend_impl.rs:70`. -/
def subsGet (m : List (Nat × Nat)) (id : Nat) : Option Nat := (m.find? (·.1 == id)).map (·.2)
/-- `HashMap::remove`. `derive/src/rpc/backend_impl.rs:70`. -/
def subsRemove (m : List (Nat × Nat)) (id : Nat) : List (Nat × Nat) := m.filter (·.1 != id)
/-- `HashMap::insert`; the handle it replaces is dropped, which detaches (does not abort) its task.
`derive/src/rpc/backend_impl.rs:59`. -/
def subsInsert (m : List (Nat × Nat)) (id t : Nat) : List (Nat × Nat) := (id, t) :: subsRemove m id

section
variable {σ C : Type}

/-- Replaces a connection (`src/rpc/servers/axum.rs:38-77`). -/
def State.setConn (s : State σ C) (c : Nat) (x : Conn) : State σ C :=
  { s with conns := upd s.conns c x }
/-- Replaces a stream task (`derive/src/rpc/impl_rpc.rs:187-201`). -/
def State.setTask (s : State σ C) (t : Nat) (x : Task) : State σ C :=
  { s with tasks := upd s.tasks t x }

/-- Send from the loop, ignoring failure. `derive/src/rpc/backend_impl.rs:63-65`,
`src/rpc/servers/proxy.rs:26-28`. -/
def State.reply (s : State σ C) (c : Nat) (r : Response) : State σ C :=
  s.setConn c ((s.conns c).send none r).1

/-- `impl Drop for SubscriberMap` (`core/src/rpc/server.rs:33-39`): abort everything in the map. -/
def State.dropSubs (s : State σ C) : State σ C :=
  { s with
    tasks := fun t => if t ∈ s.subs.map (·.2) then (s.tasks t).abort else s.tasks t
    subs := [] }

/-- The loop task ends (its state is dropped: request receiver, backend, subscriber map).
`src/rpc/servers/proxy.rs:21-32`. -/
def State.killLoop (s : State σ C) : State σ C :=
  { s.dropSubs with loop := .dead, queue := [] }

/-- `ProxyTx::send` (`src/rpc/servers/proxy.rs:64-70`): `none` is `Err(Disconnected)`, returned when
the receiver of the request channel, owned by the loop, is gone. -/
def State.proxySend (s : State σ C) (c : Nat) (inp : Input) : Option (State σ C) :=
  match s.loop with
  | .dead => none
  | _ => some { s with queue := s.queue ++ [(c, inp)], accepted := s.accepted ++ [(c, inp)] }

/-- What can happen next. The code each label stands for is cited at its case. -/
inductive Label where
  /-- a client connects: `proxy.connect()`, `src/rpc/servers/axum.rs:30-36` -/
  | connect
  /-- a frame arrives on a connection -/
  | frame (c : Nat) (f : Frame)
  /-- the websocket of a connection ends or fails (read side) -/
  | recvEnd (c : Nat)
  /-- the loop takes the next request -/
  | take
  /-- the loop takes the next request, which is a stream call whose (synchronous) user function
  panics -/
  | takePanic
  /-- the awaited method future completes -/
  | methodDone
  /-- the awaited method panics -/
  | methodPanic
  /-- the runtime starts polling a suspended stream task -/
  | poll (t : Nat)
  /-- a polled stream task takes the next ready item (or finds the stream ended) -/
  | item (t : Nat)
  /-- a polled stream task panics in user code; tokio ends the task -/
  | itemPanic (t : Nat)
  /-- a polled stream task is pending -/
  | pending (t : Nat)
  /-- the websocket task writes the oldest response to the socket -/
  | flush (c : Nat)
  /-- writing to the socket fails -/
  | flushFail (c : Nat)
  /-- the last `BackendProxy` handle is dropped -/
  | dropProxy
  /-- the request channel is closed and drained -/
  | loopExit

/-- The loop starts on a request: `src/rpc/servers/proxy.rs:22-31`,
`derive/src/rpc/backend_impl.rs:54-74`. -/
def takeStep (sv : Service σ C) (s : State σ C) (c : Nat) (inp : Input)
    (q : List (Nat × Input)) : State σ C :=
  let s := { s with queue := q }
  match inp with
  -- `res.send(err).await`
  | .error r => { s.reply c r with log := s.log ++ [(c, inp)] }
  -- `if let Some(jh) = subscribers.remove(&id) { jh.abort(); }`
  | .ok (.cancelStream id) =>
    match subsGet s.subs id with
    | some t =>
      { s with
        tasks := upd s.tasks t (s.tasks t).abort
        subs := subsRemove s.subs id
        log := s.log ++ [(c, inp)] }
    | none => { s with log := s.log ++ [(c, inp)] }
  | .ok (.exec id value) =>
    match sv.decode value with
    -- `sender.unbounded_send(Response::error(id, err)).ok()`
    | .error e => { s.reply c (Response.mkError (some id) e) with log := s.log ++ [(c, inp)] }
    | .ok call =>
      if sv.isStream call then
        -- `Some(tokio::spawn(..))`, `subscribers.insert(id, jh)`
        { s with
          backend := (sv.runStream s.backend call).1
          tasks := upd s.tasks s.ntask
            { conn := c, id := id, src := (sv.runStream s.backend call).2, pos := 0,
              st := .suspended }
          ntask := s.ntask + 1
          subs := subsInsert s.subs id s.ntask
          log := s.log ++ [(c, inp)] }
      else
        -- `ctx.method(args).await`
        { s with loop := .busy c id call inp }

/-- One step of the system; `none` when the label is not enabled. The code modelled:
`src/rpc/servers/proxy.rs:21-43` (`connect`, `take`, `methodDone`, `dropProxy`, `loopExit`),
`src/rpc/servers/axum.rs:42-76` (`frame`, `recvEnd`, `flush`, `flushFail`),
`derive/src/rpc/impl_rpc.rs:161-203` (`methodDone`, `poll`, `item`, `pending`, panics of user code).
-/
def step (sv : Service σ C) (s : State σ C) : Label → Option (State σ C)
  | .connect =>
      if s.held then
        some { s with conns := upd s.conns s.nconn freshConn, nconn := s.nconn + 1 }
      else none
  | .frame c f =>
      if (s.conns c).alive then
        match f with
        | .other => some s
        | .text doc =>
          -- `if let Err(err) = tx.send(req) { .. break; }`: `src/rpc/servers/axum.rs:49-52`
          match s.proxySend c (frameInput doc) with
          | none => some (s.setConn c (s.conns c).close)
          | some s' => some s'
      else none
  | .recvEnd c =>
      if (s.conns c).alive then some (s.setConn c (s.conns c).close) else none
  | .take =>
      match s.loop, s.queue with
      | .idle, (c, inp) :: q => some (takeStep sv s c inp q)
      | _, _ => none
  | .takePanic =>
      match s.loop, s.queue with
      | .idle, (_, .ok (.exec _ value)) :: _ =>
        match sv.decode value with
        | .ok call => if sv.isStream call then some s.killLoop else none
        | .error _ => none
      | _, _ => none
  | .methodDone =>
      match s.loop with
      | .busy c id call inp =>
        let (b, r) := sv.runMethod s.backend call
        let (conn, ok) := (s.conns c).send none (Response.mkMethod id r)
        let s' := { s.setConn c conn with backend := b, loop := .idle, log := s.log ++ [(c, inp)] }
        -- `.unwrap()`: the loop task panics if the receiver is gone
        if ok then some s' else some s'.killLoop
      | _ => none
  | .methodPanic =>
      match s.loop with
      | .busy _ _ _ _ => some s.killLoop
      | _ => none
  | .poll t =>
      match (s.tasks t).st with
      | .suspended => some (s.setTask t { s.tasks t with st := .running })
      | _ => none
  | .item t =>
      let tk := s.tasks t
      match tk.st with
      | .running | .runningAborted =>
        match tk.src tk.pos with
        | none => some (s.setTask t { tk with st := .done })
        | some x =>
          let (conn, ok) := (s.conns tk.conn).send (some t) (Response.mkStream tk.id x)
          let s' := s.setConn tk.conn conn
          -- `break` when the send fails
          if ok then some (s'.setTask t { tk with pos := tk.pos + 1 })
          else some (s'.setTask t { tk with pos := tk.pos + 1, st := .done })
      | _ => none
  | .itemPanic t =>
      match (s.tasks t).st with
      | .running | .runningAborted => some (s.setTask t { s.tasks t with st := .done })
      | _ => none
  | .pending t =>
      match (s.tasks t).st with
      | .running => some (s.setTask t { s.tasks t with st := .suspended })
      | .runningAborted => some (s.setTask t { s.tasks t with st := .cancelled })
      | _ => none
  | .flush c =>
      if (s.conns c).alive then
        match (s.conns c).chan with
        | [] => none
        | r :: rs =>
          some (s.setConn c
            { s.conns c with chan := rs, written := (s.conns c).written ++ [r] })
      else none
  | .flushFail c =>
      if (s.conns c).alive then
        match (s.conns c).chan with
        | [] => none
        | _ :: _ => some (s.setConn c (s.conns c).close)
      else none
  | .dropProxy => if s.held then some { s with held := false } else none
  | .loopExit =>
      match s.loop, s.queue with
      | .idle, [] =>
        -- every sender is gone: no handle and no live connection
        if !s.held && (List.range s.nconn).all (fun c => !(s.conns c).alive) then some s.killLoop
        else none
      | _, _ => none

/-- Run a schedule. The scheduler of tokio is any (`src/rpc/servers/proxy.rs:21`,
`derive/src/rpc/impl_rpc.rs:187`). -/
def run (sv : Service σ C) : State σ C → List Label → Option (State σ C)
  | s, [] => some s
  | s, l :: ls =>
    match step sv s l with
    | some s' => run sv s' ls
    | none => none

/-- States that some schedule of some length can reach. Starting from `BackendProxy::new`
(`src/rpc/servers/proxy.rs:14-35`). -/
def Reachable (sv : Service σ C) (b : σ) (s : State σ C) : Prop :=
  ∃ ls, run sv (init b) ls = some s

theorem run_append (sv : Service σ C) (s : State σ C) (l₁ l₂ : List Label) :
    run sv s (l₁ ++ l₂) = (run sv s l₁).bind (fun s' => run sv s' l₂) := by
  induction l₁ generalizing s with
  | nil => rfl
  | cons l ls ih =>
    simp only [List.cons_append, run]
    cases step sv s l with
    | none => rfl
    | some s' => exact ih s'

/-- Invariants: what holds initially and is kept by every step holds in every reachable state. -/
theorem Reachable.induct {sv : Service σ C} {b : σ} {P : State σ C → Prop}
    (h0 : P (init b)) (hs : ∀ s l s', Reachable sv b s → P s → step sv s l = some s' → P s')
    {s : State σ C} (h : Reachable sv b s) : P s := by
  obtain ⟨ls, h⟩ := h
  have key : ∀ (ls : List Label) (s₀ : State σ C), Reachable sv b s₀ → P s₀ →
      ∀ s, run sv s₀ ls = some s → P s := by
    intro ls
    induction ls with
    | nil => intro s₀ _ hp s he; simp only [run, Option.some.injEq] at he; exact he ▸ hp
    | cons l ls ih =>
      intro s₀ hr hp s he
      simp only [run] at he
      split at he
      · rename_i s₁ hstep
        refine ih s₁ ?_ (hs _ _ _ hr hp hstep) s he
        obtain ⟨l₀, h₀⟩ := hr
        exact ⟨l₀ ++ [l], by rw [run_append, h₀]; simp [run, hstep]⟩
      · cases he
  exact key ls (init b) ⟨[], rfl⟩ h0 s h

end
end Verif.Server
