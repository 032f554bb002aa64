import Verif.System.Concrete

/-!
# Clients and server together: properties C49, C56

Specification: `Verif/Spec/System.lean`. A history of the whole system is a list of labels: what the
programs using the clients do, what the server does, and what the network does; `run` says that the
history can happen. There may be any number of clients and connections, and foreign clients that send
anything.
-/

namespace Verif.Props
open Verif Verif.System Verif.SystemSpec Verif.ServerSpec

variable {σ C : Type}

/-! ## C49, safety: whatever happens -/

/-- **C49, value.** A client makes a request (in any reachable state `s₁`, giving `s₂`); then anything
happens, failures, panics and foreign clients included. The promise has resolved at most once, and if
so with the result of this very call: the server has executed exactly this request, arrived on a
connection of this client, on the backend state left by the requests before it, and the value is what
the method returned (or an item, if the method is a stream). -/
theorem C49_value {sv : Service σ C} {b : σ} {s₁ s₂ s : State σ C} {i : Nat} {ns m : Str}
    {a : List Json} {ls : List Label} (hr : Reachable sv b s₁)
    (hcall : step sv s₁ (.client i (.request ns m a)) = some s₂) (hrun : run sv s₂ ls = some s)
    (hn : (s.clients i).calls.length ≤ 2 ^ 53) :
    (promise s₁ i s).length ≤ 1 ∧
    ∀ d ∈ promise s₁ i s, ∃ c k before after, s.owner c = some (i, k) ∧
      s.server.log = before ++ (c, lastRequest s₂ i ns m a) :: after ∧
      (Returns sv (replay sv b before) (lastRequest s₂ i ns m a) d ∨
       ∃ items n, Streams sv (replay sv b before) (lastRequest s₂ i ns m a) items ∧
         items n = some (.ok d)) := by
  have hM := (request_made hr hcall
    (Nat.le_trans (run_clients hrun i).length_le hn)).later hrun
  refine ⟨?_, fun d hd => ?_⟩
  · have := (hM.got hn).1.length_le
    have := List.length_take_le 1
      (ClientSpec.dataOf (lastMessage s₂ i ns m a).id (s.clients i).received)
    unfold promise
    omega
  · obtain ⟨c, k, ho, _, l₁, l₂, hl, hres⟩ := hM.source hn hd
    exact ⟨c, k, l₁, l₂, ho, hl, hres⟩

/-- **C49, at most once.** In any history the server executes only requests that a client made, and
none of them twice: the executed requests of a client are pairwise distinct, and each is one of its
calls. -/
theorem C49_at_most_once {sv : Service σ C} {b : σ} {s : State σ C} (hr : Reachable sv b s)
    (i : Nat) (hn : (s.clients i).calls.length ≤ 2 ^ 53) :
    ((s.server.log.filter (fun p => (s.owner p.1).map (·.1) == some i)).map (·.2)).Nodup ∧
    ∀ c k inp, s.owner c = some (i, k) → (c, inp) ∈ s.server.log →
      ∃ msg ∈ (s.clients i).calls, inp = requestOf msg.id msg.ns msg.method msg.args := by
  refine ⟨?_, ?_⟩
  · have hp := (Server.inv_queue hr.server).2
    exact ((hp.sublist.filter _).map _).nodup (inv_once hr i hn)
  · intro c k inp ho h
    obtain ⟨m, hm, e⟩ := log_message hr ho h
    exact ⟨m, sent_calls (hr.client i) (sentOn_sent.1 hm), e⟩

/-! ## C49, liveness -/

/-- The full statement of C49's liveness: in a history without network failures, without panics and
with generated clients only, a request that has been transmitted can still be brought to its end (by
frames travelling, the server working and the client delivering): executed, and its promise resolved
with what the method returned. -/
def C49_statement : Prop :=
  ∀ (σ C : Type) (sv : Service σ C) (b : σ) (s₁ s₂ s : State σ C) (i k : Nat) (ns m : Str)
    (a : List Json) (ls₁ ls₂ : List Label),
    run sv (init b) ls₁ = some s₁ → step sv s₁ (.client i (.request ns m a)) = some s₂ →
    run sv s₂ ls₂ = some s →
    (∀ l ∈ ls₁ ++ .client i (.request ns m a) :: ls₂,
      l.isFailure = false ∧ Label.harmless l = true ∧ Label.generated sv l) →
    (∀ j, (s.clients j).calls.length ≤ 2 ^ 53) →
    (k, lastMessage s₂ i ns m a) ∈ (s.clients i).sent →
    ∃ c ls s', run sv s ls = some s' ∧ (∀ l ∈ ls, Label.routine i c l) ∧
      ∃ before after, s'.server.log = before ++ (c, lastRequest s₂ i ns m a) :: after ∧
        ∀ d, Returns sv (replay sv b before) (lastRequest s₂ i ns m a) d → promise s₁ i s' = [d]

private def add (n : Int) : Label := .client 0 (.request (lit "Counter") (lit "add") [.num (.int n)])

/-- A request is answered, so its socket is closed; meanwhile a second request is made on a new
socket; then the close event of the old socket closes the new one while the server works on the
second request. -/
private def lost₁ : List Label :=
  [add 1, .accept 0 0, .opened 0, .deliver 0, .server .take, .server .methodDone,
   .server (.flush 0), .respond 0, .client 0 .visit, .client 0 .visit]
private def lost₂ : List Label :=
  [.accept 0 1, .opened 1, .deliver 1, .server .take, .endUp 0, .endDown 0 0, .endUp 1,
   .server .methodDone]

private def lostCheck (s₁ s₂ s : State (List Nat) (Call Nat)) : Bool :=
  (s₂.clients 0).reqId == 2 && (s.clients 0).sent.map (fun p => (p.1, p.2.id)) == [(0, 1), (1, 2)] &&
  s.owner 1 == some (0, 1) && !(s.server.conns 1).alive && (s.server.conns 1).produced.isEmpty &&
  s.server.nconn == 2 && !(Server.isAlive s.server) && (s₁.clients 0).nsub == 1

/-- Runs two histories with a step between. -/
def runTwo (sv : Service σ C) (b : σ) (ls₁ : List Label) (l : Label) (ls₂ : List Label)
    (check : State σ C → State σ C → State σ C → Bool) : Bool :=
  match run sv (init b) ls₁ with
  | some s₁ => match step sv s₁ l with
    | some s₂ => match run sv s₂ ls₂ with
      | some s => check s₁ s₂ s
      | none => false
    | none => false
  | none => false

theorem runTwo_sound {sv : Service σ C} {b : σ}
    {ls₁ ls₂ : List Label} {l : Label} {check} (h : runTwo sv b ls₁ l ls₂ check = true) :
    ∃ s₁ s₂ s, run sv (init b) ls₁ = some s₁ ∧ step sv s₁ l = some s₂ ∧ run sv s₂ ls₂ = some s ∧
      check s₁ s₂ s = true := by
  unfold runTwo at h
  split at h
  · split at h
    · split at h
      · exact ⟨_, _, _, ‹_›, ‹_›, ‹_›, h⟩
      · cases h
    · cases h
  · cases h

private theorem lost_trace : ∃ s₁ s₂ s, run Demo.sv (init [0]) lost₁ = some s₁ ∧
    step Demo.sv s₁ (add 2) = some s₂ ∧ run Demo.sv s₂ lost₂ = some s ∧
    lostCheck s₁ s₂ s = true := by
  refine runTwo_sound ?_
  decide +kernel

/-- C49's liveness is false of this code: a client whose promise has resolved closes its socket; when
it makes another request before the close event comes in, that event closes the new socket
(`websocket_client.ts:24-40,74-79`), and the response to the second request is lost. No step of the
network, the server or the client can resolve the promise any more, although no failure has
happened. -/
theorem C49_violated : ¬ C49_statement := by
  intro h
  obtain ⟨s₁, s₂, s, h1, h2, h3, hck⟩ := lost_trace
  simp only [lostCheck, Bool.and_eq_true, beq_iff_eq, Bool.not_eq_true', List.isEmpty_iff] at hck
  obtain ⟨⟨⟨⟨⟨⟨⟨c1, c2⟩, c3⟩, c4⟩, c5⟩, c6⟩, c7⟩, c8⟩ := hck
  have hr1 : Reachable Demo.sv [0] s₁ := ⟨_, h1⟩
  have hr2 := hr1.step h2
  have hr := hr2.run h3
  have hcalls : ∀ j, (s.clients j).calls.length ≤ 2 ^ 53 := by
    intro j
    have a1 := run_calls_length h1 j
    have a2 := step_calls_length h2 j
    have a3 := run_calls_length h3 j
    simp only [init, Client.init, List.length_nil, lost₁, lost₂, List.length_cons] at a1 a2 a3
    omega
  have hM := (request_made hr1 h2 (Nat.le_trans (run_clients h3 0).length_le (hcalls 0))).later h3
  have hsent : (1, lastMessage s₂ 0 (lit "Counter") (lit "add") [.num (.int 2)]) ∈
      (s.clients 0).sent := by
    have : ((1, 2) : Nat × Nat) ∈ (s.clients 0).sent.map (fun p => (p.1, p.2.id)) := by
      rw [c2]; simp
    obtain ⟨⟨k, m'⟩, hm, e⟩ := List.mem_map.1 this
    simp only [Prod.mk.injEq] at e
    obtain ⟨rfl, e⟩ := e
    have := call_unique (hr.client 0) (hcalls 0) (sent_calls (hr.client 0) hm) hM.call
      (by rw [e]; exact c1.symm)
    rw [← this]; exact hm
  obtain ⟨c, ls, s', hrun, hrout, before, after, hlog, hres⟩ := h _ _ Demo.sv [0] s₁ s₂ s 0 1
    (lit "Counter") (lit "add") [.num (.int 2)] lost₁ lost₂ h1 h2 h3 (by
      intro l hl
      have : ∀ l ∈ lost₁ ++ add 2 :: lost₂, l.isFailure = false ∧ Label.harmless l = true ∧
          generatedB Demo.sv l = true := by decide +kernel
      obtain ⟨b1, b2, b3⟩ := this l hl
      exact ⟨b1, b2, generatedB_sound b3⟩) hcalls hsent
  have hr' := hr.run hrun
  obtain ⟨d, hd⟩ := add_returns (replay Demo.sv [0] before)
    (replay_length Demo.api before [0]) (s₂.clients 0).reqId
  have hgot := hres d hd
  -- the connection is dead and stays so
  have hfrozen : ∀ (ls : List Label) (s s' : State (List Nat) (Call Nat)),
      Reachable Demo.sv [0] s → run Demo.sv s ls = some s' → 1 < s.server.nconn →
      (s.server.conns 1).alive = false → s'.server.conns 1 = s.server.conns 1 ∧
        s.owner 1 = s'.owner 1 := by
    intro ls
    induction ls with
    | nil => intro s s' _ h _ _; simp only [run, Option.some.injEq] at h; subst h; exact ⟨rfl, rfl⟩
    | cons l ls ih =>
      intro s s' hr h hlt ha
      simp only [run] at h
      cases hst : step Demo.sv s l with
      | none => rw [hst] at h; cases h
      | some t =>
        rw [hst] at h
        have hstep : t.server.conns 1 = s.server.conns 1 ∧ 1 < t.server.nconn ∧
            s.owner 1 = t.owner 1 := by
          cases step_Move hst with
          | client => exact ⟨rfl, hlt, rfl⟩
          | respond => exact ⟨rfl, hlt, rfl⟩
          | server l x hx _ _ =>
            exact ⟨server_frozen hx hlt ha, Nat.lt_of_lt_of_le hlt (Server.nconn_mono hx), rfl⟩
          | foreign x hx =>
            exact ⟨server_frozen hx hlt ha, Nat.lt_of_lt_of_le hlt (Server.nconn_mono hx), rfl⟩
          | accept i k x hx =>
            refine ⟨server_frozen hx hlt ha, Nat.lt_of_lt_of_le hlt (Server.nconn_mono hx), ?_⟩
            show s.owner 1 = if 1 = s.server.nconn then some (i, k) else s.owner 1
            rw [if_neg (by omega)]
          | deliver c i k m x _ _ hx =>
            exact ⟨server_frozen hx hlt ha, Nat.lt_of_lt_of_le hlt (Server.nconn_mono hx), rfl⟩
        obtain ⟨e1, e2, e3⟩ := hstep
        obtain ⟨f1, f2⟩ := ih t s' (hr.step hst) h e2 (by rw [e1]; exact ha)
        exact ⟨f1.trans e1, e3.trans f2⟩
  obtain ⟨hconn, hown⟩ := hfrozen ls s s' hr hrun (by omega) c4
  have hcalls' : (s'.clients 0).calls.length ≤ 2 ^ 53 := by
    have hkeep : ∀ (ls : List Label) (s s' : State (List Nat) (Call Nat)),
        (∀ l ∈ ls, Label.routine 0 c l) → run Demo.sv s ls = some s' →
        (s'.clients 0).calls.length ≤ (s.clients 0).calls.length := by
      intro ls
      induction ls with
      | nil => intro s s' _ h; simp only [run, Option.some.injEq] at h; subst h; exact Nat.le_refl _
      | cons l ls ih =>
        intro s s' hl h
        simp only [run] at h
        cases hst : step Demo.sv s l with
        | none => rw [hst] at h; cases h
        | some t =>
          rw [hst] at h
          refine Nat.le_trans (ih t s' (fun l' h' => hl l' (by simp [h'])) h) ?_
          exact routine_calls hst (hl l (by simp)) 0
    exact Nat.le_trans (hkeep ls s s' hrout hrun) (hcalls 0)
  have hM' := hM.later hrun
  have hmem : d ∈ ((s'.clients 0).subs (s₁.clients 0).nsub).got := by
    have : ((s'.clients 0).subs (s₁.clients 0).nsub).got = [d] := hgot
    rw [this]; simp
  have hdue := ((Client.inv_some (hr'.client 0)).got _ hM'.lt).1.subset hmem
  obtain ⟨c', k', r, ho', hw, hp⟩ := inv_recv hr' 0 _ (received_due hdue)
  obtain ⟨src, hsrc⟩ := written_produced hr'.server hw
  obtain ⟨m', hm', e, _⟩ := answer_source hr' ho' hsrc hp
  have hsent' : lastMessage s₂ 0 (lit "Counter") (lit "add") [.num (.int 2)] ∈
      sentOn (s'.clients 0) 1 := by
    obtain ⟨cl, hcl⟩ := run_client 0 hrun
    exact sentOn_sent.2 ((run_sent (hr.client 0) hcl).subset hsent)
  obtain ⟨rfl, _⟩ := sent_unique (hr'.client 0) hcalls' hm' hsent' (by rw [e, hM'.id])
  have : c' = 1 := (inv_own hr').inj c' 1 (0, 1) ho' (by rw [← hown]; exact c3)
  subst this
  rw [hconn, c5] at hsrc
  cases hsrc

/-- **C49, liveness, the part that holds.** As in the statement, but the close event of a socket never
reaches a client that has made a new socket in the meantime (`Calm`). Then every transmitted request
can be brought to its end: executed, and its promise resolved with what the method returned. Missing:
histories where an old socket's close event meets a new socket. -/
theorem C49_partial {sv : Service σ C} {b : σ} {s₁ s₂ s : State σ C} {i k : Nat} {ns m : Str}
    {a : List Json} {ls₁ ls₂ : List Label} (h₁ : run sv (init b) ls₁ = some s₁)
    (hcall : step sv s₁ (.client i (.request ns m a)) = some s₂) (hrun : run sv s₂ ls₂ = some s)
    (hcalm : Calm sv (init b) (ls₁ ++ .client i (.request ns m a) :: ls₂))
    (hok : ∀ l ∈ ls₁ ++ .client i (.request ns m a) :: ls₂,
      Label.harmless l = true ∧ Label.generated sv l)
    (hn : ∀ j, (s.clients j).calls.length ≤ 2 ^ 53)
    (hsent : (k, lastMessage s₂ i ns m a) ∈ (s.clients i).sent) :
    ∃ c ls s', run sv s ls = some s' ∧ (∀ l ∈ ls, Label.routine i c l) ∧
      ∃ before after, s'.server.log = before ++ (c, lastRequest s₂ i ns m a) :: after ∧
        ∀ d, Returns sv (replay sv b before) (lastRequest s₂ i ns m a) d →
          promise s₁ i s' = [d] := by
  have hr1 : Reachable sv b s₁ := ⟨_, h₁⟩
  have hr := (hr1.step hcall).run hrun
  have hM := (request_made hr1 hcall (Nat.le_trans (run_clients hrun i).length_le (hn i))).later hrun
  have hall : run sv (init b) (ls₁ ++ .client i (.request ns m a) :: ls₂) = some s := by
    rw [run_append, h₁]; simp [run, hcall, hrun]
  obtain ⟨c, hc⟩ := sent_owner hr hsent
  obtain ⟨ls', s', r1, r2, r3, l₁, l₂, hl, hd⟩ := drive (L := (s.clients i).live.length) _ s _
    (Nat.le_refl _) (Nat.le_refl _) ⟨hall, hcalm, hok, hn, hM, hc, sentOn_sent.2 hsent⟩
  exact ⟨c, ls', s', r1, r2, l₁, l₂, hl, hd⟩

/-- **C49, every schedule.** Under the same hypotheses, whatever schedule the history followed: as
soon as nothing is under way any more, the request has been executed and its promise has resolved
with what the method returned. -/
theorem C49_partial_quiet {sv : Service σ C} {b : σ} {s₁ s₂ s : State σ C} {i k c : Nat}
    {ns m : Str} {a : List Json} {ls₁ ls₂ : List Label} (h₁ : run sv (init b) ls₁ = some s₁)
    (hcall : step sv s₁ (.client i (.request ns m a)) = some s₂) (hrun : run sv s₂ ls₂ = some s)
    (hcalm : Calm sv (init b) (ls₁ ++ .client i (.request ns m a) :: ls₂))
    (hn : (s.clients i).calls.length ≤ 2 ^ 53)
    (hsent : (k, lastMessage s₂ i ns m a) ∈ (s.clients i).sent) (ho : s.owner c = some (i, k))
    (hq : Quiet s i c) :
    ∃ before after, s.server.log = before ++ (c, lastRequest s₂ i ns m a) :: after ∧
      ∀ d, Returns sv (replay sv b before) (lastRequest s₂ i ns m a) d → promise s₁ i s = [d] := by
  have hr1 : Reachable sv b s₁ := ⟨_, h₁⟩
  have hr := (hr1.step hcall).run hrun
  have hM := (request_made hr1 hcall (Nat.le_trans (run_clients hrun i).length_le hn)).later hrun
  have hall : run sv (init b) (ls₁ ++ .client i (.request ns m a) :: ls₂) = some s := by
    rw [run_append, h₁]; simp [run, hcall, hrun]
  refine hM.quiet hn ho (sentOn_sent.2 hsent) hq (fun hg => ?_)
  have hu : ((s.clients i).subs (s₁.clients i).nsub).until_ = none := by
    cases hu : ((s.clients i).subs (s₁.clients i).nsub).until_ with
    | none => rfl
    | some n =>
      exact absurd hg ((Client.inv_live (hr.client i)).kept _ hM.lt hM.kind (by rw [hu]; simp))
  have hla : LoopAlive s.server := by unfold LoopAlive; rw [hq.idle]; trivial
  have hS := calm_strict hall hcalm hla
  have hopen := calm_protected hall hS i hn _ hM.lt hM.kind hu k _ hsent hM.id.symm
  exact calm_alive hall hS hla c i k ho (.inr hopen)

/-- **C49, with failures elsewhere.** No assumption on the history at all: if the connection the
request was transmitted on is still alive at the server and nothing is under way, the request has
been executed and its promise has resolved with what the method returned. -/
theorem C49_connected {sv : Service σ C} {b : σ} {s₁ s₂ s : State σ C} {i k c : Nat} {ns m : Str}
    {a : List Json} {ls : List Label} (hr : Reachable sv b s₁)
    (hcall : step sv s₁ (.client i (.request ns m a)) = some s₂) (hrun : run sv s₂ ls = some s)
    (hn : (s.clients i).calls.length ≤ 2 ^ 53)
    (hsent : (k, lastMessage s₂ i ns m a) ∈ (s.clients i).sent) (ho : s.owner c = some (i, k))
    (hq : Quiet s i c) (ha : (s.server.conns c).alive = true) :
    ∃ before after, s.server.log = before ++ (c, lastRequest s₂ i ns m a) :: after ∧
      ∀ d, Returns sv (replay sv b before) (lastRequest s₂ i ns m a) d → promise s₁ i s = [d] :=
  ((request_made hr hcall (Nat.le_trans (run_clients hrun i).length_le hn)).later hrun).quiet hn ho
    (sentOn_sent.2 hsent) hq (fun _ => ha)

/-! ## C49, streams -/

/-- **C49, streams.** A client calls a stream method and attaches a callback to the store at once;
then anything happens, but no callback throws. If the server has executed the call, giving a stream
with items `items`, then the callback has been called with the first items of the stream (those that
could be serialized), in order, without a gap: `itemData items n`. And `n` is the number of items the
server has taken from the stream if nothing is under way, the connection lives and the callback is
still attached. -/
theorem C49_stream {sv : Service σ C} {b : σ} {s₁ s₂ s₃ s : State σ C} {i k c : Nat} {ns m : Str}
    {a : List Json} {ls : List Label} (hr : Reachable sv b s₁)
    (hcall : step sv s₁ (.client i (.subscribe ns m a)) = some s₂)
    (hatt : step sv s₂ (.client i (.attach (s₂.clients i).reqId)) = some s₃)
    (hrun : run sv s₃ ls = some s) (hn : (s.clients i).calls.length ≤ 2 ^ 53)
    (ht : (s.clients i).threw = false) (ho : s.owner c = some (i, k))
    {before after : List (Nat × Server.Input)}
    (hlog : s.server.log = before ++ (c, lastRequest s₂ i ns m a) :: after)
    {items : Nat → Option (Except SerdeErr Json)}
    (hstr : Streams sv (replay sv b before) (lastRequest s₂ i ns m a) items) :
    ∃ n, calledWith s₂ i s = itemData items n ∧
      n ≤ (s.server.tasks (streams sv b before).length).pos ∧
      (Quiet s i c → (s.server.conns c).alive = true → attached s₂ i s →
        n = (s.server.tasks (streams sv b before).length).pos) := by
  have hn2 : (s₂.clients i).calls.length ≤ 2 ^ 53 :=
    Nat.le_trans (calls_back hatt i).length_le (Nat.le_trans (run_clients hrun i).length_le hn)
  have hM := (attach_made hr hcall hatt hn2).later hrun
  have hr' := hM.reach
  have hm : lastMessage s₂ i ns m a ∈ sentOn (s.clients i) k := by
    obtain ⟨m', hm', e⟩ := log_message hr' ho (inp := lastRequest s₂ i ns m a) (by rw [hlog]; simp)
    have hid : m'.id = (lastMessage s₂ i ns m a).id :=
      (requestOf_id (m := lastMessage s₂ i ns m a) e).symm
    have := call_unique (hr'.client i) hn (sent_calls (hr'.client i) (sentOn_sent.1 hm')) hM.call hid
    rw [← this]; exact hm'
  obtain ⟨hsrc, n0, hle, hal, hdata⟩ := answers_stream hr' ho hn hm hlog hstr
  have hg := (Client.inv_got (hr'.client i) ht).got _ hM.lt
  unfold Client.gotRight at hg
  rw [hM.kind] at hg
  simp only at hg
  -- what was received
  have hrecv : ClientSpec.dataOf (lastMessage s₂ i ns m a).id (s.clients i).received <+:
      itemData items n0 := by
    have h1 := (inv_down hr' c i k ho).recv hn _ hm
    have h2 := (Server.inv_chan hr'.server c).2
    unfold ClientSpec.dataOf
    rw [h1]
    have h3 : (itemData items n0) = ((itemData items n0).map
        (fun d => ((lastMessage s₂ i ns m a).id, d))).map (·.2) := by
      rw [List.map_map]; simp [Function.comp_def]
    rw [h3, ← hdata]
    unfold dataFor
    exact ((((List.take_prefix _ _).trans h2).filterMap _).filter _).map _
  by_cases hcase : Quiet s i c ∧ (s.server.conns c).alive = true ∧ attached s₂ i s
  · obtain ⟨hq, ha, hatt'⟩ := hcase
    refine ⟨n0, ?_, hle, fun _ _ _ => hal ha⟩
    have hu := ((Client.inv_live (hr'.client i)).mem _).1 hatt'
    unfold calledWith
    rw [hg, hM.due.2 hq.phase hu.2, quiet_received hr' ho hq ha hn hm, hdata, List.map_map]
    simp [Function.comp_def]
  · obtain ⟨n, hn', e⟩ := itemData_prefix (hM.due.1.trans hrecv)
    refine ⟨n, hg.trans e, Nat.le_trans hn' hle, fun h1 h2 h3 => absurd ⟨h1, h2, h3⟩ hcase⟩

/-- **C49, streams, own items.** Without any assumption on what happened (throwing callbacks
included): everything the callback has been called with is a result of this very call, executed by
the server. -/
theorem C49_stream_value {sv : Service σ C} {b : σ} {s₁ s₂ s₃ s : State σ C} {i : Nat} {ns m : Str}
    {a : List Json} {ls : List Label} (hr : Reachable sv b s₁)
    (hcall : step sv s₁ (.client i (.subscribe ns m a)) = some s₂)
    (hatt : step sv s₂ (.client i (.attach (s₂.clients i).reqId)) = some s₃)
    (hrun : run sv s₃ ls = some s) (hn : (s.clients i).calls.length ≤ 2 ^ 53) :
    ∀ d ∈ calledWith s₂ i s, ∃ c k before after, s.owner c = some (i, k) ∧
      s.server.log = before ++ (c, lastRequest s₂ i ns m a) :: after ∧
      (Returns sv (replay sv b before) (lastRequest s₂ i ns m a) d ∨
       ∃ items n, Streams sv (replay sv b before) (lastRequest s₂ i ns m a) items ∧
         items n = some (.ok d)) := by
  have hn2 : (s₂.clients i).calls.length ≤ 2 ^ 53 :=
    Nat.le_trans (calls_back hatt i).length_le (Nat.le_trans (run_clients hrun i).length_le hn)
  have hM := (attach_made hr hcall hatt hn2).later hrun
  intro d hd
  obtain ⟨c, k, ho, _, l₁, l₂, hl, hres⟩ := hM.source hn hd
  exact ⟨c, k, l₁, l₂, ho, hl, hres⟩

/-- **C49, streams, own items, later callbacks.** The same for a callback that is given to the store at any later
time. -/
theorem C49_stream_later {sv : Service σ C} {b : σ} {s₁ s₂ s₃ s₄ s : State σ C} {i : Nat} {ns m : Str}
    {a : List Json} {ls ls' : List Label} (hr : Reachable sv b s₁)
    (hcall : step sv s₁ (.client i (.subscribe ns m a)) = some s₂) (hrun : run sv s₂ ls = some s₃)
    (hatt : step sv s₃ (.client i (.attach (s₂.clients i).reqId)) = some s₄)
    (hrun' : run sv s₄ ls' = some s) (hn : (s.clients i).calls.length ≤ 2 ^ 53) :
    ∀ d ∈ calledWith s₃ i s, ∃ c k before after, s.owner c = some (i, k) ∧
      s.server.log = before ++ (c, lastRequest s₂ i ns m a) :: after ∧
      (Returns sv (replay sv b before) (lastRequest s₂ i ns m a) d ∨
       ∃ items n, Streams sv (replay sv b before) (lastRequest s₂ i ns m a) items ∧
         items n = some (.ok d)) := by
  have hr3 := (hr.step hcall).run hrun
  have hr4 := hr3.step hatt
  have hr5 := hr4.run hrun'
  obtain ⟨hst, _⟩ := client_step hcall
  simp only [Client.step, Option.some.injEq] at hst
  have hcalls : lastMessage s₂ i ns m a ∈ (s₂.clients i).calls := by
    unfold lastMessage
    rw [← hst]; unfold Client.State.subscribe
    simp [Client.State.issue, Client.State.newMsg]
  obtain ⟨hst', _⟩ := client_step hatt
  simp only [Client.step] at hst'
  split at hst'
  · simp only [Option.some.injEq] at hst'
    have hsub : ((s₄.clients i).subs (s₃.clients i).nsub).id = (s₂.clients i).reqId := by
      rw [← hst']; simp [Client.State.addSub]
    have hnsub : (s₃.clients i).nsub < (s₄.clients i).nsub := by
      rw [← hst']; simp [Client.State.addSub]
    obtain ⟨cl, hcl⟩ := run_client i hrun'
    obtain ⟨a1, _, a3, _⟩ := Client.run_sub hcl hnsub
    have hmem : lastMessage s₂ i ns m a ∈ (s.clients i).calls :=
      (run_clients hrun' i).subset ((calls_back hatt i).subset ((run_clients hrun i).subset hcalls))
    intro d hd
    obtain ⟨c, k, ho, _, l₁, l₂, hl, hres⟩ := call_source (msg := lastMessage s₂ i ns m a) hr5 a1 (a3.trans hsub) hmem hn hd
    exact ⟨c, k, l₁, l₂, ho, hl, hres⟩
  · cases hst'

/-! ## C56 -/

/-- The full statement of C56: without network failures and panics, generated clients cannot bring
down the server. -/
def C56_statement : Prop :=
  ∀ (σ C : Type) (sv : Service σ C) (b : σ) (ls : List Label) (s : State σ C),
    run sv (init b) ls = some s →
    (∀ l ∈ ls, l.isFailure = false ∧ Label.harmless l = true ∧ Label.generated sv l) →
    (∀ j, (s.clients j).calls.length ≤ 2 ^ 53) → LoopAlive s.server

/-- C56 is false, by the same history as for C49: the server finishes a request whose connection the
client has closed, and its loop panics for everyone (`derive/src/rpc/impl_rpc.rs:170-175`). -/
theorem C56_violated : ¬ C56_statement := by
  intro h
  obtain ⟨s₁, s₂, s, h1, h2, h3, hck⟩ := lost_trace
  simp only [lostCheck, Bool.and_eq_true, beq_iff_eq, Bool.not_eq_true', List.isEmpty_iff] at hck
  obtain ⟨⟨⟨⟨⟨⟨⟨c1, c2⟩, c3⟩, c4⟩, c5⟩, c6⟩, c7⟩, c8⟩ := hck
  have := h _ _ Demo.sv [0] (lost₁ ++ add 2 :: lost₂) s
    (by rw [run_append, h1]; simp only [Option.bind_some, run, h2]; exact h3)
    (by
      intro l hl
      have : ∀ l ∈ lost₁ ++ add 2 :: lost₂, l.isFailure = false ∧ Label.harmless l = true ∧
          generatedB Demo.sv l = true := by decide +kernel
      obtain ⟨b1, b2, b3⟩ := this l hl
      exact ⟨b1, b2, generatedB_sound b3⟩)
    (by
      intro j
      have a1 := run_calls_length h1 j
      have a2 := step_calls_length h2 j
      have a3 := run_calls_length h3 j
      simp only [init, Client.init, List.length_nil, lost₁, lost₂, List.length_cons] at a1 a2 a3
      omega)
  rw [← Server.isAlive_iff, c7] at this
  cases this

/-- **C56, the part that holds.** When moreover the close event of a socket never reaches a client
that has made a new socket in the meantime, the server task lives on, in every history of any number
of generated clients. Missing: histories where an old socket's close event meets a new socket. -/
theorem C56_partial {sv : Service σ C} {b : σ} {ls : List Label} {s : State σ C}
    (hrun : run sv (init b) ls = some s) (hcalm : Calm sv (init b) ls)
    (hok : ∀ l ∈ ls, Label.harmless l = true ∧ Label.generated sv l)
    (hn : ∀ j, (s.clients j).calls.length ≤ 2 ^ 53) : LoopAlive s.server :=
  (calm_server hrun hcalm hok hn).alive

/-! ## Examples -/

private def ticks (n : Int) : Label :=
  .client 1 (.subscribe (lit "Counter") (lit "ticks") [.num (.int n)])

/-- Two clients: client 1 follows a stream; client 0 makes a request, gets its answer, its socket is
closed by both sides, it makes another request on a new one. -/
private def nice₁ : List Label :=
  [ticks 5, .client 1 (.attach 1), .accept 1 0, .opened 0, add 1, .accept 0 0, .opened 1, .deliver 0,
   .deliver 1, .server .take, .server .take, .server .methodDone, .server (.flush 1), .respond 1,
   .client 0 .visit, .client 0 .visit, .endDown 0 0]
private def nice₂ : List Label :=
  [.accept 0 1, .opened 2, .server (.poll 0), .server (.item 0), .deliver 2, .server .take,
   .server (.item 0), .server .methodDone, .endUp 1]
private def nice₃ : List Label :=
  [.server (.flush 2), .respond 2, .client 0 .visit, .client 0 .visit, .server (.flush 0),
   .server (.flush 0), .respond 0, .client 1 .visit, .client 1 .visit, .respond 0, .client 1 .visit,
   .client 1 .visit]

/-- The hypotheses of `C49_partial` and `C56_partial` are met by a history with two clients, a closed
socket and a pending second request that has been transmitted; the history has a request the server
has executed (see the log), whose response is still under way. -/
example : ∃ s₁ s₂ s, run Demo.sv (init [0]) nice₁ = some s₁ ∧ step Demo.sv s₁ (add 2) = some s₂ ∧
    run Demo.sv s₂ nice₂ = some s ∧ Calm Demo.sv (init [0]) (nice₁ ++ add 2 :: nice₂) ∧
    (∀ l ∈ nice₁ ++ add 2 :: nice₂, Label.harmless l = true ∧ Label.generated Demo.sv l) ∧
    (∀ j, (s.clients j).calls.length ≤ 2 ^ 53) ∧
    (s.clients 0).sent.map (fun p => (p.1, p.2.id)) = [(0, 1), (1, 2)] ∧
    s.server.log.length = 3 ∧ promise s₁ 0 s = [] := by
  obtain ⟨s₁, s₂, s, h1, h2, h3, hck⟩ := runTwo_sound (sv := Demo.sv) (b := [0]) (ls₁ := nice₁)
    (l := add 2) (ls₂ := nice₂) (check := fun s₁ s₂ s =>
      ((s.clients 0).sent.map (fun p => (p.1, p.2.id)) == [(0, 1), (1, 2)]) &&
      s.server.log.length == 3 && (promise s₁ 0 s).isEmpty) (by decide +kernel)
  simp only [Bool.and_eq_true, beq_iff_eq, List.isEmpty_iff] at hck
  obtain ⟨k1, k2⟩ := niceB_sound (sv := Demo.sv) (b := [0]) (ls := nice₁ ++ add 2 :: nice₂)
    (by decide +kernel)
  refine ⟨s₁, s₂, s, h1, h2, h3, k1, k2, ?_, hck.1.1, hck.1.2, hck.2⟩
  intro j
  have a1 := run_calls_length h1 j
  have a2 := step_calls_length h2 j
  have a3 := run_calls_length h3 j
  simp only [init, Client.init, List.length_nil, nice₁, nice₂, List.length_cons] at a1 a2 a3
  omega

/-- The hypotheses of `C49_partial_quiet` and `C49_connected` are met at the end of that history: the
promise has resolved with 3 (`1 + 2`), the callback was called with the first two items. -/
example : ∃ s₁ s₂ s, run Demo.sv (init [0]) nice₁ = some s₁ ∧ step Demo.sv s₁ (add 2) = some s₂ ∧
    run Demo.sv s₂ (nice₂ ++ nice₃) = some s ∧
    Calm Demo.sv (init [0]) (nice₁ ++ add 2 :: (nice₂ ++ nice₃)) ∧
    s.owner 2 = some (0, 1) ∧ Quiet s 0 2 ∧ (s.server.conns 2).alive = true ∧
    promise s₁ 0 s = [.num (.int 3)] ∧ s.owner 0 = some (1, 0) ∧ Quiet s 1 0 ∧
    ((s.clients 1).subs 0).got = [.num (.int 5), .num (.int 6)] ∧ (s.server.tasks 0).pos = 2 := by
  obtain ⟨s₁, s₂, s, h1, h2, h3, hck⟩ := runTwo_sound (sv := Demo.sv) (b := [0]) (ls₁ := nice₁)
    (l := add 2) (ls₂ := nice₂ ++ nice₃) (check := fun s₁ s₂ s =>
      (s.owner 2 == some (0, 1)) && (s.owner 0 == some (1, 0)) && quietB s 0 2 1 && quietB s 1 0 0 &&
      (s.server.conns 2).alive &&
      (match promise s₁ 0 s with | [.num (.int n)] => n == 3 | _ => false) &&
      (match ((s.clients 1).subs 0).got with
       | [.num (.int n), .num (.int n')] => n == 5 && n' == 6
       | _ => false) && (s.server.tasks 0).pos == 2) (by decide +kernel)
  simp only [Bool.and_eq_true, beq_iff_eq] at hck
  obtain ⟨⟨⟨⟨⟨⟨⟨q1, q2⟩, q3⟩, q4⟩, q5⟩, q6⟩, q7⟩, q8⟩ := hck
  refine ⟨s₁, s₂, s, h1, h2, h3, calmB_sound _ _ _ (by decide +kernel), q1, quietB_sound q1 q3, q5, ?_,
    q2, quietB_sound q2 q4, ?_, q8⟩
  · split at q6
    · rename_i hp; rw [hp]; simp only [beq_iff_eq] at q6; rw [q6]
    · cases q6
  · split at q7
    · rename_i hp; rw [hp]; simp only [Bool.and_eq_true, beq_iff_eq] at q7; rw [q7.1, q7.2]
    · cases q7

end Verif.Props
