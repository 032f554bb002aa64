import Verif.System.Stutter

/-!
# C63: on a fair network, calls get their results

Executions go on for ever (`Verif/Spec/Fair.lean`); whatever is due to happen happens some time. These
theorems say what certainly happens then, in contrast to C49, which says what can happen, or what has
happened as soon as nothing is under way.
-/

namespace Verif.Props
open Verif Verif.System Verif.SystemSpec Verif.ServerSpec

variable {σ C : Type}

/-- The request made by client `i` at moment `n` has been executed at moment `n'`, and its promise has
resolved with what the method returned. -/
def Resolved (sv : Service σ C) (b : σ) (st : Nat → State σ C) (n i : Nat) (ns m : Str)
    (a : List Json) (n' : Nat) : Prop :=
  ∃ c before after, (st n').server.log = before ++ (c, lastRequest (st (n + 1)) i ns m a) :: after ∧
    ∀ d, Returns sv (replay sv b before) (lastRequest (st (n + 1)) i ns m a) d →
      promise (st n) i (st n') = [d]

/-- C63: in every execution without failures and panics that is fair to a client, every request of
this client gets executed some time, and its promise resolves with what the method returned. -/
def C63_statement : Prop :=
  ∀ (σ C : Type) (sv : Service σ C) (b : σ) (st : Nat → State σ C) (lab : Nat → Option Label)
    (i n : Nat) (ns m : Str) (a : List Json),
    Execution sv b st lab → Peaceful sv st lab → Fair sv st lab i →
    lab n = some (.client i (.request ns m a)) → ∃ n', n < n' ∧ Resolved sv b st n i ns m a n'

private def add (n : Int) : Label := .client 0 (.request (lit "Counter") (lit "add") [.num (.int n)])

/-- A store is subscribed to and left before its socket is open, which closes the socket; a request
made now waits for this very socket, and is dropped with it. -/
private def dropped : List Label :=
  [.client 0 (.subscribe (lit "Counter") (lit "ticks") [.num (.int 1)]), .client 0 (.attach 1),
   .client 0 (.detach 0), add 2, .endDown 0 0, .client 0 .timer, .accept 0 1, .opened 0]

/-- A request is answered, so its socket is closed; meanwhile a second request is made on a new
socket; then the close event of the old socket closes the new one while the server works on the
second request. -/
private def lost : List Label :=
  [add 1, .accept 0 0, .opened 0, .deliver 0, .server .take, .server .methodDone,
   .server (.flush 0), .respond 0, .client 0 .visit, .client 0 .visit, add 2,
   .accept 0 1, .opened 1, .deliver 1, .server .take, .endUp 0, .endDown 0 0, .endUp 1,
   .server .methodDone]

private def settledRun (b : List Nat) (ls : List Label) (i : Nat) : Bool :=
  match run Demo.sv (init b) ls with
  | some s => settledB Demo.sv s i
  | none => false

private theorem settledRun_sound {b : List Nat} {ls : List Label} {i : Nat}
    (h : settledRun b ls i = true) : ∃ s, run Demo.sv (init b) ls = some s ∧
      settledB Demo.sv s i = true := by
  unfold settledRun at h
  split at h
  · exact ⟨_, ‹_›, h⟩
  · cases h

private theorem add_returns' {before : List (Nat × Server.Input)} (id : Nat) :
    ∃ d, Returns Demo.sv (replay Demo.sv [0] before)
      (requestOf id (lit "Counter") (lit "add") [.num (.int 2)]) d :=
  add_returns (replay Demo.sv [0] before) (replay_length Demo.api before [0]) id

/-- C63 is false of this code even if no close event reaches a client with a new socket: a request
made while the pending socket is being closed waits for this socket (`websocket_client.ts:42-54`), and
is dropped with it (`websocket_client.ts:87-90`); the reopened connection does not repeat it. -/
theorem C63_violated_calm : ∃ (st : Nat → State (List Nat) (Call Nat)) (lab : Nat → Option Label),
    Execution Demo.sv [0] st lab ∧ Peaceful Demo.sv st lab ∧ Fair Demo.sv st lab 0 ∧
    CalmForever st lab ∧ ∃ n, lab n = some (add 2) ∧
      ∀ n', ¬ Resolved Demo.sv [0] st n 0 (lit "Counter") (lit "add") [.num (.int 2)] n' := by
  obtain ⟨s, h, hs⟩ := settledRun_sound (b := [0]) (ls := dropped) (i := 0) (by decide +kernel)
  refine ⟨trace Demo.sv (init [0]) dropped, labels dropped, trace_execution h,
    trace_peaceful h (by decide) (by decide +kernel), settled_fair h hs, trace_calm (by decide +kernel),
    3, rfl, ?_⟩
  rintro n' ⟨c, l₁, l₂, hl, _⟩
  have := trace_all h (p := fun s => s.server.log.isEmpty) (by decide +kernel) n'
  simp only [List.isEmpty_iff] at this
  rw [hl] at this
  simp at this

/-- C63 is false of this code even if the client has a socket for the request: the close event of an
older socket closes the new one (`websocket_client.ts:24-40,74-79`; the history of `C49_violated`). -/
theorem C63_violated_socket : ∃ (st : Nat → State (List Nat) (Call Nat)) (lab : Nat → Option Label),
    Execution Demo.sv [0] st lab ∧ Peaceful Demo.sv st lab ∧ Fair Demo.sv st lab 0 ∧
    ∃ n, lab n = some (add 2) ∧ hasSocket (st (n + 1)) 0 ∧
      ∀ n', ¬ Resolved Demo.sv [0] st n 0 (lit "Counter") (lit "add") [.num (.int 2)] n' := by
  obtain ⟨s, h, hs⟩ := settledRun_sound (b := [0]) (ls := lost) (i := 0) (by decide +kernel)
  refine ⟨trace Demo.sv (init [0]) lost, labels lost, trace_execution h,
    trace_peaceful h (by decide) (by decide +kernel), settled_fair h hs, 10, rfl, ?_, ?_⟩
  · have : ((trace Demo.sv (init [0]) lost 11).clients 0).socket = some 1 := by decide +kernel
    unfold hasSocket; rw [this]; simp
  · rintro n' ⟨c, l₁, l₂, hl, hd⟩
    have h1 := trace_all h (p := fun s => ((s.clients 0).subs 1).got.isEmpty) (by decide +kernel) n'
    have h2 : ((trace Demo.sv (init [0]) lost 10).clients 0).nsub = 1 := by decide +kernel
    obtain ⟨d, hr⟩ := add_returns' (before := l₁) ((trace Demo.sv (init [0]) lost 11).clients 0).reqId
    have := hd d hr
    unfold promise at this
    rw [h2] at this
    simp only [this] at h1
    cases h1

theorem C63_violated : ¬ C63_statement := by
  intro h
  obtain ⟨st, lab, hE, hP, hF, _, n, hn, hno⟩ := C63_violated_calm
  obtain ⟨n', _, hr⟩ := h _ _ _ _ st lab 0 n _ _ _ hE hP hF hn
  exact hno n' hr

/-- **C63, requests.** In every execution without failures and panics that is fair to client `i`, and
in which no close event reaches a client with a new socket: a request of client `i` made when it has a
socket (or opens one) gets executed some time, and its promise resolves with what the method returned,
whatever else the clients, the network and the server do. -/
theorem C63_partial {sv : Service σ C} {b : σ} {st : Nat → State σ C} {lab : Nat → Option Label}
    {i n : Nat} {ns m : Str} {a : List Json} (hE : Execution sv b st lab) (hP : Peaceful sv st lab)
    (hC : CalmForever st lab) (hF : Fair sv st lab i)
    (hn : lab n = some (.client i (.request ns m a))) (hs : hasSocket (st (n + 1)) i) :
    ∃ n', n < n' ∧ Resolved sv b st n i ns m a n' :=
  Good.resolves_made ⟨hE, hP, hC⟩ hF hn hs

/-- **C63, transmitted requests.** In the same executions, a request that gets transmitted some time,
on whatever socket, resolves with what the method returned. -/
theorem C63_partial_sent {sv : Service σ C} {b : σ} {st : Nat → State σ C}
    {lab : Nat → Option Label} {i n n₁ k : Nat} {ns m : Str} {a : List Json}
    (hE : Execution sv b st lab) (hP : Peaceful sv st lab) (hC : CalmForever st lab)
    (hF : Fair sv st lab i) (hn : lab n = some (.client i (.request ns m a))) (hlt : n < n₁)
    (hs : (k, lastMessage (st (n + 1)) i ns m a) ∈ ((st n₁).clients i).sent) :
    ∃ n', n₁ ≤ n' ∧ Resolved sv b st n i ns m a n' := by
  have G : Good sv b st lab := ⟨hE, hP, hC⟩
  have hM := request_made (hE.reach n) (hE.step hn) (hP.calls (n + 1) i)
  exact G.resolves_sent hF (G.made hM hlt) hs

/-- **C63, streams.** In the same executions: a stream called when the client has a socket (or opens
one) gets started some time, if a callback is attached to its store at once and stays attached, and
no callback of the client throws. And if the stream is polled, yields what it has and does not panic,
then the callback gets called with all of its (serializable) items, in order: for every number of
items the stream has, there is a moment at which the callback has been called with these. -/
theorem C63_stream {sv : Service σ C} {b : σ} {st : Nat → State σ C} {lab : Nat → Option Label}
    {i n : Nat} {ns m : Str} {a : List Json} (hE : Execution sv b st lab) (hP : Peaceful sv st lab)
    (hC : CalmForever st lab) (hF : Fair sv st lab i)
    (hn : lab n = some (.client i (.subscribe ns m a)))
    (ha : lab (n + 1) = some (.client i (.attach ((st (n + 1)).clients i).reqId)))
    (hs : hasSocket (st (n + 1)) i) (hatt : ∀ n', n + 2 ≤ n' → attached (st (n + 1)) i (st n'))
    (ht : ∀ n', ((st n').clients i).threw = false) :
    ∃ n', n + 2 ≤ n' ∧ ∃ c before after, (st n').server.log =
        before ++ (c, lastRequest (st (n + 1)) i ns m a) :: after ∧
      ∀ items, Streams sv (replay sv b before) (lastRequest (st (n + 1)) i ns m a) items →
        FairStream sv st lab (streams sv b before).length →
        ∀ N, (∀ p, p < N → items p ≠ none) → ∃ n'', n' ≤ n'' ∧
          itemData items N <+: calledWith (st (n + 1)) i (st n'') :=
  Good.flows ⟨hE, hP, hC⟩ hF hn ha hs hatt ht

/-- **C63, deliveries.** The assumption of `Fair` that the client finishes its deliveries again and
again follows from the runtime calling the next subscription some time, provided no single delivery
makes infinitely many subscriptions. Whatever happens otherwise. -/
theorem C63_deliveries {sv : Service σ C} {b : σ} {st : Nat → State σ C}
    {lab : Nat → Option Label} {i : Nat} (hE : Execution sv b st lab)
    (hv : WeaklyFair sv st lab (.client i .visit))
    (hb : ∀ n, (∀ m, n ≤ m → ((st m).clients i).phase ≠ .idle) →
      ∃ B, ∀ m, n ≤ m → ((st m).clients i).nsub ≤ B) :
    ∀ n, ∃ m, n ≤ m ∧ ((st m).clients i).phase = .idle :=
  deliveries_end hE hv hb

/-! ## Examples -/

/-- A request is made, executed and answered. -/
private def answered : List Label :=
  [add 2, .accept 0 0, .opened 0, .deliver 0, .server .take, .server .methodDone,
   .server (.flush 0), .respond 0, .client 0 .visit, .client 0 .visit, .endUp 0, .endDown 0 0]

/-- An execution that meets the hypotheses of `C63_partial`; the request resolves with a value. -/
example : ∃ (st : Nat → State (List Nat) (Call Nat)) (lab : Nat → Option Label),
    Execution Demo.sv [0] st lab ∧ Peaceful Demo.sv st lab ∧ CalmForever st lab ∧
    Fair Demo.sv st lab 0 ∧ lab 0 = some (add 2) ∧ hasSocket (st 1) 0 ∧
    ∃ n' d, promise (st 0) 0 (st n') = [d] := by
  obtain ⟨s, h, hs⟩ := settledRun_sound (b := [0]) (ls := answered) (i := 0) (by decide +kernel)
  have hE := trace_execution h
  have hP := trace_peaceful h (by decide) (by decide +kernel)
  have hC : CalmForever (trace Demo.sv (init [0]) answered) (labels answered) :=
    trace_calm (by decide +kernel)
  have hF := settled_fair h hs
  have hsock : hasSocket (trace Demo.sv (init [0]) answered 1) 0 := by
    have : ((trace Demo.sv (init [0]) answered 1).clients 0).socket = some 0 := by decide +kernel
    unfold hasSocket; rw [this]; simp
  refine ⟨_, _, hE, hP, hC, hF, rfl, hsock, ?_⟩
  obtain ⟨n', _, c, l₁, l₂, hl, hd⟩ := C63_partial hE hP hC hF (n := 0) rfl hsock
  obtain ⟨d, hr⟩ := add_returns' (before := l₁) ((trace Demo.sv (init [0]) answered 1).clients 0).reqId
  exact ⟨n', d, hd d hr⟩

/-- A backend with a stream of two items. -/
private def brief : BackendDef Nat Nat := ⟨[{
  ident := lit "Counter"
  nsName := lit "Counter"
  methods := [
    { name := lit "two", args := [Json.asUsize],
      body := .stream fun s a => match a with
        | [n] => (s, fun i => if i < 2 then some (.ok (.num (.int ↑(n + i)))) else none)
        | _ => (s, fun _ => none) }] }]⟩

private def streamed : List Label :=
  [.client 0 (.subscribe (lit "Counter") (lit "two") [.num (.int 5)]), .client 0 (.attach 1),
   .accept 0 0, .opened 0, .deliver 0, .server .take, .server (.poll 0), .server (.item 0),
   .server (.item 0), .server (.pending 0), .server (.poll 0), .server (.item 0),
   .server (.flush 0), .respond 0, .client 0 .visit, .client 0 .visit,
   .server (.flush 0), .respond 0, .client 0 .visit, .client 0 .visit]

private def streamedCheck : Bool :=
  match run brief.service (init [0]) streamed with
  | some s => settledB brief.service s 0 && (step brief.service s (.server (.poll 0))).isNone &&
      (step brief.service s (.server (.item 0))).isNone
  | none => false

/-- An execution that meets the hypotheses of `C63_stream`. -/
example : ∃ (st : Nat → State (List Nat) (Call Nat)) (lab : Nat → Option Label),
    Execution brief.service [0] st lab ∧ Peaceful brief.service st lab ∧ CalmForever st lab ∧
    Fair brief.service st lab 0 ∧
    lab 0 = some (.client 0 (.subscribe (lit "Counter") (lit "two") [.num (.int 5)])) ∧
    lab 1 = some (.client 0 (.attach ((st 1).clients 0).reqId)) ∧ hasSocket (st 1) 0 ∧
    (∀ n', 2 ≤ n' → attached (st 1) 0 (st n')) ∧ (∀ n', ((st n').clients 0).threw = false) ∧
    FairStream brief.service st lab 0 := by
  obtain ⟨s, h, hs⟩ : ∃ s, run brief.service (init [0]) streamed = some s ∧
      (settledB brief.service s 0 && (step brief.service s (.server (.poll 0))).isNone &&
        (step brief.service s (.server (.item 0))).isNone) = true := by
    have h : streamedCheck = true := by decide +kernel
    unfold streamedCheck at h
    split at h
    · exact ⟨_, ‹_›, h⟩
    · cases h
  simp only [Bool.and_eq_true] at hs
  obtain ⟨⟨hs, h1⟩, h2⟩ := hs
  refine ⟨trace brief.service (init [0]) streamed, labels streamed, trace_execution h,
    trace_peaceful h (by decide) (by decide +kernel), trace_calm (by decide +kernel),
    settled_fair h hs, rfl, ?_, ?_, ?_, ?_, ?_⟩
  · have : ((trace brief.service (init [0]) streamed 1).clients 0).reqId = 1 := by decide +kernel
    rw [this]; rfl
  · have : ((trace brief.service (init [0]) streamed 1).clients 0).socket = some 0 := by decide +kernel
    unfold hasSocket; rw [this]; simp
  · intro n' hn'
    have hn : ((trace brief.service (init [0]) streamed 1).clients 0).nsub = 0 := by decide +kernel
    unfold attached
    rw [hn]
    by_cases e : n' ≤ streamed.length
    · have : ∀ m ∈ List.range 21, 2 ≤ m →
          0 ∈ ((trace brief.service (init [0]) streamed m).clients 0).live := by decide +kernel
      exact this n' (List.mem_range.2 (by simp [streamed] at e; omega)) hn'
    · have : 0 ∈ ((trace brief.service (init [0]) streamed streamed.length).clients 0).live := by
        decide +kernel
      rw [trace_end h _ (Nat.le_refl _)] at this
      rw [trace_end h _ (by omega)]
      exact this
  · intro n'
    have := trace_all h (p := fun s => !(s.clients 0).threw) (by decide +kernel) n'
    simpa using this
  · refine ⟨weak_of_end h (not_enabled h1), strong_of_end h (not_enabled h2), fun n hn => ?_⟩
    have := labels_mem hn
    simp [streamed] at this

end Verif.Props
