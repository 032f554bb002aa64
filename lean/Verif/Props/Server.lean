import Verif.Rpc.ServerInv3
import Verif.Rpc.Demo

/-!
# Server properties C29 - C40

`Reachable sv b s`: some schedule of some length leads from a fresh server with backend state `b` to
`s`. The specification side (`exec1`, `replay`, `repliesTo`, `streams`, `active`, `firstItems`,
`arrivals`) is in `Verif/Spec/Server.lean` and `Verif/Rpc/ServerInv3.lean`.
-/

namespace Verif.Props
open Verif Verif.Server Verif.ServerSpec

variable {σ C : Type}

/-! ## C29 -/

/-- C29. Run any schedule. The backend state is what executing the finished requests one after the
other gives; the finished requests are an initial part of the requests in the order they arrived from
all connections together; and while the server task lives nothing is missing: arrived = finished ++
(at most one) in execution ++ waiting. -/
theorem C29_sequential {sv : Service σ C} {b : σ} {ls : List Label} {s : State σ C}
    (h : run sv (init b) ls = some s) :
    s.backend = replay sv b s.log ∧
    s.log <+: arrivals ls ∧
    (LoopAlive s → arrivals ls = s.log ++ inflight s ++ s.queue) ∧
    (inflight s).length ≤ 1 := by
  have hr : Reachable sv b s := ⟨ls, h⟩
  have ha := run_arrivals h
  refine ⟨inv_backend hr, ?_, ?_, ?_⟩
  · have := (inv_queue hr).2.trans ha.2
    simpa [init] using this
  · intro hl
    have h1 := ha.1 hl
    rw [(inv_queue hr).1 hl] at h1
    simpa [init] using h1.symm
  · unfold inflight; split <;> simp

/-- C29, progress: whenever requests wait and every client with a request is still connected, the
server can finish them all (every method terminating) and does not die doing so. -/
theorem C29_progress {sv : Service σ C} {b : σ} {ls : List Label} {s : State σ C}
    (h : run sv (init b) ls = some s) (hl : LoopAlive s)
    (hc : ∀ p ∈ inflight s ++ s.queue, (s.conns p.1).alive = true) :
    ∃ ls' s', (∀ l ∈ ls', l = .take ∨ l = .methodDone) ∧ run sv s ls' = some s' ∧
      LoopAlive s' ∧ s'.log = arrivals ls ∧ s'.backend = replay sv b (arrivals ls) := by
  -- drain a state
  have drain : ∀ (n : Nat) (s : State σ C), Reachable sv b s → LoopAlive s →
      s.queue.length = n → (∀ p ∈ inflight s ++ s.queue, (s.conns p.1).alive = true) →
      ∃ ls' s', (∀ l ∈ ls', l = .take ∨ l = .methodDone) ∧ run sv s ls' = some s' ∧
        LoopAlive s' ∧ s'.log = s.log ++ inflight s ++ s.queue := by
    have finish : ∀ (s : State σ C) c id call i, s.loop = .busy c id call i →
        (s.conns c).alive = true → ∃ s', step sv s .methodDone = some s' ∧ s'.loop = .idle ∧
          s'.log = s.log ++ [(c, i)] ∧ s'.queue = s.queue ∧
          ∀ c, (s'.conns c).alive = (s.conns c).alive := by
      intro s c id call i hb ha
      obtain ⟨s', hs'⟩ : ∃ s', step sv s .methodDone = some s' := by
        simp only [step, hb, Conn.send, ha, if_true]; exact ⟨_, rfl⟩
      refine ⟨s', hs', ?_⟩
      cases step_Step hs' with
      | methodFail c' id' call' i' hl' ha' =>
        rw [hb] at hl'; injection hl' with e1; rw [← e1, ha] at ha'; cases ha'
      | methodOk c' id' call' i' hl' ha' =>
        rw [hb] at hl'; injection hl' with e1 e2 e3 e4
        subst e1; subst e2; subst e3; subst e4
        refine ⟨rfl, rfl, rfl, ?_⟩
        intro c'
        simp only
        by_cases e : c' = c
        · subst e; simp [Conn.send_alive]
        · rw [upd_ne _ _ e]
    intro n
    induction n with
    | zero =>
      intro s hr hl hq hc
      have hq' : s.queue = [] := List.length_eq_zero_iff.1 hq
      cases hloop : s.loop with
      | dead => exact absurd hl (by simp [LoopAlive, hloop])
      | idle => exact ⟨[], s, by simp, rfl, hl, by simp [inflight, hloop, hq']⟩
      | busy c id call i =>
        obtain ⟨s', h1, h2, h3, h4, _⟩ := finish s c id call i hloop
          (hc (c, i) (by simp [inflight, hloop]))
        exact ⟨[.methodDone], s', by simp, by simp [run, h1], by simp [LoopAlive, h2],
          by simp [h3, inflight, hloop, hq']⟩
    | succ n ih =>
      -- first from an idle state
      have idle : ∀ s : State σ C, Reachable sv b s → s.loop = .idle → s.queue.length = n + 1 →
          (∀ p ∈ s.queue, (s.conns p.1).alive = true) →
          ∃ ls' s', (∀ l ∈ ls', l = .take ∨ l = .methodDone) ∧ run sv s ls' = some s' ∧
            LoopAlive s' ∧ s'.log = s.log ++ s.queue := by
        intro s hr hi hq hc
        match hqq : s.queue with
        | [] => simp [hqq] at hq
        | (c, i) :: q =>
          have hst : step sv s .take = some (takeStep sv s c i q) := by simp [step, hi, hqq]
          have hS := step_Step hst
          have hkey : LoopAlive (takeStep sv s c i q) ∧ (takeStep sv s c i q).queue = q ∧
              (∀ p ∈ inflight (takeStep sv s c i q) ++ q,
                ((takeStep sv s c i q).conns p.1).alive = true) ∧
              (takeStep sv s c i q).log ++ inflight (takeStep sv s c i q) = s.log ++ [(c, i)] := by
            have hsend : ∀ r c', (upd s.conns c ((s.conns c).send none r).1 c').alive
                = (s.conns c').alive := by
              intro r c'
              by_cases e : c' = c
              · subst e; rw [upd_self, Conn.send_alive]
              · rw [upd_ne _ _ e]
            have hcq : ∀ p ∈ q, (s.conns p.1).alive = true := fun p hp =>
              hc p (by rw [hqq]; exact List.mem_cons_of_mem _ hp)
            have hcc : (s.conns c).alive = true := hc (c, i) (by rw [hqq]; exact List.mem_cons_self)
            unfold takeStep
            simp only
            split
            · refine ⟨by simp [LoopAlive, State.reply, State.setConn, hi], rfl, ?_, ?_⟩
              · intro p hp
                simp only [inflight, State.reply, State.setConn, hi, List.nil_append] at hp ⊢
                rw [hsend]; exact hcq p hp
              · simp [inflight, State.reply, State.setConn, hi]
            · split
              · exact ⟨by simp [LoopAlive, hi], rfl, by simpa [inflight, hi] using hcq,
                  by simp [inflight, hi]⟩
              · exact ⟨by simp [LoopAlive, hi], rfl, by simpa [inflight, hi] using hcq,
                  by simp [inflight, hi]⟩
            · split
              · refine ⟨by simp [LoopAlive, State.reply, State.setConn, hi], rfl, ?_, ?_⟩
                · intro p hp
                  simp only [inflight, State.reply, State.setConn, hi, List.nil_append] at hp ⊢
                  rw [hsend]; exact hcq p hp
                · simp [inflight, State.reply, State.setConn, hi]
              · split
                · exact ⟨by simp [LoopAlive, hi], rfl, by simpa [inflight, hi] using hcq,
                    by simp [inflight, hi]⟩
                · refine ⟨by simp [LoopAlive], rfl, ?_, by simp [inflight]⟩
                  intro p hp
                  simp only [inflight, List.cons_append, List.nil_append, List.mem_cons] at hp
                  rcases hp with rfl | hp
                  · exact hcc
                  · exact hcq p hp
          obtain ⟨k1, k2, k3, k4⟩ := hkey
          obtain ⟨ls', s', e1, e2, e3, e4⟩ := ih (takeStep sv s c i q) (hr.step hst) k1
            (by rw [k2]; simp [hqq] at hq; omega) (by rw [k2]; exact k3)
          refine ⟨.take :: ls', s', ?_, by simp [run, hst, e2], e3, ?_⟩
          · intro l hl
            rcases List.mem_cons.1 hl with rfl | hl
            · exact .inl rfl
            · exact e1 l hl
          · rw [e4, k2, k4]; simp
      intro s hr hl hq hc
      cases hloop : s.loop with
      | dead => exact absurd hl (by simp [LoopAlive, hloop])
      | idle =>
        obtain ⟨ls', s', e1, e2, e3, e4⟩ := idle s hr hloop hq
          (fun p hp => hc p (by simp [hp]))
        exact ⟨ls', s', e1, e2, e3, by simp [e4, inflight, hloop]⟩
      | busy c id call i =>
        obtain ⟨s1, h1, h2, h3, h4, h5⟩ := finish s c id call i hloop
          (hc (c, i) (by simp [inflight, hloop]))
        obtain ⟨ls', s', e1, e2, e3, e4⟩ := idle s1 (hr.step h1) h2 (by rw [h4]; exact hq)
          (fun p hp => by rw [h5]; exact hc p (by rw [h4] at hp; simp [hp]))
        refine ⟨.methodDone :: ls', s', ?_, by simp [run, h1, e2], e3, ?_⟩
        · intro l hl
          rcases List.mem_cons.1 hl with rfl | hl
          · exact .inr rfl
          · exact e1 l hl
        · rw [e4, h3, h4]; simp [inflight, hloop]
  have hr : Reachable sv b s := ⟨ls, h⟩
  obtain ⟨ls', s', e1, e2, e3, e4⟩ := drain _ s hr hl rfl hc
  have e5 : s'.log = arrivals ls := by rw [e4, ← (C29_sequential h).2.2.1 hl]
  exact ⟨ls', s', e1, e2, e3, e5, by rw [inv_backend (hr.run e2), e5]⟩

/-- Non-vacuity of C29: two clients interleave; the second call is still waiting. -/
example : ∃ s, run Demo.sv Demo.init
    [.connect, .connect, Demo.callF 0 "add" 7 5, Demo.callF 1 "add" 7 6, .take, .methodDone, .take]
      = some s ∧ LoopAlive s ∧ s.log.length = 1 ∧ (inflight s).length = 1 ∧ s.backend = [5] :=
  ⟨_, rfl, trivial, rfl, rfl, rfl⟩

/-! ## C30 -/

/-- C30. On a live connection the direct replies (everything not sent by a stream) are exactly the
replies to the requests of that connection that have been executed, in order; on a connection that
has ended they are an initial part of those. `repliesTo` gives one reply per method call and per bad
message and none for a cancellation or a started stream. -/
theorem C30_replies {sv : Service σ C} {b : σ} {s : State σ C} (h : Reachable sv b s) (c : Nat) :
    ((s.conns c).alive = true → repliesOn s c = repliesTo sv c b s.log) ∧
    repliesOn s c <+: repliesTo sv c b s.log :=
  inv_replies h c

/-- C30, when the server has caught up: the replies are those to all frames that arrived. -/
theorem C30_replies_caught_up {sv : Service σ C} {b : σ} {ls : List Label} {s : State σ C}
    (h : run sv (init b) ls = some s) (hi : s.loop = .idle) (hq : s.queue = []) (c : Nat)
    (hc : (s.conns c).alive = true) : repliesOn s c = repliesTo sv c b (arrivals ls) := by
  rw [(C30_replies ⟨ls, h⟩ c).1 hc, (C29_sequential h).2.2.1 (alive_of_idle hi)]
  simp [inflight, hi, hq]

/-- C30: what a single request is answered with. -/
theorem C30_reply_of_request (sv : Service σ C) (b : σ) (c : Nat) (i : Input) :
    repliesTo sv c b [(c, i)] =
      match i with
      | .error r => [r]
      | .ok (.cancelStream _) => []
      | .ok (.exec id v) =>
        match sv.decode v with
        | .error e => [.error (some id) e]
        | .ok call =>
          if sv.isStream call then []
          else match (sv.runMethod b call).2 with
            | .ok data => [.method id data]
            | .error e => [.error (some id) e] := by
  rcases i with r | ⟨id, v⟩ | id
  · simp [repliesTo, exec1]
  · simp only [repliesTo, exec1, if_true]
    cases sv.decode v with
    | error e => simp
    | ok call =>
      simp only
      by_cases hs : sv.isStream call = true
      · simp [hs]
      · simp only [hs]
        rcases hm : sv.runMethod b call with ⟨b', r⟩
        cases r <;> simp
  · simp [repliesTo, exec1]

example : ∃ s, run Demo.sv Demo.init
    [.connect, .connect, Demo.callF 0 "add" 7 5, Demo.callF 1 "add" 8 6, .frame 1 (.text none),
     .take, .methodDone, .take, .methodDone, .take] = some s ∧ (s.conns 1).alive = true ∧
     repliesOn s 0 = [.method 7 (.num (.int 5))] ∧
     repliesOn s 1 = [.method 8 (.num (.int 11)), .error none .custom] :=
  ⟨_, rfl, rfl, rfl, rfl⟩

/-! ## C31 -/

/-- C31. The responses of the `t`-th started stream on its connection are exactly its first `n`
items, each tagged with the id of the request that started it; on other connections it has none; all
`n` items exist; while its connection lives, `n` is the number of items taken from the stream (none
is lost); and streams not started have no responses anywhere. -/
theorem C31_stream_items {sv : Service σ C} {b : σ} {s : State σ C} (h : Reachable sv b s) :
    (∀ t st, (streams sv b s.log)[t]? = some st →
      (∀ c, c ≠ st.conn → itemsOf s c t = []) ∧
      ∃ n, itemsOf s st.conn t = firstItems st n ∧ (∀ i, i < n → st.items i ≠ none) ∧
        n ≤ (s.tasks t).pos ∧ ((s.conns st.conn).alive = true → n = (s.tasks t).pos)) ∧
    (∀ t c, (streams sv b s.log).length ≤ t → itemsOf s c t = []) := by
  have hst := inv_streams h
  refine ⟨?_, ?_⟩
  · intro t st ht
    have hlt : t < s.ntask := by
      have := (List.getElem?_eq_some_iff.1 ht).1; omega
    rw [hst.2 t hlt] at ht
    cases ht
    have := inv_items h t
    refine ⟨fun c hc => this.1 c (.inr hc), ?_⟩
    obtain ⟨n, h1, h2, h3⟩ := this.2.2 hlt
    exact ⟨n, h3, fun i hi => this.2.1 i (by omega), h1, h2⟩
  · intro t c ht
    exact (inv_items h t).1 c (.inl (by omega))

example : ∃ s, run Demo.sv Demo.init
    [.connect, Demo.callF 0 "ticks" 3 10, Demo.callF 0 "ticks" 4 20, .take, .take, .poll 0, .poll 1,
     .item 0, .item 1, .item 0] = some s ∧
     itemsOf s 0 0 = [.stream 3 (.num (.int 10)), .stream 3 (.num (.int 11))] ∧
     itemsOf s 0 1 = [.stream 4 (.num (.int 20))] :=
  ⟨_, rfl, rfl, rfl⟩

/-! ## C32 -/

/-- C32. What is written to a socket is always an initial part of the responses produced for the
connection, in order; while the connection lives the rest is waiting, nothing is lost. -/
theorem C32_socket_order {sv : Service σ C} {b : σ} {s : State σ C} (h : Reachable sv b s)
    (c : Nat) :
    (s.conns c).written <+: (s.conns c).produced.map (·.2) ∧
    ((s.conns c).alive = true →
      (s.conns c).produced.map (·.2) = (s.conns c).written ++ (s.conns c).chan) :=
  ⟨(inv_chan h c).2, fun ha => ((inv_chan h c).1 ha).symm⟩

/-- C32, progress: a live connection can always write everything that is waiting. -/
theorem C32_progress {sv : Service σ C} (s : State σ C) (c : Nat)
    (hc : (s.conns c).alive = true) :
    ∃ s', run sv s (List.replicate (s.conns c).chan.length (.flush c)) = some s' ∧
      (s'.conns c).alive = true ∧ (s'.conns c).chan = [] ∧
      (s'.conns c).written = (s.conns c).written ++ (s.conns c).chan ∧
      (s'.conns c).produced = (s.conns c).produced := by
  suffices ∀ n (s : State σ C), (s.conns c).alive = true → (s.conns c).chan.length = n →
      ∃ s', run sv s (List.replicate n (.flush c)) = some s' ∧
      (s'.conns c).alive = true ∧ (s'.conns c).chan = [] ∧
      (s'.conns c).written = (s.conns c).written ++ (s.conns c).chan ∧
      (s'.conns c).produced = (s.conns c).produced from this _ s hc rfl
  intro n
  induction n with
  | zero =>
    intro s hc hn
    have := List.length_eq_zero_iff.1 hn
    exact ⟨s, rfl, hc, this, by simp [this], rfl⟩
  | succ n ih =>
    intro s hc hn
    match hch : (s.conns c).chan with
    | [] => simp [hch] at hn
    | r :: rs =>
      obtain ⟨s', h1, h2, h3, h4, h5⟩ := ih (s.setConn c
        { s.conns c with chan := rs, written := (s.conns c).written ++ [r] })
        (by simp [State.setConn, hc]) (by simp [State.setConn]; simp [hch] at hn; exact hn)
      refine ⟨s', ?_, h2, h3, ?_, ?_⟩
      · simp only [List.replicate_succ, run, step, if_pos hc, hch]
        exact h1
      · simpa [State.setConn] using h4
      · simpa [State.setConn] using h5

example : ∃ s, run Demo.sv Demo.init
    [.connect, Demo.callF 0 "add" 7 5, Demo.callF 0 "add" 8 6,
     .take, .methodDone, .flush 0, .take, .methodDone] = some s ∧ (s.conns 0).alive = true ∧
     (s.conns 0).written = [.method 7 (.num (.int 5))] ∧
     (s.conns 0).chan = [.method 8 (.num (.int 11))] :=
  ⟨_, rfl, rfl, rfl, rfl⟩

/-! ## C33 -/

/-- C33. When the server processes `cancelStream id` and `id` refers to stream `t`: if the stream's
task is not being polled at that moment, no continuation ever adds an item of `t` to any connection;
if it is being polled, no item is added after it next yields. -/
theorem C33_cancel_stops {sv : Service σ C} {b : σ} {s s₁ : State σ C} {c id t : Nat}
    {q : List (Nat × Input)} (hr : Reachable sv b s) (hi : s.loop = .idle)
    (hq : s.queue = (c, .ok (.cancelStream id)) :: q)
    (ht : active sv b 0 (fun _ => none) s.log id = some t)
    (h₁ : step sv s .take = some s₁) :
    ((s.tasks t).st ≠ .running → (s.tasks t).st ≠ .runningAborted →
      ∀ ls s₂, run sv s₁ ls = some s₂ → ∀ c', itemsOf s₂ c' t = itemsOf s c' t) ∧
    (∀ l₁ l₂ s₂ s₃, run sv s₁ (l₁ ++ [.pending t]) = some s₂ → run sv s₂ l₂ = some s₃ →
      ∀ c', itemsOf s₃ c' t = itemsOf s₂ c' t) := by
  rw [← (inv_subs hr).1 (alive_of_idle hi)] at ht
  have hm := mem_of_subsGet ht
  have hlt : t < s.ntask := ((inv_subs hr).2.1 _ hm).1
  have htask : s₁.tasks t = (s.tasks t).abort := by
    simp only [step, hi, hq, takeStep, ht, Option.some.injEq] at h₁
    rw [← h₁]; simp
  have hlt₁ : t < s₁.ntask := Nat.lt_of_lt_of_le hlt (ntask_mono h₁)
  refine ⟨?_, ?_⟩
  · intro n1 n2 ls s₂ h₂ c'
    have hstop : (s₁.tasks t).st.Stopped := by rw [htask]; exact abort_stopped _ ⟨n1, n2⟩
    have e1 := (run_stopped (hr.step h₁) hlt₁ hstop h₂).2 c'
    have e2 := step_items t hr h₁ (by simp) c'
    exact e1.trans e2
  · intro l₁ l₂ s₂ s₃ h₂ h₃ c'
    have hstop : (s₁.tasks t).st.Stopping := by rw [htask]; exact abort_stopping _
    rw [run_append] at h₂
    cases hm : run sv s₁ l₁ with
    | none => simp [hm] at h₂
    | some sm =>
      simp only [hm, Option.bind_some, run] at h₂
      split at h₂
      · rename_i s2' hp
        have : s2' = s₂ := by simpa using h₂
        subst this
        have hltm : t < sm.ntask := Nat.lt_of_lt_of_le hlt₁ (run_ntask_mono hm)
        have hst := run_stopping hlt₁ hstop hm
        have := (step_stop hltm hp).2.2 hst rfl
        exact (run_stopped (((hr.step h₁).run hm).step hp)
          (Nat.lt_of_lt_of_le hltm (ntask_mono hp)) this h₃).2 c'
      · cases h₂

/-- Non-vacuity: a started and once polled stream, its cancellation at the head of the queue. -/
example : ∃ s, run Demo.sv Demo.init
    [.connect, Demo.callF 0 "ticks" 3 10, .take, .poll 0, .item 0, .pending 0, Demo.cancelF 0 3]
      = some s ∧ s.loop = .idle ∧ s.queue = [(0, .ok (.cancelStream 3))] ∧
     active Demo.sv [0] 0 (fun _ => none) s.log 3 = some 0 ∧ (s.tasks 0).st = .suspended ∧
     ∃ s₁, step Demo.sv s .take = some s₁ ∧ (s₁.tasks 0).st = .cancelled :=
  ⟨_, rfl, rfl, rfl, rfl, rfl, _, rfl, rfl⟩

/-! ## C34 -/

/-- The full statement of C34: processing a cancellation sent by `c` leaves every stream that belongs
to another connection alone, and cancelling an id that is not active does nothing. -/
def C34_statement (sv : Service σ C) (b : σ) : Prop :=
  ∀ s s₁ c id q, Reachable sv b s → s.loop = .idle →
    s.queue = (c, .ok (.cancelStream id)) :: q → step sv s .take = some s₁ →
    (∀ t, t < s.ntask → (s.tasks t).conn ≠ c → s₁.tasks t = s.tasks t) ∧
    (active sv b 0 (fun _ => none) s.log id = none → s₁.tasks = s.tasks ∧ s₁.subs = s.subs)

/-- C34 is false: the subscriber map is shared by all connections, so connection 1 cancels the stream
of connection 0 by using the same id. -/
theorem C34_violated : ¬ C34_statement Demo.sv [0] := by
  intro h
  have h2 := h _ _ 1 3 [] ⟨[.connect, .connect, Demo.callF 0 "ticks" 3 10, .take, Demo.cancelF 1 3],
    rfl⟩ rfl rfl rfl
  have h3 := h2.1 0 (by decide) (by decide)
  have h4 := congrArg Task.st h3
  revert h4
  decide

/-- C34, the part that holds: a cancellation touches at most the one stream its id refers to (and that
stream was started with that id); cancelling an id that is not active does nothing; backend,
connections and requests are untouched. Missing: the stream may belong to another connection. -/
theorem C34_partial {sv : Service σ C} {b : σ} {s s₁ : State σ C} {c id : Nat}
    {q : List (Nat × Input)} (hr : Reachable sv b s) (hi : s.loop = .idle)
    (hq : s.queue = (c, .ok (.cancelStream id)) :: q) (h₁ : step sv s .take = some s₁) :
    (∀ t, active sv b 0 (fun _ => none) s.log id ≠ some t → s₁.tasks t = s.tasks t) ∧
    (∀ t, active sv b 0 (fun _ => none) s.log id = some t →
      ∃ st, (streams sv b s.log)[t]? = some st ∧ st.id = id) ∧
    (active sv b 0 (fun _ => none) s.log id = none → s₁.tasks = s.tasks ∧ s₁.subs = s.subs) ∧
    s₁.backend = s.backend ∧ s₁.conns = s.conns := by
  rw [← (inv_subs hr).1 (alive_of_idle hi)]
  have hS := (inv_subs hr).2.1
  refine ⟨?_, ?_, ?_, ?_⟩
  · intro t ht
    simp only [step, hi, hq, takeStep, Option.some.injEq] at h₁
    split at h₁
    · rename_i t' ht'
      rw [← h₁]; simp only
      rw [upd_ne]; intro e; subst e; exact ht ht'
    · rw [← h₁]
  · intro t ht
    have hm := hS _ (mem_of_subsGet ht)
    exact ⟨_, (inv_streams hr).2 t hm.1, hm.2⟩
  · intro hn
    simp only [step, hi, hq, takeStep, hn, Option.some.injEq] at h₁
    rw [← h₁]; exact ⟨rfl, rfl⟩
  · simp only [step, hi, hq, takeStep, Option.some.injEq] at h₁
    split at h₁ <;> (rw [← h₁]; exact ⟨rfl, rfl⟩)

/-- C34 holds when no two connections use the same stream id. -/
theorem C34_disjoint_ids_partial {sv : Service σ C} {b : σ} {s s₁ : State σ C} {c id : Nat}
    {q : List (Nat × Input)} (hr : Reachable sv b s) (hi : s.loop = .idle)
    (hq : s.queue = (c, .ok (.cancelStream id)) :: q) (h₁ : step sv s .take = some s₁)
    (hdis : ∀ st ∈ streams sv b s.log, st.id = id → st.conn = c) :
    ∀ t, t < s.ntask → (s.tasks t).conn ≠ c → s₁.tasks t = s.tasks t := by
  intro t ht hc
  apply (C34_partial hr hi hq h₁).1
  intro ha
  obtain ⟨st, h1, h2⟩ := (C34_partial hr hi hq h₁).2.1 t ha
  have h3 := (inv_streams hr).2 t ht
  rw [h1] at h3
  injection h3 with h3
  have := hdis st (List.mem_of_getElem? h1) h2
  rw [h3] at this
  exact hc this

/-! ## C35 -/

/-- The full statement of C35: as long as no user code panics and the program keeps its
`BackendProxy`, the server task keeps running whatever clients do. -/
def C35_statement (sv : Service σ C) (b : σ) : Prop :=
  ∀ ls s, run sv (init b) ls = some s → s.held = true →
    (∀ l ∈ ls, l ≠ .takePanic ∧ l ≠ .methodPanic) → LoopAlive s

/-- The schedule that kills the server: client 0 calls a method and disconnects before it returns. -/
def C35_trace : List Label :=
  [.connect, .connect, Demo.callF 0 "add" 7 5, .take, .recvEnd 0, .methodDone]

/-- C35 is false. Moreover client 1, still connected, never gets a reply again: its next request is
answered by closing its connection. -/
theorem C35_violated : ¬ C35_statement Demo.sv [0] ∧
    ∃ s, run Demo.sv Demo.init C35_trace = some s ∧ (s.conns 1).alive = true ∧ s.held = true ∧
      (∀ ls s', run Demo.sv s ls = some s' → repliesOn s' 1 = [] ∧ s'.log = s.log) ∧
      (∃ s', step Demo.sv s (Demo.callF 1 "add" 1 1) = some s' ∧ (s'.conns 1).alive = false) := by
  refine ⟨?_, _, rfl, rfl, rfl, ?_, _, rfl, rfl⟩
  · intro h
    exact h C35_trace _ rfl rfl (by
      intro l hl
      simp only [C35_trace, Demo.callF, List.mem_cons, List.not_mem_nil, or_false] at hl
      rcases hl with rfl | rfl | rfl | rfl | rfl | rfl <;> simp)
  · intro ls s' h
    have := fun hd => run_dead hd h
    specialize this (fun h => h)
    exact ⟨(this.2.2.2.2 1 (by decide)).trans rfl, this.2.1⟩

/-- C35, the part that holds: the server task ends only if user code panics, or the program dropped
every handle and all clients left (normal shutdown), or a *method* call completes after its own
caller's connection has ended. In particular disconnecting with streams open, with queued bad
messages, or with no method call outstanding is harmless. -/
theorem C35_partial {sv : Service σ C} {b : σ} {ls : List Label} {s : State σ C}
    (h : run sv (init b) ls = some s) (hd : ¬ LoopAlive s) :
    ∃ l₁ l l₂ s₁, ls = l₁ ++ l :: l₂ ∧ run sv (init b) l₁ = some s₁ ∧ LoopAlive s₁ ∧
      (l = .takePanic ∨ l = .methodPanic ∨
        (l = .loopExit ∧ s₁.held = false ∧ ∀ c, c < s₁.nconn → (s₁.conns c).alive = false) ∨
        (l = .methodDone ∧ ∃ c id call i, s₁.loop = .busy c id call i ∧
          (s₁.conns c).alive = false)) := by
  have key : ∀ (l₁ : List Label) (s₁ : State σ C) (l₂ : List Label),
      run sv (init b) l₁ = some s₁ → LoopAlive s₁ → run sv s₁ l₂ = some s →
      ∃ l₃ l l₄ s₂, l₁ ++ l₂ = l₃ ++ l :: l₄ ∧ run sv (init b) l₃ = some s₂ ∧ LoopAlive s₂ ∧
      (l = .takePanic ∨ l = .methodPanic ∨
        (l = .loopExit ∧ s₂.held = false ∧ ∀ c, c < s₂.nconn → (s₂.conns c).alive = false) ∨
        (l = .methodDone ∧ ∃ c id call i, s₂.loop = .busy c id call i ∧
          (s₂.conns c).alive = false)) := by
    intro l₁ s₁ l₂
    induction l₂ generalizing l₁ s₁ with
    | nil => intro _ ha hs; simp [run] at hs; subst hs; exact absurd ha hd
    | cons l l₂ ih =>
      intro h1 ha hs
      simp only [run] at hs
      split at hs
      · rename_i s2 hst
        by_cases ha2 : LoopAlive s2
        · obtain ⟨l₃, l', l₄, s₃, e, r⟩ := ih (l₁ ++ [l]) s2
            (by rw [run_append, h1]; simp [run, hst]) ha2 hs
          exact ⟨l₃, l', l₄, s₃, by rw [← e]; simp, r⟩
        · refine ⟨l₁, l, l₂, s₁, rfl, h1, ha, ?_⟩
          rcases (step_death ha hst ha2).1 with h | h | h | h
          · exact .inl h
          · exact .inr (.inl h)
          · exact .inr (.inr (.inl ⟨h.1, h.2.1, h.2.2.2⟩))
          · exact .inr (.inr (.inr h))
      · cases hs
  exact key [] (init b) ls rfl trivial h

/-- Non-vacuity: a client that leaves with an open stream and a queued bad message hurts nobody. -/
example : ∃ s, run Demo.sv Demo.init
    [.connect, .connect, Demo.callF 0 "ticks" 7 5, .take, .frame 0 (.text none), .recvEnd 0, .take,
     .poll 0, .item 0, Demo.callF 1 "add" 1 1, .take, .methodDone] = some s ∧ LoopAlive s ∧
     repliesOn s 1 = [.method 1 (.num (.int 1))] :=
  ⟨_, rfl, trivial, rfl⟩

/-! ## C36 -/

/-- The full statement of C36: a stream whose task has not ended is stopped (immediately, or at its
next yield) when a cancellation with its id is processed. -/
def C36_statement (sv : Service σ C) (b : σ) : Prop :=
  ∀ s s₁ c id q t st, Reachable sv b s → s.loop = .idle →
    s.queue = (c, .ok (.cancelStream id)) :: q →
    (streams sv b s.log)[t]? = some st → st.conn = c → st.id = id →
    step sv s .take = some s₁ → (s₁.tasks t).st.Stopping

/-- C36 is false: reusing the id detaches the first stream from the map; cancelling stops only the
second. -/
theorem C36_violated : ¬ C36_statement Demo.sv [0] := by
  intro h
  have := h _ _ 0 3 [] 0 _ ⟨[.connect, Demo.callF 0 "ticks" 3 10, .take, Demo.callF 0 "ticks" 3 20,
    .take, Demo.cancelF 0 3], rfl⟩ rfl rfl rfl rfl rfl rfl
  revert this
  unfold TaskSt.Stopping TaskSt.Stopped
  decide

/-- C36, the part that holds: a stream can be cancelled as long as no later request has mentioned its
id. Missing: ids in use again. -/
theorem C36_partial {sv : Service σ C} {b : σ} {s s₁ : State σ C} {c c₀ : Nat}
    {q : List (Nat × Input)} {i : Input} {st : Started} {l₁ l₂ : List (Nat × Input)}
    (hr : Reachable sv b s) (hi : s.loop = .idle)
    (hlog : s.log = l₁ ++ (c₀, i) :: l₂)
    (hst : starts sv (replay sv b l₁) c₀ i = some st)
    (hfresh : ∀ p ∈ l₂, p.2 ≠ .ok (.cancelStream st.id) ∧ ∀ v, p.2 ≠ .ok (.exec st.id v))
    (hq : s.queue = (c, .ok (.cancelStream st.id)) :: q)
    (h₁ : step sv s .take = some s₁) :
    (s₁.tasks (streams sv b l₁).length).st.Stopping := by
  have hact : active sv b 0 (fun _ => none) s.log st.id = some (streams sv b l₁).length := by
    have : s.log = (l₁ ++ [(c₀, i)]) ++ l₂ := by simp [hlog]
    rw [this, active_append, active_untouched _ _ _ _ _ _ hfresh, active_snoc]
    simp [active, hst]
  rw [← (inv_subs hr).1 (alive_of_idle hi)] at hact
  simp only [step, hi, hq, takeStep, hact, Option.some.injEq] at h₁
  rw [← h₁]
  simpa using abort_stopping _

/-- Non-vacuity. -/
example : ∃ s l₁ i l₂ st, run Demo.sv Demo.init
    [.connect, Demo.callF 0 "add" 1 10, Demo.callF 0 "ticks" 3 10, Demo.callF 0 "ticks" 4 20, .take,
     .methodDone, .take, .take, Demo.cancelF 0 3] = some s ∧ s.loop = .idle ∧
    s.log = l₁ ++ (0, i) :: l₂ ∧ starts Demo.sv (replay Demo.sv [0] l₁) 0 i = some st ∧
    (∀ p ∈ l₂, p.2 ≠ .ok (.cancelStream st.id) ∧ ∀ v, p.2 ≠ .ok (.exec st.id v)) ∧
    s.queue = [(0, .ok (.cancelStream st.id))] :=
  ⟨_, [_], _, [_], _, rfl, rfl, rfl, rfl, by
    intro p hp
    simp only [List.mem_singleton] at hp
    subst hp
    refine ⟨nofun, fun v h => ?_⟩
    injection h with h
    injection h with h
    exact absurd h (by decide), rfl⟩

/-! ## C37 -/

/-- C37. While the server task runs, the ids it tracks are exactly the ids of streams started and not
cancelled since, each referring to the latest stream started with it. -/
theorem C37_bookkeeping {sv : Service σ C} {b : σ} {s : State σ C} (h : Reachable sv b s)
    (hl : LoopAlive s) (id : Nat) :
    (id ∈ s.subs.map (·.1) ↔ ∃ t, active sv b 0 (fun _ => none) s.log id = some t) ∧
    (∀ t, (id, t) ∈ s.subs ↔ active sv b 0 (fun _ => none) s.log id = some t) ∧
    (s.subs.map (·.1)).Nodup := by
  have hsub := inv_subs h
  have key : ∀ t, (id, t) ∈ s.subs ↔ active sv b 0 (fun _ => none) s.log id = some t := by
    intro t
    rw [← hsub.1 hl]
    refine ⟨?_, mem_of_subsGet⟩
    intro hm
    have : ∀ m : List (Nat × Nat), (m.map (·.1)).Nodup → (id, t) ∈ m → subsGet m id = some t := by
      intro m
      induction m with
      | nil => intro _ h; cases h
      | cons p m ih =>
        intro hn hm
        simp only [List.map_cons, List.nodup_cons] at hn
        rcases List.mem_cons.1 hm with rfl | hm
        · simp [subsGet]
        · have hne : p.1 ≠ id := fun e => hn.1 (List.mem_map.2 ⟨(id, t), hm, e.symm⟩)
          have := ih hn.2 hm
          simpa [subsGet, List.find?_cons, hne] using this
    exact this _ hsub.2.2 hm
  refine ⟨?_, key, hsub.2.2⟩
  constructor
  · intro hm
    obtain ⟨p, hp, rfl⟩ := List.mem_map.1 hm
    exact ⟨p.2, (key p.2).1 hp⟩
  · rintro ⟨t, ht⟩
    exact List.mem_map.2 ⟨(id, t), (key t).2 ht, rfl⟩

/-- C37: requests that neither start a stream nor cancel leave the table as it was. -/
theorem C37_untouched (sv : Service σ C) (b : σ) (l : List (Nat × Input)) (c : Nat) (i : Input)
    (h1 : starts sv (replay sv b l) c i = none) (h2 : ∀ id, i ≠ .ok (.cancelStream id)) :
    active sv b 0 (fun _ => none) (l ++ [(c, i)]) = active sv b 0 (fun _ => none) l := by
  rw [active_snoc]
  simp only [active, h1]

example : ∃ s, run Demo.sv Demo.init
    [.connect, Demo.callF 0 "ticks" 3 10, .take, Demo.callF 0 "ticks" 4 20, .take,
     Demo.cancelF 0 3, .take, Demo.callF 0 "ticks" 4 30, .take] = some s ∧ LoopAlive s ∧
     s.subs = [(4, 2)] :=
  ⟨_, rfl, trivial, rfl⟩

/-! ## C38 -/

/-- C38. When the server task ends, for whatever reason, every tracked stream is aborted: unless its
task is being polled at that moment it never produces an item again, otherwise it stops at its next
yield. -/
theorem C38_shutdown {sv : Service σ C} {b : σ} {s s₁ : State σ C} {l : Label}
    (hr : Reachable sv b s) (ha : LoopAlive s) (h₁ : step sv s l = some s₁) (hd : ¬ LoopAlive s₁)
    {id t : Nat} (ht : active sv b 0 (fun _ => none) s.log id = some t) :
    ((s.tasks t).st ≠ .running → (s.tasks t).st ≠ .runningAborted →
      ∀ ls s₂, run sv s₁ ls = some s₂ → ∀ c', itemsOf s₂ c' t = itemsOf s c' t) ∧
    (∀ l₁ l₂ s₂ s₃, run sv s₁ (l₁ ++ [.pending t]) = some s₂ → run sv s₂ l₂ = some s₃ →
      ∀ c', itemsOf s₃ c' t = itemsOf s₂ c' t) := by
  rw [← (inv_subs hr).1 ha] at ht
  have hmem := mem_of_subsGet ht
  have hlt : t < s.ntask := ((inv_subs hr).2.1 _ hmem).1
  have hdeath := step_death ha h₁ hd
  have htask : s₁.tasks t = (s.tasks t).abort := by
    rw [hdeath.2.2 t, if_pos (List.mem_map.2 ⟨_, hmem, rfl⟩)]
  have hlt₁ : t < s₁.ntask := Nat.lt_of_lt_of_le hlt (ntask_mono h₁)
  have hne : l ≠ .item t := by
    rcases hdeath.1 with h | h | h | h
    · rw [h]; simp
    · rw [h]; simp
    · rw [h.1]; simp
    · rw [h.1]; simp
  refine ⟨?_, ?_⟩
  · intro n1 n2 ls s₂ h₂ c'
    have hstop : (s₁.tasks t).st.Stopped := by rw [htask]; exact abort_stopped _ ⟨n1, n2⟩
    exact ((run_stopped (hr.step h₁) hlt₁ hstop h₂).2 c').trans (step_items t hr h₁ hne c')
  · intro l₁ l₂ s₂ s₃ h₂ h₃ c'
    have hstop : (s₁.tasks t).st.Stopping := by rw [htask]; exact abort_stopping _
    rw [run_append] at h₂
    cases hm : run sv s₁ l₁ with
    | none => simp [hm] at h₂
    | some sm =>
      simp only [hm, Option.bind_some, run] at h₂
      split at h₂
      · rename_i s2' hp
        have : s2' = s₂ := by simpa using h₂
        subst this
        have hltm : t < sm.ntask := Nat.lt_of_lt_of_le hlt₁ (run_ntask_mono hm)
        have hst := run_stopping hlt₁ hstop hm
        have := (step_stop hltm hp).2.2 hst rfl
        exact (run_stopped (((hr.step h₁).run hm).step hp)
          (Nat.lt_of_lt_of_le hltm (ntask_mono hp)) this h₃).2 c'
      · cases h₂

/-- Non-vacuity: normal shutdown with a suspended tracked stream. -/
example : ∃ s s₁, run Demo.sv Demo.init
    [.connect, Demo.callF 0 "ticks" 3 10, .take, .poll 0, .item 0, .pending 0, .recvEnd 0, .dropProxy]
      = some s ∧ step Demo.sv s .loopExit = some s₁ ∧ LoopAlive s ∧ ¬ LoopAlive s₁ ∧
      active Demo.sv [0] 0 (fun _ => none) s.log 3 = some 0 ∧ (s.tasks 0).st = .suspended :=
  ⟨_, _, rfl, rfl, trivial, fun h => h, rfl, rfl⟩

/-! ## C39 -/

/-- C39. `ProxyTx::send` fails iff the server task has ended, and then it fails forever; otherwise the
request is put behind all earlier ones and nothing else changes. -/
theorem C39_send {sv : Service σ C} (s : State σ C) (c : Nat) (i : Input) :
    (s.proxySend c i = none ↔ ¬ LoopAlive s) ∧
    (s.proxySend c i = none → ∀ ls s', run sv s ls = some s' → s'.proxySend c i = none) ∧
    (∀ s', s.proxySend c i = some s' →
      s' = { s with queue := s.queue ++ [(c, i)], accepted := s.accepted ++ [(c, i)] }) := by
  have key : ∀ s : State σ C, s.proxySend c i = none ↔ ¬ LoopAlive s := by
    intro s
    unfold State.proxySend LoopAlive
    cases s.loop <;> simp
  refine ⟨key s, ?_, ?_⟩
  · intro h ls s' hr
    rw [key] at h ⊢
    exact (run_dead h hr).1
  · intro s' h
    unfold State.proxySend at h
    split at h
    · cases h
    · injection h with h; exact h.symm

/-- C39: a websocket task that gets `Disconnected` ends its connection. -/
theorem C39_disconnected_closes {sv : Service σ C} (s : State σ C) (c : Nat) (doc : Option Json)
    (ha : (s.conns c).alive = true) (hd : ¬ LoopAlive s) :
    ∃ s', step sv s (.frame c (.text doc)) = some s' ∧ (s'.conns c).alive = false ∧
      s'.queue = s.queue ∧ s'.backend = s.backend := by
  have hn := (C39_send (sv := sv) s c (frameInput doc)).1.2 hd
  exact ⟨s.setConn c (s.conns c).close, by simp only [step, ha, if_true, hn],
    by simp [State.setConn, Conn.close], rfl, rfl⟩

example : ∃ s, run Demo.sv Demo.init C35_trace = some s ∧ ¬ LoopAlive s ∧ (s.conns 1).alive = true :=
  ⟨_, rfl, fun h => h, rfl⟩

/-! ## C40 -/

/-- C40. A non-text frame changes nothing. A text frame that is not a valid request (not JSON, or not
of a known shape) is queued as an error without id; processing it sends exactly that error to that
connection (if it still lives) and changes neither the backend, nor any subscription, nor any other
connection. -/
theorem C40_bad_frames {sv : Service σ C} {b : σ} {s : State σ C} (hr : Reachable sv b s) :
    (∀ c, (s.conns c).alive = true → step sv s (.frame c .other) = some s) ∧
    (∀ doc, (doc = none ∨ ∃ d e, doc = some d ∧ Request.decode d = .error e) →
      ∃ e, frameInput doc = .error (.error none e)) ∧
    (∀ c r q s₁, s.queue = (c, .error r) :: q → step sv s .take = some s₁ →
      (∃ e, r = .error none e) ∧ s₁.backend = s.backend ∧ s₁.subs = s.subs ∧
      s₁.tasks = s.tasks ∧ s₁.loop = s.loop ∧ (∀ c', c' ≠ c → s₁.conns c' = s.conns c') ∧
      (s₁.conns c).produced =
        (s.conns c).produced ++ (if (s.conns c).alive then [(none, r)] else [])) := by
  refine ⟨?_, ?_, ?_⟩
  · intro c hc; simp [step, hc]
  · rintro doc (rfl | ⟨d, e, rfl, hd⟩)
    · exact ⟨_, rfl⟩
    · exact ⟨e, by simp [frameInput, hd]⟩
  · intro c r q s₁ hq h₁
    have hi : s.loop = .idle := by
      cases hl : s.loop with
      | idle => rfl
      | busy => simp [step, hl] at h₁
      | dead => simp [step, hl] at h₁
    refine ⟨?_, ?_⟩
    · apply inv_err hr c r
      rw [(inv_queue hr).1 (alive_of_idle hi), hq]
      simp
    · simp only [step, hi, hq, takeStep, Option.some.injEq] at h₁
      rw [← h₁]
      refine ⟨rfl, rfl, rfl, hi.symm, ?_, ?_⟩
      · intro c' hc'
        simp [State.reply, State.setConn, upd_ne _ _ hc']
      · simp only [State.reply, State.setConn, upd_self, Conn.send_produced]
        split <;> simp

example : ∃ s, run Demo.sv Demo.init [.connect, .frame 0 .other,
    .frame 0 (.text (some (.arr []))), .frame 0 (.text none)] = some s ∧
    s.queue = [(0, .error (.error none .expectedEnum)), (0, .error (.error none .custom))] :=
  ⟨_, rfl, rfl⟩

end Verif.Props
