import Verif.Props.Leaks

/-!
# C72: what the server keeps for clients that do not read
-/

namespace Verif.Props
open Verif Verif.Server Verif.ServerSpec Verif.WireSpec

variable {σ C : Type}

/-- The full property: there is a number such that the server never holds more than this many unread responses, nor this many
unprocessed requests, of one client. -/
def C72_statement (sv : Service σ C) (b : σ) : Prop :=
  ∃ N, ∀ s, Reachable sv b s → ∀ c, (s.conns c).chan.length ≤ N ∧ (s.queue.filter (·.1 == c)).length ≤ N

/-- One client is connected, the loop waits, and `n` responses to the client are unread. -/
structure Unread (s : State σ C) (n : Nat) : Prop where
  idle : s.loop = .idle
  queue : s.queue = []
  alive : (s.conns 0).alive = true
  unread : (s.conns 0).chan.length = n
  written : (s.conns 0).written = []

theorem Unread.one {sv : Service σ C} {s : State σ C} {n : Nat} (h : Unread s n) :
    ∃ s', run sv s [.frame 0 (.text none), .take] = some s' ∧ Unread s' (n + 1) := by
  simp only [run, step, h.alive, if_true, State.proxySend, h.idle, h.queue, List.nil_append, frameInput, takeStep]
  refine ⟨_, rfl, rfl, rfl, ?_, ?_, ?_⟩
  · simp [State.reply, State.setConn, Conn.send_alive, h.alive]
  · simp [State.reply, State.setConn, Conn.send, h.alive, h.unread]
  · simp [State.reply, State.setConn, Conn.send, h.alive, h.written]

/-- Whatever the service: one client that sends and does not read makes the server hold any number of responses. -/
theorem C72_responses (sv : Service σ C) (b : σ) (n : Nat) :
    ∃ s, Reachable sv b s ∧ (s.conns 0).alive = true ∧ (s.conns 0).written = [] ∧ (s.conns 0).chan.length = n := by
  suffices ∃ s, Reachable sv b s ∧ Unread s n by
    obtain ⟨s, hr, h⟩ := this
    exact ⟨s, hr, h.alive, h.written, h.unread⟩
  induction n with
  | zero =>
    exact ⟨_, ⟨[.connect], rfl⟩, rfl, rfl, rfl, rfl, rfl⟩
  | succ n ih =>
    obtain ⟨s, hr, h⟩ := ih
    obtain ⟨s', h', hn⟩ := h.one (sv := sv)
    exact ⟨s', hr.run h', hn⟩

/-- While a method runs, a client makes the server hold any number of unprocessed requests. -/
theorem C72_requests (sv : Service σ C) (b : σ) (n : Nat) :
    ∃ s, Reachable sv b s ∧ (s.conns 0).alive = true ∧ (s.queue.filter (·.1 == 0)).length = n := by
  suffices ∃ s, Reachable sv b s ∧ s.loop = .idle ∧ (s.conns 0).alive = true ∧ (s.queue.filter (·.1 == 0)).length = n by
    obtain ⟨s, hr, _, h⟩ := this
    exact ⟨s, hr, h⟩
  induction n with
  | zero => exact ⟨_, ⟨[.connect], rfl⟩, rfl, rfl, rfl⟩
  | succ n ih =>
    obtain ⟨s, hr, hi, ha, h⟩ := ih
    obtain ⟨s', h', e⟩ : ∃ s', step sv s (.frame 0 (.text none)) = some s' ∧ s' =
        { s with queue := s.queue ++ [(0, frameInput none)], accepted := s.accepted ++ [(0, frameInput none)] } := by
      simp [step, ha, State.proxySend, hi]
    refine ⟨s', hr.step h', ?_, ?_, ?_⟩ <;> rw [e]
    · exact hi
    · exact ha
    · simp [List.filter_append, h]

/-- The property is false of every service. -/
theorem C72_violated (sv : Service σ C) (b : σ) : ¬ C72_statement sv b := by
  rintro ⟨N, h⟩
  obtain ⟨s, hr, _, _, hn⟩ := C72_responses sv b (N + 1)
  have := (h s hr 0).1
  omega

/-- A single request is enough: of a stream that does not end, any number of items is held, although the client has read none. -/
theorem C72_stream (sv : Service σ C) (b : σ) {ns m : Str} {args : List Json} {call : C}
    (hd : sv.decode (callValue ns m (args.map Json.toValue)) = .ok call) (hs : sv.isStream call = true)
    (hend : ∀ k, (sv.runStream b call).2 k ≠ none) (n : Nat) :
    ∃ s, Reachable sv b s ∧ s.accepted.length = 1 ∧ (s.conns 0).alive = true ∧ (s.conns 0).written = [] ∧ (s.conns 0).chan.length = n := by
  suffices ∃ s, Reachable sv b s ∧ s.accepted.length = 1 ∧ (s.conns 0).alive = true ∧ (s.conns 0).written = [] ∧
      (s.conns 0).chan.length = n ∧ (s.tasks 0).conn = 0 ∧ (s.tasks 0).src = (sv.runStream b call).2 ∧ (s.tasks 0).st = .running by
    obtain ⟨s, hr, h1, h2, h3, h4, _⟩ := this
    exact ⟨s, hr, h1, h2, h3, h4⟩
  induction n with
  | zero =>
    have hf : frameInput (some (clientMessage 0 ns m args)) = .ok (.exec 0 (callValue ns m (args.map Json.toValue))) :=
      frame_of_decode (C23_client_message 0 ns m args (by decide))
    have : ∃ s, run sv (init b) [.connect, .frame 0 (.text (some (clientMessage 0 ns m args))), .take, .poll 0] = some s ∧
        s.accepted.length = 1 ∧ (s.conns 0).alive = true ∧ (s.conns 0).written = [] ∧
        (s.conns 0).chan.length = 0 ∧ (s.tasks 0).conn = 0 ∧ (s.tasks 0).src = (sv.runStream b call).2 ∧ (s.tasks 0).st = .running := by
      simp only [run, step, init, if_true, State.proxySend, hf, upd_self, freshConn, takeStep, hd, hs, List.nil_append, State.setTask]
      exact ⟨_, rfl, rfl, by simp, by simp, by simp, by simp, by simp, by simp⟩
    obtain ⟨s, hr, h⟩ := this
    exact ⟨s, ⟨_, hr⟩, h⟩
  | succ n ih =>
    obtain ⟨s, hr, h1, h2, h3, h4, h5, h6, h7⟩ := ih
    have : ∃ s', step sv s (.item 0) = some s' ∧ s'.accepted = s.accepted ∧ (s'.conns 0).alive = true ∧ (s'.conns 0).written = [] ∧
        (s'.conns 0).chan.length = n + 1 ∧ (s'.tasks 0).conn = 0 ∧ (s'.tasks 0).src = (sv.runStream b call).2 ∧
        (s'.tasks 0).st = .running := by
      simp only [step, h7, h6]
      cases hx : (sv.runStream b call).2 (s.tasks 0).pos with
      | none => exact absurd hx (hend _)
      | some x =>
        simp only [h5, Conn.send, h2, if_true]
        refine ⟨_, rfl, rfl, ?_, ?_, ?_, ?_, ?_, ?_⟩ <;> simp [State.setTask, State.setConn, h2, h3, h4, h5, h6, h7]
    obtain ⟨s', hst, e1, e⟩ := this
    exact ⟨s', hr.step hst, by rw [e1]; exact h1, e⟩

/-- The demo service has such a stream. -/
example : ∃ call, Demo.sv.decode (callValue (lit "Counter") (lit "ticks") ([Json.num (.int 3)].map Json.toValue)) = .ok call ∧
    Demo.sv.isStream call = true ∧ ∀ k, (Demo.sv.runStream [0] call).2 k ≠ none := by
  refine ⟨_, rfl, rfl, fun k => ?_⟩
  exact fun h => nomatch h

/-- What is left of a connection that has ended: nothing is held for it any more. -/
theorem C61_unread_partial {sv : Service σ C} {b : σ} {s : State σ C} (hr : Reachable sv b s) (c : Nat)
    (hd : (s.conns c).alive = false) : (s.conns c).chan = [] := by
  suffices ∀ ls (s s' : State σ C), (∀ c, (s.conns c).alive = false → (s.conns c).chan = []) → run sv s ls = some s' →
      ∀ c, (s'.conns c).alive = false → (s'.conns c).chan = [] by
    obtain ⟨ls, h⟩ := hr
    exact this ls _ s (fun _ _ => rfl) h c hd
  intro ls
  induction ls with
  | nil => intro s s' h hr; cases hr; exact h
  | cons l ls ih =>
    intro s s' hs hr
    simp only [run] at hr
    cases h1 : step sv s l with
    | none => rw [h1] at hr; cases hr
    | some s1 =>
    rw [h1] at hr
    refine ih s1 s' ?_ hr
    have up : ∀ c' x, (x.alive = false → x.chan = []) → ∀ c, (upd s.conns c' x c).alive = false → (upd s.conns c' x c).chan = [] := by
      intro c' x hx c
      by_cases e : c = c'
      · subst e; rw [upd_self]; exact hx
      · rw [upd_ne _ _ e]; exact hs c
    have snd : ∀ c' f r, ((s.conns c').send f r).1.alive = false → ((s.conns c').send f r).1.chan = [] := by
      intro c' f r
      unfold Conn.send
      by_cases e : (s.conns c').alive = true
      · simp [e]
      · simp only [e, if_false]
        exact hs c'
    cases step_Step h1 <;> first
      | exact hs
      | exact up _ _ (fun _ => rfl)
      | exact up _ _ (snd _ _ _)
      | exact up _ _ (fun h => absurd h (by simp_all))

theorem repliesTo_length (sv : Service σ C) (c : Nat) : ∀ (l : List (Nat × Input)) (b : σ),
    (repliesTo sv c b l).length ≤ (l.filter (·.1 == c)).length := by
  intro l
  induction l with
  | nil => intro b; simp [repliesTo]
  | cons p l ih =>
    intro b
    obtain ⟨c', i⟩ := p
    have := ih (exec1 sv b i).1
    simp only [repliesTo, List.length_append]
    by_cases e : c' = c
    · subst e
      have h1 : (exec1 sv b i).2.toList.length ≤ 1 := by cases (exec1 sv b i).2 <;> simp
      simp only [if_true, List.filter_cons, beq_self_eq_true, List.length_cons]
      omega
    · simp only [e, if_false, List.length_nil, List.filter_cons, beq_iff_eq]
      omega

/-- **C72, clients without streams.** If no request of a connection has started a stream, the responses that the server holds for it and
those it has written are together at most as many as the requests of the connection that have been executed: a client that waits for
the response before it sends the next request makes the server hold at most one. -/
theorem C72_partial {sv : Service σ C} {b : σ} {s : State σ C} (hr : Reachable sv b s) (c : Nat)
    (hc : ∀ st ∈ streams sv b s.log, st.conn ≠ c) :
    (s.conns c).chan.length + (s.conns c).written.length ≤ (s.log.filter (·.1 == c)).length := by
  have hp : ∀ p ∈ (s.conns c).produced, p.1 = none := by
    intro p hp
    cases hp1 : p.1 with
    | none => rfl
    | some t =>
      have hmem : p.2 ∈ itemsOf s c t := List.mem_map.2 ⟨p, List.mem_filter.2 ⟨hp, by simp [hp1]⟩, rfl⟩
      have h31 := C31_stream_items hr
      cases hst : (streams sv b s.log)[t]? with
      | none =>
        rw [h31.2 t c (List.getElem?_eq_none_iff.1 hst)] at hmem
        cases hmem
      | some st =>
        rw [(h31.1 t st hst).1 c (Ne.symm (hc st (List.mem_of_getElem? hst)))] at hmem
        cases hmem
  have hlen : (s.conns c).produced.length = (repliesOn s c).length := by
    unfold repliesOn
    rw [List.length_map, List.filter_eq_self.2]
    intro p h
    simp [hp p h]
  have h1 := (C30_replies hr c).2.length_le
  have h2 := repliesTo_length sv c s.log b
  cases ha : (s.conns c).alive with
  | true =>
    have := congrArg List.length ((C32_socket_order hr c).2 ha)
    simp only [List.length_map, List.length_append] at this
    omega
  | false =>
    rw [C61_unread_partial hr c ha]
    have := (C32_socket_order hr c).1.length_le
    simp only [List.length_map] at this
    simp only [List.length_nil]
    omega

/-- Two calls executed, one response written, one unread. -/
example : ∃ s, Reachable Demo.sv [0] s ∧ (∀ st ∈ streams Demo.sv [0] s.log, st.conn ≠ 0) ∧ (s.conns 0).chan.length = 1 ∧
    (s.conns 0).written.length = 1 ∧ (s.log.filter (·.1 == 0)).length = 2 := by
  refine ⟨_, ⟨[.connect, .connect, Demo.callF 1 "ticks" 7 5, Demo.callF 0 "add" 7 5, .take, Demo.callF 0 "add" 8 6, .take, .methodDone, .flush 0, .take,
    .methodDone], rfl⟩, ?_, rfl, rfl, rfl⟩
  intro st h
  have h' : st.conn ∈ [1] := List.mem_map_of_mem (f := (·.conn)) h
  simp at h'
  omega

end Verif.Props
