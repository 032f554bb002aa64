import Verif.Client.InvReq

/-!
# Client properties C41 - C48

Specification: `Verif/Spec/Client.lean`. A history is a list of labels (user calls and network
events); `run init ls = some s` says that the history `ls` can happen and leaves the client in `s`.
-/

namespace Verif.Props
open Verif Verif.Client Verif.ClientSpec

/-- A call used in examples. -/
private def ask (n : Int) : Label := .request (lit "Counter") (lit "add") [.num (.int n)]
private def listen : Label := .subscribe (lit "Counter") (lit "ticks") []

/-! ## C41 -/

/-- The full statement of C41: in every history the ids used are strictly increasing in call order
(so pairwise distinct). -/
def C41_statement : Prop := ∀ s, Reachable s → (s.calls.map (·.id)).Pairwise (· < ·)

/-- Any number of calls can be made. -/
private theorem many_calls (n : Nat) : ∃ s, Reachable s ∧ s.issued.length = n := by
  induction n with
  | zero => exact ⟨init, ⟨[], rfl⟩, rfl⟩
  | succ n ih =>
    obtain ⟨s, hr, hn⟩ := ih
    refine ⟨_, hr.step (l := ask 0) rfl, ?_⟩
    unfold State.request
    simp [State.issue, hn]

/-- C41 is false in the long run: `req_id` is a double, so after `2^53` calls `req_id += 1` has no
effect and ids repeat. -/
theorem C41_violated : ¬ C41_statement := by
  intro h
  obtain ⟨s, hr, hn⟩ := many_calls (2 ^ 53 + 1)
  have hp := h s hr
  have hi := inv_id hr
  rw [hi.calls, hi.issued, hn, List.range_succ, show (2 : Nat) ^ 53 = (2 ^ 53 - 1) + 1 from rfl,
    List.range_succ, List.map_append, List.map_append, List.append_assoc] at hp
  have := (List.pairwise_append.1 hp).2.1
  simp at this

/-- C41 up to `2^53` calls (9·10^15): ids are strictly increasing in call order, and they are the
ids of the messages of the history's calls. Missing: histories with more calls. -/
theorem C41_partial {ls : List Label} {s : State} (h : run init ls = some s)
    (hn : (callsOf ls).length ≤ 2 ^ 53) :
    s.calls.map (fun m => (m.ns, m.method, m.args)) = callsOf ls ∧
    s.calls.map (·.id) = (List.range (callsOf ls).length).map (· + 1) ∧
    (s.calls.map (·.id)).Pairwise (· < ·) := by
  have hr : Reachable s := ⟨ls, h⟩
  have hc := (run_history h).1
  simp only [init, List.map_nil, List.nil_append] at hc
  have hi := inv_id hr
  have hlen : s.issued.length = (callsOf ls).length := by
    rw [← hi.calls, ← hc]; simp
  refine ⟨hc, ?_, ?_⟩
  · rw [hi.calls, hi.issued, hlen]
    refine List.map_congr_left ?_
    intro a ha
    have := List.mem_range.1 ha
    omega
  · rw [hi.calls]; exact issued_nodup hr (by rw [hlen]; exact hn)

example : ∃ s, run init [ask 1, listen, ask 2] = some s ∧ s.calls.map (·.id) = [1, 2, 3] :=
  ⟨_, rfl, rfl⟩

/-! ## C42 -/

/-- What a request call does: a fresh subscription comparing with the new id. -/
private theorem request_sub {s₁ s₂ : State} {ns m : Str} {a : List Json} (hr : Reachable s₁)
    (h : step s₁ (.request ns m a) = some s₂) :
    Reachable s₂ ∧ s₁.nsub < s₂.nsub ∧ s₂.received = s₁.received ∧
    (s₂.subs s₁.nsub).from_ = s₁.doneCount ∧ (s₂.subs s₁.nsub).kind = .request ∧
    (s₂.subs s₁.nsub).id = s₂.reqId ∧ (s₂.subs s₁.nsub).got = [] := by
  refine ⟨hr.step h, ?_⟩
  simp only [step, Option.some.injEq] at h
  subst h
  unfold State.request
  simp [State.issue]
  simp [State.addSub, State.doneCount]

private theorem flight {s : State} (hr : Reachable s) :
    ∀ id d c se, s.phase = .delivering id d c se → s.received.getLast? = some (id, d) :=
  fun _ _ _ _ hp => ((inv_live hr).cursor _ _ _ _ hp).2.2.1

private theorem prefix_head {α : Type} {l m : List α} {d : α} (hd : d ∈ l.take 1) (r : List α)
    (h : m = l ++ r) : m.head? = some d := by
  cases l with
  | nil => simp at hd
  | cons x l => simp at hd; simp [h, hd]

/-- **C42.** A request is made (in any reachable state `s₁`, also from inside a callback), using id
`s₂.reqId`; then anything happens (`ls`), throwing callbacks included. Its promise has resolved at
most once, and if so with the data of the first message bearing that id received since the call
(counting the message whose delivery the call interrupted). Once no delivery is in progress it has
resolved exactly if there was such a message. Ids are assumed distinct: at most `2^53` calls, see
C41. -/
theorem C42_own_response {s₁ s₂ s' : State} {ns m : Str} {a : List Json} {ls : List Label}
    (hr : Reachable s₁) (hreq : step s₁ (.request ns m a) = some s₂) (hrun : run s₂ ls = some s')
    (hn : s'.calls.length ≤ 2 ^ 53) :
    (s'.subs s₁.nsub).got.length ≤ 1 ∧
    (∀ d ∈ (s'.subs s₁.nsub).got,
      (dataOf s₂.reqId (inFlight s₁ ++ messagesOf ls)).head? = some d) ∧
    (s'.phase = .idle →
      (s'.subs s₁.nsub).got = (dataOf s₂.reqId (inFlight s₁ ++ messagesOf ls)).take 1) := by
  obtain ⟨h1, h2, h3, h4, h5, h6, _⟩ := request_sub hr hreq
  have hr' := run_reachable h1 hrun
  obtain ⟨a1, a2, a3, a4⟩ := run_sub hrun h2
  have hlen : s'.issued.length ≤ 2 ^ 53 := by rw [← (inv_id hr').calls]; simpa using hn
  have hg := inv_req hr' (issued_nodup hr' hlen) _ a1 (a2.trans h5)
  obtain ⟨seen, rest, e1, e2, e3⟩ := delivered h2 hrun hg h3 h4 (flight hr)
  rw [h5, h6] at e2
  simp only at e2
  have hhead : ∀ d ∈ (s'.subs s₁.nsub).got,
      (dataOf s₂.reqId (inFlight s₁ ++ messagesOf ls)).head? = some d := by
    intro d hd
    rw [e2] at hd
    exact prefix_head hd (dataOf s₂.reqId rest) (by rw [e1, dataOf_append])
  refine ⟨by rw [e2]; simp [List.length_take]; omega, hhead, ?_⟩
  intro hp
  cases hu : (s'.subs s₁.nsub).until_ with
  | none => rw [e2, e1, e3 hp hu, List.append_nil]
  | some n =>
    have hne := (inv_live hr').kept _ a1 (a2.trans h5) (by rw [hu]; simp)
    have hl : (s'.subs s₁.nsub).got.length ≤ 1 := by rw [e2]; simp [List.length_take]; omega
    cases hgot : (s'.subs s₁.nsub).got with
    | nil => exact absurd hgot hne
    | cons d t =>
      rw [hgot] at hl hhead
      have : t = [] := by
        cases t with
        | nil => rfl
        | cons _ _ => simp at hl
      subst this
      have := hhead d (by simp)
      rw [List.take_one, this]; rfl

/-- Two requests answered out of order, then a second message with the first id: each promise has
its own data. -/
example : ∃ s₁ s₂ s', run init [ask 1] = some s₁ ∧ step s₁ (ask 2) = some s₂ ∧
    run s₂ [.opened 0, .message 0 (.method 2 .null), .visit, .visit, .visit,
      .message 0 (.stream 2 (.bool false)), .visit, .visit,
      .message 0 (.method 1 (.bool true)), .visit, .visit] = some s' ∧
    s'.phase = .idle ∧ s'.calls.length = 2 ∧ s₂.reqId = 2 ∧ s₁.nsub = 1 ∧
    (s'.subs 1).got = [.null] ∧ (s'.subs 0).got = [.bool true] :=
  ⟨_, _, _, rfl, rfl, rfl, rfl, rfl, rfl, rfl, rfl, rfl⟩

/-- C42 without the bound on the number of calls: the promise resolves at most once, with the data
of some message bearing its id (`sub` of the messages since the call). -/
theorem C42_any_history {s₁ s₂ s' : State} {ns m : Str} {a : List Json} {ls : List Label}
    (hr : Reachable s₁) (hreq : step s₁ (.request ns m a) = some s₂) (hrun : run s₂ ls = some s') :
    (s'.subs s₁.nsub).got.length ≤ 1 ∧
    ∀ d ∈ (s'.subs s₁.nsub).got, d ∈ dataOf s₂.reqId (inFlight s₁ ++ messagesOf ls) := by
  obtain ⟨h1, h2, h3, h4, h5, h6, _⟩ := request_sub hr hreq
  have hr' := run_reachable h1 hrun
  obtain ⟨a1, a2, a3, a4⟩ := run_sub hrun h2
  have hg := (inv_some hr').got _ a1
  refine ⟨hg.2 (a2.trans h5), fun d hd => ?_⟩
  have := hg.1.subset hd
  unfold due at this
  rw [a3, h6, a4, h4] at this
  have hsub : (window s'.received s₁.doneCount (visible s' s₁.nsub)).Sublist
      (inFlight s₁ ++ messagesOf ls) := by
    rw [← received_since hrun h3 (flight hr)]
    unfold window
    exact List.Sublist.drop (List.take_sublist _ _) _
  exact ((hsub.filter _).map _).subset this

/-! ## C43 -/

/-- The full statement of C43: when a message answering a live request comes in and its delivery is
over, the promise has settled. -/
def C43_statement : Prop :=
  ∀ (s s₁ s' : State) k j msg ls, Reachable s → k < s.nsub → (s.subs k).kind = .request →
    step s (.message j msg) = some s₁ → answers msg = some (s.subs k).id →
    s.calls.length ≤ 2 ^ 53 → run s₁ ls = some s' → s'.phase = .idle → s'.calls = s.calls →
    Settled s' k

/-- C43 is false: error responses are ignored, the promise of a failed call never settles. -/
theorem C43_violated : ¬ C43_statement := by
  intro h
  obtain ⟨s, h1, h2, h3, h4, h5, h6, h7, h8⟩ : ∃ s, run init [ask 1, .opened 0] = some s ∧
      0 < s.nsub ∧ (s.subs 0).kind = .request ∧
      step s (.message 0 (.error (some 1))) = some s ∧ (s.subs 0).id = 1 ∧ s.calls.length = 1 ∧
      s.phase = .idle ∧ (s.subs 0).got = [] := ⟨_, rfl, by decide, rfl, rfl, rfl, rfl, rfl, rfl⟩
  exact h s s s 0 0 _ [] ⟨_, h1⟩ h2 h3 h4 (by rw [h5]; rfl) (by rw [h6]; decide) rfl h7 rfl h8

/-- Worse than C43 being false: an error response has no effect on the client at all. -/
theorem C43_error_ignored (s : State) (j : Nat) (id : Option Nat) (s' : State)
    (h : step s (.message j (.error id)) = some s') : s' = s := by
  simp only [step] at h
  split at h <;> simp_all

/-- The part of C43 that holds: when a method (or stream) response bearing the id of a request is
received, then the promise has settled as soon as no delivery is in progress, whatever the callbacks
do. Missing: error responses. -/
theorem C43_partial {s s₁ s' : State} {k j : Nat} {data : Json} {msg : Incoming} {ls : List Label}
    (hr : Reachable s) (hk : k < s.nsub) (hkr : (s.subs k).kind = .request)
    (hst : step s (.message j msg) = some s₁)
    (hm : msg = .method (s.subs k).id data ∨ msg = .stream (s.subs k).id data)
    (hrun : run s₁ ls = some s') (hp : s'.phase = .idle) (hn : s'.calls.length ≤ 2 ^ 53) :
    Settled s' k := by
  have hr1 := hr.step hst
  have hr' := run_reachable hr1 hrun
  obtain ⟨b1, b2, b3, b4⟩ := step_sub hst hk
  obtain ⟨a1, a2, a3, a4⟩ := run_sub hrun b1
  have hlen : s'.issued.length ≤ 2 ^ 53 := by rw [← (inv_id hr').calls]; simpa using hn
  intro hnil
  have hg := inv_req hr' (issued_nodup hr' hlen) _ a1 ((a2.trans b2).trans hkr)
  have hu : (s'.subs k).until_ = none := by
    cases hu : (s'.subs k).until_ with
    | none => rfl
    | some n =>
      exact absurd hnil ((inv_live hr').kept _ a1 ((a2.trans b2).trans hkr) (by rw [hu]; simp))
  have hb := ((inv_some hr).bound k hk).1
  have hrec : s'.received = s.received ++ ((s.subs k).id, data) :: messagesOf ls := by
    rw [(run_history hrun).2, (step_history hst).2]
    rcases hm with rfl | rfl <;> simp [messagesOf]
  have hdl : s.doneCount ≤ s.received.length := Nat.le_trans (doneCount_le s 0) (seenCount_le s 0)
  unfold gotRight due at hg
  rw [(a2.trans b2).trans hkr, hnil, a3, b3, a4, b4] at hg
  simp only [visible, hu, Option.getD_none, State.seenCount, hp] at hg
  unfold window at hg
  rw [List.take_length, hrec, List.drop_append_of_le_length (Nat.le_trans hb hdl),
    dataOf_append] at hg
  have : dataOf (s.subs k).id (((s.subs k).id, data) :: messagesOf ls) ≠ [] := by
    simp [dataOf]
  cases h1 : dataOf (s.subs k).id (s.received.drop (s.subs k).from_) ++
    dataOf (s.subs k).id (((s.subs k).id, data) :: messagesOf ls) with
  | nil => exact this (List.append_eq_nil_iff.1 h1).2
  | cons x l => rw [h1] at hg; simp at hg

/-- The delivery that C43 waits for is over after finitely many visits. -/
theorem C43_delivery_ends {s : State} (hr : Reachable s) :
    ∃ n s', run s (List.replicate n .visit) = some s' ∧ s'.phase = .idle := by
  have key : ∀ (n : Nat) (s : State), Reachable s →
      (∀ id d c se, s.phase = .delivering id d c se → (s.live.filter (c ≤ ·)).length ≤ n) →
      ∃ n s', run s (List.replicate n .visit) = some s' ∧ s'.phase = .idle := by
    intro n
    induction n with
    | zero =>
      intro s hr hn
      cases hp : s.phase with
      | idle => exact ⟨0, s, rfl, hp⟩
      | delivering id d c se =>
        have h0 := List.eq_nil_of_length_eq_zero (Nat.le_zero.1 (hn _ _ _ _ hp))
        have : nextSub s.live c = none := by
          rw [nextSub, List.find?_eq_none]
          intro x hx hc
          have : x ∈ s.live.filter (c ≤ ·) := List.mem_filter.2 ⟨hx, hc⟩
          rw [h0] at this; cases this
        exact ⟨1, { s with phase := .idle }.finish se,
          by simp only [List.replicate, run, step, hp, this], by simp⟩
    | succ n ih =>
      intro s hr hn
      cases hp : s.phase with
      | idle => exact ⟨0, s, rfl, hp⟩
      | delivering id d c se =>
        cases hnx : nextSub s.live c with
        | none =>
          exact ⟨1, { s with phase := .idle }.finish se,
            by simp only [List.replicate, run, step, hp, hnx], by simp⟩
        | some k =>
          have hst : step s .visit = some { (s.call k id d).1 with
              phase := .delivering id d (k + 1)
                (if (s.call k id d).2 then se ++ [k] else se) } := by
            simp only [step, hp, hnx]
          obtain ⟨n1, n2, n3⟩ := nextSub_some (inv_live hr).sorted hnx
          obtain ⟨n', s', h1, h2⟩ := ih _ (hr.step hst) (by
            intro id' d' c' se' hp'
            simp only [Phase.delivering.injEq] at hp'
            obtain ⟨_, _, rfl, _⟩ := hp'
            simp only [State.call_live]
            have h1 := hn _ _ _ _ hp
            have : (s.live.filter (k + 1 ≤ ·)).length < (s.live.filter (c ≤ ·)).length := by
              have hs : s.live.filter (k + 1 ≤ ·) =
                  (s.live.filter (c ≤ ·)).filter (k + 1 ≤ ·) := by
                rw [List.filter_filter]
                refine List.filter_congr ?_
                intro x hx
                by_cases hx1 : k + 1 ≤ x
                · have : c ≤ x := by omega
                  simp [hx1, this]
                · simp [hx1]
              rw [hs]
              refine List.length_filter_lt_length_iff_exists.2 ⟨k, ?_, by simp⟩
              exact List.mem_filter.2 ⟨n1, by simpa using n2⟩
            omega)
          exact ⟨n' + 1, s', by rw [List.replicate_succ, run, hst]; exact h1, h2⟩
  exact key (s.live.length) s hr (fun _ _ _ _ _ => List.length_filter_le _ _)

example : ∃ s, run init [ask 1, .opened 0, .message 0 (.method 1 .null), .visit, .visit] = some s ∧
    s.phase = .idle ∧ Settled s 0 := ⟨_, rfl, rfl, by unfold Settled; simp [State.call]; decide⟩

/-! ## C44 -/

private theorem attach_sub {s₁ s₂ : State} {id : Nat} (hr : Reachable s₁)
    (h : step s₁ (.attach id) = some s₂) :
    Reachable s₂ ∧ s₁.nsub < s₂.nsub ∧ s₂.received = s₁.received ∧
    (s₂.subs s₁.nsub).from_ = s₁.doneCount ∧ (s₂.subs s₁.nsub).kind = .callback ∧
    (s₂.subs s₁.nsub).id = id ∧ (s₂.subs s₁.nsub).until_ = none := by
  refine ⟨hr.step h, ?_⟩
  simp only [step] at h
  split at h
  · simp only [Option.some.injEq] at h
    subst h
    simp [State.addSub]
  · cases h

/-- A subscription that is never detached during `ls` is still there. -/
private theorem not_detached {s₁ s₂ s' : State} {id : Nat} {ls : List Label} (hr : Reachable s₁)
    (h : step s₁ (.attach id) = some s₂) (hrun : run s₂ ls = some s')
    (hd : Label.detach s₁.nsub ∉ ls) : (s'.subs s₁.nsub).until_ = none := by
  obtain ⟨h1, h2, h3, h4, h5, h6, h7⟩ := attach_sub hr h
  obtain ⟨l0, h0⟩ := hr
  obtain ⟨a1, a2, a3, a4⟩ := run_sub hrun h2
  have hall : run init ((l0 ++ [.attach id]) ++ ls) = some s' := by
    rw [run_append, run_append, h0]; simp [run, h, hrun]
  have hone : run init (l0 ++ [.attach id]) = some s₂ := by
    rw [run_append, h0]; simp [run, h]
  have hpre := ((inv_detached hone) _ h2 h5).1.1 h7
  refine ((inv_detached hall) _ a1 (a2.trans h5)).1.2 ?_
  simp only [List.mem_append, not_or]
  simp only [List.mem_append, not_or] at hpre
  exact ⟨hpre, hd⟩

/-- The full statement of C44: a callback attached to the store of `id` in any reachable state has,
when no delivery is in progress, been given exactly the data of the messages bearing `id` received
while it was subscribed. -/
def C44_statement : Prop :=
  ∀ (s₁ s₂ s' : State) id ls, Reachable s₁ → step s₁ (.attach id) = some s₂ →
    run s₂ ls = some s' → Label.detach s₁.nsub ∉ ls → s'.phase = .idle →
    (s'.subs s₁.nsub).got = dataOf id (inFlight s₁ ++ messagesOf ls)

/-- C44 is false when callbacks throw: `Set.forEach` stops, so callbacks attached later miss the
message. -/
theorem C44_violated : ¬ C44_statement := by
  intro h
  obtain ⟨s₁, s₂, s', h1, h2, h3, h4, h5, h6⟩ : ∃ s₁ s₂ s',
      run init [listen, .opened 0, .attach 1] = some s₁ ∧ step s₁ (.attach 1) = some s₂ ∧
      run s₂ [.message 0 (.stream 1 .null), .visitThrow] = some s' ∧ s'.phase = .idle ∧
      (s'.subs s₁.nsub).got = [] ∧ s₁.phase = .idle :=
    ⟨_, _, _, rfl, rfl, rfl, rfl, rfl, rfl⟩
  have := h s₁ s₂ s' 1 _ ⟨_, h1⟩ h2 h3 (by simp) h4
  rw [h5] at this
  simp [inFlight, h6, messagesOf, dataOf] at this

/-- C44 as long as no callback has thrown: exactly the data of the messages bearing the store's id,
once each and in order; and what the callback has been given is a prefix of that at any other time.
Missing: histories where a callback throws. -/
theorem C44_partial {s₁ s₂ s' : State} {id : Nat} {ls : List Label} (hr : Reachable s₁)
    (hat : step s₁ (.attach id) = some s₂) (hrun : run s₂ ls = some s') (ht : s'.threw = false) :
    (s'.subs s₁.nsub).got <+: dataOf id (inFlight s₁ ++ messagesOf ls) ∧
    (s'.phase = .idle → Label.detach s₁.nsub ∉ ls →
      (s'.subs s₁.nsub).got = dataOf id (inFlight s₁ ++ messagesOf ls)) := by
  obtain ⟨h1, h2, h3, h4, h5, h6, h7⟩ := attach_sub hr hat
  have hr' := run_reachable h1 hrun
  obtain ⟨a1, a2, a3, a4⟩ := run_sub hrun h2
  obtain ⟨seen, rest, e1, e2, e3⟩ :=
    delivered h2 hrun ((inv_got hr' ht).got _ a1) h3 h4 (flight hr)
  rw [h5, h6] at e2
  simp only at e2
  refine ⟨?_, ?_⟩
  · rw [e2, e1, dataOf_append]; exact List.prefix_append _ _
  · intro hp hd
    rw [e2, e1, e3 hp (not_detached hr hat hrun hd), List.append_nil]

example : ∃ s₁ s₂ s', run init [listen, .opened 0, .message 0 (.stream 1 .null), .visit] = some s₁ ∧
    step s₁ (.attach 1) = some s₂ ∧
    run s₂ [.message 0 (.stream 1 (.bool true)), .visit, .visit, .message 0 (.stream 2 .null), .visit,
      .visit, .message 0 (.stream 1 (.bool false)), .visit, .visit] = some s' ∧
    s'.threw = false ∧ s'.phase = .idle ∧ (s'.subs s₁.nsub).got = [.bool true, .bool false] :=
  ⟨_, _, _, rfl, rfl, rfl, rfl, rfl, rfl⟩

/-- C44, the part that holds in every history, throwing callbacks included: what a callback has been
given is a sublist (in order, nothing twice, nothing else) of the data of the messages bearing the
store's id. -/
theorem C44_nothing_else {s₁ s₂ s' : State} {id : Nat} {ls : List Label} (hr : Reachable s₁)
    (hat : step s₁ (.attach id) = some s₂) (hrun : run s₂ ls = some s') :
    (s'.subs s₁.nsub).got.Sublist (dataOf id (inFlight s₁ ++ messagesOf ls)) := by
  obtain ⟨h1, h2, h3, h4, h5, h6, h7⟩ := attach_sub hr hat
  have hr' := run_reachable h1 hrun
  obtain ⟨a1, a2, a3, a4⟩ := run_sub hrun h2
  have hg := ((inv_some hr').got _ a1).1
  unfold due at hg
  rw [a3, h6, a4, h4] at hg
  refine hg.trans ?_
  unfold dataOf
  refine ((?_ : List.Sublist _ _).filter _).map _
  rw [← received_since hrun h3 (flight hr)]
  unfold window
  exact List.Sublist.drop (List.take_sublist _ _) _

/-- C44, the end of a subscription: after the unsubscribe function has been called the callback is
never invoked again. -/
theorem C44_after_detach {s₁ s₂ s' : State} {k : Nat} {ls : List Label} (hr : Reachable s₁)
    (hd : step s₁ (.detach k) = some s₂) (hrun : run s₂ ls = some s') :
    (s'.subs k).got = (s₁.subs k).got := by
  have hk : k < s₁.nsub := by
    simp only [step] at hd
    split at hd
    · rename_i h; exact h.1
    · cases hd
  have h2 : (s₂.subs k).got = (s₁.subs k).got ∧ (s₂.subs k).until_ ≠ none := by
    simp only [step] at hd
    split at hd
    · simp only [Option.some.injEq] at hd
      subst hd
      rw [State.unsubscribe_subs]; simp
    · cases hd
  rw [run_frozen (hr.step hd) hrun (step_sub hd hk).1 h2.2, h2.1]

example : ∃ s₁ s₂ s', run init [listen, .opened 0, .attach 1, .attach 1,
      .message 0 (.stream 1 .null), .visit] = some s₁ ∧
    step s₁ (.detach 1) = some s₂ ∧
    run s₂ [.visit, .message 0 (.stream 1 .null), .visit, .visit] = some s' ∧
    (s'.subs 1).got = [] ∧ (s'.subs 0).got = [.null, .null] :=
  ⟨_, _, _, rfl, rfl, rfl, rfl, rfl⟩

/-! ## C45 -/

/-- **C45.** In every history, throwing callbacks included, whenever no delivery is in progress, the
elements of the subscription set are exactly the unsettled requests and the callbacks that have not
been detached; none occurs twice. -/
theorem C45_live {ls : List Label} {s : State} (h : run init ls = some s) (hp : s.phase = .idle) :
    s.live.Nodup ∧
    ∀ k, k ∈ s.live ↔ k < s.nsub ∧
      (((s.subs k).kind = .request ∧ ¬ Settled s k) ∨
        ((s.subs k).kind = .callback ∧ Label.detach k ∉ ls)) := by
  have hr : Reachable s := ⟨ls, h⟩
  have hl := inv_live hr
  refine ⟨hl.sorted.imp (fun h => Nat.ne_of_lt h), ?_⟩
  intro k
  rw [hl.mem k]
  constructor
  · rintro ⟨hk, hu⟩
    refine ⟨hk, ?_⟩
    cases hkd : (s.subs k).kind with
    | request =>
      exact .inl ⟨rfl, fun hs => hs (hl.idle hp k ((hl.mem k).2 ⟨hk, hu⟩) hkd)⟩
    | callback => exact .inr ⟨rfl, (inv_detached h k hk hkd).1.1 hu⟩
  · rintro ⟨hk, h1⟩
    refine ⟨hk, ?_⟩
    rcases h1 with ⟨hkd, hs⟩ | ⟨hkd, hd⟩
    · cases hu : (s.subs k).until_ with
      | none => rfl
      | some n => exact absurd (hl.kept k hk hkd (by rw [hu]; simp)) hs
    · exact (inv_detached h k hk hkd).1.2 hd

/-- Two requests, one settled; two callbacks, one detached. -/
example : ∃ s, run init [ask 1, listen, .attach 2, ask 2, .attach 2, .opened 0,
      .message 0 (.method 1 .null), .visit, .visit, .visit, .visit, .visit, .detach 1] = some s ∧
    s.phase = .idle ∧ s.nsub = 4 ∧ s.live = [2, 3] := ⟨_, rfl, rfl, rfl, rfl⟩

/-! ## C46 -/

/-- **C46.** In a history without close events, the messages transmitted are the first calls of the
history, in order and once each; the others are waiting for a connection; and whenever a socket is
open all calls have been transmitted, in order. -/
theorem C46_in_order {ls : List Label} {s : State} (h : run init ls = some s)
    (hn : ∀ k f, Label.closed k f ∉ ls) :
    s.calls.map (fun m => (m.ns, m.method, m.args)) = callsOf ls ∧
    s.sent.map (·.2) <+: s.calls ∧
    (∀ k, (s.socks k).st = .opened → s.sent.map (·.2) = s.calls) := by
  have hr : Reachable s := ⟨ls, h⟩
  have ho := inv_order h (by
    intro l hl
    cases l with
    | closed k f => exact absurd hl (hn k f)
    | _ => rfl)
  have hc := (run_history h).1
  simp only [init, List.map_nil, List.nil_append] at hc
  refine ⟨hc, ?_, ?_⟩
  · rw [ho.order]; exact List.prefix_append _ _
  · intro k hk
    have := inv_openDone hr k hk
    rw [ho.order]
    simp [State.pendingMsgs, this]

/-- Calls made before and after the socket opened. -/
example : ∃ s, run init [ask 1, listen, .opened 0, ask 3] = some s ∧
    s.sent.map (·.1) = [0, 0, 0] ∧ s.sent.map (·.2.id) = [1, 2, 3] ∧ (s.socks 0).st = .opened :=
  ⟨_, rfl, rfl, rfl, rfl⟩

/-- A call made while the other side closes the socket goes to a new one. -/
example : ∃ s, run init [ask 1, .opened 0, .closing 0, ask 2, .opened 1] = some s ∧
    s.sent.map (·.1) = [0, 1] ∧ s.sent.map (·.2.id) = [1, 2] ∧ (s.socks 1).st = .opened :=
  ⟨_, rfl, rfl, rfl, rfl⟩

/-! ## C47 -/

/-- The full statement of C47, in its weakest form: a message handed to the client can still be
transmitted (there is a continuation of the history in which it is). -/
def C47_statement : Prop :=
  ∀ s m, Reachable s → m ∈ s.calls → ∃ ls s', run s ls = some s' ∧ m ∈ s'.sent.map (·.2)

private theorem count_first {s : State} (hr : Reachable s) :
    (s.issued.filter (· = 1)).length ≤ 1 := by
  rw [(inv_id hr).issued]
  cases s.issued.length with
  | zero => simp
  | succ n =>
    rw [List.range_succ_eq_map, List.map_cons, List.filter_cons]
    have : (List.map (fun i => min (i + 1) (2 ^ 53)) (List.map Nat.succ (List.range n))).filter
        (· = 1) = [] := by
      rw [List.filter_eq_nil_iff]
      intro a ha
      simp only [List.mem_map, List.mem_range] at ha
      obtain ⟨b, ⟨c, _, rfl⟩, rfl⟩ := ha
      simp; omega
    rw [this]
    split <;> simp

/-- A message with id 1 that has been dropped will never be transmitted. -/
theorem C47_dropped_is_lost {s s' : State} {m : Msg} {ls : List Label} (hr : Reachable s)
    (hm : m ∈ s.dropped) (hid : m.id = 1) (hrun : run s ls = some s') :
    m ∉ s'.sent.map (·.2) := by
  intro hs
  have hr' := run_reachable hr hrun
  have hd : m ∈ s'.dropped := (run_dropped hrun).subset hm
  have hacc := inv_accounted hr'
  unfold Accounted at hacc
  have hcnt := count_first hr'
  rw [← (inv_id hr').calls, List.filter_map, List.length_map] at hcnt
  have h1 := (hacc.filter (fun m => decide (m.id = 1))).length_eq
  rw [List.filter_append, List.filter_append, List.length_append, List.length_append] at h1
  have hpos : ∀ {l : List Msg}, m ∈ l → 0 < (l.filter (fun m => decide (m.id = 1))).length :=
    fun hl => List.length_pos_of_mem (List.mem_filter.2 ⟨hl, by simpa using hid⟩)
  have p1 := hpos hs
  have p2 := hpos hd
  have : (s'.calls.filter (fun m => decide (m.id = 1))).length ≤ 1 := by
    simpa [Function.comp_def] using hcnt
  omega

/-- C47 is false: when the first connection attempt fails, the promise `open_and_send` waits for is
rejected and the message is gone, although the client reconnects. -/
theorem C47_violated : ¬ C47_statement := by
  intro h
  obtain ⟨s, h1, m, h2, h3, h4⟩ : ∃ s, run init [ask 1, .closed 0 true, .timer, .opened 1] = some s ∧
      ∃ m, m ∈ s.calls ∧ m ∈ s.dropped ∧ m.id = 1 := ⟨_, rfl, _, .head _, .head _, rfl⟩
  obtain ⟨ls, s', h5, h6⟩ := h s m ⟨_, h1⟩ h2
  exact C47_dropped_is_lost ⟨_, h1⟩ h3 h4 h5 h6

/-- C47 is false even if no connection attempt ever fails: dropping the last subscription while the
socket is connecting closes the socket, and the message that was waiting for it is never
transmitted. After this history the message waits for a closing socket. -/
theorem C47_abandoned : ∃ s, run init [listen, .attach 1, .detach 0] = some s ∧
    s.sent = [] ∧ s.socket = none ∧ (s.socks 0).st = .closing ∧
    (s.socks 0).waiting.map (·.id) = [1] := ⟨_, rfl, rfl, rfl, rfl, rfl⟩

/-- C47 is false even if every connection attempt would succeed: when the other side begins to close
the socket in use, a call makes a new socket; the close event of the old socket then closes the new
one, and the message that was waiting for it is dropped, although the client reconnects. -/
theorem C47_late_close : ∃ s, run init [ask 1, .opened 0, .closing 0, ask 2, .closed 0 false] = some s ∧
    s.socket = none ∧ (s.socks 1).st = .closing ∧ (s.socks 1).waiting.map (·.id) = [2] ∧
    ∃ s', run s [.closed 1 true, .timer, .opened 2] = some s' ∧ s'.sent.map (·.2.id) = [1] ∧
      s'.dropped.map (·.id) = [2] :=
  ⟨_, rfl, rfl, rfl, rfl, _, rfl, rfl, rfl⟩

/-- The part of C47 that holds, in every history: a call is transmitted at most once and nothing
else is transmitted; what is not transmitted was dropped by a failed connection attempt or waits for
a socket that has not opened yet; without failed connections nothing is dropped.
Missing: delivery of messages whose connection attempt fails or is abandoned. -/
theorem C47_partial {ls : List Label} {s : State} (h : run init ls = some s) :
    ∃ waiting, s.calls.Perm (s.sent.map (·.2) ++ s.dropped ++ waiting) ∧
      (∀ m ∈ waiting, ∃ k, m ∈ (s.socks k).waiting ∧ (s.socks k).wasOpen = false ∧
        ((s.socks k).st = .connecting ∨ (s.socks k).st = .closing)) ∧
      ((∀ k, Label.closed k true ∉ ls) → s.dropped = []) := by
  have hr : Reachable s := ⟨ls, h⟩
  refine ⟨waitingAll s.socks s.nsock, inv_accounted hr, ?_, ?_⟩
  · intro m hm
    simp only [waitingAll, List.mem_flatMap] at hm
    obtain ⟨k, _, hk⟩ := hm
    exact ⟨k, hk, (inv_conn hr).wait k (List.ne_nil_of_mem hk)⟩
  · exact nothing_dropped h

/-- The rest of the way: when the connecting socket opens, everything that waits for it is
transmitted, in order. -/
theorem C47_opening_sends {s s' : State} {k : Nat} (hr : Reachable s)
    (h : step s (.opened k) = some s') :
    s'.sent = s.sent ++ (s.socks k).waiting.map (fun m => (k, m)) := by
  cases step_Step h with
  | opened _ hp hk =>
    rw [foldl_openAndSend_ready (onOpen_ready (inv_conn hr) hk)]
    rfl

/-- A message waiting while the first connection is lost and the second is being made. -/
example : ∃ s, run init [ask 1, .opened 0, .closed 0 false, ask 2] = some s ∧
    s.sent.map (·.2.id) = [1] ∧ s.dropped = [] ∧ (s.socks 1).waiting.map (·.id) = [2] ∧
    ∃ s', step s (.opened 1) = some s' ∧ s'.sent.map (·.2.id) = [1, 2] :=
  ⟨_, rfl, rfl, rfl, rfl, _, rfl, rfl⟩

/-! ## C48 -/

private theorem reopenDelay_eq (n : Nat) : reopenDelay n = backoff n := by
  match n with
  | 0 => rfl
  | 1 => rfl
  | 2 => rfl
  | n + 3 => simp [reopenDelay, reopenTimeouts, backoff]

private theorem backoff_mono {a b : Nat} (h : a ≤ b) : backoff a ≤ backoff b := by
  match a, b with
  | 0, 0 | 0, 1 | 0, 2 | 0, _ + 3 | 1, 1 | 1, 2 | 1, _ + 3 | 2, 2 | 2, _ + 3 => simp [backoff]
  | _ + 3, _ + 3 => simp [backoff]
  | 1, 0 | 2, 0 | 2, 1 | _ + 3, 0 | _ + 3, 1 | _ + 3, 2 => omega

/-- **C48.** In every history each reconnect wait takes the time the table prescribes for the number
of waits since the last open. -/
theorem C48_backoff {s : State} (hr : Reachable s) (pre post : List Tick) (d : Nat)
    (h : s.ticks = pre ++ .wait d :: post) : d = backoff (waitsSinceOpen pre) := by
  rw [(inv_tick hr).waits pre d post h, reopenDelay_eq]

/-- C48: the delay does not decrease between opens. -/
theorem C48_monotone {s : State} (hr : Reachable s) (pre mid post : List Tick) (d d' : Nat)
    (h : s.ticks = pre ++ .wait d :: mid ++ .wait d' :: post) (hm : Tick.opened ∉ mid) : d ≤ d' := by
  rw [C48_backoff hr pre (mid ++ .wait d' :: post) d (by simpa using h),
    C48_backoff hr (pre ++ .wait d :: mid) post d' h]
  refine backoff_mono ?_
  have : ∀ (mid : List Tick) (l : List Tick), Tick.opened ∉ mid →
      waitsSinceOpen l ≤ waitsSinceOpen (l ++ mid) := by
    intro mid
    induction mid with
    | nil => intro l _; simp
    | cons t mid ih =>
      intro l hm
      have h1 := ih (l ++ [t]) (fun h => hm (List.mem_cons_of_mem _ h))
      rw [waitsSinceOpen_snoc] at h1
      rw [show l ++ t :: mid = l ++ [t] ++ mid by simp]
      cases t with
      | opened => exact absurd (.head _) hm
      | wait d => simp only at h1; omega
  refine this (.wait d :: mid) pre ?_
  simp [hm]

/-- C48: a successful open resets the delay. -/
theorem C48_reset {s : State} (hr : Reachable s) (pre post : List Tick) (d : Nat)
    (h : s.ticks = pre ++ .opened :: .wait d :: post) : d = 100 := by
  have := C48_backoff hr (pre ++ [.opened]) post d (by simpa using h)
  rw [waitsSinceOpen_snoc] at this
  exact this

/-- C48: `ticks` records what the program does. An open event of a socket adds `opened`; a close event
that starts the reopen timer adds the delay of that timer; nothing else adds anything or starts the
timer. -/
theorem C48_recorded {s s' : State} {l : Label} (hr : Reachable s) (h : step s l = some s') :
    ((∃ k, l = .opened k) ∧ s'.ticks = s.ticks ++ [.opened] ∧ s'.timer = s.timer) ∨
    ((∃ k f d, l = .closed k f ∧ s'.timer = some d ∧ s'.ticks = s.ticks ++ [.wait d])) ∨
    ((∀ k, l ≠ .opened k) ∧ s'.ticks = s.ticks ∧ (s'.timer = none ∨ s'.timer = s.timer)) := by
  have hre : ∀ t : State, t.ticks = s.ticks →
      (∃ d, t.reopen.timer = some d ∧ t.reopen.ticks = s.ticks ++ [.wait d]) ∨
      (t.reopen.ticks = s.ticks ∧ t.reopen.timer = none) := by
    intro t ht
    unfold State.reopen
    simp only
    split
    · exact .inr ⟨by rw [State.close_ticks, ht], by unfold State.close; split <;> rfl⟩
    · exact .inl ⟨_, rfl, by simp [ht]⟩
  have hcl : ∀ t : State, t.close.timer = none := by
    intro t; unfold State.close; split <;> rfl
  have hun : ∀ (t : State) k, (t.unsubscribe k).timer = none ∨ (t.unsubscribe k).timer = t.timer := by
    intro t k
    unfold State.unsubscribe
    simp only
    split
    · exact .inl (hcl _)
    · exact .inr rfl
  have hfin : ∀ (l : List Nat) (t : State),
      (t.finish l).timer = none ∨ (t.finish l).timer = t.timer := by
    intro l
    induction l with
    | nil => intro t; exact .inr rfl
    | cons k l ih =>
      intro t
      rcases ih (t.unsubscribe k) with h | h
      · exact .inl h
      · rcases hun t k with h' | h'
        · exact .inl (h.trans h')
        · exact .inr (h.trans h')
  have hos : ∀ (t : State) m, (t.openAndSend m).timer = none ∨ (t.openAndSend m).timer = t.timer := by
    intro t m
    unfold State.openAndSend
    split
    · exact .inr rfl
    · left
      have : t.open_.timer = none := by unfold State.open_; split <;> rfl
      simp only
      split <;> exact this
  cases step_Step h with
  | request ns m a =>
    refine .inr (.inr ⟨by simp, ?_, ?_⟩)
    · unfold State.request; simp [State.issue]
    · exact hos _ _
  | subscribe ns m a =>
    refine .inr (.inr ⟨by simp, ?_, ?_⟩)
    · unfold State.subscribe; simp [State.issue]
    · exact hos _ _
  | attach => exact .inr (.inr ⟨by simp, by simp, .inr rfl⟩)
  | detach k => exact .inr (.inr ⟨by simp, by simp, hun _ _⟩)
  | opened k hp hk =>
    refine .inl ⟨⟨k, rfl⟩, ?_, ?_⟩
    · rw [State.foldl_openAndSend_ticks]; rfl
    · rw [foldl_openAndSend_ready (onOpen_ready (inv_conn hr) hk)]; rfl
  | failed k =>
    rcases hre (s.onError k) rfl with ⟨d, h1, h2⟩ | ⟨h1, h2⟩
    · exact .inr (.inl ⟨k, true, d, rfl, h1, h2⟩)
    · exact .inr (.inr ⟨by simp, h1, .inl h2⟩)
  | clean k =>
    rcases hre (s.goneClean k) rfl with ⟨d, h1, h2⟩ | ⟨h1, h2⟩
    · exact .inr (.inl ⟨k, false, d, rfl, h1, h2⟩)
    · exact .inr (.inr ⟨by simp, h1, .inl h2⟩)
  | closing => exact .inr (.inr ⟨by simp, rfl, .inr rfl⟩)
  | method => exact .inr (.inr ⟨by simp, rfl, .inr rfl⟩)
  | stream => exact .inr (.inr ⟨by simp, rfl, .inr rfl⟩)
  | error => exact .inr (.inr ⟨by simp, rfl, .inr rfl⟩)
  | garbage => exact .inr (.inr ⟨by simp, rfl, .inr rfl⟩)
  | visitEnd id d c se => exact .inr (.inr ⟨by simp, by simp, hfin se { s with phase := .idle }⟩)
  | visit id d c se k =>
    refine .inr (.inr ⟨by simp, by simp, .inr ?_⟩)
    show (s.call k id d).1.timer = s.timer
    simp
  | visitThrow id d c se k =>
    refine .inr (.inr ⟨by simp, by simp, ?_⟩)
    have := hfin se { (s.call k id d).1 with phase := .idle, threw := true }
    simpa using this
  | timer =>
    refine .inr (.inr ⟨by simp, by simp, .inl ?_⟩)
    unfold State.open_; split <;> rfl

/-- Five failures in a row, an open, a failure. -/
example : ∃ s, run init [ask 1, .closed 0 true, .timer, .closed 1 true, .timer, .closed 2 true, .timer,
      .closed 3 true, .timer, .closed 4 true, .timer, .opened 5, .closed 5 false] = some s ∧
    s.ticks = [.wait 100, .wait 200, .wait 1000, .wait 3000, .wait 3000, .opened, .wait 100] :=
  ⟨_, rfl, rfl⟩

end Verif.Props
