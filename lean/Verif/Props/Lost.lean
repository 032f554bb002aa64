import Verif.Spec.Lost
import Verif.System.Lost
import Verif.Props.System

/-!
# C67: calls and lost connections

Specification: `Verif/Spec/Lost.lean`, `Verif/Spec/System.lean`.
-/

namespace Verif.Props
open Verif Verif.System Verif.SystemSpec Verif.ServerSpec

variable {σ C : Type}

/-- The full property: a call survives the loss of its connection. When a request has been transmitted, its
connection is lost and the client has connected again, then the promise has resolved or can still do so. -/
def C67_statement : Prop :=
  ∀ (σ C : Type) (sv : Service σ C) (b : σ) (s₁ s₂ s : State σ C) (i k : Nat) (ns m : Str) (a : List Json)
    (ls : List Label), Reachable sv b s₁ → step sv s₁ (.client i (.request ns m a)) = some s₂ →
    run sv s₂ ls = some s → (k, lastMessage s₂ i ns m a) ∈ (s.clients i).sent → LostAt s i k →
    Reconnected s i k → LoopAlive s.server →
    ∃ ls' s', run sv s ls' = some s' ∧ (s'.clients i).calls.length ≤ 2 ^ 53 ∧ promise s₁ i s' ≠ []

private theorem sent_nsock {x : Client.State} (hr : Client.Reachable x) {k : Nat} {m : Client.Msg}
    (h : (k, m) ∈ x.sent) : k < x.nsock := by
  refine Nat.lt_of_not_le (fun hle => ?_)
  have h1 := sent_wasOpen hr _ _ h
  rw [((Client.inv_conn hr).fresh k hle)] at h1
  cases h1

/-- **C67, requests.** Once the connection a request was transmitted on is lost, its promise keeps what it has:
if it has not resolved by then, it never does, whatever happens (reconnecting included). -/
theorem C67_lost {sv : Service σ C} {b : σ} {s₁ s₂ s s' : State σ C} {i k : Nat} {ns m : Str} {a : List Json}
    {ls ls' : List Label} (hr : Reachable sv b s₁) (hcall : step sv s₁ (.client i (.request ns m a)) = some s₂)
    (hrun : run sv s₂ ls = some s) (hsent : (k, lastMessage s₂ i ns m a) ∈ (s.clients i).sent)
    (hlost : LostAt s i k) (hrest : AtRest s i) (hrun' : run sv s ls' = some s')
    (hn : (s'.clients i).calls.length ≤ 2 ^ 53) : promise s₁ i s' = promise s₁ i s := by
  have hns : (s.clients i).calls.length ≤ 2 ^ 53 := Nat.le_trans (run_clients hrun' i).length_le hn
  have hM := (request_made hr hcall (Nat.le_trans (run_clients hrun i).length_le hns)).later hrun
  have hM' := hM.later hrun'
  obtain ⟨_, h, _⟩ := lost_run hM.reach hsent hlost (sent_nsock (hM.reach.client i) hsent)
    (by intro d cu se e; rw [hrest] at e; cases e) hrun' hn
  have := h _ hM'.id hM'.lt
  rw [if_pos hM.lt] at this
  exact this

/-- **C67, streams.** Once the connection a stream call was transmitted on is lost, no callback of its store is
called any more: neither one attached before … -/
theorem C67_lost_stream {sv : Service σ C} {b : σ} {s₁ s₂ s₃ s₄ s s' : State σ C} {i k : Nat} {ns m : Str}
    {a : List Json} {ls ls' ls'' : List Label} (hr : Reachable sv b s₁)
    (hcall : step sv s₁ (.client i (.subscribe ns m a)) = some s₂) (hrun : run sv s₂ ls = some s₃)
    (hatt : step sv s₃ (.client i (.attach (s₂.clients i).reqId)) = some s₄) (hrun' : run sv s₄ ls' = some s)
    (hsent : (k, lastMessage s₂ i ns m a) ∈ (s.clients i).sent)
    (hlost : LostAt s i k) (hrest : AtRest s i) (hrun'' : run sv s ls'' = some s')
    (hn : (s'.clients i).calls.length ≤ 2 ^ 53) : calledWith s₃ i s' = calledWith s₃ i s := by
  have hr4 := ((hr.step hcall).run hrun).step hatt
  have hr5 := hr4.run hrun'
  obtain ⟨_, h, _⟩ := lost_run hr5 hsent hlost (sent_nsock (hr5.client i) hsent)
    (by intro d cu se e; rw [hrest] at e; cases e) hrun'' hn
  obtain ⟨hst', _⟩ := client_step hatt
  simp only [Client.step] at hst'
  split at hst'
  · simp only [Option.some.injEq] at hst'
    have hsub : ((s₄.clients i).subs (s₃.clients i).nsub).id = (s₂.clients i).reqId := by
      rw [← hst']; simp [Client.State.addSub]
    have hnsub : (s₃.clients i).nsub < (s₄.clients i).nsub := by
      rw [← hst']; simp [Client.State.addSub]
    obtain ⟨cl, hcl⟩ := run_client i hrun'
    obtain ⟨a1, _, a3, _⟩ := Client.run_sub hcl hnsub
    obtain ⟨cl', hcl'⟩ := run_client i hrun''
    obtain ⟨b1, _, b3, _⟩ := Client.run_sub hcl' a1
    have := h _ (b3.trans (a3.trans hsub)) b1
    rw [if_pos a1] at this
    exact this
  · cases hst'

/-- … nor one attached later. -/
theorem C67_lost_stream_later {sv : Service σ C} {b : σ} {s₁ s₂ s₃ s₄ s s' : State σ C} {i k : Nat} {ns m : Str}
    {a : List Json} {ls ls' ls'' : List Label} (hr : Reachable sv b s₁)
    (hcall : step sv s₁ (.client i (.subscribe ns m a)) = some s₂) (hrun : run sv s₂ ls = some s)
    (hsent : (k, lastMessage s₂ i ns m a) ∈ (s.clients i).sent)
    (hlost : LostAt s i k) (hrest : AtRest s i) (hrun' : run sv s ls' = some s₃)
    (hatt : step sv s₃ (.client i (.attach (s₂.clients i).reqId)) = some s₄) (hrun'' : run sv s₄ ls'' = some s')
    (hn : (s'.clients i).calls.length ≤ 2 ^ 53) : calledWith s₃ i s' = [] := by
  have hr5 := (hr.step hcall).run hrun
  have hall : run sv s (ls' ++ .client i (.attach (s₂.clients i).reqId) :: ls'') = some s' := by
    rw [run_append, hrun']; simp [run, hatt, hrun'']
  obtain ⟨_, h, _⟩ := lost_run hr5 hsent hlost (sent_nsock (hr5.client i) hsent)
    (by intro d cu se e; rw [hrest] at e; cases e) hall hn
  obtain ⟨cl₀, hcl₀⟩ := run_client i hrun'
  have hmono : (s.clients i).nsub ≤ (s₃.clients i).nsub := by
    refine Nat.le_of_not_lt (fun hlt => ?_)
    exact Nat.lt_irrefl _ (Client.run_sub hcl₀ hlt).1
  obtain ⟨hst', _⟩ := client_step hatt
  simp only [Client.step] at hst'
  split at hst'
  · simp only [Option.some.injEq] at hst'
    have hsub : ((s₄.clients i).subs (s₃.clients i).nsub).id = (s₂.clients i).reqId := by
      rw [← hst']; simp [Client.State.addSub]
    have hnsub : (s₃.clients i).nsub < (s₄.clients i).nsub := by
      rw [← hst']; simp [Client.State.addSub]
    obtain ⟨cl, hcl⟩ := run_client i hrun''
    obtain ⟨a1, _, a3, _⟩ := Client.run_sub hcl hnsub
    have := h _ (a3.trans hsub) a1
    rw [if_neg (by omega)] at this
    exact this
  · cases hst'

/-- **C67, not sent again.** A message is transmitted on one connection only: reconnecting does not repeat the
calls that are open. -/
theorem C67_not_resent {sv : Service σ C} {b : σ} {s s' : State σ C} {i k k' : Nat} {m m' : Client.Msg}
    {ls : List Label} (hr : Reachable sv b s) (hsent : (k, m) ∈ (s.clients i).sent) (hrun : run sv s ls = some s')
    (hn : (s'.clients i).calls.length ≤ 2 ^ 53) (hsent' : (k', m') ∈ (s'.clients i).sent) (hid : m'.id = m.id) :
    k' = k ∧ m' = m := by
  obtain ⟨cl, hcl⟩ := run_client i hrun
  have h1 := (run_sent (hr.client i) hcl).subset hsent
  have hr' := hr.run hrun
  have h2 := sent_unique (hr'.client i) hn (sentOn_sent.2 hsent') (sentOn_sent.2 h1) hid
  exact ⟨h2.1, call_unique (hr'.client i) hn (sent_calls (hr'.client i) hsent') (sent_calls (hr'.client i) h1) hid⟩

/-! ## The property is false -/

private def inc (n : Int) : Label := .client 0 (.request (lit "Counter") (lit "add") [.num (.int n)])

/-- The server executes the request and answers; the network fails before the answer reaches the client; the
client connects again. -/
private def cut : List Label :=
  [.accept 0 0, .opened 0, .deliver 0, .server .take, .server .methodDone, .server (.flush 0), .failDown 0 0 false,
   .client 0 .timer, .accept 0 1, .opened 1]

private theorem cut_trace : ∃ s₁ s₂ s, run Demo.sv (init [0]) [] = some s₁ ∧ step Demo.sv s₁ (inc 1) = some s₂ ∧
    run Demo.sv s₂ cut = some s ∧ ((s.clients 0).sent.map (fun p => (p.1, p.2.id)) = [(0, 1)] ∧
    (s₂.clients 0).reqId = 1 ∧ LostAt s 0 0 ∧ Reconnected s 0 0 ∧ LoopAlive s.server ∧ AtRest s 0 ∧
    s.server.log.length = 1 ∧ promise s₁ 0 s = []) := by
  obtain ⟨s₁, s₂, s, h1, h2, h3, hck⟩ := runTwo_sound (sv := Demo.sv) (b := [0]) (ls₁ := []) (l := inc 1) (ls₂ := cut)
    (check := fun s₁ s₂ s => ((s.clients 0).sent.map (fun p => (p.1, p.2.id)) == [(0, 1)]) &&
      ((s₂.clients 0).reqId == 1) && decide (((s.clients 0).socks 0).st = .closed) && ((s.clients 0).socket == some 1) &&
      decide (((s.clients 0).socks 1).st = .opened) && Server.isAlive s.server &&
      (match (s.clients 0).phase with | .idle => true | _ => false) && s.server.log.length == 1 &&
      (promise s₁ 0 s).isEmpty) (by decide +kernel)
  simp only [Bool.and_eq_true, beq_iff_eq, List.isEmpty_iff, decide_eq_true_eq] at hck
  obtain ⟨⟨⟨⟨⟨⟨⟨⟨q1, q2⟩, q3⟩, q4⟩, q5⟩, q6⟩, q7⟩, q8⟩, q9⟩ := hck
  refine ⟨s₁, s₂, s, h1, h2, h3, q1, q2, .inr q3, ⟨1, by decide, q4, q5⟩, (Server.isAlive_iff _).1 q6, ?_, q8, q9⟩
  unfold AtRest
  split at q7
  · assumption
  · cases q7

private theorem cut_sent {s₁ s₂ s : State (List Nat) (Call Nat)} (h1 : run Demo.sv (init [0]) [] = some s₁)
    (h2 : step Demo.sv s₁ (inc 1) = some s₂) (h3 : run Demo.sv s₂ cut = some s)
    (hs : (s.clients 0).sent.map (fun p => (p.1, p.2.id)) = [(0, 1)]) (hid : (s₂.clients 0).reqId = 1) :
    (0, lastMessage s₂ 0 (lit "Counter") (lit "add") [.num (.int 1)]) ∈ (s.clients 0).sent := by
  have hcalls : (s.clients 0).calls.length ≤ 2 ^ 53 := by
    have a1 := run_calls_length h1 0
    have a2 := step_calls_length h2 0
    have a3 := run_calls_length h3 0
    simp only [init, Client.init, List.length_nil, cut, List.length_cons] at a1 a2 a3
    omega
  have hM := (request_made ⟨_, h1⟩ h2 (Nat.le_trans (run_clients h3 0).length_le hcalls)).later h3
  have hr := hM.reach
  have : ((0, 1) : Nat × Nat) ∈ (s.clients 0).sent.map (fun p => (p.1, p.2.id)) := by rw [hs]; simp
  obtain ⟨⟨k, m'⟩, hm, e⟩ := List.mem_map.1 this
  simp only [Prod.mk.injEq] at e
  obtain ⟨rfl, e⟩ := e
  have := call_unique (hr.client 0) hcalls (sent_calls (hr.client 0) hm) hM.call (by rw [e]; exact hid.symm)
  rw [← this]; exact hm

/-- C67 is false: the server has executed the request (its effects stay), the answer is lost with the connection,
and the client connects again but never asks again. -/
theorem C67_violated : ¬ C67_statement := by
  intro h
  obtain ⟨s₁, s₂, s, h1, h2, h3, c1, c2, c3, c4, c5, c6, c7, c8⟩ := cut_trace
  have hsent := cut_sent h1 h2 h3 c1 c2
  obtain ⟨ls', s', r1, r2, r3⟩ := h _ _ Demo.sv [0] s₁ s₂ s 0 0 _ _ _ _ ⟨_, h1⟩ h2 h3 hsent c3 c4 c5
  exact r3 ((C67_lost ⟨_, h1⟩ h2 h3 hsent c3 c6 r1 r2).trans c8)

/-- **C67, what holds.** For every history, with any number of losses: a request transmitted on a connection that is
alive can be brought to its end (by frames travelling, the server working and the client delivering): executed, and
its promise resolved with what the method returned; provided the server has not died and has no requests of
connections that have ended (they are fatal, see `C35_fatal`). In particular after reconnecting new calls work.
Missing: requests transmitted on a connection that is lost before the answer arrives. -/
theorem C67_partial {sv : Service σ C} {b : σ} {s₁ s₂ s : State σ C} {i k c : Nat} {ns m : Str}
    {a : List Json} {ls : List Label} (hr : Reachable sv b s₁)
    (hcall : step sv s₁ (.client i (.request ns m a)) = some s₂) (hrun : run sv s₂ ls = some s)
    (hn : (s.clients i).calls.length ≤ 2 ^ 53)
    (hsent : (k, lastMessage s₂ i ns m a) ∈ (s.clients i).sent) (ho : s.owner c = some (i, k))
    (hopen : ((s.clients i).socks k).st = .opened) (ha : (s.server.conns c).alive = true)
    (hl : LoopAlive s.server) (hno : NoOrphans s) :
    ∃ ls' s', run sv s ls' = some s' ∧ (∀ l ∈ ls', Label.routine i c l) ∧
      ∃ before after, s'.server.log = before ++ (c, lastRequest s₂ i ns m a) :: after ∧
        ∀ d, Returns sv (replay sv b before) (lastRequest s₂ i ns m a) d → promise s₁ i s' = [d] := by
  have hM := (request_made hr hcall (Nat.le_trans (run_clients hrun i).length_le hn)).later hrun
  exact driveOn (L := (s.clients i).live.length) _ s (Nat.le_refl _) (Nat.le_refl _)
    ⟨hM, hn, ho, sentOn_sent.2 hsent, hl, hopen, ha, hno⟩

/-- Its hypotheses are met after the loss above: the client calls again on the new connection. -/
example : ∃ s₁ s₂ s, run Demo.sv (init [0]) (inc 1 :: cut) = some s₁ ∧ step Demo.sv s₁ (inc 2) = some s₂ ∧
    run Demo.sv s₂ [.deliver 1] = some s ∧ (s.clients 0).sent.map (fun p => (p.1, p.2.id)) = [(0, 1), (1, 2)] ∧
    s.owner 1 = some (0, 1) ∧ ((s.clients 0).socks 1).st = .opened ∧ (s.server.conns 1).alive = true ∧
    LoopAlive s.server ∧ NoOrphans s :=
  ⟨_, _, _, rfl, rfl, rfl, rfl, rfl, rfl, rfl, trivial, by
    refine ⟨?_, ?_⟩
    · intro p hp
      have hp : p ∈ [((1 : Nat), _)] := hp
      rw [List.mem_singleton] at hp; subst hp; rfl
    · intro c id call inp h; cases h⟩

/-! ## Requests of connections that have ended (C35) -/

section
open Verif.Server (inv_queue inv_fresh)

private theorem accepted_step {sv : Service σ C} {s t : Server.State σ C} {l : Server.Label}
    (h : Server.step sv s l = some t) : s.accepted <+: t.accepted := by
  cases Server.step_Step h <;> first | exact List.prefix_refl _ | exact List.prefix_append _ _

private theorem dead_queue {sv : Service σ C} {b : σ} {s : Server.State σ C} (hr : Server.Reachable sv b s) :
    ¬ LoopAlive s → s.queue = [] := by
  refine Server.Reachable.induct (P := fun s => ¬ LoopAlive s → s.queue = []) (fun h => absurd trivial h) ?_ hr
  intro s l s' _ ih hst
  cases Server.step_Step hst with
  | enqueue c doc h hl => intro h'; exact absurd hl h'
  | takeErr c r q hl hq => intro h'; exact absurd (by unfold LoopAlive; rw [hl]; trivial) h'
  | cancelHit c id t q hl hq => intro h'; exact absurd (by unfold LoopAlive; rw [hl]; trivial) h'
  | cancelMiss c id q hl hq => intro h'; exact absurd (by unfold LoopAlive; rw [hl]; trivial) h'
  | takeBad c id v e q hl hq => intro h'; exact absurd (by unfold LoopAlive; rw [hl]; trivial) h'
  | takeStream c id v call q hl hq => intro h'; exact absurd (by unfold LoopAlive; rw [hl]; trivial) h'
  | takeMethod c id v call q hl hq => intro h'; exact absurd trivial h'
  | methodOk c id call i hl hq => intro h'; exact absurd trivial h'
  | takePanic => intro _; rfl
  | methodPanic => intro _; rfl
  | methodFail => intro _; rfl
  | loopExit => intro _; rfl
  | _ => exact ih

private theorem same_prefix {α : Type} {x y z : List α} (h1 : x <+: z) (h2 : y <+: z) (h : x.length = y.length) :
    x = y := by
  obtain ⟨a, rfl⟩ := h1
  obtain ⟨b, h2⟩ := h2
  exact (List.append_inj h2.symm h).1

private theorem fatal_step {sv : Service σ C} {b : σ} {s t : Server.State σ C} {l : Server.Label} {c id : Nat}
    {v : Json} {call : C} {Y : List (Nat × Server.Input)} (hr : Server.Reachable sv b s)
    (h : Server.step sv s l = some t) (hdec : sv.decode v = .ok call) (hm : sv.isStream call = false)
    (hd : (s.conns c).alive = false) (hX : Y ++ [(c, .ok (.exec id v))] <+: s.accepted)
    (hle : s.log.length ≤ Y.length) :
    t.log.length ≤ Y.length ∨ (¬ LoopAlive t ∧ t.log = Y ++ [(c, .ok (.exec id v))]) := by
  have hrt : Server.Reachable sv b t := hr.step h
  have hX' := hX.trans (accepted_step h)
  have grow : ∀ e, t.log = s.log ++ [e] → t.log.length ≤ Y.length ∨
      (e = (c, .ok (.exec id v)) ∧ t.log = Y ++ [(c, .ok (.exec id v))]) := by
    intro e he
    by_cases hlt : s.log.length < Y.length
    · left; rw [he]; simp; omega
    · right
      have e1 := same_prefix (inv_queue hrt).2 hX' (by rw [he]; simp; omega)
      refine ⟨?_, e1⟩
      rw [he] at e1
      have := (List.append_inj' e1 rfl).2
      exact (List.cons.inj this).1
  have no : ∀ e, t.log = s.log ++ [e] → e ≠ (c, .ok (.exec id v)) → t.log.length ≤ Y.length ∨
      (¬ LoopAlive t ∧ t.log = Y ++ [(c, .ok (.exec id v))]) :=
    fun e he hne => (grow e he).imp_right (fun h => absurd h.1 hne)
  cases Server.step_Step h with
  | takeErr c' r q => exact no _ rfl (by simp)
  | cancelHit c' id' t' q => exact no _ rfl (by simp)
  | cancelMiss c' id' q => exact no _ rfl (by simp)
  | takeBad c' id' v' e q _ _ hd' =>
    refine no _ rfl ?_
    intro e'
    simp only [Prod.mk.injEq, Except.ok.injEq, Request.exec.injEq] at e'
    rw [e'.2.2, hdec] at hd'; cases hd'
  | takeStream c' id' v' call' q _ _ hd' hs' =>
    refine no _ rfl ?_
    intro e'
    simp only [Prod.mk.injEq, Except.ok.injEq, Request.exec.injEq] at e'
    rw [e'.2.2, hdec] at hd'; cases hd'
    rw [hm] at hs'; cases hs'
  | methodOk c' id' call' i' _ ha =>
    refine no _ rfl ?_
    intro e'
    simp only [Prod.mk.injEq] at e'
    rw [e'.1, hd] at ha; cases ha
  | methodFail c' id' call' i' =>
    refine (grow (c', i') rfl).imp_right (fun h => ⟨?_, h.2⟩)
    exact fun h => h
  | takePanic => exact .inl hle
  | methodPanic => exact .inl hle
  | loopExit => exact .inl hle
  | _ => exact .inl hle

/-- **C35, exactly where it fails.** When a call of an `async` method is waiting at the server and the connection it
came on has ended, the server never gets beyond this call: whatever happens, nothing that is after it in the queue,
from whichever client, is executed, and executing it ends the server task. -/
theorem C35_fatal {sv : Service σ C} {b : σ} {s s' : Server.State σ C} {c id : Nat} {v : Json} {call : C}
    {q₁ q₂ : List (Nat × Server.Input)} {ls : List Server.Label} (hr : Server.Reachable sv b s)
    (hq : s.queue = q₁ ++ (c, .ok (.exec id v)) :: q₂) (hdec : sv.decode v = .ok call)
    (hm : sv.isStream call = false) (hd : (s.conns c).alive = false) (hrun : Server.run sv s ls = some s') :
    s'.log <+: s.log ++ inflight s ++ q₁ ++ [(c, .ok (.exec id v))] ∧
    ((c, .ok (.exec id v)) ∈ s'.log.drop (s.log ++ inflight s ++ q₁).length → ¬ LoopAlive s') := by
  have key : ∀ (ls : List Server.Label) (s : Server.State σ C) (Y : List (Nat × Server.Input)),
      Server.Reachable sv b s → c < s.nconn → (s.conns c).alive = false → Y ++ [(c, .ok (.exec id v))] <+: s.accepted →
      s.log.length ≤ Y.length → Server.run sv s ls = some s' →
      s'.log <+: Y ++ [(c, .ok (.exec id v))] ∧ ((c, .ok (.exec id v)) ∈ s'.log.drop Y.length → ¬ LoopAlive s') := by
    intro ls
    induction ls with
    | nil =>
      intro s Y hr hc hd hX hle h
      simp only [Server.run, Option.some.injEq] at h
      subst h
      refine ⟨?_, fun h => ?_⟩
      · exact List.prefix_of_prefix_length_le (inv_queue hr).2 hX (by simp; omega)
      · rw [List.drop_eq_nil_of_le hle] at h; cases h
    | cons l ls ih =>
      intro s Y hr hc hd hX hle h
      simp only [Server.run] at h
      cases hst : Server.step sv s l with
      | none => rw [hst] at h; cases h
      | some t =>
        rw [hst] at h
        have hfr := server_frozen hst hc hd
        rcases fatal_step hr hst hdec hm hd hX hle with h1 | ⟨h1, h2⟩
        · exact ih t Y (hr.step hst) (Nat.lt_of_lt_of_le hc (Server.nconn_mono hst)) (by rw [hfr]; exact hd)
            (hX.trans (accepted_step hst)) h1 h
        · have := Server.run_dead h1 h
          rw [this.2.1, h2]
          exact ⟨List.prefix_refl _, fun _ => this.1⟩
  have hp : ((c, .ok (.exec id v)) : Nat × Server.Input) ∈ s.queue := by rw [hq]; simp
  have halive : LoopAlive s := by
    refine Classical.byContradiction (fun h => ?_)
    have := dead_queue hr h
    rw [this] at hp; cases hp
  have hacc := (inv_queue hr).1 halive
  have hc : c < s.nconn := (inv_fresh hr).1 (c, .ok (.exec id v)) (by rw [hacc]; exact List.mem_append_right _ hp)
  refine key ls s _ hr hc hd ?_ ?_ hrun
  · rw [hacc, hq]
    exact ⟨q₂, by simp⟩
  · simp

/-- Its hypotheses are met: two clients call `add`, the first leaves before its call is executed. -/
example : ∃ s v call q₂, Server.run Demo.sv (Server.init [0])
    [.connect, .connect, Demo.callF 0 "add" 7 5, Demo.callF 1 "add" 8 6, .recvEnd 0] = some s ∧
    s.queue = [] ++ (0, .ok (.exec 7 v)) :: q₂ ∧ q₂.length = 1 ∧ Demo.sv.decode v = .ok call ∧
    Demo.sv.isStream call = false ∧ (s.conns 0).alive = false :=
  ⟨_, _, _, _, rfl, rfl, rfl, rfl, rfl, rfl⟩

end

/-! ## Nobody can tell -/

/-- The connection fails before the request has reached the server … -/
private def before : List Label := [inc 1, .accept 0 0, .opened 0, .failDown 0 0 false]
/-- … or after it has been executed. -/
private def after : List Label :=
  [inc 1, .accept 0 0, .opened 0, .deliver 0, .server .take, .server .methodDone, .failDown 0 0 false]

private theorem both : ∃ s s', run Demo.sv (init [0]) before = some s ∧ run Demo.sv (init [0]) after = some s' ∧
    s.clients 0 = s'.clients 0 ∧ s.server.log = [] ∧ s'.server.log.length = 1 ∧ s'.server.backend = [1] :=
  ⟨_, _, rfl, rfl, rfl, rfl, rfl, rfl⟩

/-- **C67, unknown outcome.** There are histories after which the client is in the very same state, although in
one the server has executed its request and in the other it has not. -/
theorem C67_unknown : ∃ (s s' : State (List Nat) (Call Nat)), Reachable Demo.sv [0] s ∧ Reachable Demo.sv [0] s' ∧
    s.clients 0 = s'.clients 0 ∧ s.server.log = [] ∧ s'.server.log.length = 1 := by
  obtain ⟨s, s', h1, h2, h3, h4, h5, _⟩ := both
  exact ⟨s, s', ⟨_, h1⟩, ⟨_, h2⟩, h3, h4, h5⟩

end Verif.Props
