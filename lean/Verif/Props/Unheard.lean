import Verif.Spec.Unheard
import Verif.System.Lost
import Verif.Props.Leaks
import Verif.Props.System

/-!
# C68: streams nobody listens to any more

Specification: `Verif/Spec/Unheard.lean`, `Verif/Spec/Lost.lean`, `Verif/Spec/System.lean`.
-/

namespace Verif.Props
open Verif Verif.System Verif.SystemSpec Verif.ServerSpec

variable {σ C : Type}

/-- The full property: a stream stops when nobody listens to it any more. In a history without failures, panics and
foreign clients, when client `i` has called a stream on connection `c`, the server has started it, no callback is
attached to its store, and the server has learned all there is to learn, then the server takes at most one more item. -/
def C68_statement : Prop :=
  ∀ (σ C : Type) (sv : Service σ C) (b : σ) (s s' : State σ C) (i k c : Nat) (m : Client.Msg) (ls ls' : List Label)
    (before after : List (Nat × Server.Input)) (items : Nat → Option (Except SerdeErr Json)),
    run sv (init b) ls = some s →
    (∀ l ∈ ls, l.isFailure = false ∧ Label.harmless l = true ∧ Label.generated sv l) →
    s.owner c = some (i, k) → m.id ∈ (s.clients i).stores →
    s.server.log = before ++ (c, requestOf m.id m.ns m.method m.args) :: after →
    Streams sv (replay sv b before) (requestOf m.id m.ns m.method m.args) items →
    Unheard s i m.id → Settled s i k c → run sv s ls' = some s' →
    taken s' (taskAfter sv b before) ≤ taken s (taskAfter sv b before) + 1

/-! ## What generated clients never say -/

/-- **C68, no cancellation.** A generated client never asks the server to stop a stream: whatever the program does
with its stores, no request that reaches the server on a connection of a generated client is a `cancelStream`. -/
theorem C68_never_cancelled {sv : Service σ C} {b : σ} {s : State σ C} (hr : Reachable sv b s) {c i k : Nat}
    (ho : s.owner c = some (i, k)) (id : Nat) :
    (c, Except.ok (Request.cancelStream id)) ∉ s.server.accepted := by
  intro h
  obtain ⟨m, _, e⟩ := accepted_message hr ho h
  simp [requestOf] at e

open Server in
private theorem no_abort {sv : Service σ C} {b : σ} {x : Server.State σ C} (hr : Server.Reachable sv b x) :
    LoopAlive x → (∀ c id, (c, Except.ok (Request.cancelStream id)) ∉ x.accepted) →
    ∀ t, (x.tasks t).st ≠ .runningAborted ∧ (x.tasks t).st ≠ .cancelled := by
  refine Server.Reachable.induct (P := fun x => LoopAlive x → (∀ c id, (c, Except.ok (Request.cancelStream id)) ∉ x.accepted) →
    ∀ t, (x.tasks t).st ≠ .runningAborted ∧ (x.tasks t).st ≠ .cancelled) ?_ ?_ hr
  · intro _ _ t; simp [Server.init, noTask]
  · intro x l y hrx ih hst ha hn t
    have hax := System.dead_stays hst ha
    have hacc : ∀ p ∈ x.accepted, p ∈ y.accepted := by
      intro p hp
      cases step_Step hst <;> first | exact hp | exact List.mem_append_left _ hp
    have ih := ih hax (fun c id h => hn c id (hacc _ h))
    have up : ∀ t' z, (z.st ≠ .runningAborted ∧ z.st ≠ .cancelled) →
        (upd x.tasks t' z t).st ≠ .runningAborted ∧ (upd x.tasks t' z t).st ≠ .cancelled := by
      intro t' z hz
      by_cases e : t = t'
      · subst e; rw [upd_self]; exact hz
      · rw [upd_ne _ _ e]; exact ih t
    have dead : ∀ z : Server.State σ C, ¬ LoopAlive z.killLoop := by intro z h; exact h
    cases step_Step hst <;> first
      | exact ih t
      | exact absurd ha (dead _)
      | (refine up _ _ ⟨?_, ?_⟩ <;> (simp; done))
      | exact up _ _ (ih _)
      | skip
    case cancelHit c id t' q hl hq ht =>
      refine absurd ?_ (hn c id)
      show _ ∈ x.accepted
      rw [(inv_queue hrx).1 hax, hq]
      simp
    case pendingAborted t' ht => exact absurd ht (ih t').1

/-- **C68, never stopped.** As long as the server runs, and all its clients are generated ones, no stream is ever
stopped: each goes on until it has no more items, its code panics, or its connection is gone. -/
theorem C68_never_stopped {sv : Service σ C} {b : σ} {s : State σ C} (hr : Reachable sv b s) (hown : OnlyClients s)
    (hl : LoopAlive s.server) (t : Nat) :
    (s.server.tasks t).st ≠ .runningAborted ∧ (s.server.tasks t).st ≠ .cancelled := by
  refine no_abort hr.server hl (fun c id h => ?_) t
  obtain ⟨i, k, ho⟩ := hown c ((Server.inv_fresh hr.server).1 _ h)
  exact C68_never_cancelled hr ho id h

open Server in
private theorem take_items {sv : Service σ C} {t : Nat} : ∀ (n : Nat) (x : Server.State σ C),
    (x.tasks t).st = .running → (x.conns (x.tasks t).conn).alive = true →
    (∀ j, j < n → (x.tasks t).src ((x.tasks t).pos + j) ≠ none) →
    ∃ y, Server.run sv x (List.replicate n (.item t)) = some y ∧ (y.tasks t).pos = (x.tasks t).pos + n ∧
      (y.tasks t).st = .running ∧
      ∃ new, (y.conns (x.tasks t).conn).produced = (x.conns (x.tasks t).conn).produced ++ new ∧ new.length = n := by
  intro n
  induction n with
  | zero => intro x hst ha _; exact ⟨x, rfl, rfl, hst, [], by simp, rfl⟩
  | succ n ih =>
    intro x hst ha hsrc
    cases hx : (x.tasks t).src (x.tasks t).pos with
    | none => exact absurd hx (hsrc 0 (by omega))
    | some d =>
      let x1 : Server.State σ C := { x with
          conns := upd x.conns (x.tasks t).conn
            ((x.conns (x.tasks t).conn).send (some t) (Response.mkStream (x.tasks t).id d)).1
          tasks := upd x.tasks t { x.tasks t with pos := (x.tasks t).pos + 1 } }
      have h1 : Server.step sv x (.item t) = some x1 := by
        simp [Server.step, hst, hx, Conn.send, ha, State.setConn, State.setTask, x1]
      have e1 : x1.tasks t = { x.tasks t with pos := (x.tasks t).pos + 1 } := by simp [x1]
      obtain ⟨y, hy, hp, hs, new, hnew, hlen⟩ := ih x1 (by rw [e1]; exact hst)
        (by rw [e1]; simp [x1, Conn.send, ha])
        (by
          intro j hj
          rw [e1]
          have := hsrc (j + 1) (by omega)
          rwa [show (x.tasks t).pos + (j + 1) = (x.tasks t).pos + 1 + j by omega] at this)
      refine ⟨y, ?_, ?_, hs, [(some t, Response.mkStream (x.tasks t).id d)] ++ new, ?_, by simp [hlen]⟩
      · rw [List.replicate_succ]; simp only [Server.run, h1]; exact hy
      · rw [hp, e1]; simp; omega
      · rw [e1] at hnew
        simp only at hnew
        rw [hnew]
        simp [x1, Conn.send, ha]

private theorem server_labels {sv : Service σ C} : ∀ (ls : List Server.Label) (s : State σ C) (y : Server.State σ C),
    (∀ l ∈ ls, isInternal l = true) → Server.run sv s.server ls = some y →
    run sv s (ls.map Label.server) = some { s with server := y } := by
  intro ls
  induction ls with
  | nil => intro s y _ h; simp only [Server.run, Option.some.injEq] at h; subst h; rfl
  | cons l ls ih =>
    intro s y hi h
    simp only [Server.run] at h
    split at h
    · rename_i x1 h1
      simp only [List.map_cons, run, step, hi l (by simp), if_true, State.serverStep, h1, Option.map_some]
      exact ih { s with server := x1 } y (fun l hl => hi l (List.mem_cons_of_mem _ hl)) h
    · cases h

/-- **C68, it goes on.** Whoever listens: a stream that runs on a connection that is alive and that has `n` more
items can take them all and put a response for each into the channel of its connection, by steps of the server
alone. -/
theorem C68_goes_on {sv : Service σ C} {s : State σ C} {t n : Nat}
    (hst : (s.server.tasks t).st = .suspended ∨ (s.server.tasks t).st = .running)
    (ha : (s.server.conns (s.server.tasks t).conn).alive = true)
    (hsrc : ∀ j, j < n → (s.server.tasks t).src (taken s t + j) ≠ none) :
    ∃ ls s', (∀ l ∈ ls, l = .server (.poll t) ∨ l = .server (.item t)) ∧ run sv s ls = some s' ∧
      taken s' t = taken s t + n ∧ s'.clients = s.clients ∧
      ∃ new, (s'.server.conns (s.server.tasks t).conn).produced =
        (s.server.conns (s.server.tasks t).conn).produced ++ new ∧ new.length = n := by
  rcases hst with hst | hst
  · let x1 : Server.State σ C := { s.server with tasks := Server.upd s.server.tasks t { s.server.tasks t with st := .running } }
    have h1 : Server.step sv s.server (.poll t) = some x1 := by
      simp [Server.step, hst, Server.State.setTask, x1]
    have e1 : x1.tasks t = { s.server.tasks t with st := .running } := by simp [x1]
    obtain ⟨y, hy, hp, _, new, hnew, hlen⟩ := take_items (sv := sv) (t := t) n x1 (by rw [e1]) (by rw [e1]; exact ha)
      (by rw [e1]; exact hsrc)
    have hrun : Server.run sv s.server (.poll t :: List.replicate n (.item t)) = some y := by
      simp only [Server.run, h1]; exact hy
    refine ⟨_, _, ?_, server_labels _ s y ?_ hrun, ?_, rfl, new, ?_, hlen⟩
    · intro l hl
      obtain ⟨l', hl', rfl⟩ := List.mem_map.1 hl
      rcases List.mem_cons.1 hl' with rfl | h
      · exact .inl rfl
      · exact .inr (by rw [(List.mem_replicate.1 h).2])
    · intro l hl
      rcases List.mem_cons.1 hl with rfl | h
      · rfl
      · rw [(List.mem_replicate.1 h).2]; rfl
    · rw [e1] at hp; exact hp
    · rw [e1] at hnew; exact hnew
  · obtain ⟨y, hy, hp, _, new, hnew, hlen⟩ := take_items (sv := sv) (t := t) n s.server hst ha hsrc
    refine ⟨_, _, ?_, server_labels _ s y ?_ hy, hp, rfl, new, hnew, hlen⟩
    · intro l hl
      obtain ⟨l', hl', rfl⟩ := List.mem_map.1 hl
      exact .inr (by rw [(List.mem_replicate.1 hl').2])
    · intro l hl
      rw [(List.mem_replicate.1 hl).2]; rfl

/-! ## The property is false -/

private def tick (n : Int) : Label := .client 0 (.subscribe (lit "Counter") (lit "ticks") [.num (.int n)])

/-- Two stores on one client, a callback attached to each; then nobody listens to the first one any more. -/
private def deaf : List Label :=
  [tick 5, .client 0 (.attach 1), tick 7, .client 0 (.attach 2), .accept 0 0, .opened 0, .deliver 0, .deliver 0,
   .server .take, .server .take, .client 0 (.detach 0)]

private def deafMore : List Label := [.server (.poll 0), .server (.item 0), .server (.item 0)]

private def deafState : State (List Nat) (Call Nat) := (run Demo.sv (init [0]) deaf).getD (init [0])

private theorem deaf_run : run Demo.sv (init [0]) deaf = some deafState := by
  have : (run Demo.sv (init [0]) deaf).isSome = true := by decide +kernel
  unfold deafState
  cases h : run Demo.sv (init [0]) deaf with
  | none => rw [h] at this; cases this
  | some s => rfl

private theorem deaf_log : deafState.server.log =
    [] ++ (0, requestOf 1 (lit "Counter") (lit "ticks") [.num (.int 5)]) ::
      [(0, requestOf 2 (lit "Counter") (lit "ticks") [.num (.int 7)])] := by rfl

private theorem deaf_more : ∃ s', run Demo.sv deafState deafMore = some s' ∧ taken s' 0 = 2 := by
  have : (match run Demo.sv deafState deafMore with | some s' => taken s' 0 == 2 | none => false) = true := by
    decide +kernel
  split at this
  · exact ⟨_, ‹_›, by simpa using this⟩
  · cases this

/-- C68 is false of this code: calling the function that `store.subscribe` returns removes the callback on the
client (`websocket_client.ts:114-119`), but `close` of the store does nothing (`websocket_client.ts:163`) and
nothing is sent to the server. As long as the client has another subscription, the stream goes on. -/
theorem C68_violated : ¬ C68_statement := by
  intro h
  obtain ⟨s', hs', ht⟩ := deaf_more
  have := h _ _ Demo.sv [0] deafState s' 0 0 0 ⟨1, lit "Counter", lit "ticks", [.num (.int 5)]⟩ deaf deafMore
    [] [(0, requestOf 2 (lit "Counter") (lit "ticks") [.num (.int 7)])] _ deaf_run
    (by
      have hall : ∀ l ∈ deaf, l.isFailure = false ∧ Label.harmless l = true ∧ generatedB Demo.sv l = true := by
        decide +kernel
      exact fun l hl => ⟨(hall l hl).1, (hall l hl).2.1, generatedB_sound (hall l hl).2.2⟩)
    rfl (by decide +kernel) deaf_log ⟨1, _, _, rfl, rfl, rfl, rfl⟩
    (by
      have : ∀ j ∈ (deafState.clients 0).live, ((deafState.clients 0).subs j).id ≠ 1 := by decide +kernel
      exact this)
    ⟨by decide +kernel, rfl, rfl, by
      have h1 : ((deafState.clients 0).socks 0).st = .opened := by decide +kernel
      intro h; unfold LostAt at h; rw [h1] at h; simp at h⟩
    hs'
  have h0 : taken deafState (taskAfter Demo.sv [0] []) = 0 := by decide +kernel
  have e : taskAfter Demo.sv [0] [] = 0 := rfl
  rw [h0, e, ht] at this
  omega

/-! ## What holds -/

theorem streams_append (sv : Service σ C) (b : σ) (l r : List (Nat × Server.Input)) :
    streams sv b (l ++ r) = streams sv b l ++ streams sv (replay sv b l) r := by
  induction l generalizing b with
  | nil => simp [streams, replay]
  | cons p l ih => simp only [List.cons_append, streams, replay, List.append_assoc]; rw [ih]

private theorem task_of {sv : Service σ C} {b : σ} {x : Server.State σ C} (hr : Server.Reachable sv b x) {c : Nat}
    {before after : List (Nat × Server.Input)} {inp : Server.Input} {items : Nat → Option (Except SerdeErr Json)}
    (hlog : x.log = before ++ (c, inp) :: after) (hs : Streams sv (replay sv b before) inp items) :
    taskAfter sv b before < x.ntask ∧ (x.tasks (taskAfter sv b before)).conn = c ∧
      (x.tasks (taskAfter sv b before)).src = items := by
  obtain ⟨h1, h2⟩ := Server.inv_streams hr
  obtain ⟨id, v, call, rfl, hd, hst, rfl⟩ := hs
  have e : streams sv b x.log = streams sv b before ++ ⟨c, id, (sv.runStream (replay sv b before) call).2⟩ ::
      streams sv (exec1 sv (replay sv b before) (.ok (.exec id v))).1 after := by
    rw [hlog, streams_append]
    simp [streams, starts, hd, hst]
  have hlt : taskAfter sv b before < x.ntask := by
    rw [← h1, e]; unfold taskAfter; simp
  have := h2 _ hlt
  rw [e] at this
  unfold taskAfter at this ⊢
  simp at this
  exact ⟨hlt, this.1.symm, this.2.2.symm⟩

private theorem run_server {sv : Service σ C} : ∀ {ls : List Label} {s s' : State σ C}, run sv s ls = some s' →
    ∃ ls', Server.run sv s.server ls' = some s'.server := by
  intro ls
  induction ls with
  | nil => intro s s' h; simp only [run, Option.some.injEq] at h; subst h; exact ⟨[], rfl⟩
  | cons l ls ih =>
    intro s s' h
    simp only [run] at h
    cases hst : step sv s l with
    | none => rw [hst] at h; cases h
    | some s1 =>
      rw [hst] at h
      obtain ⟨ls', h'⟩ := ih h
      have one : ∀ l' x, Server.step sv s.server l' = some x → x = s1.server →
          ∃ ls'', Server.run sv s.server ls'' = some s'.server := by
        rintro l' x hx rfl
        exact ⟨l' :: ls', by simp only [Server.run, hx]; exact h'⟩
      cases step_Move hst with
      | client i l x hx hl => exact ⟨ls', h'⟩
      | server l x hx => exact one _ _ hx rfl
      | foreign x hx => exact one _ _ hx rfl
      | accept i k x hx => exact one _ _ hx rfl
      | deliver c i k m x ho hm hx => exact one _ _ hx rfl
      | respond c i k r x ho hm hx => exact ⟨ls', h'⟩

/-- **C68, the last one.** When the callback that is removed was the last subscription of the client, its connection
is closed. -/
theorem C68_last {sv : Service σ C} {b : σ} {s₁ s₂ : State σ C} {i j k : Nat} (hr : Reachable sv b s₁)
    (h : step sv s₁ (.client i (.detach j)) = some s₂) (hlast : (s₂.clients i).live = []) : LostAt s₂ i k := by
  have hr2 := (hr.step h).client i
  obtain ⟨hst, _⟩ := client_step h
  have hsock : (s₂.clients i).socket = none := by
    simp only [Client.step] at hst
    split at hst
    · simp only [Option.some.injEq] at hst
      rw [← hst] at hlast ⊢
      unfold Client.State.unsubscribe at hlast ⊢
      simp only at hlast ⊢
      split at hlast
      · unfold Client.State.close
        split
        · rfl
        · assumption
      · rename_i e; rw [e] at hlast; cases hlast
    · cases hst
  have hl := (Client.inv_conn hr2).live k
  rw [hsock] at hl
  unfold LostAt
  cases e : ((s₂.clients i).socks k).st with
  | connecting => exact absurd (hl.1 (.inl e)) (by simp)
  | opened => exact absurd (hl.1 (.inr e)) (by simp)
  | closing => exact .inl rfl
  | closed => exact .inr rfl

private theorem lost_stays {sv : Service σ C} {b : σ} {i k : Nat} : ∀ {ls : List Label} {s s' : State σ C},
    Reachable sv b s → run sv s ls = some s' → k < (s.clients i).nsock → LostAt s i k → LostAt s' i k := by
  intro ls s s' hr h hk hl
  obtain ⟨cl, hcl⟩ := run_client i h
  have key : ∀ (cl : List Client.Label) (x : Client.State), Client.Reachable x → k < x.nsock → Gone x k →
      ∀ y, Client.run x cl = some y → Gone y k := by
    intro cl
    induction cl with
    | nil => intro x _ _ hg y hy; simp only [Client.run, Option.some.injEq] at hy; exact hy ▸ hg
    | cons l cl ih =>
      intro x hx hk hg y hy
      simp only [Client.run] at hy
      split at hy
      · rename_i x1 h1
        exact ih x1 (hx.step h1) (Nat.lt_of_lt_of_le hk (client_nsock hx h1)) (gone_step hx h1 hk hg) y hy
      · cases hy
  exact key cl _ (hr.client i) hk hl _ hcl

/-- **C68, partial.** A stream stops when the last subscription of its client is removed: the connection `k` of the
client is closed, and once the server has noticed, it takes at most one more item from the stream, which then has
ended, and nothing more is produced for the client. Whatever else happens, failures and foreign clients included.

Missing: a client with other subscriptions. -/
theorem C68_partial {sv : Service σ C} {b : σ} {s₁ s₂ s s' : State σ C} {i j k c : Nat} {inp : Server.Input}
    {ls ls' : List Label} {before after : List (Nat × Server.Input)} {items : Nat → Option (Except SerdeErr Json)}
    (hr : Reachable sv b s₁) (hdet : step sv s₁ (.client i (.detach j)) = some s₂) (hlast : (s₂.clients i).live = [])
    (hk : k < (s₁.clients i).nsock) (hrun : run sv s₂ ls = some s) (_ho : s.owner c = some (i, k))
    (hlog : s.server.log = before ++ (c, inp) :: after) (hstr : Streams sv (replay sv b before) inp items)
    (hset : Settled s i k c) (hrun' : run sv s ls' = some s') :
    taken s' (taskAfter sv b before) ≤ taken s (taskAfter sv b before) + 1 ∧
    (taken s' (taskAfter sv b before) ≠ taken s (taskAfter sv b before) →
      (s'.server.tasks (taskAfter sv b before)).st.Stopped) ∧
    (s'.server.conns c).produced = (s.server.conns c).produced := by
  have hr2 := hr.step hdet
  have hk2 : k < (s₂.clients i).nsock := Nat.lt_of_lt_of_le hk (client_nsock (hr.client i) (client_step hdet).1)
  have hlost := lost_stays hr2 hrun hk2 (C68_last hr hdet hlast)
  have hrs := hr2.run hrun
  obtain ⟨ht, hc, _⟩ := task_of hrs.server hlog hstr
  obtain ⟨ls'', hls⟩ := run_server hrun'
  have := C61_partial hrs.server _ ht (by rw [hc]; exact hset.noticed hlost) ls'' _ hls
  rw [hc] at this
  exact ⟨this.1, this.2.1, this.2.2.2.2⟩

/-- One store with one callback; it is removed and the server notices. -/
private def last₁ : List Label :=
  [tick 5, .client 0 (.attach 1), .accept 0 0, .opened 0, .deliver 0, .server .take, .server (.poll 0), .server (.item 0)]
private def last₂ : List Label := [.endUp 0]

/-- A case of `C68_partial` (and `C68_last`): the stream has taken one item, takes one more, and has ended. -/
example : ∃ s₁ s₂ s s', run Demo.sv (init [0]) last₁ = some s₁ ∧ step Demo.sv s₁ (.client 0 (.detach 0)) = some s₂ ∧
    run Demo.sv s₂ last₂ = some s ∧ (s₂.clients 0).live = [] ∧ 0 < (s₁.clients 0).nsock ∧ s.owner 0 = some (0, 0) ∧
    s.server.log = [] ++ (0, requestOf 1 (lit "Counter") (lit "ticks") [.num (.int 5)]) :: [] ∧
    (∃ items, Streams Demo.sv (replay Demo.sv [0] []) (requestOf 1 (lit "Counter") (lit "ticks") [.num (.int 5)]) items) ∧
    Settled s 0 0 0 ∧ run Demo.sv s [.server (.item 0)] = some s' ∧ taken s 0 = 1 ∧ taken s' 0 = 2 :=
  ⟨_, _, _, _, rfl, rfl, rfl, rfl, by decide, rfl, rfl, ⟨_, 1, _, _, rfl, rfl, rfl, rfl⟩, ⟨rfl, rfl, rfl, fun _ => rfl⟩, rfl,
    rfl, rfl⟩

/-- A case of `C68_never_stopped`, `C68_never_cancelled` and `C68_goes_on`: the history above, in which nobody listens
to the first stream any more. -/
example : Reachable Demo.sv [0] deafState ∧ OnlyClients deafState ∧ LoopAlive deafState.server ∧
    (deafState.server.tasks 0).st = .suspended ∧
    (deafState.server.conns (deafState.server.tasks 0).conn).alive = true ∧ Unheard deafState 0 1 ∧
    ∀ n j, j < n → (deafState.server.tasks 0).src (taken deafState 0 + j) ≠ none := by
  refine ⟨⟨_, deaf_run⟩, ?_, trivial, rfl, rfl, ?_, fun n j _ => ?_⟩
  · intro c hc
    have : deafState.server.nconn = 1 := rfl
    obtain rfl : c = 0 := by omega
    exact ⟨0, 0, rfl⟩
  · have : ∀ j ∈ (deafState.clients 0).live, ((deafState.clients 0).subs j).id ≠ 1 := by decide +kernel
    exact this
  · have e : (deafState.server.tasks 0).src = fun i => some (.ok (.num (.int ↑(5 + i)))) := rfl
    rw [e]; simp

end Verif.Props
